import Verif.Model.Trim
import Verif.Model.Flank

/-!
# Model of the undercut involute tooth (cylindrical gears)

`/repo/src/gggears/gearteeth.py:128-200` (`InvoluteUndercutTooth`), `493-533`
(`generate_undercut_curve`) and `536-563` (`trim_involute_undercut`), branch `cone_angle == 0`. The
solvers are parameters.
-/

namespace Verif

open Real

/-- The rack flank of `generate_involute_rack_curve`, cylindrical branch, gearteeth.py:454-461: a
`LineCurve`. -/
noncomputable def rackFlankCurve (rp pia : ℝ) (limits : ToothLimitParam) (alpha : ℝ) : Curve :=
  Curve.make (.line (rackFlank rp pia limits alpha).1 (rackFlank rp pia limits alpha).2) true 0 1

/-- `target_func` of `find_curve_plane_intersect` (curve.py:733-735) as called at gearteeth.py:172-177: the
scalar `offset` is subtracted from all three coordinates. -/
noncomputable def gapMiddleResidual (f : ℝ → Option V3) (offset t : ℝ) : Option ℝ :=
  (f t).map fun p => dot (p - ![offset, offset, offset]) UP

/-- `get_default_undercut_ref_point`, branch `cone_angle == 0`, gearteeth.py:162-181. The `success` flag is not
read. -/
noncomputable def undercutRefPoint (S : ScalarSolvers) (rp pia pitchAngle : ℝ) (limits : ToothLimitParam)
    (alpha : ℝ) : Option V3 :=
  let rack := rackFlankCurve rp pia limits alpha
  let sol := S.root1 (gapMiddleResidual rack.eval (-rp * pitchAngle / 2)) 1
  if 0 < sol.x then rack.eval sol.x else rack.eval 0

/-- `generate_undercut_curve`, branch `cone_angle == 0`, gearteeth.py:493-506 and 523-533. The curve keeps the
default of 21 length samples (curve.py:61), that is 20 intervals. -/
noncomputable def generateUndercutCurve (S : ScalarSolvers) (rp : ℝ) (refPoint : V3) : Option Curve :=
  let c := Curve.make (.generic (undercutCurve rp refPoint) 20) true 0 (-1)
  let sol := S.root1 (fun t => (c.eval t).map fun p => dot p p - (rp * 1) ^ 2) 1
  if 0 < sol.x then c.setEndOn sol.x else some c

/-- The answer that `trim_involute_undercut` ends up with, gearteeth.py:543-558. The last search's
`success` is not read. -/
noncomputable def undercutAnswer (S : Solvers) (tooth : List Curve) (under : Curve) (guess : ℝ × ℝ) : ℝ × ℝ :=
  let f := chainEval curveOps tooth
  let sol := findCurveIntersect S f under.eval guess .equality
  let sol := if sol.success then sol else findCurveIntersect S f under.eval guess .minDistance
  if sol.x.1 < portion curveOps tooth 1 then
    (findCurveIntersect S f under.eval (sol.x.1 + 2 / 10, sol.x.2 + 2 / 10) .equality).x
  else sol.x

/-- `trim_involute_undercut`, gearteeth.py:536-563: the new chain has the undercut curve and, as a chain of its
own, the trimmed tooth curve. -/
noncomputable def trimInvoluteUndercut (S : Solvers) (tooth : List Curve) (under : Curve) (guess : ℝ × ℝ) :
    Option (List (Curve ⊕ Chain Curve)) :=
  let x := undercutAnswer S tooth under guess
  (chainSetStart curveOps tooth x.1 false).bind fun d => (under.setEndOn x.2).map fun u =>
    chainUpdate (sumOps curveOps (chainOps curveOps)) [.inl u, .inr ⟨d, true⟩]

/-- `InvoluteUndercutTooth.generate_tooth_curve`, gearteeth.py:147-157, with the curve of
`generate_involute_curve` and its base radius given. The plain tooth curve is returned as it is. -/
noncomputable def undercutToothCurve (S : ScalarSolvers) (tooth : List Curve)
    (baseRadius rp pia pitchAngle alpha : ℝ) (limits : ToothLimitParam) :
    Option (List (Curve ⊕ Chain Curve)) :=
  open scoped Classical in
  if baseRadius < rp - limits.hD then some (tooth.map .inl)
  else (undercutRefPoint S rp pia pitchAngle limits alpha).bind fun p =>
    (generateUndercutCurve S rp p).bind fun under =>
      trimInvoluteUndercut S.toSolvers tooth under (1, 1)

end Verif
