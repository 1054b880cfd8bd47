import Verif.Model.LowerLimit
import Verif.Model.Undercut
import Verif.Model.Arc

/-!
# Model of the crown rack and of the undercut of conical gears

`/repo/src/gggears/gearteeth.py:353-533`, branches `cone_angle != 0`: `generate_flat_rack_curve`,
`generate_involute_rack_curve`, the default reference points of `OctoidUndercutTooth` and `InvoluteUndercutTooth`, and
`generate_undercut_curve`. The solvers are parameters.
-/

namespace Verif

open Real

/-- `generate_flat_rack_curve`, conical branch, gearteeth.py:418-435. The setter of `rotmat` (curve.py:1204-1210) keeps the
lengths. -/
noncomputable def flatRackCurve (rp pia : ℝ) (limits : ToothLimitParam) (alpha coneAngle : ℝ) : Curve :=
  let cone := gearPolarData coneAngle rp
  let rotAll := Rz (-pia * cone.baseRadius / cone.R) * Rx (π / 2 - alpha)
  let yaw := -limits.hD / cone.R / cos alpha
  let arc := arcInit cone.R ((limits.hA + limits.hD) / cone.R / cos alpha) ORIGIN yaw 0 0 true
  { arc with kind := .arc cone.R ((limits.hA + limits.hD) / cone.R / cos alpha) ORIGIN (rotAll * eulerZYX yaw 0 0) }

/-- `rack_flank_func`, gearteeth.py:467-473. -/
noncomputable def rackFlankFunc (R alpha a t : ℝ) : V3 :=
  let axis1 := app (Rx (-alpha)) OUT
  app (Rz (t + a)) (rodrigues axis1 (-(t * cos alpha)) (R • RIGHT))

/-- The function whose root is searched at gearteeth.py:478-488; `d` is `h_d` or `-h_a`. -/
noncomputable def rackDepthResidual (f : ℝ → Option V3) (R d t : ℝ) : Option ℝ :=
  (f t).map fun p => arcsin (p 2 / R) + d / R

/-- `generate_involute_rack_curve`, conical branch, gearteeth.py:464-490. The success of the searches is not read. -/
noncomputable def involuteCrownCurve (S : ScalarSolvers) (rp pia : ℝ) (limits : ToothLimitParam) (alpha coneAngle : ℝ) :
    Option Curve :=
  let cone := gearPolarData coneAngle rp
  let anTooth := cone.baseRadius / cone.R * pia
  let c := Curve.make (.generic (rackFlankFunc cone.R alpha (-anTooth)) 20) true (-1) 1
  let sol2 := S.root1 (rackDepthResidual c.eval cone.R limits.hD) 0
  let sol1 := S.root1 (rackDepthResidual c.eval cone.R (-limits.hA)) 0
  c.setStartAndEndOn sol2.x sol1.x

/-- `plane_normal` of the middle of the gap, gearteeth.py:183-185 and 385-387. -/
noncomputable def gapPlaneNormal (pitchAngle coneAngle : ℝ) : V3 :=
  app (Rz (-pitchAngle / 2 * |sin (coneAngle / 2)|)) UP

/-- The choice of the reference point on the rack flank, conical branch, gearteeth.py:186-196 and 388-398. The `success`
flag is not read. -/
noncomputable def crownRefPoint (S : ScalarSolvers) (rack : Curve) (pitchAngle coneAngle : ℝ) : Option V3 :=
  let sol := S.root1 (planeResidual rack.eval (gapPlaneNormal pitchAngle coneAngle) ORIGIN) 0
  if 0 < sol.x then rack.eval sol.x else rack.eval 0

/-- `generate_undercut_curve`, conical branch, gearteeth.py:508-533. -/
noncomputable def generateUndercutCone (S : ScalarSolvers) (rp coneAngle : ℝ) (refPoint : V3) : Option Curve :=
  let c := Curve.make (.generic (undercutCurveCone rp coneAngle refPoint) 20) true 0 (-1)
  let sol := S.root1 (fun t => (c.eval t).map fun p => dot p p - (rp * 1) ^ 2) 1
  if 0 < sol.x then c.setEndOn sol.x else some c

/-- The undercut curve of `OctoidUndercutTooth.generate_tooth_curve` for conical gears, gearteeth.py:289 and 304-308. -/
noncomputable def octoidUndercutCurve (S : ScalarSolvers) (rp pia pitchAngle : ℝ) (limits : ToothLimitParam)
    (alpha coneAngle : ℝ) : Option Curve :=
  (crownRefPoint S (flatRackCurve rp pia limits alpha coneAngle) pitchAngle coneAngle).bind
    (generateUndercutCone S rp coneAngle)

/-- `OctoidUndercutTooth.generate_tooth_curve` for conical gears with the undercut switched on and a chain as tooth curve,
gearteeth.py:287-309. For a plain curve see `firstPortion`. -/
noncomputable def octoidUndercutTooth (S : ScalarSolvers) (tooth : List Curve) (rp pia pitchAngle : ℝ)
    (limits : ToothLimitParam) (alpha coneAngle : ℝ) : Option (List (Curve ⊕ Chain Curve)) :=
  (octoidUndercutCurve S rp pia pitchAngle limits alpha coneAngle).bind fun under =>
    trimInvoluteUndercut S.toSolvers tooth under (1, 1)

end Verif
