import Verif.Model.Fillet
import Verif.Model.Profile
import Verif.Model.LineOfAction

/-!
# Model of the tooth curve's fillets and of its trimming

`/repo/src/gggears/gggears_core.py:230-339` (`apply_fillet`) and `435-525` (the first part of
`trim_reference_profile`), with `find_curve_intersect` and `find_curve_plane_intersect` of
`/repo/src/gggears/curve.py:698-740`. The solvers are parameters.
-/

namespace Verif

open Real

/-- scipy's solvers, with the versions for one unknown. -/
structure ScalarSolvers extends Solvers where
  root1 : (ℝ → Option ℝ) → ℝ → Solved ℝ
  minimize1 : (ℝ → Option ℝ) → ℝ → Solved ℝ

/-- `curve1(t[0]) - curve2(t[1])`, curve.py:707 and 713. -/
noncomputable def curveDiff (f1 f2 : ℝ → Option V3) (t1 t2 : ℝ) : Option V3 :=
  match f1 t1, f2 t2 with
  | some p, some q => some (p - q)
  | _, _ => none

/-- `find_curve_intersect`, curve.py:698-717. -/
noncomputable def findCurveIntersect (S : Solvers) (f1 f2 : ℝ → Option V3) (guess : ℝ × ℝ)
    (method : IntersectMethod) : Solved (ℝ × ℝ) :=
  match method with
  | .equality =>
    let s := S.root (fun t => curveDiff f1 f2 (t 0) (t 1)) ![guess.1, guess.2, 0]
    ⟨s.success, (s.x 0, s.x 1)⟩
  | .minDistance =>
    S.minimize (fun t => (curveDiff f1 f2 t.1 t.2).map fun d => dot (DELTA⁻¹ • d) (DELTA⁻¹ • d)) guess

/-- `find_curve_plane_intersect` with the defaults `offset=ORIGIN` and `EQUALITY`, curve.py:728-740. -/
noncomputable def findCurvePlaneIntersect (S : ScalarSolvers) (f : ℝ → Option V3) (normal : V3) (guess : ℝ) :
    Solved ℝ :=
  S.root1 (fun t => (f t).map fun p => dot (p - ORIGIN) normal) guess

/-- `angle_check`, gggears_core.py:253-255. -/
def angleCheck (pitchAngle : ℝ) (p : V3) : Prop :=
  0 < -arctan2 (p 1) (p 0) ∧ -arctan2 (p 1) (p 0) < pitchAngle / 2

/-- The loop over the guesses, gggears_core.py:268-280 and 282-294: the first successful attempt, or the last
one. `none` (NaN values) is not a success. -/
noncomputable def firstSuccess (attempt : ℝ → Option (Curve × ℝ × ℝ × Bool)) :
    List ℝ → Option (Curve × ℝ × ℝ × Bool)
  | [] => none
  | [g] => attempt g
  | g :: gs => match attempt g with
    | some (arc, t1, t2, true) => some (arc, t1, t2, true)
    | _ => firstSuccess attempt gs

/-- The branch `sharp_root` of `apply_fillet`, gggears_core.py:307-337, for the root (`direction = 1`) or the
tip. -/
noncomputable def sharpFillet (asEuler : M3 → ℝ × ℝ × ℝ) (S : Solvers) (tooth : List Curve)
    (pitchAngle radius : ℝ) (atRoot : Bool) : Option (List Curve) :=
  let f := chainEval curveOps tooth
  let planeNormal := if atRoot then rotateVector UP (-pitchAngle / 2) else UP
  match mirroredCurve (fun t => (f t).getD 0) (tooth.any Curve.active) planeNormal ORIGIN with
  | none => none
  | some m =>
    let mirrorCurve := m.reverse
    let start := (1 - radius / chainLen curveOps tooth, 0 + radius / chainLen curveOps tooth)
    if atRoot then
      (calcTangentArc asEuler S mirrorCurve.eval f radius start .equality).bind fun r =>
        (r.1.setStartOn (1 / 2)).bind fun arc =>
          (chainSetStart curveOps tooth r.2.2.1 false).map fun l => chainInsert curveOps l 0 arc
    else
      (calcTangentArc asEuler S f mirrorCurve.eval radius start .equality).bind fun r =>
        (r.1.setEndOn (1 / 2)).bind fun arc =>
          (chainSetEnd curveOps tooth r.2.1 false).map fun l => chainAppend curveOps l arc

open scoped Classical in
/-- `apply_fillet`, gggears_core.py:230-339, for the root (`direction = 1`) or the tip (`direction = -1`). The
tooth curve is a flat chain. Comparisons with undefined (NaN) points are false. -/
noncomputable def applyFillet (asEuler : M3 → ℝ × ℝ × ℝ) (S : Solvers) (tooth : List Curve)
    (pitchAngle : ℝ) (target : Curve) (radius : ℝ) (atRoot : Bool) : Option (List Curve) :=
  let f := chainEval curveOps tooth
  let sharp := sharpFillet asEuler S tooth pitchAngle radius atRoot
  let check (p : Option V3) : Prop := ∃ q, p = some q ∧ angleCheck pitchAngle q
  let refCircleGuess := -pitchAngle / (2 * π) / 4 * (101 / 100)
  let sol1 := findCurveIntersect S f target.eval (1 / 2, refCircleGuess) .equality
  if sol1.success = true ∧ check (target.eval sol1.x.2) then
    let guesses := [1 / 2 * radius, 1 * radius, 3 / 2 * radius]
    if atRoot then
      match firstSuccess (fun g => calcTangentArc asEuler S target.eval f radius
          (sol1.x.2 - g / target.length, sol1.x.1 + g / chainLen curveOps tooth) .equality) guesses with
      | none => sharp
      | some (arc, _, t2, _) =>
        if check (arc.eval 0) ∧ check (arc.eval 1) then
          (chainSetStart curveOps tooth t2 false).map fun l => chainInsert curveOps l 0 arc
        else sharp
    else
      match firstSuccess (fun g => calcTangentArc asEuler S f target.eval radius
          (sol1.x.1 - g / chainLen curveOps tooth, sol1.x.2 + g / target.length) .equality) guesses with
      | none => sharp
      | some (arc, t1, _, _) =>
        if check (arc.eval 0) ∧ check (arc.eval 1) then
          (chainSetEnd curveOps tooth t1 false).map fun l => chainAppend curveOps l arc
        else sharp
  else sharp

section
variable {α : Type} (o : CurveOps α)

/-- `np.linalg.norm(tooth_curve(x[0]) - circle(x[1])) < 1e-5`, gggears_core.py:461-463, 481-483 and 492-494. -/
def isClose (f1 f2 : ℝ → Option V3) (x : ℝ × ℝ) : Prop :=
  ∃ d, curveDiff f1 f2 x.1 x.2 = some d ∧ norm3 d < 1 / 10 ^ 5

open scoped Classical in
/-- The tip part of `trim_reference_profile`, gggears_core.py:445-471. -/
noncomputable def trimTip (S : ScalarSolvers) (tooth : α) (rA : Curve) (tipFillet pitchAngle : ℝ) : Option α :=
  if 0 < tipFillet then some tooth
  else
    let f := o.eval tooth
    let guess := -pitchAngle / 8 / rA.length
    let sol := findCurveIntersect S.toSolvers f rA.eval (9 / 10, guess) .equality
    let sol := if sol.success then sol
      else findCurveIntersect S.toSolvers f rA.eval (9 / 10, guess) .minDistance
    if (sol.success = true ∨ isClose f rA.eval sol.x) ∧ ∃ p, f sol.x.1 = some p ∧ p 1 < 0 then
      o.setEnd tooth sol.x.1
    else
      let mid := findCurvePlaneIntersect S f UP 1
      o.setEnd tooth mid.x

open scoped Classical in
/-- The root part of `trim_reference_profile`, gggears_core.py:473-525. `solcheck2` is computed from the first
solution (lines 492-494), as in the code. -/
noncomputable def trimRoot (S : ScalarSolvers) (tooth : α) (rD : Curve) (rootFillet pitchAngle : ℝ) : Option α :=
  if 0 < rootFillet then some tooth
  else
    let f := o.eval tooth
    let guess := -pitchAngle / 2 / rD.length
    let sol1 := findCurveIntersect S.toSolvers f rD.eval (3 / 10, guess) .equality
    let sol2 := findCurveIntersect S.toSolvers f rD.eval (0, guess) .minDistance
    let sol := if sol1.success then sol1
      else if sol2.success = true ∨ isClose f rD.eval sol1.x then sol2
      else sol1
    -- `solcheck` is the distance of the first solution in all cases
    let found : Prop := sol.success = true ∨ isClose f rD.eval sol1.x
    if found ∧ ∃ p, f sol.x.1 = some p ∧ -pitchAngle / 2 < arctan2 (p 1) (p 0) then
      o.setStart tooth sol.x.1
    else
      let planeNorm := rotateVector UP (-pitchAngle / 2)
      let mid := findCurvePlaneIntersect S f planeNorm (if found then sol.x.1 else 1 / 10)
      let bot := S.minimize1 (fun t => (f t).map fun p => √(p 0 ^ 2 + p 1 ^ 2)) mid.x
      let mid := if mid.x < bot.x then bot else mid
      o.setStart tooth mid.x

/-- `trim_reference_profile`, gggears_core.py:435-582. -/
noncomputable def trimReferenceProfile (asEuler : M3 → ℝ × ℝ × ℝ) (S : ScalarSolvers) (tooth : α)
    (rA rD : Curve) (radA radD radO : ℝ) (centerO : V3) (tipFillet rootFillet pitchAngle : ℝ) :
    Option (RefProfile α) :=
  (trimTip o S tooth rA tipFillet pitchAngle).bind fun t =>
    (trimRoot o S t rD rootFillet pitchAngle).bind fun t' =>
      closeProfile o asEuler t' radA radD radO centerO pitchAngle

end

end Verif
