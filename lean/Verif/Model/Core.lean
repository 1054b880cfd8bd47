import Verif.Model.Arc
import Verif.Model.Coord

/-!
# Model of the reference circles and the tip reduction

`/repo/src/gggears/gggears_core.py:134-167` and `192-227`.
-/

namespace Verif

open Real

/-- `GearRefCircles`, gggears_base_classes.py:347-366. -/
structure RefCircles where
  a : Curve
  p : Curve
  d : Curve
  o : Curve

/-- `ArcCurve.r`, curve.py:1149-1151: the radius the arc was made with. `none`: not an arc. -/
def Curve.arcRadius (c : Curve) : Option ℝ :=
  match c.kind with
  | .arc r _ _ _ => some r
  | _ => none

/-- `generate_reference_circles(pitch_radius, limitparam, coneparam)`, gggears_core.py:134-167; `coneparam`
is given by its two numbers. `none`: a division by zero. -/
noncomputable def referenceCircles (asEuler : M3 → ℝ × ℝ × ℝ) (pitchRadius hA hD hO coneAngle
    baseRadius : ℝ) : Option RefCircles :=
  let p0 := pitchRadius • RIGHT
  let hO := if hO > pitchRadius - DELTA then pitchRadius - DELTA else hO
  match polarTransform coneAngle baseRadius p0 with
  | none => none
  | some q =>
    let pa := inversePolarTransform coneAngle baseRadius (q + ![hA, 0, 0])
    let pd := inversePolarTransform coneAngle baseRadius (q + ![-hD, 0, 0])
    let po := inversePolarTransform coneAngle baseRadius (q + ![-hO, 0, 0])
    let circle := fun p : V3 => arcFromPointCenterAngle asEuler p (p 2 • OUT) (2 * π) OUT true
    match circle p0, circle pa, circle pd, circle po with
    | some cp, some ca, some cd, some co => some ⟨ca, cp, cd, co⟩
    | _, _, _, _ => none

/-- `apply_tip_reduction`, gggears_core.py:192-227. `sols` are the four solver results, in the order of
the guesses: whether the solver reports success, and the height coordinate of the point found. -/
noncomputable def applyTipReduction (rah rdh tipReduction : ℝ) (sols : List (Bool × ℝ)) : ℝ :=
  let soldata := (sols.filter fun s => s.1 && decide (s.2 > rdh)).map Prod.snd
  match soldata with
  | [] => rah
  | r :: rs =>
    -- `soldata[np.argmin(...)]`
    let rSol := rs.foldl min r
    if rSol - tipReduction < rah then
      if tipReduction > 0 then rSol - tipReduction else rSol
    else rah

end Verif
