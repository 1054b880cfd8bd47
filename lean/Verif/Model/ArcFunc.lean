import Verif.Model.Arc

/-!
# Model of the arc functions

`/repo/src/gggears/function_generators.py`, lines 263-305: points of an arc given by two points and a
curvature or a centre, without a curve object. `none` stands for NaN and for an exception. Only scalar
parameters `t` are modelled.
-/

namespace Verif

open Real

/-- `arc_from_2_point(t, p0, p1, curvature, axis, revolutions)`, function_generators.py:263-290. For
equal points and a curvature the name `dp` is unbound (278) and Python raises; an axis along the chord is
normalised to NaN, which the replacement in 280-281 does not take out of `center`. -/
noncomputable def arcFrom2Point (t : ℝ) (p0 p1 : V3) (curvature : ℝ) (axis : V3) (revolutions : ℝ) :
    Option V3 :=
  if curvature = 0 then some (p0 + t • (p1 - p0))
  else
    match normalizeVector (p1 - p0) with
    | none => none
    | some dp =>
      match normalizeVector (axis - dot axis dp • dp) with
      | none => none
      | some axis =>
        let r := 1 / curvature
        let r := if |r| < norm3 (p1 - p0) / 2 then norm3 (p1 - p0) / 2 * npSign r else r
        let h := √(r ^ 2 - (norm3 (p1 - p0) / 2) ^ 2) * npSign r
        let center := (1 / 2 : ℝ) • (p0 + p1) - h • cross dp axis
        let dAngle := arctan2 (norm3 (cross (p0 - center) (p1 - center)))
          (dot (p1 - center) (p0 - center))
        let dAngle := dAngle + revolutions * π * 2
        some (center + app (fromRotvec ((t * dAngle) • axis)) (p0 - center))

/-- `arc_from_2_point_center(t, p0, p1, center, revolutions)`, function_generators.py:293-305. -/
noncomputable def arcFrom2PointCenterFn (t : ℝ) (p0 p1 center : V3) (revolutions : ℝ) : Option V3 :=
  match normalizeVector (cross (p0 - center) (p1 - center)) with
  | none => none
  | some axis =>
    let dAngle := arctan2 (norm3 (cross (p0 - center) (p1 - center)))
      (dot (p1 - center) (p0 - center))
    let dAngle := dAngle + revolutions * π * 2
    some (center + app (fromRotvec ((t * dAngle) • axis)) (p0 - center))

end Verif
