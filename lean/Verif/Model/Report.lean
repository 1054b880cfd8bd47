import Verif.Model.Core
import Verif.Model.Profile
import Verif.Model.Wrapper

/-!
# Model of the reported radii, centres and cone angles

`GearInfoMixin`, `/repo/src/gggears/gggears_wrapper.py:96-286`. The profile of a slice (`curve_gen_at_z`,
gggears_core.py:981-982) is an argument of the functions here; it is modelled in `Model/Profile.lean` and
`Model/Trim.lean`. `none` stands for an exception or a division by zero.
-/

namespace Verif

open Real

section
variable {α : Type}

/-- `crv.ArcCurve(radius=radius, center=center, angle=2 * PI).transform(trf)`, gggears_wrapper.py:203-214. -/
noncomputable def reportedCircle (asEuler : M3 → ℝ × ℝ × ℝ) (trf : GearTransform) (radius : ℝ) (center : V3) :
    Option Curve :=
  arcTransform asEuler (arcInit radius (2 * π) center 0 0 0 true) (applyGearTransform · trf)

/-- The circle for one curve of the profile, of which only `radius` and `center` are read. `none`: not an arc. -/
noncomputable def circleOf (asEuler : M3 → ℝ × ℝ × ℝ) (trf : GearTransform) (c : Curve) : Option Curve :=
  match c.kind with
  | .arc r _ m _ => reportedCircle asEuler trf r m
  | _ => none

/-- `radii_data_gen(z)`, gggears_wrapper.py:198-218, for the profile `P` of the slice. -/
noncomputable def WGear.radiiData (g : WGear) (asEuler : M3 → ℝ × ℝ × ℝ) (P : RefProfile α) (z : ℝ) :
    Option RefCircles :=
  let trf := g.core.transformAt z
  match circleOf asEuler trf P.ra, circleOf asEuler trf P.rd, circleOf asEuler trf P.ro,
    reportedCircle asEuler trf (g.core.tooth.numTeeth / 2) ORIGIN with
  | some a, some d, some o, some p => some ⟨a, p, d, o⟩
  | _, _, _, _ => none

/-- `addendum_radius`, gggears_wrapper.py:241-244. `profile` gives the profile of every slice. -/
noncomputable def WGear.addendumRadius (g : WGear) (asEuler : M3 → ℝ × ℝ × ℝ) (profile : ℝ → Option (RefProfile α)) :
    Option ℝ :=
  let z := g.core.zVals.headD 0
  (profile z).bind fun P => (g.radiiData asEuler P z).bind fun C => C.a.arcRadius

/-- `dedendum_radius`, gggears_wrapper.py:246-249. -/
noncomputable def WGear.dedendumRadius (g : WGear) (asEuler : M3 → ℝ × ℝ × ℝ) (profile : ℝ → Option (RefProfile α)) :
    Option ℝ :=
  let z := g.core.zVals.headD 0
  (profile z).bind fun P => (g.radiiData asEuler P z).bind fun C => C.d.arcRadius

/-- The radii collected by `max_outside_radius`, gggears_wrapper.py:254-255. -/
noncomputable def WGear.outsideRadii (g : WGear) (asEuler : M3 → ℝ × ℝ × ℝ) (profile : ℝ → Option (RefProfile α)) :
    List ℝ → Option (List ℝ)
  | [] => some []
  | z :: zs =>
    match (profile z).bind fun P => g.radiiData asEuler P z, g.outsideRadii asEuler profile zs with
    | some C, some l => match C.o.arcRadius, C.a.arcRadius with
      | some ro, some ra => some (ro :: ra :: l)
      | _, _ => none
    | _, _ => none

/-- `max_outside_radius`, gggears_wrapper.py:251-256. The order of the list does not matter for `np.max`; the maximum of
an empty list raises. -/
noncomputable def WGear.maxOutsideRadius (g : WGear) (asEuler : M3 → ℝ × ℝ × ℝ)
    (profile : ℝ → Option (RefProfile α)) : Option ℝ :=
  (g.outsideRadii asEuler profile g.core.zVals).bind fun l => l.max?

/-- `cone_angles_at_z(z)`, gggears_wrapper.py:258-276, in the order outside ring, root, pitch, tip. The cone of the
recipe has the default transform. `np.arcsin` of a number above 1 is NaN; theorems assume otherwise. -/
noncomputable def WGear.coneAnglesAtZ (g : WGear) (asEuler : M3 → ℝ × ℝ × ℝ) (P : RefProfile α) (z : ℝ) :
    Option (ℝ × ℝ × ℝ × ℝ) :=
  let R0 := (⟨g.core.recipe.coneAngle, g.core.recipe.coneBase, TransformData.default⟩ : ConicData).R
  let R := R0 * g.core.recipe.scale z * g.core.transform.scale
  (g.radiiData asEuler P z).bind fun C =>
    match C.o.arcRadius, C.d.arcRadius, C.p.arcRadius, C.a.arcRadius with
    | some ro, some rd, some rp, some ra => some (arcsin (ro / R), arcsin (rd / R), arcsin (rp / R), arcsin (ra / R))
    | _, _, _, _ => none

end

/-- `center_point_at_z`, gggears_wrapper.py:103-105. -/
noncomputable def WGear.centerPointAtZ (g : WGear) (z : ℝ) : V3 := (g.core.transformAt z).center

/-- `center_point_bottom`, gggears_wrapper.py:152-155. -/
noncomputable def WGear.centerPointBottom (g : WGear) : V3 := g.centerPointAtZ (g.core.zVals.headD 0)

/-- `center_point_middle`, gggears_wrapper.py:157-162. -/
noncomputable def WGear.centerPointMiddle (g : WGear) : V3 :=
  g.centerPointAtZ (1 / 2 * (g.core.zVals.headD 0 + g.core.zVals.getLastD 0))

/-- `center_point_top`, gggears_wrapper.py:164-167. -/
noncomputable def WGear.centerPointTop (g : WGear) : V3 := g.centerPointAtZ (g.core.zVals.getLastD 0)

/-- `proportion_to_z` and `p2z`, gggears_wrapper.py:235-239. -/
noncomputable def WGear.proportionToZ (g : WGear) (prop : ℝ) : ℝ :=
  prop * g.core.zVals.getD 1 0 + (1 - prop) * g.core.zVals.getD 0 0

end Verif
