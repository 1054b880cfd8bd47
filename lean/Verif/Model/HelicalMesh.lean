import Verif.Model.Wrapper

/-!
# Model of the placed involute flanks of cylindrical gears and of their meshing, slice by slice

`/repo/src/gggears/gearteeth.py:43-126` placed as in `/repo/src/gggears/gggears_core.py:599-648`, `754-794`;
`/repo/src/gggears/gggears_wrapper.py:641-716`, `1166-1175`.
-/

namespace Verif

/-- `get_base_radius()` and `get_base_angle()` of the tooth generator of a cylindrical gear at height `z`, with and without
undercut, gearteeth.py:10-33 with 43-66: the radius and the angle of the involute curve. `tSol` is the involute parameter
found by the root search, whose equation contains neither the height nor the tooth angle. The other generators have no such
curve; the value is meaningless for them. -/
noncomputable def ToothGen.involuteBase (tSol z : ℝ) : ToothGen → ℝ × ℝ
  | .involute a r f _ _ => spurInvolute (f z) r a tSol
  | .involuteUndercut a r f _ _ _ => spurInvolute (f z) r a tSol
  | _ => 0

/-- Point of a flank of a cylindrical gear: on the lower side of tooth `k` or (`mirrored`, gggears_core.py:599-648) on the
upper one, placed in the slice at height `z` (gggears_wrapper.py:96-101, gggears_base_classes.py:212-218) while the gear is
turned by `turn`. The trimming of the flank at tip and root is left out. -/
noncomputable def WGear.involuteFlank (g : WGear) (tSol : ℝ) (mirrored : Bool) (z turn : ℝ) (k : ℤ) (t : ℝ) : V3 :=
  let base := g.core.recipe.gen.involuteBase tSol z
  let p := involuteCircle t base.1 base.2 0 0
  applyGearTransform (if mirrored then mulV p ![1, -1, 1] else p)
    { g.core.transformAt z with angle := (g.core.transformAt z).angle + turn + k * g.pitchAngle }

/-- What `mesh_to` reads of a cylindrical gear: `angle_base` evaluates the recipe at height 0 (gggears_wrapper.py:457-466),
`r_base` at the first section (451-455, 468-481), where the radius is the same. `kind` is only read of the partner, to
exclude cycloid gears. -/
noncomputable def WGear.involuteObj (g : WGear) (tSol : ℝ) : GearObj :=
  { kind := .involute
    tooth := g.core.tooth
    insideInput := g.input.insideTeeth
    coneAngle := g.coneAngle
    helixAngle := g.input.helixAngle
    module_ := g.core.module_
    baseRadius1 := (g.core.recipe.gen.involuteBase tSol 0).1
    baseAngle := (g.core.recipe.gen.involuteBase tSol 0).2
    transform := g.core.transform }

/-- `self.mesh_to(other, target_dir, backlash, angle_bias)` of `InvoluteGear`, gggears_wrapper.py:641-716, inherited by
`SpurGear`, `SpurRingGear` and `HelicalRingGear`: only `gearcore.transform` of `self` is written. -/
noncomputable def WGear.meshToInvolute (solve : (ℝ → ℝ) → ℝ) (self : WGear) (tSelf : ℝ) (other : WGear) (tOther : ℝ)
    (targetDir : V3) (backlash bias : ℝ) : Option WGear :=
  ((self.involuteObj tSelf).meshToInvolute solve (other.involuteObj tOther) targetDir backlash bias).map fun o =>
    { self with core := { self.core with transform := o.transform } }

/-- `self.mesh_to(other, target_dir)` of `HelicalGear`, gggears_wrapper.py:1166-1175. -/
noncomputable def WGear.meshToHelical (solve : (ℝ → ℝ) → ℝ) (self : WGear) (tSelf : ℝ) (other : WGear) (tOther : ℝ)
    (targetDir : V3) : Option WGear :=
  ((self.involuteObj tSelf).meshToHelical solve (other.involuteObj tOther) targetDir).map fun o =>
    { self with core := { self.core with transform := o.transform } }

end Verif
