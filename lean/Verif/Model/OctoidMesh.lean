import Verif.Model.Wrapper

/-!
# Model of the placed octoid flanks of bevel gears and of their meshing

`/repo/src/gggears/gearteeth.py:226-266`, `313-351` placed as in `/repo/src/gggears/gggears_core.py:599-648`, `754-794`;
`/repo/src/gggears/gggears_wrapper.py:641-716` for conical gears.
-/

namespace Verif

/-- Point of the octoid flank of a conical gear at height `z`, with and without undercut, gearteeth.py:253-258 and
340-345. The other generators have no such flank; the value is meaningless for them. -/
noncomputable def ToothGen.octoidFlank (z t : ℝ) : ToothGen → V3
  | .octoid a r f c => Verif.octoidFlank (f z) r c a t
  | .octoidUndercut a r f _ c _ => Verif.octoidFlank (f z) r c a t
  | _ => 0

/-- Point of a flank of a bevel gear: on the lower side of tooth `k` or (`mirrored`, gggears_core.py:599-648) on the upper
one, placed in the slice at height `z` (gggears_wrapper.py:96-101, gggears_base_classes.py:212-218) while the gear is turned
by `turn`. The trimming of the flank at tip and root is left out. -/
noncomputable def WGear.octoidFlank (g : WGear) (mirrored : Bool) (z turn : ℝ) (k : ℤ) (t : ℝ) : V3 :=
  let p := g.core.recipe.gen.octoidFlank z t
  applyGearTransform (if mirrored then mulV p ![1, -1, 1] else p)
    { g.core.transformAt z with angle := (g.core.transformAt z).angle + turn + k * g.pitchAngle }

/-- What `InvoluteGear.mesh_to` reads of a conical gear. The base circle is only read for cylindrical gears; the two
fields are placeholders. -/
noncomputable def WGear.bevelObj (g : WGear) : GearObj :=
  { kind := .involute
    tooth := g.core.tooth
    insideInput := g.input.insideTeeth
    coneAngle := g.coneAngle
    helixAngle := g.input.helixAngle
    module_ := g.core.module_
    baseRadius1 := 0
    baseAngle := 0
    transform := g.core.transform }

/-- `self.mesh_to(other, target_dir, backlash, angle_bias)` of conical involute gears, gggears_wrapper.py:641-691: only
`gearcore.transform` of `self` is written. For two cylindrical gears the value is meaningless. -/
noncomputable def WGear.meshToBevel (solve : (ℝ → ℝ) → ℝ) (self other : WGear) (targetDir : V3) (backlash bias : ℝ) :
    Option WGear :=
  (self.bevelObj.meshToInvolute solve other.bevelObj targetDir backlash bias).map fun o =>
    { self with core := { self.core with transform := o.transform } }

end Verif
