import Verif.Model.Wrapper
import Verif.Model.Shell

/-!
# Model of `build_part`: how many control rows a section gets

`InvoluteGear.build_part` (`/repo/src/gggears/gggears_wrapper.py:594-629`), `HelicalRingGear.build_part` (1329-1353) and
`CycloidGear.build_part` (1758-1791) without the argument `n_vert`; the builder itself is modelled in `Model.Shell`.
-/

namespace Verif

open Real

/-- `n_vert` of `InvoluteGear.build_part`, gggears_wrapper.py:602-623, which `SpurGear`, `SpurRingGear`, `HelicalGear` and
`BevelGear` inherit. `beta` is the helix angle of the input (442-444, 1162-1164); `int` of a number that is not negative is
its floor. -/
noncomputable def WGear.nVert (g : WGear) : ℕ :=
  if g.input.crowning = 0 ∧ g.input.helixAngle = 0 then 2
  else if g.core.twistAngle > π / 6 then 3 + ⌊g.core.twistAngle / (π / 6)⌋₊
  else if g.coneAngle = 0 then 3 else 4

/-- `n_vert` of `HelicalRingGear.build_part`, gggears_wrapper.py:1331-1347. -/
noncomputable def WGear.nVertRing (g : WGear) : ℕ :=
  if g.core.twistAngle < π / 16 then 3 else if g.core.twistAngle < π / 2 then 4 else 5

/-- `n_vert` of `CycloidGear.build_part`, gggears_wrapper.py:1764-1785. -/
noncomputable def WGear.nVertCycloid (g : WGear) : ℕ :=
  if g.input.helixAngle = 0 ∧ g.input.coneAngle = 0 ∧ g.input.crowning = 0 then 2
  else if g.core.twistAngle > π / 4 then 3 + ⌊g.core.twistAngle / (π / 4)⌋₊
  else 3

/-- The tooth generator evaluated at a height: the callable attribute is replaced by its value
(`ZFunctionMixin.__call__`, gggears_base_classes.py:36-44). -/
def ToothGen.freeze (z : ℝ) : ToothGen → ToothGen
  | .involute a r f l c => .involute a r (fun _ => f z) l c
  | .involuteUndercut a r f l c q => .involuteUndercut a r (fun _ => f z) l c q
  | .octoid a r f c => .octoid a r (fun _ => f z) c
  | .octoidUndercut a r f l c q => .octoidUndercut a r (fun _ => f z) l c q
  | .cycloid r f c i o => .cycloid r (fun _ => f z) c i o

/-- What `shape_recipe(z)` holds besides its transform, gggears_core.py:802-819 and gggears_base_classes.py:36-44. -/
structure SliceRecipe where
  gen : ToothGen
  limits : ToothLimitParam
  rootFillet : ℝ
  tipFillet : ℝ
  tipReduction : ℝ
  coneAngle : ℝ
  coneBase : ℝ
  pitchAngle : ℝ

/-- `shape_recipe(z)`, without its transform. -/
def ProfileRecipe.slice (r : ProfileRecipe) (z : ℝ) : SliceRecipe :=
  ⟨r.gen.freeze z, r.limits, r.rootFillet, r.tipFillet, r.tipReduction, r.coneAngle, r.coneBase, r.pitchAngle⟩

end Verif
