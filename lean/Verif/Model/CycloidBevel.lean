import Verif.Model.CycloidTooth
import Verif.Model.Wrapper

/-!
# Model of the placed flanks of cycloid gears with any cone angle

`/repo/src/gggears/gearteeth.py:585-628` placed as in `/repo/src/gggears/gggears_core.py:599-648`, `754-794`.
-/

namespace Verif

/-- Point of the tooth curve of `CycloidTooth` at height `z`, outside or inside the pitch circle or cone,
gearteeth.py:585-619. The other generators have no such flank; the value is meaningless for them. -/
noncomputable def ToothGen.cycloidConeFlank (outside : Bool) (z t : ℝ) : ToothGen → V3
  | .cycloid r f c i o => if outside then cycloidUpperFn (f z) r c o t else cycloidLowerFn (f z) r c i t
  | _ => 0

/-- Point of a flank of a cycloid gear: on the lower side of tooth `k` or (`mirrored`, gggears_core.py:599-648) on the upper
one, placed in the slice at height `z` (gggears_wrapper.py:96-101, gggears_base_classes.py:212-218) while the gear is turned
by `turn`. The trimming of the flank at tip and root is left out. -/
noncomputable def WGear.cycloidConeFlank (g : WGear) (outside mirrored : Bool) (z turn : ℝ) (k : ℤ) (t : ℝ) : V3 :=
  let p := g.core.recipe.gen.cycloidConeFlank outside z t
  applyGearTransform (if mirrored then mulV p ![1, -1, 1] else p)
    { g.core.transformAt z with angle := (g.core.transformAt z).angle + turn + k * g.pitchAngle }

end Verif
