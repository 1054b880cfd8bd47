import Verif.Model.Arc
import Verif.Model.Coord
import Verif.Model.CoreGear

/-!
# Model of the default tooth generators

`GearToothGenerator`, `GearToothConicGenerator` and `RackToothGenerator`, `/repo/src/gggears/gggears_base_classes.py:484-635`,
and `default_gear_recipe`, `/repo/src/gggears/gggears_core.py:822-848`. The chains of one curve are lists.
-/

namespace Verif

open Real

/-- `p0`, the pitch point of the flank, gggears_base_classes.py:499-501 and 561-563. -/
noncomputable def flankPitchPoint (pia rp : ℝ) : V3 := app (Rz (-pia)) (rp • RIGHT)

/-- `GearToothGenerator.generate_tooth_curve`, gggears_base_classes.py:498-504. -/
noncomputable def straightFlank (pia rp toothAngle : ℝ) : List Curve :=
  let p0 := flankPitchPoint pia rp
  let dp := app (Rz toothAngle) ((2 / 10 : ℝ) • p0)
  [.make (.line (p0 - dp) (p0 + dp)) true 0 1]

/-- The arc of `GearToothConicGenerator.generate_tooth_curve`, gggears_base_classes.py:556-576. `none`: the arc cannot be
made because a vector to be normalised is zero. `tan (π / 2)` is 0 here, so that the height of a flat cone is 0 as it
should be; floating point gives a value near 10⁻¹⁵. -/
noncomputable def greatCircleFlank (asEuler : M3 → ℝ × ℝ × ℝ) (pia rp coneAngle toothAngle : ℝ) : Option Curve :=
  let cone := gearPolarData coneAngle rp
  let h := cone.height
  let p0 := flankPitchPoint pia rp
  let axis := cross ((norm3 p0)⁻¹ • p0) OUT
  let t := h • OUT - p0
  let t := (norm3 t)⁻¹ • t
  let axis := app (fromRotvec ((toothAngle * sgn cone.gamma) • t)) axis
  arcFromPointCenterAngle asEuler p0 (h • OUT) (1 / 10) axis true

/-- `GearToothConicGenerator.generate_tooth_curve`, gggears_base_classes.py:550-576. -/
noncomputable def conicFlank (asEuler : M3 → ℝ × ℝ × ℝ) (pia rp coneAngle toothAngle : ℝ) : Option (List Curve) :=
  open scoped Classical in
  if coneAngle = 0 then some (straightFlank pia rp toothAngle)
  else (greatCircleFlank asEuler pia rp coneAngle toothAngle).map fun c => [c]

/-- `RackToothGenerator.generate_tooth_curve`, gggears_base_classes.py:617-635. The first two arguments are kept in the
object and not used. -/
noncomputable def rackGeneratorFlank (_toothWidth _pitch toothAngle : ℝ) : List Curve :=
  let dp := app (Rz toothAngle) RIGHT
  [.make (.line ((π / 4) • DOWN - (1 / 2 : ℝ) • dp) ((π / 4) • DOWN + (1 / 2 : ℝ) • dp)) true 0 1]

/-- What `default_gear_recipe` sets in the tooth generator, gggears_core.py:832-837: pitch radius, cone angle and pitch
intersect angle. -/
noncomputable def defaultRecipeGenerator (numTeeth coneAngle : ℝ) : ℝ × ℝ × ℝ :=
  (numTeeth / 2, coneAngle, 2 * π / numTeeth / 4)

/-- Cone and transform of `default_gear_recipe` called with a height, gggears_core.py:832-848. -/
noncomputable def defaultRecipeSlice (numTeeth coneAngle z : ℝ) : CoreSlice :=
  let gamma := coneAngle / 2
  ⟨coneAngle, numTeeth / 2, ⟨⟨(z * cos gamma) • OUT, 1, 1 * (1 - z * 2 * sin gamma / numTeeth)⟩, 0⟩⟩

end Verif
