import Verif.Base.Vec
import Verif.Model.Transform
import Mathlib.Analysis.SpecialFunctions.Trigonometric.Inverse

/-!
# Model of the coordinate conversions

`/repo/src/gggears/function_generators.py:548-618`,
`/repo/src/gggears/gggears_base_classes.py:439-482` (`ConicData`) and
`/repo/src/gggears/gggears_core.py:26-112` (`GearPolarTransform`). The branch for an array of
points applies the same formulas row by row and is not modelled separately.
-/

namespace Verif

open Real

/-- `xyz_to_spherical(v, center)`, function_generators.py:548-561: `[r, phi, theta]`.
`none` stands for the NaN of `0/0` at the centre. -/
noncomputable def xyzToSpherical (v center : V3) : Option V3 :=
  let r := norm3 (v - center)
  if r = 0 then none
  else
    let theta := arccos ((v - center) 2 / r)
    let phi := arctan2 ((v - center) 1) ((v - center) 0)
    some ![r, phi, theta]

/-- `spherical_to_xyz(s, center)`, function_generators.py:564-580. -/
noncomputable def sphericalToXyz (s center : V3) : V3 :=
  let r := s 0
  let phi := s 1
  let theta := s 2
  ![r * sin theta * cos phi + center 0, r * sin theta * sin phi + center 1,
    r * cos theta + center 2]

/-- `xyz_to_cylindrical(v, center)`, function_generators.py:583-599: `[r, phi, z]`. -/
noncomputable def xyzToCylindrical (v center : V3) : V3 :=
  let d := v - center
  ![√(d 0 * d 0 + d 1 * d 1), arctan2 (d 1) (d 0), d 2]

/-- `cylindrical_to_xyz(c, center)`, function_generators.py:602-618. -/
noncomputable def cylindricalToXyz (c center : V3) : V3 :=
  let r := c 0
  let phi := c 1
  let z := c 2
  ![r * cos phi + center 0, r * sin phi + center 1, z + center 2]

/-- `ConicData`, gggears_base_classes.py:439-447. -/
structure ConicData where
  coneAngle : ℝ
  baseRadius : ℝ
  transform : TransformData

/-- `ConicData.gamma`, gggears_base_classes.py:449-451. -/
noncomputable def ConicData.gamma (self : ConicData) : ℝ := self.coneAngle / 2

/-- `ConicData.height`, gggears_base_classes.py:453-455. -/
noncomputable def ConicData.height (self : ConicData) : ℝ :=
  self.baseRadius / tan self.gamma * self.transform.scale

/-- `ConicData.center`, gggears_base_classes.py:457-462. -/
noncomputable def ConicData.center (self : ConicData) : V3 :=
  applyTransform ((self.baseRadius / tan self.gamma) • OUT) self.transform

/-- `ConicData.center_base`, gggears_base_classes.py:464-467. -/
def ConicData.centerBase (self : ConicData) : V3 := applyTransform ORIGIN self.transform

/-- `ConicData.spherical_radius` and `ConicData.R`, gggears_base_classes.py:469-478. -/
noncomputable def ConicData.R (self : ConicData) : ℝ :=
  |self.baseRadius / sin self.gamma * self.transform.scale|

/-- `np.sign`. -/
noncomputable def sgn (x : ℝ) : ℝ := if x < 0 then -1 else if x = 0 then 0 else 1

/-- Componentwise product of two arrays. -/
def mulV (v w : V3) : V3 := fun i => v i * w i

/-- `GearPolarTransform(cone_angle, base_radius)`, gggears_core.py:31-34. -/
def gearPolarData (coneAngle baseRadius : ℝ) : ConicData :=
  ⟨coneAngle, baseRadius, TransformData.default⟩

/-- `GearPolarTransform.polar_transform(point)`, gggears_core.py:43-89. -/
noncomputable def polarTransform (coneAngle baseRadius : ℝ) (point : V3) : Option V3 :=
  let self := gearPolarData coneAngle baseRadius
  if coneAngle = 0 then some (xyzToCylindrical point ORIGIN)
  else
    let zComp : V3 := ![1, 1, sgn coneAngle]
    match xyzToSpherical (mulV point zComp) (mulV self.center zComp) with
    | none => none
    | some q => some ![(π / 2 - q 2) * self.R, q 1, self.R - q 0]

/-- `GearPolarTransform.inverse_polar_transform(point)`, gggears_core.py:91-112. -/
noncomputable def inversePolarTransform (coneAngle baseRadius : ℝ) (point : V3) : V3 :=
  let self := gearPolarData coneAngle baseRadius
  if coneAngle = 0 then cylindricalToXyz point ORIGIN
  else
    let zComp : V3 := ![1, 1, sgn coneAngle]
    mulV (sphericalToXyz ![self.R - point 2, point 1, π / 2 - point 0 / self.R]
      (mulV self.center zComp)) zComp

end Verif
