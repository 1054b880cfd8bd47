import Verif.Model.Curve
import Verif.Model.Mesh
import Verif.Model.Build

/-!
# Model of the core gear class

`gear_recipe_from_curve`, `Gear` and `ref_curve_2_param`, `/repo/src/gggears/gggears_core.py:851-1091`. Evaluating a
curve may fail (`none`). Of a recipe only the cone and the transform are kept: the limits and the fillet have default
values, and the tooth generator gets the same cone angle as the cone.
-/

namespace Verif

open Real

/-- `RecipeKeyParams`, gggears_base_classes.py:637-644. -/
structure RecipeKeyParams where
  gamma : ℝ
  h : ℝ
  angle : ℝ
  radius : ℝ
  beta : ℝ

/-- `RecipeKeyParams.center`, gggears_base_classes.py:646-648. -/
def RecipeKeyParams.center (p : RecipeKeyParams) : V3 := p.h • OUT

/-- `ref_curve_2_param(t, ref_curve)`, gggears_core.py:1076-1091. -/
noncomputable def refCurve2Param (t : ℝ) (ref : ℝ → Option V3) : Option RecipeKeyParams :=
  match ref t, ref (t + DELTA), ref (t - DELTA) with
  | some p0, some pp, some pm =>
    let polarRes := xyzToCylindrical p0 ORIGIN
    let radius := polarRes 0
    let diff := xyzToCylindrical pp ORIGIN - xyzToCylindrical pm ORIGIN
    let gamma := arctan2 (-diff 0) (diff 2)
    let beta := arctan2 (diff 1 * radius) (√(diff 2 ^ 2 + diff 0 ^ 2))
    some ⟨gamma, polarRes 2, polarRes 1, radius, beta⟩
  | _, _, _ => none

/-- What a recipe gives for one height: the cone (with the default transform) and the transform of the slice. -/
structure CoreSlice where
  coneAngle : ℝ
  baseRadius : ℝ
  transform : GearTransform

/-- `gammafunc` of `gear_recipe_from_curve`, gggears_core.py:866-871. -/
noncomputable def roundGamma (rounding g : ℝ) : ℝ :=
  if rounding = 0 then g else npRound (g / rounding) * rounding

/-- `gear_recipe_from_curve(teeth_data, tooth_generator, ref_curve, ref_curve_scaling_function, gamma_rounding)`
called with a height, gggears_core.py:851-895. -/
noncomputable def gearRecipeFromCurve (numTeeth : ℝ) (ref : ℝ → Option V3) (scaler : ℝ → ℝ) (rounding : ℝ) (z : ℝ) :
    Option CoreSlice :=
  match refCurve2Param (scaler z) ref with
  | none => none
  | some p =>
    let rpRef := numTeeth / 2
    some ⟨roundGamma rounding p.gamma * 2, rpRef, ⟨⟨p.center, 1, p.radius / rpRef⟩, p.angle⟩⟩

/-- `Gear`, gggears_core.py:898-948; `slice` is `shape_recipe`. -/
structure CoreGear where
  module_ : ℝ
  zVals : List ℝ
  tooth : GearToothParam
  slice : ℝ → Option CoreSlice
  transform : GearTransform

/-- The reference line of `Gear.__init__`, gggears_core.py:927-932. -/
noncomputable def defaultRefCurve (numTeeth gamma : ℝ) (zVals : List ℝ) : Curve :=
  let p0 := (numTeeth / 2) • RIGHT
  Curve.make (.line p0 (p0 + app (Ry (-gamma)) ((zVals.getLastD 0 - zVals.headD 0) • OUT))) true 0 1

/-- `Gear.__init__` without a recipe, gggears_core.py:901-948. `transform = none` is the default argument. -/
noncomputable def CoreGear.make (zVals : List ℝ) (module_ : ℝ) (tooth : GearToothParam) (coneAngle : ℝ)
    (transform : Option GearTransform) : CoreGear :=
  let gamma := coneAngle / 2
  let scaler := fun z : ℝ => z / (zVals.getLastD 0 - zVals.headD 0)
  let recipe := gearRecipeFromCurve tooth.numTeeth (defaultRefCurve tooth.numTeeth gamma zVals).eval scaler DELTA
  { module_ := module_
    zVals := zVals
    tooth := tooth
    slice := if gamma = 0 then fun z => (recipe z).map fun s => { s with coneAngle := 0 } else recipe
    transform := transform.getD { GearTransform.default with scale := module_ } }

/-- `Gear.cone`, gggears_core.py:950-952. -/
def CoreGear.cone (g : CoreGear) : Option ConicData :=
  (g.slice 0).map fun s => ⟨s.coneAngle, s.baseRadius, TransformData.default⟩

/-- `Gear.rp`, gggears_core.py:954-956. -/
noncomputable def CoreGear.rp (g : CoreGear) : ℝ := g.tooth.numTeeth / 2 * g.module_

/-- `Gear.R`, gggears_core.py:958-960. -/
noncomputable def CoreGear.R (g : CoreGear) : Option ℝ := g.cone.map fun c => c.R * g.module_

/-- `Gear.center_sphere`, gggears_core.py:974-979. -/
noncomputable def CoreGear.centerSphere (g : CoreGear) : Option V3 :=
  g.cone.bind fun c => g.R.map fun R => g.transform.center + (R * cos c.gamma) • g.transform.zAxis

/-- `Gear.cone_at_z`, gggears_core.py:998-1004. -/
noncomputable def CoreGear.coneAtZ (g : CoreGear) (z : ℝ) : Option ConicData :=
  (g.slice z).map fun s => ⟨s.coneAngle, s.baseRadius, (g.transform.mul s.transform).toTransformData⟩

/-- `Gear.sphere_data_at_z`, gggears_core.py:984-996. -/
noncomputable def CoreGear.sphereDataAtZ (g : CoreGear) (z : ℝ) : Option (V3 × ℝ) :=
  (g.coneAtZ z).map fun c => (c.center, c.R)

/-- The two placement steps shared by both branches of `Gear.mesh_to`, gggears_core.py:1039-1058 and 1064-1073. -/
noncomputable def CoreGear.placeAt (self other : CoreGear) (center : V3) (orientation : M3) : CoreGear :=
  let trf : GearTransform := { self.transform with center := center, orientation := orientation }
  { self with transform := { trf with
      angle := calcMeshAngle trf other.transform self.tooth.pitchAngle other.tooth.pitchAngle
        self.tooth.insideTeeth other.tooth.insideTeeth } }

/-- `Gear.mesh_to(other, target_dir)`, gggears_core.py:1030-1073. `none`: a curve that cannot be evaluated or the
normalisation of the zero vector. -/
noncomputable def CoreGear.meshTo (self other : CoreGear) (targetDir : V3) : Option CoreGear :=
  match self.cone, other.cone with
  | some c1, some c2 =>
    if c1.coneAngle ≠ 0 ∨ c2.coneAngle ≠ 0 then
      match calcBevelGearPlacementVector targetDir c1 c2 self.tooth.insideTeeth other.tooth.insideTeeth 0,
        calcMeshOrientation c1.coneAngle c2.coneAngle c1.R other.transform self.tooth.insideTeeth
          other.tooth.insideTeeth targetDir 0 with
      | some v0, some o => some (self.placeAt other v0 o)
      | _, _ => none
    else
      let distance := if self.tooth.insideTeeth || other.tooth.insideTeeth then |self.rp - other.rp|
        else self.rp + other.rp
      some (self.placeAt other (distance • targetDir + other.transform.center) other.transform.orientation)
  | _, _ => none

end Verif
