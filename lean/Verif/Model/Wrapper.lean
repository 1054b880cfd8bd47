import Verif.Model.Mesh
import Verif.Model.Curve
import Verif.Model.Surface
import Mathlib.Data.Finset.Sort
import Mathlib.Data.Finset.Lattice.Fold

/-!
# Model of the gear classes: constructors, recipes, reported values

`/repo/src/gggears/gggears_wrapper.py` and `Gear` of `/repo/src/gggears/gggears_core.py:898-1073`. Parameters that
are functions of the height are functions here. The construction of a tooth generator object is recorded with its
arguments; what the generators compute is in `Model/Flank.lean` and `Model/Profile.lean`.
-/

namespace Verif

open Real

/-- `InvoluteInputParam`, gggears_wrapper.py:289-309, and `CycloidInputParam`, 1514-1534. Involute gears ignore the
two cycloid coefficients, cycloid gears ignore `pressureAngle`, `undercut` and `profileShift`. -/
@[ext] structure GearInput where
  numTeeth : ℝ
  height : ℝ
  helixAngle : ℝ
  coneAngle : ℝ
  center : V3
  angle : ℝ
  module_ : ℝ
  undercut : Bool
  rootFillet : ℝ
  tipFillet : ℝ
  tipTruncation : ℝ
  profileShift : ℝ
  addendum : ℝ
  dedendum : ℝ
  insideCycloid : ℝ
  outsideCycloid : ℝ
  pressureAngle : ℝ
  backlash : ℝ
  crowning : ℝ
  insideTeeth : Bool
  zAnchor : ℝ

/-- The tooth generator objects made by `calc_params`, with the arguments of their constructors,
gggears_wrapper.py:525-562 and 1719-1725. -/
inductive ToothGen
  | involute (pressureAngle pitchRadius : ℝ) (pitchIntersectAngle : ℝ → ℝ) (limits : ToothLimitParam)
      (coneAngle : ℝ)
  | involuteUndercut (pressureAngle pitchRadius : ℝ) (pitchIntersectAngle : ℝ → ℝ) (limits : ToothLimitParam)
      (coneAngle pitchAngle : ℝ)
  | octoid (pressureAngle pitchRadius : ℝ) (pitchIntersectAngle : ℝ → ℝ) (coneAngle : ℝ)
  | octoidUndercut (pressureAngle pitchRadius : ℝ) (pitchIntersectAngle : ℝ → ℝ) (limits : ToothLimitParam)
      (coneAngle pitchAngle : ℝ)
  | cycloid (pitchRadius : ℝ) (pitchIntersectAngle : ℝ → ℝ) (coneAngle rcIn rcOut : ℝ)

/-- `pitch_intersect_angle` of a generator, as a function of the height. -/
def ToothGen.pitchIntersectAngle : ToothGen → ℝ → ℝ
  | .involute _ _ f _ _ => f
  | .involuteUndercut _ _ f _ _ _ => f
  | .octoid _ _ f _ => f
  | .octoidUndercut _ _ f _ _ _ => f
  | .cycloid _ f _ _ _ => f

/-- `pitch_radius` of a generator. -/
def ToothGen.pitchRadius : ToothGen → ℝ
  | .involute _ r _ _ _ => r
  | .involuteUndercut _ r _ _ _ _ => r
  | .octoid _ r _ _ => r
  | .octoidUndercut _ r _ _ _ _ => r
  | .cycloid r _ _ _ _ => r

/-- Base radius and start angle of the involute flank at height `z`: `generate_involute_curve` of `InvoluteTooth` and
`InvoluteUndercutTooth` (which inherits it) for cone angle 0, gearteeth.py:43-62. `tSol` is the answer of the root
search. The other generators, and other cone angles, have no such flank; the value is meaningless for them. -/
noncomputable def ToothGen.involuteFlank (tSol z : ℝ) : ToothGen → ℝ × ℝ
  | .involute a r f _ _ => spurInvolute (f z) r a tSol
  | .involuteUndercut a r f _ _ _ => spurInvolute (f z) r a tSol
  | _ => 0

/-- Point of the tooth curve of `CycloidTooth` at height `z` for cone angle 0, outside or inside the pitch circle,
gearteeth.py:585-600. The other generators have no such flank; the value is meaningless for them. -/
noncomputable def ToothGen.cycloidFlank (outside : Bool) (z t : ℝ) : ToothGen → V3
  | .cycloid r f _ i o => if outside then cycloidFlankUpper (f z) r o t else cycloidFlankLower (f z) r i t
  | _ => 0

/-- Assigning `h_o` of the limits object that recipe and generator share. -/
def ToothGen.setHO (h : ℝ) : ToothGen → ToothGen
  | .involute a r f l c => .involute a r f { l with hO := h } c
  | .involuteUndercut a r f l c q => .involuteUndercut a r f { l with hO := h } c q
  | .octoid a r f c => .octoid a r f c
  | .octoidUndercut a r f l c q => .octoidUndercut a r f { l with hO := h } c q
  | .cycloid r f c i o => .cycloid r f c i o

/-- `GearProfileRecipe`, gggears_core.py:802-819, as filled in by the gear classes. The `cone` is given by its two
numbers; its transform is the default one. -/
structure ProfileRecipe where
  gen : ToothGen
  limits : ToothLimitParam
  rootFillet : ℝ
  tipFillet : ℝ
  tipReduction : ℝ
  coneAngle : ℝ
  coneBase : ℝ
  pitchAngle : ℝ
  scale : ℝ → ℝ
  center : ℝ → V3
  angle : ℝ → ℝ

/-- `Gear`, gggears_core.py:898-948, with a shape recipe given. -/
structure GearCore where
  tooth : GearToothParam
  zVals : List ℝ
  module_ : ℝ
  recipe : ProfileRecipe
  transform : GearTransform

/-- A gear object of gggears_wrapper.py: `inputparam` and `gearcore`. -/
structure WGear where
  input : GearInput
  core : GearCore

/-- The sign normalisation of `InvoluteGear.__init__`, gggears_wrapper.py:428-430. -/
noncomputable def GearInput.normalise (p : GearInput) : GearInput :=
  if p.numTeeth < 0 then { p with numTeeth := -p.numTeeth, insideTeeth := !p.insideTeeth } else p

/-- `crowning_func(z, offset)`, gggears_wrapper.py:498-505 and 1691-1698. -/
noncomputable def GearInput.crowningFunc (p : GearInput) (z offset : ℝ) : ℝ :=
  offset - (z * 2 / p.height - 1) ^ 2 * p.crowning / (p.numTeeth / 2) * (1 / 1000)

/-- `tooth_angle` of an involute gear, gggears_wrapper.py:507-513. -/
noncomputable def GearInput.toothAngle (p : GearInput) : ℝ :=
  2 * π / p.numTeeth / 4 + p.profileShift * tan p.pressureAngle / (p.numTeeth / 2)
    - p.backlash / (p.numTeeth / 2)

/-- `limits` of an involute gear, gggears_wrapper.py:520-524. -/
noncomputable def GearInput.involuteLimits (p : GearInput) : ToothLimitParam where
  hD := p.dedendum - p.profileShift
  hA := p.addendum + p.profileShift
  hO := if p.insideTeeth then -2 else 2

/-- The choice of the tooth generator, gggears_wrapper.py:526-562. -/
noncomputable def GearInput.involuteGen (p : GearInput) : ToothGen :=
  let rpRef := p.numTeeth / 2
  let pitchAngle := 2 * π / p.numTeeth
  let f := fun z => p.crowningFunc z p.toothAngle
  if p.undercut then
    if p.coneAngle = 0 then .involuteUndercut p.pressureAngle rpRef f p.involuteLimits p.coneAngle pitchAngle
    else .octoidUndercut p.pressureAngle rpRef f p.involuteLimits p.coneAngle pitchAngle
  else
    if p.coneAngle = 0 then .involute p.pressureAngle rpRef f p.involuteLimits p.coneAngle
    else .octoid p.pressureAngle rpRef f p.coneAngle

/-- The sections `z_vals`, gggears_wrapper.py:563-568 and 1726-1731. -/
noncomputable def GearInput.zVals (p : GearInput) : List ℝ :=
  let zh := p.height / p.module_
  [-zh * p.zAnchor, zh * (1 - p.zAnchor)]

/-- `InvoluteGear.calc_params`, gggears_wrapper.py:490-592. `tooth` is the result of `update_tooth_param`, which
subclasses override. The recipe's scale reads `self.number_of_teeth`, that is `tooth_param.num_teeth`. -/
noncomputable def GearInput.calcParams (p : GearInput) (tooth : GearToothParam) : GearCore :=
  let rpRef := p.numTeeth / 2
  let gamma := p.coneAngle / 2
  let spiralCoeff := tan p.helixAngle / rpRef
  { tooth := tooth
    zVals := p.zVals
    module_ := p.module_
    recipe :=
      { gen := p.involuteGen
        limits := p.involuteLimits
        rootFillet := p.rootFillet
        tipFillet := p.tipFillet
        tipReduction := p.tipTruncation
        coneAngle := p.coneAngle
        coneBase := rpRef
        pitchAngle := 2 * π / p.numTeeth
        scale := fun z => 1 - z * 2 * sin gamma / tooth.numTeeth
        center := fun z => (z * cos gamma) • OUT
        angle := fun z => z * spiralCoeff }
    transform := { center := p.center, orientation := 1, scale := p.module_, angle := p.angle } }

/-- `InvoluteGear(...)`, gggears_wrapper.py:405-435 with `update_tooth_param` 484-488. -/
noncomputable def involuteGear (raw : GearInput) : WGear :=
  let p := raw.normalise
  ⟨p, p.calcParams (GearToothParam.make p.numTeeth 0 p.insideTeeth)⟩

/-- `SpurGear(...)`, gggears_wrapper.py:823-863. The class has no arguments for the overwritten fields. -/
noncomputable def spurGear (raw : GearInput) : WGear :=
  involuteGear { raw with helixAngle := 0, coneAngle := 0, insideTeeth := false }

/-- `SpurRingGear(...)`, gggears_wrapper.py:941-983. The last statement writes to the limits object, which the
tooth generator holds too. -/
noncomputable def spurRingGear (raw : GearInput) (outsideRing : ℝ) : WGear :=
  let g := involuteGear { raw with helixAngle := 0, coneAngle := 0, insideTeeth := true }
  { g with core := { g.core with recipe := { g.core.recipe with
      limits := { g.core.recipe.limits with hO := -outsideRing }
      gen := g.core.recipe.gen.setHO (-outsideRing) } } }

/-- `BevelGear(...)`, gggears_wrapper.py:1469-1511. -/
noncomputable def bevelGear (raw : GearInput) : WGear :=
  involuteGear { raw with insideTeeth := false }

/-- The conversion to the transverse plane, gggears_wrapper.py:1097-1115 and 1276-1297. -/
noncomputable def GearInput.transverse (p : GearInput) : GearInput :=
  { p with
    coneAngle := 0
    module_ := p.module_ / cos p.helixAngle
    profileShift := p.profileShift * cos p.helixAngle
    addendum := p.addendum * cos p.helixAngle
    dedendum := p.dedendum * cos p.helixAngle
    pressureAngle := arctan (tan p.pressureAngle / cos p.helixAngle) }

/-- `np.insert(zs, np.searchsorted(zs, v), v)` for sorted `zs`. -/
noncomputable def insertSorted (zs : List ℝ) (v : ℝ) : List ℝ :=
  let i := (zs.takeWhile (fun z => decide (z < v))).length
  zs.take i ++ v :: zs.drop i

/-- `herringbone_mod`, gggears_wrapper.py:1131-1136 and 1313-1318. -/
noncomputable def herringboneMod (original : ℝ → ℝ) (midpoint z : ℝ) : ℝ :=
  original (midpoint - |midpoint - z|)

/-- The herringbone correction, gggears_wrapper.py:1118-1138 and 1300-1320. `zs[-1]` and `zs[0]` of an empty list
would raise; the list has two entries here. -/
noncomputable def GearCore.herringbone (c : GearCore) : GearCore :=
  let zmax := c.zVals.getLastD 0
  let zmin := c.zVals.headD 0
  let zmid := (zmax + zmin) / 2
  { c with
    zVals := insertSorted c.zVals zmid
    recipe := { c.recipe with angle := herringboneMod c.recipe.angle zmid } }

/-- `twist_angle`, gggears_wrapper.py:1141-1148: the range of the angle over 20 samples of the first section. -/
noncomputable def GearCore.twistAngle (c : GearCore) : ℝ :=
  let sample := fun i : Fin 20 => c.recipe.angle (linspaceAt (c.zVals.getD 0 0) (c.zVals.getD 1 0) 20 i)
  |Finset.univ.sup' ⟨0, Finset.mem_univ _⟩ sample - Finset.univ.inf' ⟨0, Finset.mem_univ _⟩ sample|

/-- The refinement of the sections, gggears_wrapper.py:1150-1159. `np.unique` sorts and removes duplicates. -/
noncomputable def GearCore.refine (c : GearCore) : GearCore :=
  if c.twistAngle > 2 * π then
    let n := c.zVals.length
    let zAdd := ⌊(⌊c.twistAngle / (2 * π)⌋ : ℝ) * ((n : ℝ) - 1)⌋₊
    let new := (List.range (zAdd + n)).map
      (fun k => linspaceAt (c.zVals.headD 0) (c.zVals.getLastD 0) (zAdd + n) k)
    { c with zVals := (new ++ c.zVals).toFinset.sort (· ≤ ·) }
  else c

/-- `HelicalGear(...)`, gggears_wrapper.py:1074-1159. The class has no argument `inside_teeth`; the default `False`
of `InvoluteGear` applies. -/
noncomputable def helicalGear (herringbone : Bool) (raw : GearInput) : WGear :=
  let g := involuteGear raw.transverse
  let core := if herringbone then g.core.herringbone else g.core
  { g with core := core.refine }

/-- `HelicalRingGear(...)`, gggears_wrapper.py:1260-1324: `update_tooth_param` always passes `inside_teeth=True`, and
there is no refinement. -/
noncomputable def helicalRingGear (herringbone : Bool) (raw : GearInput) : WGear :=
  let p := ({ raw.transverse with insideTeeth := true } : GearInput).normalise
  let core := p.calcParams (GearToothParam.make p.numTeeth 0 true)
  ⟨p, if herringbone then core.herringbone else core⟩

/-- `CycloidGear.calc_params`, gggears_wrapper.py:1683-1756. -/
noncomputable def GearInput.calcCycloid (p : GearInput) : GearCore :=
  let rpRef := p.numTeeth / 2
  let gamma := p.coneAngle / 2
  let toothAngle := 2 * π / p.numTeeth / 4 - p.backlash / rpRef
  let spiralCoeff := tan p.helixAngle / rpRef
  { tooth := GearToothParam.make p.numTeeth 0 p.insideTeeth
    zVals := p.zVals
    module_ := p.module_
    recipe :=
      { gen := .cycloid rpRef (fun z => p.crowningFunc z toothAngle) (gamma * 2) p.insideCycloid p.outsideCycloid
        limits := { hD := p.dedendum, hA := p.addendum, hO := if p.insideTeeth then -2 else 2 }
        rootFillet := p.rootFillet
        tipFillet := p.tipFillet
        tipReduction := p.tipTruncation
        coneAngle := p.coneAngle
        coneBase := rpRef
        pitchAngle := 2 * π / p.numTeeth
        scale := fun z => 1 - z * 2 * sin gamma / p.numTeeth
        center := fun z => (z * cos gamma) • OUT
        angle := fun z => z * spiralCoeff }
    transform := { center := p.center, orientation := 1, scale := p.module_, angle := p.angle } }

/-- `CycloidGear(...)`, gggears_wrapper.py:1615-1659. -/
noncomputable def cycloidGear (p : GearInput) : WGear := ⟨p, p.calcCycloid⟩

/-- `shape_recipe(z).transform`. -/
noncomputable def GearCore.recipeTransform (c : GearCore) (z : ℝ) : GearTransform :=
  { center := c.recipe.center z, orientation := 1, scale := c.recipe.scale z, angle := c.recipe.angle z }

/-- `center_transform_at_z`, gggears_wrapper.py:96-101. -/
noncomputable def GearCore.transformAt (c : GearCore) (z : ℝ) : GearTransform :=
  c.transform.mul (c.recipeTransform z)

/-- `Gear.cone_at_z`, gggears_core.py:997-1003. -/
noncomputable def GearCore.coneAtZ (c : GearCore) (z : ℝ) : ConicData :=
  ⟨c.recipe.coneAngle, c.recipe.coneBase, (c.transformAt z).toTransformData⟩

/-- `number_of_teeth`, gggears_wrapper.py:26-29. -/
def WGear.numberOfTeeth (g : WGear) : ℝ := g.core.tooth.numTeeth

/-- `inside_teeth`, gggears_wrapper.py:31-34. -/
def WGear.insideTeeth (g : WGear) : Bool := g.core.tooth.insideTeeth

/-- `pitch_radius`, gggears_wrapper.py:36-39. -/
noncomputable def WGear.pitchRadius (g : WGear) : ℝ := g.core.tooth.numTeeth * g.core.module_ / 2

/-- `pitch_angle`, gggears_wrapper.py:169-172. -/
noncomputable def WGear.pitchAngle (g : WGear) : ℝ := g.core.tooth.pitchAngle

/-- `module`, gggears_wrapper.py:46-49. -/
def WGear.module_ (g : WGear) : ℝ := g.core.module_

/-- `module = value`, gggears_wrapper.py:51-53. -/
def WGear.setModule (g : WGear) (v : ℝ) : WGear := { g with core := { g.core with module_ := v } }

/-- `cone_angle`, gggears_wrapper.py:70-73: `gearcore.cone` is the cone of the recipe evaluated at 0. -/
def WGear.coneAngle (g : WGear) : ℝ := g.core.recipe.coneAngle

/-- `cone_angle = value`, gggears_wrapper.py:75-77: the assignment goes to `gearcore.cone`, a property that
evaluates the recipe (gggears_core.py:950-952) and hence returns a new object (gggears_base_classes.py:36-44). -/
def WGear.setConeAngle (g : WGear) (_v : ℝ) : WGear := g

/-- `center`, gggears_wrapper.py:79-82. -/
def WGear.center (g : WGear) : V3 := g.core.transform.center

/-- `center = value`, gggears_wrapper.py:84-86. -/
def WGear.setCenter (g : WGear) (v : V3) : WGear :=
  { g with core := { g.core with transform := { g.core.transform with center := v } } }

/-- `angle`, gggears_wrapper.py:174-177. -/
def WGear.angle (g : WGear) : ℝ := g.core.transform.angle

/-- `angle = value`, gggears_wrapper.py:179-181. -/
def WGear.setAngle (g : WGear) (v : ℝ) : WGear :=
  { g with core := { g.core with transform := { g.core.transform with angle := v } } }

/-- Any later placement of the gear (by `mesh_to`, setters, `reset_location`): these write only centre,
orientation and angle of `gearcore.transform`. -/
def WGear.place (g : WGear) (c : V3) (o : M3) (a : ℝ) : WGear :=
  { g with core := { g.core with transform := { center := c, orientation := o, scale := g.core.transform.scale,
                                                angle := a } } }

/-- `cone_data`, gggears_wrapper.py:55-63. -/
noncomputable def WGear.coneData (g : WGear) : ConicData :=
  ⟨g.coneAngle, g.pitchRadius / g.module_, g.core.transform.toTransformData⟩

/-- `center_spherical`, gggears_wrapper.py:88-94. For `tan γ = 0` numpy gives inf or NaN; theorems assume
otherwise. -/
noncomputable def WGear.centerSpherical (g : WGear) : V3 :=
  applyGearTransform (g.module_⁻¹ • g.coneData.center) g.core.transform

/-- `z_height`, gggears_wrapper.py:183-197. -/
noncomputable def WGear.zHeight (g : WGear) : ℝ :=
  let z0 := g.core.zVals.getD 1 0
  let z1 := g.core.zVals.getD 0 0
  norm3 (applyGearTransform (g.core.recipe.center z0 - g.core.recipe.center z1) g.core.transform)

/-- `radii_data_gen(z).r_p_curve.radius`, gggears_wrapper.py:199-217: the distance between a transformed point of
the circle and the transformed centre (curve.py:1308-1315, 1264). -/
noncomputable def WGear.pitchCircleRadius (g : WGear) (z : ℝ) : ℝ :=
  norm3 (applyGearTransform ((g.core.tooth.numTeeth / 2) • RIGHT) (g.core.transformAt z)
    - applyGearTransform ORIGIN (g.core.transformAt z))

/-- Point of the flank of tooth `k` in the slice at height `z`, with the gear turned by `turn`: the lower flank is the
involute of the generator, the upper one its mirror image (gggears_core.py:527-531); the slice is placed by the recipe
and the gear transform (gggears_core.py:754-772, 1005-1018). The trimming is left out: `t` ranges over the whole
involute. -/
noncomputable def WGear.flank (g : WGear) (upper : Bool) (tSol z turn : ℝ) (k : ℤ) (t : ℝ) : V3 :=
  let fl := g.core.recipe.gen.involuteFlank tSol z
  let p := involuteCircle t fl.1 fl.2 0 0
  applyGearTransform (if upper then mulV p ![1, -1, 1] else p)
    { g.core.transformAt z with angle := (g.core.transformAt z).angle + turn + k * g.pitchAngle }

/-- Point of a flank of a cylindrical cycloid gear, as `WGear.flank`: outside or inside the pitch circle, on the lower
side of tooth `k` or (`mirrored`) on the upper one. -/
noncomputable def WGear.cycloidFlank (g : WGear) (outside mirrored : Bool) (z turn : ℝ) (k : ℤ) (t : ℝ) : V3 :=
  let p := g.core.recipe.gen.cycloidFlank outside z t
  applyGearTransform (if mirrored then mulV p ![1, -1, 1] else p)
    { g.core.transformAt z with angle := (g.core.transformAt z).angle + turn + k * g.pitchAngle }

/-- What `CycloidGear.mesh_to` reads of a cycloid gear. -/
noncomputable def WGear.cycloidObj (g : WGear) : GearObj :=
  { kind := .cycloid
    tooth := g.core.tooth
    insideInput := g.input.insideTeeth
    coneAngle := g.coneAngle
    helixAngle := g.input.helixAngle
    module_ := g.core.module_
    baseRadius1 := 0
    baseAngle := 0
    transform := g.core.transform }

/-- `self.mesh_to(other, target_dir)` of cycloid gears, gggears_wrapper.py:1803-1857: only `gearcore.transform` of
`self` is written. -/
noncomputable def WGear.meshToCycloid (self other : WGear) (targetDir : V3) : Option WGear :=
  (self.cycloidObj.meshToCycloid other.cycloidObj targetDir).map fun o =>
    { self with core := { self.core with transform := o.transform } }

/-- The coefficient assignments of `adapt_cycloid_radii`, gggears_wrapper.py:1870-1907. -/
noncomputable def adaptInputs (self other : WGear) : GearInput × GearInput :=
  let ns := self.numberOfTeeth
  let no := other.numberOfTeeth
  if self.insideTeeth then
    let s := { self.input with insideCycloid := other.input.insideCycloid / ns * no }
    (s, { other.input with outsideCycloid := s.outsideCycloid / no * ns })
  else if other.insideTeeth then
    let s := { self.input with outsideCycloid := other.input.outsideCycloid / ns * no }
    (s, { other.input with insideCycloid := s.insideCycloid / no * ns })
  else
    let s := { self.input with outsideCycloid := other.input.insideCycloid / ns * no }
    (s, { other.input with outsideCycloid := s.insideCycloid / no * ns })

/-- `self.adapt_cycloid_radii(other)` of two different cycloid gears, gggears_wrapper.py:1859-1909: the new states of
both. -/
noncomputable def adaptCycloidRadii (self other : WGear) : WGear × WGear :=
  let r := adaptInputs self other
  (cycloidGear r.1, cycloidGear r.2)

end Verif
