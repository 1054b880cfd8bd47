import Verif.Model.CoreGear

/-!
# Core gears and the objects they are made from

`Gear` of `/repo/src/gggears/gggears_core.py:898-1073` with its tooth generator, recipe, transform and the cone argument as
objects in a heap. What the functions of a recipe refer to (reference curve, number of teeth, heights) belongs to the gear
alone, or is never changed by the package (`tooth_param`), and is kept as values.
-/

namespace Verif

open Real

/-- The tooth generators that a gear accepts: `GearToothGenerator`, gggears_base_classes.py:484; `GearToothConicGenerator`,
531; `InvoluteTooth`, `InvoluteUndercutTooth`, `OctoidTooth`, `OctoidUndercutTooth` and `CycloidTooth`, gearteeth.py:10, 128,
203, 268 and 565. -/
inductive FlankClass where
  | flat
  | conic
  | involute
  | involuteUndercut
  | octoid
  | octoidUndercut
  | cycloid
  deriving DecidableEq

/-- A tooth generator. Numbers are constant functions of the height. `coneAngle = none`, `pitchAngle = none`: the object has no
such attribute. `own` are the attributes that no gear touches (pressure angle or tooth angle, limits, coefficients). -/
structure FlankGen where
  cls : FlankClass
  own : ℝ → List ℝ
  pitchIntersectAngle : ℝ → ℝ
  pitchRadius : ℝ → ℝ
  coneAngle : Option (ℝ → Option ℝ)
  pitchAngle : Option ℝ

/-- A tooth generator evaluated at a height: what `generate_tooth_curve` reads. -/
structure FlankData where
  cls : FlankClass
  own : List ℝ
  pitchIntersectAngle : ℝ
  pitchRadius : ℝ
  coneAngle : Option ℝ
  pitchAngle : Option ℝ

/-- `tooth_generator(z)`, `ZFunctionMixin.__call__`, gggears_base_classes.py:36-44. The constructor is called with all
attributes; the one of `GearToothGenerator` (485-496) has no parameter `cone_angle`: `TypeError`, `none`. -/
def FlankGen.eval (g : FlankGen) (z : ℝ) : Option FlankData :=
  match g.coneAngle with
  | none => some ⟨g.cls, g.own z, g.pitchIntersectAngle z, g.pitchRadius z, none, g.pitchAngle⟩
  | some c =>
    if g.cls = .flat then none
    else (c z).map fun a => ⟨g.cls, g.own z, g.pitchIntersectAngle z, g.pitchRadius z, some a, g.pitchAngle⟩

/-- `GearToothConicGenerator()`, gggears_base_classes.py:531-544; `tooth_angle` 0 and the limits
`ToothLimitParam(h_a=1, h_d=1.2, h_o=2)` (328-343). -/
noncomputable def FlankGen.default : FlankGen :=
  ⟨.conic, fun _ => [0, 1, 12 / 10, 2], fun _ => π / 16, fun _ => 1, some fun _ => some (π / 4), none⟩

/-- A recipe: its functions, without the tooth generator, and the generator it refers to. -/
structure RecipeObj where
  slice : ℝ → Option CoreSlice
  gen : ℕ

/-- A gear: `module`, `z_vals`, `tooth_param`, `tooth_generator`, `shape_recipe`, `transform`. -/
structure GearRec where
  module_ : ℝ
  zVals : List ℝ
  tooth : GearToothParam
  gen : ℕ
  recipe : ℕ
  transform : ℕ

/-- The objects. New ones are appended. -/
structure CoreHeap where
  gens : List FlankGen
  recipes : List RecipeObj
  transforms : List GearTransform
  cones : List ConicData
  gears : List GearRec

/-- What a user sees of a gear: all that its methods read. -/
structure GearSight where
  core : CoreGear
  flank : ℝ → Option FlankData

/-- The gear `g` with the contents of its recipe, transform and tooth generator. `shape_recipe(z)` evaluates the tooth generator
along with everything else (gggears_base_classes.py:22-26, 36-44), so a failing generator makes every use of the recipe fail. -/
def GearRec.sight (g : GearRec) (r : RecipeObj) (T : GearTransform) (G : FlankGen) : GearSight :=
  ⟨⟨g.module_, g.zVals, g.tooth, fun z => (G.eval z).bind fun _ => r.slice z, T⟩,
    fun z => (r.slice z).bind fun _ => G.eval z⟩

/-- The gear at address `a` in the present state of the objects. -/
def CoreHeap.sight (H : CoreHeap) (a : ℕ) : Option GearSight :=
  match H.gears[a]? with
  | none => none
  | some g =>
    match H.recipes[g.recipe]?, H.transforms[g.transform]? with
    | some r, some T => (H.gens[r.gen]?).map (g.sight r T)
    | _, _ => none

/-- The three assignments of `gear_recipe_from_curve`, gggears_core.py:880-882, and the one of `Gear.__init__` for cylinders,
gggears_core.py:939-941. `recipe` are the functions made by `gear_recipe_from_curve`. -/
noncomputable def FlankGen.fit (G : FlankGen) (numTeeth gamma : ℝ) (recipe : ℝ → Option CoreSlice) : FlankGen :=
  { G with
    pitchRadius := fun _ => numTeeth / 2
    coneAngle := some (if gamma = 0 then fun _ => some 0 else fun z => (recipe z).map fun s => s.coneAngle)
    pitchIntersectAngle := fun _ => 2 * π / numTeeth / 4 }

/-- The line `cone.base_radius = self.tooth_param.num_teeth / 2`, gggears_core.py:924; `cone.gamma` is read afterwards (929,
939). Without the argument a new `ConicData()` is used and dropped. -/
noncomputable def CoreHeap.takeCone (H : CoreHeap) (numTeeth : ℝ) : Option ℕ → Option (CoreHeap × ℝ)
  | none => some (H, 0)
  | some k =>
    match H.cones[k]? with
    | none => none
    | some c => some ({ H with cones := H.cones.set k { c with baseRadius := numTeeth / 2 } }, c.gamma)

/-- The tooth generator of the gear, gggears_core.py:913-917: the argument itself or a new object. -/
noncomputable def CoreHeap.takeGen (H : CoreHeap) : Option ℕ → CoreHeap × ℕ
  | some g => (H, g)
  | none => ({ H with gens := H.gens ++ [.default] }, H.gens.length)

/-- The transform of the gear, gggears_core.py:945-948: the argument itself or a new object. -/
noncomputable def CoreHeap.takeTransform (H : CoreHeap) (module_ : ℝ) : Option ℕ → CoreHeap × ℕ
  | some t => (H, t)
  | none => ({ H with transforms := H.transforms ++ [{ GearTransform.default with scale := module_ }] },
      H.transforms.length)

/-- The recipe of the gear, gggears_core.py:925-944: the argument itself, or a new one that refers to the tooth generator `g`,
whose attributes are overwritten. -/
noncomputable def CoreHeap.takeRecipe (H : CoreHeap) (zVals : List ℝ) (numTeeth gamma : ℝ) (g : ℕ) :
    Option ℕ → Option (CoreHeap × ℕ)
  | some r => some (H, r)
  | none =>
    match H.gens[g]? with
    | none => none
    | some G =>
      let recipe := gearRecipeFromCurve numTeeth (defaultRefCurve numTeeth gamma zVals).eval
        (fun z => z / (zVals.getLastD 0 - zVals.headD 0)) DELTA
      let slice := if gamma = 0 then fun z => (recipe z).map fun s => { s with coneAngle := 0 } else recipe
      some ({ H with gens := H.gens.set g (G.fit numTeeth gamma recipe)
                     recipes := H.recipes ++ [⟨slice, g⟩] }, H.recipes.length)

/-- `Gear.__init__`, gggears_core.py:901-948. -/
noncomputable def CoreHeap.newGear (H : CoreHeap) (zVals : List ℝ) (module_ : ℝ) (tooth : GearToothParam)
    (gen recipe transform cone : Option ℕ) : Option CoreHeap :=
  let (H, g) := H.takeGen gen
  match H.takeCone tooth.numTeeth cone with
  | none => none
  | some (H, gamma) =>
    match H.takeRecipe zVals tooth.numTeeth gamma g recipe with
    | none => none
    | some (H, r) =>
      let (H, t) := H.takeTransform module_ transform
      some { H with gears := H.gears ++ [⟨module_, zVals, tooth, g, r, t⟩] }

/-- `Gear.swap_tooth_generator`, gggears_core.py:1020-1028. The attribute `cone_angle` of a generator that has none:
`AttributeError`, `none`. -/
def CoreHeap.swapGen (H : CoreHeap) (a gen : ℕ) : Option CoreHeap :=
  match H.gears[a]?, H.gens[gen]? with
  | some g, some G =>
    match H.recipes[g.recipe]? with
    | none => none
    | some r =>
      match H.gens[r.gen]? with
      | none => none
      | some old =>
        match old.coneAngle with
        | none => none
        | some c =>
          let tg := { G with
            pitchRadius := old.pitchRadius
            coneAngle := some c
            pitchIntersectAngle := old.pitchIntersectAngle }
          some { H with
            gens := H.gens ++ [tg]
            gears := H.gears.set a { g with gen := H.gens.length }
            recipes := H.recipes.set g.recipe { r with gen := H.gens.length } }
  | _, _ => none

/-- `Gear.copy`, gggears_core.py:1017-1018: `copy.deepcopy`. Functions are not copied; those of a recipe do not refer to the
gear. The generator of the gear and of its recipe are one object in the copy if they are one in the original. -/
def CoreHeap.copyGear (H : CoreHeap) (a : ℕ) : Option CoreHeap :=
  match H.gears[a]? with
  | none => none
  | some g =>
    match H.gens[g.gen]?, H.recipes[g.recipe]?, H.transforms[g.transform]? with
    | some G, some r, some T =>
      match H.gens[r.gen]? with
      | none => none
      | some G2 =>
        let one := r.gen = g.gen
        some { H with
          gens := H.gens ++ (if one then [G] else [G, G2])
          recipes := H.recipes ++ [{ r with gen := if one then H.gens.length else H.gens.length + 1 }]
          transforms := H.transforms ++ [T]
          gears := H.gears ++ [{ g with gen := H.gens.length, recipe := H.recipes.length
                                        transform := H.transforms.length }] }
    | _, _, _ => none

/-- The last two assignments of both branches of `mesh_to`: the orientation, then the angle computed from the transforms as they
are by then, gggears_core.py:1040-1058 and 1065-1073. `t`, `u`: addresses of the transforms of `self` and `other`. -/
noncomputable def CoreHeap.turn (H : CoreHeap) (t u : ℕ) (self other : CoreGear) (orientation : M3) : Option CoreHeap :=
  match H.transforms[t]? with
  | none => none
  | some T =>
    let H : CoreHeap := { H with transforms := H.transforms.set t { T with orientation := orientation } }
    match H.transforms[t]?, H.transforms[u]? with
    | some T, some U => some { H with transforms := H.transforms.set t { T with
        angle := calcMeshAngle T U self.tooth.pitchAngle other.tooth.pitchAngle self.tooth.insideTeeth
          other.tooth.insideTeeth } }
    | _, _ => none

/-- `Gear.mesh_to`, gggears_core.py:1030-1073, statement by statement: the transform of `other` is read again after each
assignment to the transform of `self`. -/
noncomputable def CoreHeap.mesh (H : CoreHeap) (a b : ℕ) (targetDir : V3) : Option CoreHeap :=
  match H.gears[a]?, H.gears[b]?, H.sight a, H.sight b with
  | some g, some h, some s, some o =>
    match s.core.cone, o.core.cone with
    | some c1, some c2 =>
      if c1.coneAngle ≠ 0 ∨ c2.coneAngle ≠ 0 then
        match calcBevelGearPlacementVector targetDir c1 c2 g.tooth.insideTeeth h.tooth.insideTeeth 0 with
        | none => none
        | some v0 =>
          let H : CoreHeap :=
            { H with transforms := H.transforms.set g.transform { s.core.transform with center := v0 } }
          match H.transforms[h.transform]? with
          | none => none
          | some U =>
            match calcMeshOrientation c1.coneAngle c2.coneAngle c1.R U g.tooth.insideTeeth h.tooth.insideTeeth
              targetDir 0 with
            | none => none
            | some m => H.turn g.transform h.transform s.core o.core m
      else
        let distance := if g.tooth.insideTeeth || h.tooth.insideTeeth then |s.core.rp - o.core.rp|
          else s.core.rp + o.core.rp
        let H : CoreHeap := { H with transforms := H.transforms.set g.transform { s.core.transform with
          center := distance • targetDir + o.core.transform.center } }
        match H.transforms[h.transform]? with
        | none => none
        | some U => H.turn g.transform h.transform s.core o.core U.orientation
    | _, _ => none
  | _, _, _, _ => none

/-- The setter `center`, gggears_core.py:970-972. -/
def CoreHeap.setCenter (H : CoreHeap) (a : ℕ) (c : V3) : Option CoreHeap :=
  match H.gears[a]? with
  | none => none
  | some g =>
    match H.transforms[g.transform]? with
    | none => none
    | some T => some { H with transforms := H.transforms.set g.transform { T with center := c } }

/-- Statements of a user's program. -/
inductive CoreAct where
  | makeGen (G : FlankGen)
  | makeRecipe (slice : ℝ → Option CoreSlice) (gen : ℕ)
  | makeTransform (T : GearTransform)
  | makeCone (c : ConicData)
  | makeGear (zVals : List ℝ) (module_ : ℝ) (tooth : GearToothParam) (gen recipe transform cone : Option ℕ)
  | swap (a gen : ℕ)
  | copy (a : ℕ)
  | mesh (a b : ℕ) (targetDir : V3)
  | center (a : ℕ) (c : V3)

/-- One statement. `none`: it raises, or an argument is not an object. -/
noncomputable def CoreHeap.step (H : CoreHeap) : CoreAct → Option CoreHeap
  | .makeGen G => some { H with gens := H.gens ++ [G] }
  | .makeRecipe s g => if g < H.gens.length then some { H with recipes := H.recipes ++ [⟨s, g⟩] } else none
  | .makeTransform T => some { H with transforms := H.transforms ++ [T] }
  | .makeCone c => some { H with cones := H.cones ++ [c] }
  | .makeGear zVals m tooth gen recipe transform cone =>
    if (∀ i ∈ gen, i < H.gens.length) ∧ (∀ i ∈ recipe, i < H.recipes.length) ∧
        (∀ i ∈ transform, i < H.transforms.length) then
      H.newGear zVals m tooth gen recipe transform cone
    else none
  | .swap a gen => H.swapGen a gen
  | .copy a => H.copyGear a
  | .mesh a b d => H.mesh a b d
  | .center a c => H.setCenter a c

/-- A program. -/
noncomputable def CoreHeap.run (H : CoreHeap) : List CoreAct → Option CoreHeap
  | [] => some H
  | x :: xs => (H.step x).bind fun H' => H'.run xs

/-- No objects. -/
def CoreHeap.empty : CoreHeap := ⟨[], [], [], [], []⟩

end Verif
