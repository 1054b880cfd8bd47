import Verif.Model.GearMath
import Verif.Model.Flank

/-!
# Model of gear objects and their placement methods

`InvoluteGear`, `HelicalGear` and `CycloidGear` of `/repo/src/gggears/gggears_wrapper.py`, as far
as the placement methods (`mesh_to`, `reset_location`, setters) use them.
-/

namespace Verif

open Real

/-- `GearToothParam`, gggears_base_classes.py:257-303, after `__post_init__`. -/
structure GearToothParam where
  numTeeth : ℝ
  numCutoutTeeth : ℝ
  insideTeeth : Bool

/-- Constructor with `__post_init__`, gggears_base_classes.py:284-291. -/
noncomputable def GearToothParam.make (numTeeth : ℝ) (cutout : ℝ) (inside : Bool) :
    GearToothParam :=
  if numTeeth < 0 then ⟨-numTeeth, cutout, !inside⟩ else ⟨numTeeth, cutout, inside⟩

/-- `num_teeth_act`, gggears_base_classes.py:293-296. -/
noncomputable def GearToothParam.numTeethAct (p : GearToothParam) : ℤ :=
  ⌊p.numTeeth - p.numCutoutTeeth⌋

/-- `pitch_angle`, gggears_base_classes.py:298-301. -/
noncomputable def GearToothParam.pitchAngle (p : GearToothParam) : ℝ := 2 * π / p.numTeeth

/-- `InvoluteInputParam`, gggears_wrapper.py:289-309, the fields that influence placement and
tooth flanks. -/
structure InvParam where
  numTeeth : ℝ
  height : ℝ
  helixAngle : ℝ
  coneAngle : ℝ
  center : V3
  angle : ℝ
  module_ : ℝ
  profileShift : ℝ
  pressureAngle : ℝ
  backlash : ℝ
  crowning : ℝ
  insideTeeth : Bool
  zAnchor : ℝ

/-- The sign normalisation of `InvoluteGear.__init__`, gggears_wrapper.py:428-430. -/
noncomputable def InvParam.normalise (p : InvParam) : InvParam :=
  if p.numTeeth < 0 then { p with numTeeth := -p.numTeeth, insideTeeth := !p.insideTeeth } else p

/-- `crowning_func(z, tooth_angle)` of `calc_params`, gggears_wrapper.py:498-513: the
`pitch_intersect_angle` of the recipe at `z`. -/
noncomputable def InvParam.pitchIntersectAngle (p : InvParam) (z : ℝ) : ℝ :=
  let rpRef := p.numTeeth / 2
  let pitchAngle := 2 * π / p.numTeeth
  let toothAngle := pitchAngle / 4 + p.profileShift * tan p.pressureAngle / rpRef
    - p.backlash / rpRef
  toothAngle - (z * 2 / p.height - 1) ^ 2 * p.crowning / rpRef * (1 / 1000)

/-- Classes with different placement methods: `InvoluteGear` (and `SpurGear`, `SpurRingGear`,
`HelicalRingGear`, `BevelGear`, which inherit), `HelicalGear`, `CycloidGear`. -/
inductive GearKind
  | involute | helical | cycloid
  deriving DecidableEq

/-- What the placement methods read from a gear object. `baseRadius1` and `baseAngle` are what
`tooth_generator.get_base_radius()` and `get_base_angle()` return (recomputed by the code on every
access from parameters that the placement methods never write). `insideInput` is
`inputparam.inside_teeth`, `tooth` is `gearcore.tooth_param`. -/
structure GearObj where
  kind : GearKind
  tooth : GearToothParam
  insideInput : Bool
  coneAngle : ℝ
  helixAngle : ℝ
  module_ : ℝ
  baseRadius1 : ℝ
  baseAngle : ℝ
  transform : GearTransform

/-- `InvoluteGear.__init__` and `calc_params`, gggears_wrapper.py:405-592, as far as kept in
`GearObj`. `tSol` is the involute parameter found by the root search in
`generate_involute_curve`. `kind` is `involute` or `helical`; for `HelicalGear` the argument is
the transverse data that its constructor hands to `InvoluteGear.__init__` (1097-1115). -/
noncomputable def InvParam.construct (kind : GearKind) (raw : InvParam) (tSol : ℝ) : GearObj :=
  let p := raw.normalise
  let flank := spurInvolute (p.pitchIntersectAngle 0) (p.numTeeth / 2) p.pressureAngle tSol
  { kind := kind
    tooth := GearToothParam.make p.numTeeth 0 p.insideTeeth
    insideInput := p.insideTeeth
    coneAngle := p.coneAngle
    helixAngle := p.helixAngle
    module_ := p.module_
    baseRadius1 := flank.1
    baseAngle := flank.2
    transform := { center := p.center, orientation := 1, scale := p.module_, angle := p.angle } }

/-- `CycloidGear.__init__` and `calc_params`, gggears_wrapper.py:1615-1756, as far as kept in
`GearObj`. Negative tooth counts are not normalised in `inputparam`. Cycloid gears have no base
circle: the two base fields are placeholders that no method reads. -/
noncomputable def InvParam.constructCycloid (raw : InvParam) : GearObj :=
  { kind := .cycloid
    tooth := GearToothParam.make raw.numTeeth 0 raw.insideTeeth
    insideInput := raw.insideTeeth
    coneAngle := raw.coneAngle
    helixAngle := raw.helixAngle
    module_ := raw.module_
    baseRadius1 := 0
    baseAngle := 0
    transform := { center := raw.center, orientation := 1, scale := raw.module_,
                   angle := raw.angle } }

/-- `pitch_radius`, gggears_wrapper.py:37-40. -/
noncomputable def GearObj.pitchRadius (g : GearObj) : ℝ := g.tooth.numTeeth * g.module_ / 2

/-- `pitch_angle`, gggears_wrapper.py:169-172. -/
noncomputable def GearObj.pitchAngle (g : GearObj) : ℝ := g.tooth.pitchAngle

/-- `inside_teeth`, gggears_wrapper.py:31-34. -/
def GearObj.insideTeeth (g : GearObj) : Bool := g.tooth.insideTeeth

/-- `cone_data`, gggears_wrapper.py:55-63. The transform is the gear transform; `ConicData` only
uses its `TransformData` part. -/
noncomputable def GearObj.coneData (g : GearObj) : ConicData :=
  ⟨g.coneAngle, g.pitchRadius / g.module_, g.transform.toTransformData⟩

/-- `r_base`, gggears_wrapper.py:451-455 with `circle_involute_base` 468-481, for cone angle 0
(where the recipe's scale is 1): the radius scaled by the placement. -/
noncomputable def GearObj.rBase (g : GearObj) : ℝ := g.baseRadius1 * g.transform.scale

/-- `angle_base`, gggears_wrapper.py:457-466. -/
noncomputable def GearObj.angleBase (g : GearObj) : ℝ := g.baseAngle

/-- Point of the lower flank of tooth `k` of a spur gear whose angle was advanced by `turn`: the
involute `involute_circle(t, r=base_radius, angle=base_angle)` of the tooth generator
(gearteeth.py:43-66), repeated at every pitch angle (gggears_core.py:754-794) and placed by
`gearcore.transform` (gggears_base_classes.py:212-218). The trimming of the flank at tip and root
is left out: `t` ranges over the whole involute. -/
noncomputable def GearObj.lowerFlank (g : GearObj) (turn : ℝ) (k : ℤ) (t : ℝ) : V3 :=
  applyGearTransform (involuteCircle t g.baseRadius1 g.baseAngle 0 0)
    { g.transform with angle := g.transform.angle + turn + k * g.pitchAngle }

/-- Point of the upper flank: the `MirroredCurve(tooth_curve, plane_normal=UP)` of
gggears_core.py:599-648, placed as for `lowerFlank`. -/
noncomputable def GearObj.upperFlank (g : GearObj) (turn : ℝ) (k : ℤ) (t : ℝ) : V3 :=
  applyGearTransform (mulV (involuteCircle t g.baseRadius1 g.baseAngle 0 0) ![1, -1, 1])
    { g.transform with angle := g.transform.angle + turn + k * g.pitchAngle }

/-- The branch of `mesh_to` for conical gears, gggears_wrapper.py:665-691 (involute) and
1815-1841 (cycloid): `R` of `gearcore.cone` uses the default transform; with `offset = 0` it has
no effect. `none`: NaN placement. -/
noncomputable def GearObj.meshToBevel (self other : GearObj) (targetDir : V3) : Option GearObj :=
  match calcBevelGearPlacementVector targetDir self.coneData other.coneData
      self.insideInput other.insideInput 0 with
  | none => none
  | some v0 =>
    match calcMeshOrientation self.coneAngle other.coneAngle
        (ConicData.R ⟨self.coneAngle, self.tooth.numTeeth / 2, TransformData.default⟩)
        other.transform self.insideInput other.insideInput targetDir 0 with
    | none => none
    | some o =>
      let trf : GearTransform := { self.transform with center := v0, orientation := o }
      let angle := calcMeshAngle trf other.transform self.pitchAngle other.pitchAngle
        self.insideTeeth other.insideTeeth
      some { self with transform := { trf with angle := angle } }

/-- The branch of `mesh_to` for two cylindrical gears at a given axial distance,
gggears_wrapper.py:702-716 and 1847-1857. -/
noncomputable def GearObj.meshToAt (self other : GearObj) (targetDir : V3) (distance angleAdd : ℝ) :
    GearObj :=
  let v0 := distance • targetDir + other.transform.center
  let trf : GearTransform :=
    { self.transform with center := v0, orientation := other.transform.orientation }
  let angle := calcMeshAngle trf other.transform self.pitchAngle other.pitchAngle
    self.insideTeeth other.insideTeeth + angleAdd
  { self with transform := { trf with angle := angle } }

/-- The axial distance `mesh_to` computes for two cylindrical involute gears,
gggears_wrapper.py:693-701. -/
noncomputable def GearObj.meshDistance (solve : (ℝ → ℝ) → ℝ) (self other : GearObj)
    (backlash : ℝ) : ℝ :=
  calcInvoluteMeshDistance solve self.rBase other.rBase (-self.angleBase)
    (-other.angleBase) other.pitchAngle (self.insideTeeth || other.insideTeeth) backlash

/-- `InvoluteGear.mesh_to`, gggears_wrapper.py:641-716. `none`: NaN (zero target direction, or a
target direction along the axis of a bevel gear), or `AttributeError` (a cylindrical cycloid gear
as partner has no `r_base`). -/
noncomputable def GearObj.meshToInvolute (solve : (ℝ → ℝ) → ℝ) (self other : GearObj)
    (targetDir : V3) (backlash angleBias : ℝ) : Option GearObj :=
  match normalizeVector targetDir with
  | none => none
  | some dir =>
    if self.coneAngle ≠ 0 ∨ other.coneAngle ≠ 0 then self.meshToBevel other dir
    else if other.kind = .cycloid then none
    else
      let distance := self.meshDistance solve other backlash
      some (self.meshToAt other dir distance (angleBias / 2 * backlash / self.rBase))

/-- `HelicalGear.mesh_to`, gggears_wrapper.py:1166-1175. -/
noncomputable def GearObj.meshToHelical (solve : (ℝ → ℝ) → ℝ) (self other : GearObj)
    (targetDir : V3) : Option GearObj :=
  match self.meshToInvolute solve other targetDir 0 0 with
  | none => none
  | some g =>
    match normalizeVector (other.transform.center - g.transform.center) with
    | none => none
    | some rotAxis =>
      let angleAxis := self.helixAngle + other.helixAngle
      some { g with transform := { g.transform with
        orientation := fromRotvec (angleAxis • rotAxis) * g.transform.orientation } }

/-- `CycloidGear.mesh_to`, gggears_wrapper.py:1803-1857. The target direction is not
normalised. -/
noncomputable def GearObj.meshToCycloid (self other : GearObj) (targetDir : V3) : Option GearObj :=
  if self.coneAngle ≠ 0 ∨ other.coneAngle ≠ 0 then self.meshToBevel other targetDir
  else
    let distance :=
      if self.insideTeeth || other.insideTeeth then |self.pitchRadius - other.pitchRadius|
      else self.pitchRadius + other.pitchRadius
    some (self.meshToAt other targetDir distance 0)

/-- Method dispatch of `mesh_to` on the class of the receiver. `HelicalGear` and `CycloidGear`
do not take `backlash` and `angle_bias`. -/
noncomputable def GearObj.meshTo (solve : (ℝ → ℝ) → ℝ) (self other : GearObj) (targetDir : V3)
    (backlash angleBias : ℝ) : Option GearObj :=
  match self.kind with
  | .involute => self.meshToInvolute solve other targetDir backlash angleBias
  | .helical => self.meshToHelical solve other targetDir
  | .cycloid => self.meshToCycloid other targetDir

/-- `InvoluteGear.reset_location`, gggears_wrapper.py:718-722. -/
def GearObj.resetLocation (self : GearObj) : GearObj :=
  { self with transform := { self.transform with center := ORIGIN, orientation := 1, angle := 0 } }

/-- Setter `center`, gggears_wrapper.py:84-86. -/
def GearObj.setCenter (self : GearObj) (c : V3) : GearObj :=
  { self with transform := { self.transform with center := c } }

/-- Setter `angle`, gggears_wrapper.py:179-181. -/
def GearObj.setAngle (self : GearObj) (a : ℝ) : GearObj :=
  { self with transform := { self.transform with angle := a } }

/-- The calls of a gear-train script. -/
inductive GearOp
  | construct (helical : Bool) (p : InvParam) (tSol : ℝ)
  | constructCycloid (p : InvParam)
  | meshTo (i j : ℕ) (targetDir : V3) (backlash angleBias : ℝ)
  | resetLocation (i : ℕ)
  | setCenter (i : ℕ) (c : V3)
  | setAngle (i : ℕ) (a : ℝ)

/-- One call on the list of gears built so far. `none`: an index out of range, meshing a gear to
itself (not modelled), a NaN placement, or a method the class does not have (`CycloidGear` has no
`reset_location`). -/
noncomputable def GearOp.step (solve : (ℝ → ℝ) → ℝ) (s : List GearObj) : GearOp → Option (List GearObj)
  | .construct helical p tSol =>
    some (s ++ [p.construct (if helical then .helical else .involute) tSol])
  | .constructCycloid p => some (s ++ [p.constructCycloid])
  | .meshTo i j dir b bias =>
    if i = j then none
    else match s[i]?, s[j]? with
      | some g, some h => (g.meshTo solve h dir b bias).map fun g' => s.set i g'
      | _, _ => none
  | .resetLocation i => (s[i]?).bind fun g =>
    if g.kind = .cycloid then none else some (s.set i g.resetLocation)
  | .setCenter i c => (s[i]?).map fun g => s.set i (g.setCenter c)
  | .setAngle i a => (s[i]?).map fun g => s.set i (g.setAngle a)

/-- A history of calls. -/
noncomputable def runOps (solve : (ℝ → ℝ) → ℝ) (s : List GearObj) : List GearOp → Option (List GearObj)
  | [] => some s
  | op :: ops => (op.step solve s).bind fun s' => runOps solve s' ops

end Verif
