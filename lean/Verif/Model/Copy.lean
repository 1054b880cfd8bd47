import Verif.Model.Wrapper

/-!
# Gears as objects: what copies share

The gear classes of `/repo/src/gggears/gggears_wrapper.py` with their parts as objects in a heap. The functions that
`calc_params` puts into a recipe refer to the gear object `self` they were made for, and `copy.deepcopy` returns
functions themselves. Arrays and small records that only one object refers to are values. `builder` is left out.
-/

namespace Verif

open Real

/-- A function of the height that a recipe or a tooth generator holds. -/
inductive ZFun where
  /-- `lambda z: crowning_func(z, tooth_angle)`, gggears_wrapper.py:498-505, 530 and 1691-1698, 1721. -/
  | crowning (self : ℕ) (rp offset : ℝ)
  /-- `lambda z: (1 - z * 2 * np.sin(gamma) / self.number_of_teeth)`, gggears_wrapper.py:582. -/
  | scaleTeeth (self : ℕ) (gamma : ℝ)
  /-- `lambda z: 1 * (1 - z * 2 * np.sin(gamma) / self.inputparam.number_of_teeth)`, gggears_wrapper.py:1746-1747. -/
  | scaleInput (self : ℕ) (gamma : ℝ)

/-- Which `calc_params` and `update_tooth_param` an object has: `InvoluteGear` and the classes that do not override them,
gggears_wrapper.py:484-592; `HelicalRingGear`, 1325-1327; `CycloidGear`, 1677-1756. -/
inductive GearClass where
  | involute
  | helicalRing
  | cycloid
  deriving DecidableEq

/-- An object. `gen` has the limits object of the recipe, too (gggears_wrapper.py:531). The functions inside `plain` and
`G` that are objects here (`gen`, `limits`, `scale`, `pitch_intersect_angle`) are not read. -/
inductive Obj where
  | gear (cls : GearClass) (input core : ℕ)
  | input (p : GearInput)
  | core (zVals : List ℝ) (module_ : ℝ) (tooth recipe transform : ℕ)
  | tooth (t : GearToothParam)
  | transform (T : GearTransform)
  | recipe (plain : ProfileRecipe) (gen limits : ℕ) (scale : ZFun)
  | limits (l : ToothLimitParam)
  | gen (G : ToothGen) (pitchIntersectAngle : ZFun)

abbrev ObjHeap := List Obj

/-- Addresses and contents of the parts of a gear. -/
structure Layout where
  a : ℕ
  cls : GearClass
  i : ℕ
  p : GearInput
  c : ℕ
  zVals : List ℝ
  module_ : ℝ
  t : ℕ
  tooth : GearToothParam
  r : ℕ
  plain : ProfileRecipe
  scale : ZFun
  tr : ℕ
  T : GearTransform
  g : ℕ
  G : ToothGen
  pia : ZFun
  l : ℕ
  limits : ToothLimitParam

/-- Following the attributes of the gear object at address `a`. `none`: `AttributeError`. -/
def layout (H : ObjHeap) (a : ℕ) : Option Layout :=
  match H[a]? with
  | some (.gear cls i c) =>
    match H[i]?, H[c]? with
    | some (.input p), some (.core zVals m t r tr) =>
      match H[t]?, H[r]?, H[tr]? with
      | some (.tooth tp), some (.recipe pl g l s), some (.transform T) =>
        match H[g]?, H[l]? with
        | some (.gen G f), some (.limits L) => some ⟨a, cls, i, p, c, zVals, m, t, tp, r, pl, s, tr, T, g, G, f, l, L⟩
        | _, _ => none
      | _, _, _ => none
    | _, _ => none
  | _ => none

/-- `self.inputparam`. -/
def inputOf (H : ObjHeap) (self : ℕ) : Option GearInput :=
  match H[self]? with
  | some (.gear _ i _) =>
    match H[i]? with
    | some (.input p) => some p
    | _ => none
  | _ => none

/-- `self.number_of_teeth`, gggears_wrapper.py:26-29. -/
def teethOf (H : ObjHeap) (self : ℕ) : Option ℝ :=
  match H[self]? with
  | some (.gear _ _ c) =>
    match H[c]? with
    | some (.core _ _ t _ _) =>
      match H[t]? with
      | some (.tooth tp) => some tp.numTeeth
      | _ => none
    | _ => none
  | _ => none

/-- What the function computes in the present state of the objects. -/
noncomputable def ZFun.read (H : ObjHeap) : ZFun → Option (ℝ → ℝ)
  | .crowning self rp offset => (inputOf H self).map fun p z =>
      offset - (z * 2 / p.height - 1) ^ 2 * p.crowning / rp * (1 / 1000)
  | .scaleTeeth self gamma => (teethOf H self).map fun n z => 1 - z * 2 * sin gamma / n
  | .scaleInput self gamma => (inputOf H self).map fun p z => 1 - z * 2 * sin gamma / p.numTeeth

/-- The generator with the given function and limits. -/
def ToothGen.refill (f : ℝ → ℝ) (L : ToothLimitParam) : ToothGen → ToothGen
  | .involute a r _ _ c => .involute a r f L c
  | .involuteUndercut a r _ _ c q => .involuteUndercut a r f L c q
  | .octoid a r _ c => .octoid a r f c
  | .octoidUndercut a r _ _ c q => .octoidUndercut a r f L c q
  | .cycloid r _ c i o => .cycloid r f c i o

/-- The gear that a user sees: everything that its methods read, evaluated in the present state of the objects. -/
noncomputable def view (H : ObjHeap) (a : ℕ) : Option WGear :=
  match layout H a with
  | none => none
  | some L =>
    match L.scale.read H, L.pia.read H with
    | some s, some f => some ⟨L.p,
        { tooth := L.tooth
          zVals := L.zVals
          module_ := L.module_
          recipe := { L.plain with gen := L.G.refill f L.limits, limits := L.limits, scale := s }
          transform := L.T }⟩
    | _, _ => none

/-- What `calc_params` computes, as values. -/
noncomputable def GearClass.core : GearClass → GearInput → GearCore
  | .involute, p => p.calcParams (GearToothParam.make p.numTeeth 0 p.insideTeeth)
  | .helicalRing, p => p.calcParams (GearToothParam.make p.numTeeth 0 true)
  | .cycloid, p => p.calcCycloid

/-- The function for `pitch_intersect_angle`, gggears_wrapper.py:507-513, 530 and 1700, 1721. -/
noncomputable def GearClass.pia : GearClass → GearInput → ℕ → ZFun
  | .cycloid, p, self => .crowning self (p.numTeeth / 2) (2 * π / p.numTeeth / 4 - p.backlash / (p.numTeeth / 2))
  | _, p, self => .crowning self (p.numTeeth / 2) p.toothAngle

/-- The function for `scale`, gggears_wrapper.py:582 and 1746-1747. -/
noncomputable def GearClass.scale : GearClass → GearInput → ℕ → ZFun
  | .cycloid, p, self => .scaleInput self (p.coneAngle / 2)
  | _, p, self => .scaleTeeth self (p.coneAngle / 2)

/-- The objects that `calc_params` makes, from address `n` on; the last one is the new `gearcore`. -/
noncomputable def coreObjs (n self : ℕ) (cls : GearClass) (p : GearInput) : ObjHeap :=
  [.tooth (cls.core p).tooth,
   .limits (cls.core p).recipe.limits,
   .gen (cls.core p).recipe.gen (cls.pia p self),
   .recipe (cls.core p).recipe (n + 2) (n + 1) (cls.scale p self),
   .transform (cls.core p).transform,
   .core (cls.core p).zVals (cls.core p).module_ n (n + 3) (n + 4)]

/-- What a user, or the code of a method, can do with one gear. -/
inductive ObjOp where
  /-- Assignments to `gearcore.transform`: the setters of `center` and `angle`, gggears_wrapper.py:82-84 and 165-167,
  `reset_location`, 718-722, and every `mesh_to`, 641-716. -/
  | place (T : GearTransform)
  /-- The setter of `module`, gggears_wrapper.py:51-53. -/
  | module_ (m : ℝ)
  /-- `gearcore.z_vals = ...`, gggears_wrapper.py:1124-1128, 1159. -/
  | sections (zVals : List ℝ)
  /-- `gearcore.shape_recipe.transform.angle = ...`, gggears_wrapper.py:1138. -/
  | angle (f : ℝ → ℝ)
  /-- `gearcore.shape_recipe.limits.h_o = ...`, gggears_wrapper.py:983. -/
  | ring (h : ℝ)
  /-- The setters of the cycloid coefficients, gggears_wrapper.py:1664-1674. -/
  | cycloid (insideCycloid outsideCycloid : ℝ)
  /-- `calc_params`, gggears_wrapper.py:490-592 and 1683-1756. -/
  | recalc
  /-- Direct assignments to attributes of `inputparam`. -/
  | param (p : GearInput)

/-- The effect on the objects. -/
noncomputable def ObjOp.run (H : ObjHeap) (L : Layout) : ObjOp → ObjHeap
  | .place T => H.set L.tr (.transform T)
  | .module_ m => H.set L.c (.core L.zVals m L.t L.r L.tr)
  | .sections zs => H.set L.c (.core zs L.module_ L.t L.r L.tr)
  | .angle f => H.set L.r (.recipe { L.plain with angle := f } L.g L.l L.scale)
  | .ring h => H.set L.l (.limits { L.limits with hO := h })
  | .cycloid x y => H.set L.i (.input { L.p with insideCycloid := x, outsideCycloid := y })
  | .recalc => (H ++ coreObjs H.length L.a L.cls L.p).set L.a (.gear L.cls L.i (H.length + 5))
  | .param p => H.set L.i (.input p)

/-- The objects of a new gear, `__init__`, gggears_wrapper.py:405-434 and 1615-1658; `p` is the normalised input. -/
noncomputable def newGear (H : ObjHeap) (cls : GearClass) (p : GearInput) : ObjHeap × ℕ :=
  (H ++ (coreObjs H.length (H.length + 7) cls p ++ [.input p, .gear cls (H.length + 6) (H.length + 5)]), H.length + 7)

/-- `copy()`, gggears_wrapper.py:742-743 and 1929-1931: `copy.deepcopy(self)`. The memo table of deepcopy keeps the
generator and the recipe of the copy on one limits object. -/
noncomputable def copyGear (H : ObjHeap) (L : Layout) : ObjHeap × ℕ :=
  (H ++ [.tooth L.tooth, .limits L.limits, .gen L.G L.pia,
    .recipe L.plain (H.length + 2) (H.length + 1) L.scale, .transform L.T,
    .core L.zVals L.module_ H.length (H.length + 3) (H.length + 4), .input L.p,
    .gear L.cls (H.length + 6) (H.length + 5)], H.length + 7)

/-- A program's gears. -/
structure World where
  heap : ObjHeap
  gears : List ℕ

/-- A statement of a program. -/
inductive Act where
  | new (cls : GearClass) (p : GearInput)
  | copy (a : ℕ)
  | op (a : ℕ) (o : ObjOp)

/-- Running a statement. `none`: the gear does not exist or misses a part. -/
noncomputable def Act.run (W : World) : Act → Option World
  | .new cls p => some ⟨(newGear W.heap cls p).1, W.gears ++ [(newGear W.heap cls p).2]⟩
  | .copy a => if a ∈ W.gears then
      (layout W.heap a).map fun L => ⟨(copyGear W.heap L).1, W.gears ++ [(copyGear W.heap L).2]⟩ else none
  | .op a o => if a ∈ W.gears then (layout W.heap a).map fun L => ⟨o.run W.heap L, W.gears⟩ else none

/-- Running a program. -/
noncomputable def runActs (W : World) : List Act → Option World
  | [] => some W
  | s :: l => (s.run W).bind fun W' => runActs W' l

end Verif
