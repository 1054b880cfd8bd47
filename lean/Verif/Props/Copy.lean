import Verif.Model.Copy
import Verif.Props.Wrapper

/-! # Property C133 -/

namespace Verif

open Real

section C133
variable {H : ObjHeap} {L M : Layout}

/-- The heap has the parts at their addresses. -/
structure Has (H : ObjHeap) (L : Layout) : Prop where
  a : H[L.a]? = some (.gear L.cls L.i L.c)
  i : H[L.i]? = some (.input L.p)
  c : H[L.c]? = some (.core L.zVals L.module_ L.t L.r L.tr)
  t : H[L.t]? = some (.tooth L.tooth)
  r : H[L.r]? = some (.recipe L.plain L.g L.l L.scale)
  tr : H[L.tr]? = some (.transform L.T)
  g : H[L.g]? = some (.gen L.G L.pia)
  l : H[L.l]? = some (.limits L.limits)

theorem layout_iff {a : ℕ} : layout H a = some L ↔ Has H L ∧ L.a = a := by
  constructor
  · intro h
    unfold layout at h
    split at h
    · split at h
      · split at h
        · split at h
          · cases h
            refine ⟨⟨?_, ?_, ?_, ?_, ?_, ?_, ?_, ?_⟩, rfl⟩ <;> assumption
          all_goals cases h
        all_goals cases h
      all_goals cases h
    all_goals cases h
  · rintro ⟨h, rfl⟩
    simp only [layout, h.a, h.i, h.c, h.t, h.r, h.tr, h.g, h.l]

/-- The objects that belong to one gear. -/
def Layout.own (L : Layout) : List ℕ := [L.a, L.i, L.c, L.t, L.r, L.tr, L.g, L.l]

theorem Has.lt (h : Has H L) {x : ℕ} (hx : x ∈ L.own) : x < H.length := by
  have key : ∀ {y : ℕ} {o : Obj}, H[y]? = some o → y < H.length := fun e => (List.getElem?_eq_some_iff.1 e).1
  simp only [Layout.own, List.mem_cons, List.not_mem_nil, or_false] at hx
  rcases hx with rfl | rfl | rfl | rfl | rfl | rfl | rfl | rfl
  exacts [key h.a, key h.i, key h.c, key h.t, key h.r, key h.tr, key h.g, key h.l]

/-- The parts stay where they are when other addresses change. -/
theorem Has.congr (h : Has H L) {H' : ObjHeap} (e : ∀ x ∈ L.own, H'[x]? = H[x]?) : Has H' L := by
  have m : ∀ x, x ∈ L.own ↔ x = L.a ∨ x = L.i ∨ x = L.c ∨ x = L.t ∨ x = L.r ∨ x = L.tr ∨ x = L.g ∨ x = L.l := by
    intro x; simp [Layout.own]
  constructor
  · rw [e _ ((m _).2 (by simp)), h.a]
  · rw [e _ ((m _).2 (by simp)), h.i]
  · rw [e _ ((m _).2 (by simp)), h.c]
  · rw [e _ ((m _).2 (by simp)), h.t]
  · rw [e _ ((m _).2 (by simp)), h.r]
  · rw [e _ ((m _).2 (by simp)), h.tr]
  · rw [e _ ((m _).2 (by simp)), h.g]
  · rw [e _ ((m _).2 (by simp)), h.l]

theorem Has.append (h : Has H L) (X : ObjHeap) : Has (H ++ X) L :=
  h.congr fun _ hx => List.getElem?_append_left (h.lt hx)

theorem Has.set (h : Has H L) {x : ℕ} (hx : x ∉ L.own) (o : Obj) : Has (H.set x o) L :=
  h.congr fun y hy => by rw [List.getElem?_set_ne]; rintro rfl; exact hx hy

/-- The parts after an operation. -/
noncomputable def ObjOp.after (n : ℕ) (L : Layout) : ObjOp → Layout
  | .place T => { L with T := T }
  | .module_ m => { L with module_ := m }
  | .sections zs => { L with zVals := zs }
  | .angle f => { L with plain := { L.plain with angle := f } }
  | .ring h => { L with limits := { L.limits with hO := h } }
  | .cycloid x y => { L with p := { L.p with insideCycloid := x, outsideCycloid := y } }
  | .param p => { L with p := p }
  | .recalc =>
    { L with
      c := n + 5
      zVals := (L.cls.core L.p).zVals
      module_ := (L.cls.core L.p).module_
      t := n
      tooth := (L.cls.core L.p).tooth
      r := n + 3
      plain := (L.cls.core L.p).recipe
      scale := L.cls.scale L.p L.a
      tr := n + 4
      T := (L.cls.core L.p).transform
      g := n + 2
      G := (L.cls.core L.p).recipe.gen
      pia := L.cls.pia L.p L.a
      l := n + 1
      limits := (L.cls.core L.p).recipe.limits }

theorem getElem?_set_other {x y : ℕ} {o o1 o2 : Obj} (hy : H[y]? = some o1) (hx : H[x]? = some o2) (hne : o1 ≠ o2) :
    (H.set x o)[y]? = some o1 := by
  rw [List.getElem?_set_ne, hy]
  rintro rfl
  rw [hy] at hx
  exact hne (Option.some.inj hx)

theorem getElem?_set_here {x : ℕ} {o o2 : Obj} (hx : H[x]? = some o2) : (H.set x o)[x]? = some o :=
  List.getElem?_set_self (List.getElem?_eq_some_iff.1 hx).1

theorem has_after (h : Has H L) (o : ObjOp) : Has (o.run H L) (o.after H.length L) := by
  cases o with
  | place T =>
    refine ⟨?_, ?_, ?_, ?_, ?_, ?_, ?_, ?_⟩
    exacts [getElem?_set_other h.a h.tr (by simp), getElem?_set_other h.i h.tr (by simp),
      getElem?_set_other h.c h.tr (by simp), getElem?_set_other h.t h.tr (by simp), getElem?_set_other h.r h.tr (by simp),
      getElem?_set_here h.tr, getElem?_set_other h.g h.tr (by simp), getElem?_set_other h.l h.tr (by simp)]
  | module_ m =>
    refine ⟨?_, ?_, ?_, ?_, ?_, ?_, ?_, ?_⟩
    exacts [getElem?_set_other h.a h.c (by simp), getElem?_set_other h.i h.c (by simp), getElem?_set_here h.c,
      getElem?_set_other h.t h.c (by simp), getElem?_set_other h.r h.c (by simp), getElem?_set_other h.tr h.c (by simp),
      getElem?_set_other h.g h.c (by simp), getElem?_set_other h.l h.c (by simp)]
  | sections zs =>
    refine ⟨?_, ?_, ?_, ?_, ?_, ?_, ?_, ?_⟩
    exacts [getElem?_set_other h.a h.c (by simp), getElem?_set_other h.i h.c (by simp), getElem?_set_here h.c,
      getElem?_set_other h.t h.c (by simp), getElem?_set_other h.r h.c (by simp), getElem?_set_other h.tr h.c (by simp),
      getElem?_set_other h.g h.c (by simp), getElem?_set_other h.l h.c (by simp)]
  | angle f =>
    refine ⟨?_, ?_, ?_, ?_, ?_, ?_, ?_, ?_⟩
    exacts [getElem?_set_other h.a h.r (by simp), getElem?_set_other h.i h.r (by simp),
      getElem?_set_other h.c h.r (by simp), getElem?_set_other h.t h.r (by simp), getElem?_set_here h.r,
      getElem?_set_other h.tr h.r (by simp), getElem?_set_other h.g h.r (by simp), getElem?_set_other h.l h.r (by simp)]
  | ring v =>
    refine ⟨?_, ?_, ?_, ?_, ?_, ?_, ?_, ?_⟩
    exacts [getElem?_set_other h.a h.l (by simp), getElem?_set_other h.i h.l (by simp),
      getElem?_set_other h.c h.l (by simp), getElem?_set_other h.t h.l (by simp), getElem?_set_other h.r h.l (by simp),
      getElem?_set_other h.tr h.l (by simp), getElem?_set_other h.g h.l (by simp), getElem?_set_here h.l]
  | cycloid x y =>
    refine ⟨?_, ?_, ?_, ?_, ?_, ?_, ?_, ?_⟩
    exacts [getElem?_set_other h.a h.i (by simp), getElem?_set_here h.i, getElem?_set_other h.c h.i (by simp),
      getElem?_set_other h.t h.i (by simp), getElem?_set_other h.r h.i (by simp), getElem?_set_other h.tr h.i (by simp),
      getElem?_set_other h.g h.i (by simp), getElem?_set_other h.l h.i (by simp)]
  | param p =>
    refine ⟨?_, ?_, ?_, ?_, ?_, ?_, ?_, ?_⟩
    exacts [getElem?_set_other h.a h.i (by simp), getElem?_set_here h.i, getElem?_set_other h.c h.i (by simp),
      getElem?_set_other h.t h.i (by simp), getElem?_set_other h.r h.i (by simp), getElem?_set_other h.tr h.i (by simp),
      getElem?_set_other h.g h.i (by simp), getElem?_set_other h.l h.i (by simp)]
  | recalc =>
    have ha := h.lt (x := L.a) (by simp [Layout.own])
    have e : ∀ k, (H ++ coreObjs H.length L.a L.cls L.p)[H.length + k]? = (coreObjs H.length L.a L.cls L.p)[k]? := by
      intro k; rw [List.getElem?_append_right (by omega), Nat.add_sub_cancel_left]
    have e' : ∀ k, ((H ++ coreObjs H.length L.a L.cls L.p).set L.a (.gear L.cls L.i (H.length + 5)))[H.length + k]? =
        (coreObjs H.length L.a L.cls L.p)[k]? := by
      intro k; rw [List.getElem?_set_ne (by omega), e]
    refine ⟨?_, ?_, ?_, ?_, ?_, ?_, ?_, ?_⟩
    · exact getElem?_set_here (h.append _).a
    · exact getElem?_set_other (h.append _).i (h.append _).a (by simp)
    · exact (e' 5).trans rfl
    · exact (e' 0).trans rfl
    · exact (e' 3).trans rfl
    · exact (e' 4).trans rfl
    · exact (e' 2).trans rfl
    · exact (e' 1).trans rfl

theorem own_after (o : ObjOp) (n x : ℕ) (hx : x ∈ (o.after n L).own) : x ∈ L.own ∨ n ≤ x := by
  cases o with
  | recalc =>
    simp only [ObjOp.after, Layout.own, List.mem_cons, List.not_mem_nil, or_false] at hx ⊢
    omega
  | _ => exact .inl hx

theorem run_other (h : Has H L) (o : ObjOp) {x : ℕ} (hx : x < H.length) (hn : x ∉ L.own) : (o.run H L)[x]? = H[x]? := by
  simp only [Layout.own, List.mem_cons, List.not_mem_nil, or_false, not_or] at hn
  obtain ⟨n1, n2, n3, n4, n5, n6, n7, n8⟩ := hn
  cases o with
  | recalc =>
    simp only [ObjOp.run]
    rw [List.getElem?_set_ne (Ne.symm n1), List.getElem?_append_left hx]
  | _ => simp only [ObjOp.run]; exact List.getElem?_set_ne (Ne.symm (by assumption))

theorem run_length (o : ObjOp) : H.length ≤ (o.run H L).length := by
  cases o <;> simp [ObjOp.run]


/-- The gear a function refers to. -/
def ZFun.self : ZFun → ℕ
  | .crowning s _ _ => s
  | .scaleTeeth s _ => s
  | .scaleInput s _ => s

/-- What a function computes when the gear it refers to has these parameters. -/
noncomputable def ZFun.value (p : GearInput) (n : ℝ) : ZFun → ℝ → ℝ
  | .crowning _ rp offset => fun z => offset - (z * 2 / p.height - 1) ^ 2 * p.crowning / rp * (1 / 1000)
  | .scaleTeeth _ gamma => fun z => 1 - z * 2 * sin gamma / n
  | .scaleInput _ gamma => fun z => 1 - z * 2 * sin gamma / p.numTeeth

theorem read_has {S : Layout} (h : Has H S) (f : ZFun) (hf : f.self = S.a) :
    f.read H = some (f.value S.p S.tooth.numTeeth) := by
  cases f <;> simp only [ZFun.self] at hf <;> subst hf <;>
    simp [ZFun.read, ZFun.value, inputOf, teethOf, h.a, h.i, h.c, h.t]

/-- The gear with parts `L` whose functions refer to the gear with parts `S`. -/
noncomputable def viewOf (L S : Layout) : WGear :=
  ⟨L.p, { tooth := L.tooth
          zVals := L.zVals
          module_ := L.module_
          recipe := { L.plain with
            gen := L.G.refill (L.pia.value S.p S.tooth.numTeeth) L.limits
            limits := L.limits
            scale := L.scale.value S.p S.tooth.numTeeth }
          transform := L.T }⟩

theorem view_has {S : Layout} (h : Has H L) (hS : Has H S) (h1 : L.scale.self = S.a) (h2 : L.pia.self = S.a) :
    view H L.a = some (viewOf L S) := by
  simp only [view, layout_iff.2 ⟨h, rfl⟩, read_has hS _ h1, read_has hS _ h2, viewOf]

/-- What holds between the statements of a program. -/
structure World.Inv (W : World) (lay : ℕ → Layout) (src : ℕ → ℕ) : Prop where
  has : ∀ a ∈ W.gears, Has W.heap (lay a) ∧ (lay a).a = a
  src : ∀ a ∈ W.gears, src a ∈ W.gears ∧ (lay a).scale.self = src a ∧ (lay a).pia.self = src a
  sep : ∀ a ∈ W.gears, ∀ b ∈ W.gears, a ≠ b → ∀ x ∈ (lay a).own, x ∉ (lay b).own

variable {W W' : World} {lay : ℕ → Layout} {src : ℕ → ℕ}

theorem World.Inv.layout (h : W.Inv lay src) {a : ℕ} (ha : a ∈ W.gears) : layout W.heap a = some (lay a) :=
  layout_iff.2 (h.has a ha)

theorem World.Inv.lt (h : W.Inv lay src) {a : ℕ} (ha : a ∈ W.gears) : a < W.heap.length := by
  have := (h.has a ha).1.lt (x := (lay a).a) (by simp [Layout.own])
  rwa [(h.has a ha).2] at this

theorem World.Inv.view_eq (h : W.Inv lay src) {a : ℕ} (ha : a ∈ W.gears) :
    view W.heap a = some (viewOf (lay a) (lay (src a))) := by
  obtain ⟨h1, h2, h3⟩ := h.src a ha
  have := view_has (h.has a ha).1 (h.has _ h1).1 (h2.trans (h.has _ h1).2.symm) (h3.trans (h.has _ h1).2.symm)
  rwa [(h.has a ha).2] at this

/-- Adding a gear that is made of new objects only. -/
theorem World.Inv.extend (h : W.Inv lay src) {X : ObjHeap} {b : ℕ} {L : Layout} {s : ℕ} (hL : Has (W.heap ++ X) L)
    (hb : L.a = b) (hnew : ∀ x ∈ L.own, W.heap.length ≤ x) (hs : s ∈ W.gears ∨ s = b) (h1 : L.scale.self = s)
    (h2 : L.pia.self = s) :
    World.Inv ⟨W.heap ++ X, W.gears ++ [b]⟩ (Function.update lay b L) (Function.update src b s) ∧ b ∉ W.gears := by
  have hbn : b ∉ W.gears := fun hm => by
    have := h.lt hm
    have := hnew b (by simp [Layout.own, ← hb])
    omega
  have ne : ∀ a ∈ W.gears, a ≠ b := fun a ha e => hbn (e ▸ ha)
  refine ⟨⟨?_, ?_, ?_⟩, hbn⟩
  · intro a ha
    rcases List.mem_append.1 ha with ha | ha
    · rw [Function.update_of_ne (ne a ha)]
      exact ⟨(h.has a ha).1.append X, (h.has a ha).2⟩
    · rw [List.mem_singleton] at ha; subst ha
      rw [Function.update_self]; exact ⟨hL, hb⟩
  · intro a ha
    rcases List.mem_append.1 ha with ha | ha
    · rw [Function.update_of_ne (ne a ha), Function.update_of_ne (ne a ha)]
      exact ⟨List.mem_append_left _ (h.src a ha).1, (h.src a ha).2⟩
    · rw [List.mem_singleton] at ha; subst ha
      rw [Function.update_self, Function.update_self]
      exact ⟨by rcases hs with hs | hs <;> simp [hs], h1, h2⟩
  · intro a ha' c hc' hac x hx
    rcases List.mem_append.1 ha' with ha | ha <;> rcases List.mem_append.1 hc' with hc | hc
    · rw [Function.update_of_ne (ne a ha)] at hx
      rw [Function.update_of_ne (ne c hc)]
      exact h.sep a ha c hc hac x hx
    · rw [List.mem_singleton] at hc; subst hc
      rw [Function.update_of_ne (ne a ha)] at hx
      rw [Function.update_self]
      intro hm
      have := (h.has a ha).1.lt hx
      have := hnew x hm
      omega
    · rw [List.mem_singleton] at ha; subst ha
      rw [Function.update_self] at hx
      rw [Function.update_of_ne (ne c hc)]
      intro hm
      have := (h.has c hc).1.lt hm
      have := hnew x hx
      omega
    · rw [List.mem_singleton] at ha hc
      exact absurd (ha.trans hc.symm) hac

/-- The parts of a copy. -/
def Layout.copied (L : Layout) (n : ℕ) : Layout :=
  { L with a := n + 7, i := n + 6, c := n + 5, t := n, r := n + 3, tr := n + 4, g := n + 2, l := n + 1 }

theorem has_copied (L : Layout) : Has (copyGear H L).1 (L.copied H.length) := by
  have e : ∀ k, (copyGear H L).1[H.length + k]? = [Obj.tooth L.tooth, .limits L.limits, .gen L.G L.pia,
      .recipe L.plain (H.length + 2) (H.length + 1) L.scale, .transform L.T,
      .core L.zVals L.module_ H.length (H.length + 3) (H.length + 4), .input L.p,
      .gear L.cls (H.length + 6) (H.length + 5)][k]? := by
    intro k
    rw [copyGear, List.getElem?_append_right (by omega), Nat.add_sub_cancel_left]
  exact ⟨(e 7).trans rfl, (e 6).trans rfl, (e 5).trans rfl, (e 0).trans rfl, (e 3).trans rfl, (e 4).trans rfl,
    (e 2).trans rfl, (e 1).trans rfl⟩

/-- The parts of a new gear. -/
noncomputable def newLayout (n : ℕ) (cls : GearClass) (p : GearInput) : Layout where
  a := n + 7
  cls := cls
  i := n + 6
  p := p
  c := n + 5
  zVals := (cls.core p).zVals
  module_ := (cls.core p).module_
  t := n
  tooth := (cls.core p).tooth
  r := n + 3
  plain := (cls.core p).recipe
  scale := cls.scale p (n + 7)
  tr := n + 4
  T := (cls.core p).transform
  g := n + 2
  G := (cls.core p).recipe.gen
  pia := cls.pia p (n + 7)
  l := n + 1
  limits := (cls.core p).recipe.limits

theorem has_new (cls : GearClass) (p : GearInput) : Has (newGear H cls p).1 (newLayout H.length cls p) := by
  have e : ∀ k, (newGear H cls p).1[H.length + k]? = (coreObjs H.length (H.length + 7) cls p ++ [.input p,
      .gear cls (H.length + 6) (H.length + 5)])[k]? := by
    intro k
    rw [newGear, List.getElem?_append_right (by omega), Nat.add_sub_cancel_left]
  exact ⟨(e 7).trans rfl, (e 6).trans rfl, (e 5).trans rfl, (e 0).trans rfl, (e 3).trans rfl, (e 4).trans rfl,
    (e 2).trans rfl, (e 1).trans rfl⟩

theorem scale_self (cls : GearClass) (p : GearInput) (s : ℕ) : (cls.scale p s).self = s := by cases cls <;> rfl

theorem pia_self (cls : GearClass) (p : GearInput) (s : ℕ) : (cls.pia p s).self = s := by cases cls <;> rfl

/-- What the functions read of the gear they refer to. -/
def SameRead (S S' : Layout) : Prop :=
  S.p.height = S'.p.height ∧ S.p.crowning = S'.p.crowning ∧ S.p.numTeeth = S'.p.numTeeth ∧
    S.tooth.numTeeth = S'.tooth.numTeeth

theorem viewOf_same {S S' : Layout} (h : SameRead S S') (L : Layout) : viewOf L S = viewOf L S' := by
  obtain ⟨h1, h2, h3, h4⟩ := h
  have e : ∀ f : ZFun, f.value S.p S.tooth.numTeeth = f.value S'.p S'.tooth.numTeeth := by
    intro f; cases f <;> simp only [ZFun.value, h1, h2, h3, h4]
  simp only [viewOf, e]

theorem after_a (o : ObjOp) (n : ℕ) : (o.after n L).a = L.a := by cases o <;> rfl

/-- After the operation the functions of gear `a` refer to this gear. -/
def ObjOp.source (a : ℕ) (src : ℕ → ℕ) : ObjOp → ℕ → ℕ
  | .recalc => Function.update src a a
  | _ => src

theorem World.Inv.op (h : W.Inv lay src) {a : ℕ} (ha : a ∈ W.gears) (o : ObjOp) :
    World.Inv ⟨o.run W.heap (lay a), W.gears⟩ (Function.update lay a (o.after W.heap.length (lay a))) (o.source a src) := by
  have hL := (h.has a ha).1
  have hother : ∀ b ∈ W.gears, b ≠ a → Has (o.run W.heap (lay a)) (lay b) := by
    intro b hb hne
    refine (h.has b hb).1.congr fun x hx => run_other hL o ((h.has b hb).1.lt hx) (h.sep b hb a ha hne x hx)
  refine ⟨?_, ?_, ?_⟩
  · intro b hb
    by_cases hne : b = a
    · subst hne
      rw [Function.update_self]
      exact ⟨has_after hL o, (after_a o _).trans (h.has b hb).2⟩
    · rw [Function.update_of_ne hne]
      exact ⟨hother b hb hne, (h.has b hb).2⟩
  · intro b hb
    by_cases hne : b = a
    · subst hne
      rw [Function.update_self]
      cases o with
      | recalc =>
        simp only [ObjOp.source, Function.update_self]
        refine ⟨hb, ?_, ?_⟩
        · rw [ObjOp.after]; simp only [scale_self]; exact (h.has b hb).2
        · rw [ObjOp.after]; simp only [pia_self]; exact (h.has b hb).2
      | _ => exact h.src b hb
    · rw [Function.update_of_ne hne]
      have : o.source a src b = src b := by
        cases o <;> simp [ObjOp.source, hne]
      rw [this]
      exact h.src b hb
  · intro b hb c hc hbc x hx
    have key : ∀ d ∈ W.gears, d ≠ a → ∀ y ∈ (o.after W.heap.length (lay a)).own, y ∉ (lay d).own := by
      intro d hd hda y hy hm
      rcases own_after o _ y hy with h1 | h1
      · exact h.sep a ha d hd (Ne.symm hda) y h1 hm
      · have := (h.has d hd).1.lt hm
        omega
    by_cases h1 : b = a
    · subst h1
      rw [Function.update_self] at hx
      rw [Function.update_of_ne (Ne.symm hbc)]
      exact key c hc (Ne.symm hbc) x hx
    · rw [Function.update_of_ne h1] at hx
      by_cases h2 : c = a
      · subst h2
        rw [Function.update_self]
        exact fun hm => key b hb h1 x hm hx
      · rw [Function.update_of_ne h2]
        exact h.sep b hb c hc hbc x hx

/-- The functions of the gears read the number of teeth that the gears were constructed with. -/
def World.Tidy (W : World) (lay : ℕ → Layout) : Prop :=
  ∀ a ∈ W.gears, (lay a).tooth = ((lay a).cls.core (lay a).p).tooth

/-- Statements that use the documented methods and properties: everything except assignments to `inputparam`. -/
def Act.Documented : Act → Prop
  | .op _ (.param _) => False
  | _ => True

/-- The statement does something with gear `b` other than copying it. -/
def Act.Changes (b : ℕ) : Act → Prop
  | .op a _ => a = b
  | _ => False

theorem after_tidy (o : ObjOp) (n : ℕ) (ho : ∀ p, o ≠ .param p) (h : L.tooth = (L.cls.core L.p).tooth) :
    (o.after n L).tooth = ((o.after n L).cls.core (o.after n L).p).tooth ∧ SameRead L (o.after n L) := by
  cases o with
  | param p => exact absurd rfl (ho p)
  | recalc => exact ⟨rfl, rfl, rfl, rfl, by rw [h]; rfl⟩
  | cycloid x y =>
    refine ⟨?_, rfl, rfl, rfl, rfl⟩
    simp only [ObjOp.after, h]
    cases L.cls <;> rfl
  | _ => exact ⟨h, rfl, rfl, rfl, rfl⟩

/-- One statement: there is the same invariant, the gears of before are still there, and gear `b` looks the same if the
statement is not about it and either `b` refers to itself or the statement is documented. -/
theorem World.Inv.step (h : W.Inv lay src) {s : Act} (hr : s.run W = some W') :
    ∃ lay' src', W'.Inv lay' src' ∧ (s.Documented → W.Tidy lay → W'.Tidy lay') ∧
      (∀ b ∈ W.gears, b ∈ W'.gears ∧ (¬s.Changes b → src' b = src b ∧
        ((src b = b ∨ s.Documented ∧ W.Tidy lay) → view W'.heap b = view W.heap b))) := by
  have ext : ∀ {X : ObjHeap} {b : ℕ} {L : Layout} {s : ℕ},
      World.Inv ⟨W.heap ++ X, W.gears ++ [b]⟩ (Function.update lay b L) (Function.update src b s) → b ∉ W.gears →
      ∀ c ∈ W.gears, c ∈ W.gears ++ [b] ∧ Function.update src b s c = src c ∧ view (W.heap ++ X) c = view W.heap c := by
    intro X b L s hi hb c hc
    have ne : ∀ c ∈ W.gears, c ≠ b := fun c hc e => hb (e ▸ hc)
    have hc' : c ∈ W.gears ++ [b] := List.mem_append_left _ hc
    refine ⟨hc', Function.update_of_ne (ne c hc) _ _, ?_⟩
    rw [h.view_eq hc, hi.view_eq hc', Function.update_of_ne (ne c hc), Function.update_of_ne (ne c hc),
      Function.update_of_ne (ne _ (h.src c hc).1)]
  cases s with
  | new cls p =>
    simp only [Act.run, Option.some.injEq] at hr
    subst hr
    obtain ⟨hi, hb⟩ := h.extend (b := W.heap.length + 7) (has_new cls p) rfl
      (by simp only [newLayout, Layout.own, List.mem_cons, List.not_mem_nil, or_false]; intro x hx; omega)
      (.inr rfl) (scale_self cls p _) (pia_self cls p _)
    refine ⟨_, _, hi, fun _ ht a ha => ?_, fun b hbm => ?_⟩
    · rcases List.mem_append.1 ha with ha | ha
      · rw [Function.update_of_ne (by rintro rfl; exact hb ha)]
        exact ht a ha
      · rw [List.mem_singleton] at ha
        rw [show a = W.heap.length + 7 from ha, Function.update_self]
        rfl
    · obtain ⟨e1, e2, e3⟩ := ext hi hb b hbm
      exact ⟨e1, fun _ => ⟨e2, fun _ => e3⟩⟩
  | copy a =>
    simp only [Act.run] at hr
    split_ifs at hr with ha
    rw [h.layout ha, Option.map_some, Option.some.injEq] at hr
    subst hr
    obtain ⟨hi, hb⟩ := h.extend (b := W.heap.length + 7) (has_copied (H := W.heap) (lay a)) rfl
      (by simp only [Layout.copied, Layout.own, List.mem_cons, List.not_mem_nil, or_false]; intro x hx; omega)
      (.inl (h.src a ha).1) (h.src a ha).2.1 (h.src a ha).2.2
    refine ⟨_, _, hi, fun _ ht c hc => ?_, fun b hbm => ?_⟩
    · rcases List.mem_append.1 hc with hc | hc
      · rw [Function.update_of_ne (by rintro rfl; exact hb hc)]
        exact ht c hc
      · rw [List.mem_singleton] at hc
        rw [show c = W.heap.length + 7 from hc, Function.update_self]
        exact ht a ha
    · obtain ⟨e1, e2, e3⟩ := ext hi hb b hbm
      exact ⟨e1, fun _ => ⟨e2, fun _ => e3⟩⟩
  | op a o =>
    simp only [Act.run] at hr
    split_ifs at hr with ha
    rw [h.layout ha, Option.map_some, Option.some.injEq] at hr
    subst hr
    have hi := h.op ha o
    have hpar : (Act.op a o).Documented → ∀ p, o ≠ .param p := by
      rintro hd p rfl
      exact hd
    refine ⟨_, _, hi, fun hd ht c hc => ?_, fun b hbm => ⟨hbm, fun hne => ?_⟩⟩
    · by_cases e : c = a
      · subst e
        rw [Function.update_self]
        exact (after_tidy o _ (hpar hd) (ht c hc)).1
      · rw [Function.update_of_ne e]
        exact ht c hc
    · replace hne : b ≠ a := fun e => hne e.symm
      have hs : o.source a src b = src b := by
        cases o <;> simp [ObjOp.source, hne]
      refine ⟨hs, fun hcase => ?_⟩
      rw [h.view_eq hbm, hi.view_eq hbm, hs, Function.update_of_ne hne]
      by_cases hsa : src b = a
      · rcases hcase with hb | ⟨hd, ht⟩
        · exact absurd (hb.symm.trans hsa) hne
        · rw [hsa, Function.update_self]
          exact congrArg some (viewOf_same (after_tidy o _ (hpar hd) (ht a ha)).2 _).symm
      · rw [Function.update_of_ne hsa]

theorem inv_empty : World.Inv ⟨[], []⟩ (fun _ => newLayout 0 .involute exampleInput) id := by
  constructor <;> simp

theorem World.Inv.run (h : W.Inv lay src) {l : List Act} (hr : runActs W l = some W') :
    ∃ lay' src', W'.Inv lay' src' ∧ ((∀ s ∈ l, s.Documented) → W.Tidy lay → W'.Tidy lay') ∧
      (∀ b ∈ W.gears, b ∈ W'.gears ∧ ((∀ s ∈ l, ¬s.Changes b) → src' b = src b ∧
        ((src b = b ∨ (∀ s ∈ l, s.Documented) ∧ W.Tidy lay) → view W'.heap b = view W.heap b))) := by
  induction l generalizing W lay src with
  | nil =>
    simp only [runActs, Option.some.injEq] at hr
    subst hr
    exact ⟨lay, src, h, fun _ ht => ht, fun b hb => ⟨hb, fun _ => ⟨rfl, fun _ => rfl⟩⟩⟩
  | cons s l ih =>
    simp only [runActs] at hr
    obtain ⟨V, hV, hr⟩ := Option.bind_eq_some_iff.1 hr
    obtain ⟨lay1, src1, h1, t1, v1⟩ := h.step hV
    obtain ⟨lay2, src2, h2, t2, v2⟩ := ih h1 hr
    refine ⟨lay2, src2, h2, fun hd ht => t2 (fun s hs => hd s (List.mem_cons_of_mem _ hs)) (t1 (hd s List.mem_cons_self) ht),
      fun b hb => ⟨(v2 b (v1 b hb).1).1, fun hc => ?_⟩⟩
    obtain ⟨e1, w1⟩ := (v1 b hb).2 (hc s List.mem_cons_self)
    obtain ⟨e2, w2⟩ := (v2 b (v1 b hb).1).2 fun s hs => hc s (List.mem_cons_of_mem _ hs)
    refine ⟨e2.trans e1, fun hcase => ?_⟩
    rw [w2, w1]
    · rcases hcase with hcase | ⟨hd, ht⟩
      · exact .inl hcase
      · exact .inr ⟨hd s List.mem_cons_self, ht⟩
    · rcases hcase with hcase | ⟨hd, ht⟩
      · exact .inl (e1.trans hcase)
      · exact .inr ⟨fun s hs => hd s (List.mem_cons_of_mem _ hs), t1 (hd s List.mem_cons_self) ht⟩

theorem view_new (n : ℕ) (cls : GearClass) (p : GearInput) :
    viewOf (newLayout n cls p) (newLayout n cls p) = ⟨p, cls.core p⟩ := by
  cases cls <;>
    simp only [viewOf, newLayout, GearClass.core, GearClass.pia, GearClass.scale, ZFun.value, GearInput.calcParams,
      GearInput.calcCycloid, GearInput.involuteGen, WGear.mk.injEq, true_and]
  · split_ifs <;> rfl
  · split_ifs <;> rfl
  · rfl

/-- Copying succeeds. The copy is a further gear that looks like the original, and no gear changes. -/
theorem c133_copy {l : List Act} (hr : runActs ⟨[], []⟩ l = some W) {a : ℕ} (ha : a ∈ W.gears) :
    ∃ W' b w, (Act.copy a).run W = some W' ∧ W'.gears = W.gears ++ [b] ∧ b ∉ W.gears ∧
      view W.heap a = some w ∧ view W'.heap b = some w ∧ ∀ c ∈ W.gears, view W'.heap c = view W.heap c := by
  obtain ⟨lay, src, h, -⟩ := inv_empty.run hr
  have hrun : (Act.copy a).run W = some ⟨(copyGear W.heap (lay a)).1, W.gears ++ [W.heap.length + 7]⟩ := by
    simp only [Act.run, if_pos ha, h.layout ha]
    rfl
  obtain ⟨hi, hb⟩ := h.extend (b := W.heap.length + 7) (has_copied (H := W.heap) (lay a)) rfl
    (by simp only [Layout.copied, Layout.own, List.mem_cons, List.not_mem_nil, or_false]; intro x hx; omega)
    (.inl (h.src a ha).1) (h.src a ha).2.1 (h.src a ha).2.2
  have ne : ∀ c ∈ W.gears, c ≠ W.heap.length + 7 := fun c hc e => hb (e ▸ hc)
  refine ⟨_, _, _, hrun, rfl, hb, h.view_eq ha, ?_, fun c hc => ?_⟩
  · refine (hi.view_eq (a := W.heap.length + 7) (by simp)).trans ?_
    rw [Function.update_self, Function.update_self, Function.update_of_ne (ne _ (h.src a ha).1)]
    rfl
  · refine (hi.view_eq (a := c) (by simp [hc])).trans ?_
    rw [Function.update_of_ne (ne c hc), Function.update_of_ne (ne c hc), Function.update_of_ne (ne _ (h.src c hc).1),
      h.view_eq hc]

/-- As long as a program uses only the documented methods and properties, a gear keeps its looks until something is
done with this gear itself, whichever of the other gears are copies of it or have it as a copy. -/
theorem c133_independent_partial {l : List Act} (hr : runActs ⟨[], []⟩ l = some W) (hl : ∀ s ∈ l, s.Documented) {b : ℕ}
    (hb : b ∈ W.gears) {more : List Act} (hm : ∀ s ∈ more, s.Documented) (hc : ∀ s ∈ more, ¬s.Changes b)
    (hr' : runActs W more = some W') : ∃ w, view W.heap b = some w ∧ view W'.heap b = some w := by
  obtain ⟨lay, src, h, ht, -⟩ := inv_empty.run hr
  obtain ⟨_, _, _, _, hv⟩ := h.run hr'
  refine ⟨_, h.view_eq hb, ?_⟩
  rw [((hv b hb).2 hc).2 (.inr ⟨hm, ht hl (by intro a ha; simp at ha)⟩), h.view_eq hb]

/-- A newly constructed gear has what its class computes from its input, and keeps its looks until something is done
with this gear itself, whatever the program does with other gears. -/
theorem c133_constructed {l : List Act} (hr : runActs ⟨[], []⟩ l = some W) (cls : GearClass) (p : GearInput) :
    ∃ W' b, (Act.new cls p).run W = some W' ∧ W'.gears = W.gears ++ [b] ∧ b ∉ W.gears ∧
      view W'.heap b = some ⟨p, cls.core p⟩ ∧
      ∀ (more : List Act) (V : World), runActs W' more = some V → (∀ s ∈ more, ¬s.Changes b) →
        view V.heap b = some ⟨p, cls.core p⟩ := by
  obtain ⟨lay, src, h, -⟩ := inv_empty.run hr
  obtain ⟨hi, hb⟩ := h.extend (b := W.heap.length + 7) (has_new cls p) rfl
    (by simp only [newLayout, Layout.own, List.mem_cons, List.not_mem_nil, or_false]; intro x hx; omega)
    (.inr rfl) (scale_self cls p _) (pia_self cls p _)
  have hmem : W.heap.length + 7 ∈ W.gears ++ [W.heap.length + 7] := by simp
  have hv := hi.view_eq hmem
  rw [Function.update_self, Function.update_self, Function.update_self, view_new] at hv
  refine ⟨_, _, rfl, rfl, hb, hv, fun more V hV hc => ?_⟩
  obtain ⟨_, _, _, _, hk⟩ := hi.run hV
  exact (((hk _ hmem).2 hc).2 (.inl (Function.update_self _ _ _))).trans hv

/-- After `calc_params()` a gear has what its class computes from its input, and from then on it does not depend on
other gears either, even if it is a copy. -/
theorem c133_recalculated {l : List Act} (hr : runActs ⟨[], []⟩ l = some W) {b : ℕ} (hb : b ∈ W.gears) :
    ∃ (W' : World) (cls : GearClass) (w : WGear), (Act.op b .recalc).run W = some W' ∧ view W.heap b = some w ∧
      view W'.heap b = some ⟨w.input, cls.core w.input⟩ ∧
      ∀ (more : List Act) (V : World), runActs W' more = some V → (∀ s ∈ more, ¬s.Changes b) →
        view V.heap b = some ⟨w.input, cls.core w.input⟩ := by
  obtain ⟨lay, src, h, -⟩ := inv_empty.run hr
  have hrun : (Act.op b .recalc).run W = some ⟨ObjOp.recalc.run W.heap (lay b), W.gears⟩ := by
    simp only [Act.run, if_pos hb, h.layout hb]
    rfl
  have hi := h.op hb .recalc
  have hs : ObjOp.source b src .recalc b = b := Function.update_self _ _ _
  have hv := hi.view_eq hb
  rw [hs, Function.update_self] at hv
  have e : viewOf (ObjOp.recalc.after W.heap.length (lay b)) (ObjOp.recalc.after W.heap.length (lay b)) =
      ⟨(lay b).p, (lay b).cls.core (lay b).p⟩ := by
    rw [← view_new (lay b).a (lay b).cls (lay b).p]
    simp only [viewOf, ObjOp.after, newLayout]
    cases (lay b).cls <;> rfl
  rw [e] at hv
  refine ⟨_, (lay b).cls, _, hrun, h.view_eq hb, hv, fun more V hV hc => ?_⟩
  obtain ⟨_, _, _, _, hk⟩ := hi.run hV
  exact (((hk b hb).2 hc).2 (.inl hs)).trans hv

/-- What the setters do to the gear a user sees. -/
noncomputable def WGear.assign (w : WGear) : ObjOp → Option WGear
  | .place T => some { w with core := { w.core with transform := T } }
  | .module_ m => some { w with core := { w.core with module_ := m } }
  | .sections zs => some { w with core := { w.core with zVals := zs } }
  | .angle f => some { w with core := { w.core with recipe := { w.core.recipe with angle := f } } }
  | .ring h => some { w with core := { w.core with recipe := { w.core.recipe with
      limits := { w.core.recipe.limits with hO := h }, gen := w.core.recipe.gen.setHO h } } }
  | .cycloid x y => some { w with input := { w.input with insideCycloid := x, outsideCycloid := y } }
  | _ => none

/-- The setters have their effect on a gear, whether or not it is a copy. -/
theorem c133_setters {l : List Act} (hr : runActs ⟨[], []⟩ l = some W) {a : ℕ} (ha : a ∈ W.gears) (o : ObjOp) :
    ∃ W' w, (Act.op a o).run W = some W' ∧ view W.heap a = some w ∧
      ∀ w', w.assign o = some w' → view W'.heap a = some w' := by
  obtain ⟨lay, src, h, -⟩ := inv_empty.run hr
  have hrun : (Act.op a o).run W = some ⟨o.run W.heap (lay a), W.gears⟩ := by
    simp only [Act.run, if_pos ha, h.layout ha]
    rfl
  have hi := h.op ha o
  have hv := hi.view_eq ha
  refine ⟨_, _, hrun, h.view_eq ha, fun w' hw => ?_⟩
  have hsrc : w' ≠ w' ∨ o.source a src a = src a := by
    cases o <;> first | exact .inr rfl | simp [WGear.assign] at hw
  replace hsrc := hsrc.resolve_left (by simp)
  have hread : viewOf (o.after W.heap.length (lay a)) (lay (src a)) = w' := by
    cases o with
    | recalc => simp [WGear.assign] at hw
    | param p => simp [WGear.assign] at hw
    | ring v =>
      cases hw
      simp only [viewOf, ObjOp.after]
      cases (lay a).G <;> rfl
    | _ => cases hw; rfl
  rw [hv, hsrc, Function.update_self, ← hread]
  by_cases e : src a = a
  · rw [e, Function.update_self]
    refine congrArg some (viewOf_same ?_ _)
    cases o with
    | recalc => simp [WGear.assign] at hw
    | param p => simp [WGear.assign] at hw
    | _ => exact ⟨rfl, rfl, rfl, rfl⟩
  · rw [Function.update_of_ne e]

/-- The gear classes are these programs: what `new` and the setters give are the gears of the value model. -/
theorem c133_classes (raw : GearInput) (h : ℝ) :
    (⟨raw.normalise, GearClass.involute.core raw.normalise⟩ : WGear) = involuteGear raw ∧
    (⟨raw, GearClass.cycloid.core raw⟩ : WGear) = cycloidGear raw ∧
    (involuteGear { raw with helixAngle := 0, coneAngle := 0, insideTeeth := true }).assign (.ring (-h)) =
      some (spurRingGear raw h) ∧
    (involuteGear raw.transverse).assign (.sections (helicalGear false raw).core.zVals) = some (helicalGear false raw) ∧
    ((involuteGear raw.transverse).assign (.sections (helicalGear true raw).core.zVals)).bind
      (·.assign (.angle (helicalGear true raw).core.recipe.angle)) = some (helicalGear true raw) ∧
    (⟨({ raw.transverse with insideTeeth := true } : GearInput).normalise,
      GearClass.helicalRing.core ({ raw.transverse with insideTeeth := true } : GearInput).normalise⟩ : WGear) =
      helicalRingGear false raw := by
  refine ⟨rfl, rfl, rfl, ?_, ?_, rfl⟩ <;>
    simp only [helicalGear, GearCore.refine, if_true, Bool.false_eq_true, if_false] <;> split_ifs <;> rfl

/-- What the copy of a gear shows after an assignment to `inputparam` of the original: the input of the copy is as
before, but its teeth follow the height and the crowning of the original. -/
theorem c133_shared (p q : GearInput) :
    ∃ W W', runActs ⟨[], []⟩ [.new .involute p, .copy 7] = some W ∧ W.gears = [7, 15] ∧
      view W.heap 15 = some ⟨p, GearClass.involute.core p⟩ ∧
      runActs W [.op 7 (.param q)] = some W' ∧
      ∃ w, view W'.heap 15 = some w ∧ w.input = p ∧ ∀ z, w.core.recipe.gen.pitchIntersectAngle z =
        p.toothAngle - (z * 2 / q.height - 1) ^ 2 * q.crowning / (p.numTeeth / 2) * (1 / 1000) := by
  refine ⟨_, _, rfl, rfl, congrArg some (view_new 0 .involute p), rfl, viewOf (newLayout 0 .involute p)
    { newLayout 0 .involute p with p := q }, rfl, rfl, fun z => ?_⟩
  simp only [viewOf, newLayout, GearClass.core, GearClass.pia, ZFun.value, GearInput.calcParams, GearInput.involuteGen]
  split_ifs <;> rfl

/-- The scale of the slices of the copy of a bevel gear after the original got another number of teeth and was
recalculated. -/
theorem c133_shared_scale (p q : GearInput) :
    ∃ W W', runActs ⟨[], []⟩ [.new .involute p, .copy 7] = some W ∧
      view W.heap 15 = some ⟨p, GearClass.involute.core p⟩ ∧
      runActs W [.op 7 (.param q), .op 7 .recalc] = some W' ∧
      ∃ w, view W'.heap 15 = some w ∧ w.input = p ∧ w.core.tooth = (GearClass.involute.core p).tooth ∧
        ∀ z, w.core.recipe.scale z = 1 - z * 2 * sin (p.coneAngle / 2) / (GearClass.involute.core q).tooth.numTeeth :=
  ⟨_, _, rfl, congrArg some (view_new 0 .involute p), rfl, viewOf (newLayout 0 .involute p)
    { newLayout 0 .involute p with p := q, tooth := (GearClass.involute.core q).tooth }, rfl, rfl, rfl, fun _ => rfl⟩

/-- Without the restriction to documented properties copies are not independent: crowning the original by
100 thousandths of the module thins the ends of the teeth of its copy, and giving a bevel gear half the number of teeth
makes its copy taper twice as fast. -/
theorem c133_violated :
    (∃ W W' w w', runActs ⟨[], []⟩ [.new .involute exampleInput, .copy 7] = some W ∧
      runActs W [.op 7 (.param { exampleInput with crowning := 100 })] = some W' ∧ 15 ∈ W.gears ∧
      view W.heap 15 = some w ∧ view W'.heap 15 = some w' ∧
      w'.core.recipe.gen.pitchIntersectAngle 0 = w.core.recipe.gen.pitchIntersectAngle 0 - 1 / 120) ∧
    (∃ W W' w w', runActs ⟨[], []⟩ [.new .involute { exampleInput with coneAngle := π / 2 }, .copy 7] = some W ∧
      runActs W [.op 7 (.param { exampleInput with coneAngle := π / 2, numTeeth := 12 }), .op 7 .recalc] = some W' ∧
      view W.heap 15 = some w ∧ view W'.heap 15 = some w' ∧ w'.core.tooth = w.core.tooth ∧
      ∀ z, 1 - w'.core.recipe.scale z = 2 * (1 - w.core.recipe.scale z)) := by
  constructor
  · obtain ⟨W, W', h1, h2, h3, h4, w', h5, -, h6⟩ := c133_shared exampleInput { exampleInput with crowning := 100 }
    refine ⟨W, W', _, w', h1, h4, by rw [h2]; simp, h3, h5, ?_⟩
    rw [h6]
    have e : (GearClass.involute.core exampleInput).recipe.gen.pitchIntersectAngle 0 = exampleInput.toothAngle := by
      simp only [GearClass.core, GearInput.calcParams, GearInput.involuteGen]
      split_ifs <;> simp [ToothGen.pitchIntersectAngle, GearInput.crowningFunc, exampleInput]
    rw [e]
    norm_num [exampleInput]
  · obtain ⟨W, W', h1, h3, h4, w', h5, -, h7, h6⟩ := c133_shared_scale { exampleInput with coneAngle := π / 2 }
      { exampleInput with coneAngle := π / 2, numTeeth := 12 }
    refine ⟨W, W', _, w', h1, h4, h3, h5, h7, fun z => ?_⟩
    rw [h6]
    simp only [GearClass.core, GearInput.calcParams, exampleInput, GearToothParam.make]
    norm_num
    ring

/-- A documented program with a gear, a copy and a copy of the copy. -/
example : ∃ W, runActs ⟨[], []⟩ [.new .involute exampleInput, .copy 7, .op 15 (.ring (-3)), .copy 15] = some W ∧
    W.gears = [7, 15, 23] ∧ ∀ s ∈ [Act.new .involute exampleInput, .copy 7, .op 15 (.ring (-3)), .copy 15],
      s.Documented := by
  refine ⟨_, rfl, rfl, ?_⟩
  simp [Act.Documented]

end C133

end Verif
