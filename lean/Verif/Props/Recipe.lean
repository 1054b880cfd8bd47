import Verif.Spec.Recipe

/-! # Property C59: evaluating a recipe is pure and settles -/

namespace Verif

open Spec

variable {α : Type}

/-- `Den`, visiting only addresses in `P`. -/
inductive DenP (H : Heap α) (P : ℕ → Prop) : List (String × HVal α) → Fields α → Prop
  | nil : DenP H P [] .nil
  | leaf {k l fs F} : DenP H P fs F → DenP H P ((k, .leaf l) :: fs) (.leaf k l F)
  | ref {k a r S fs F} : P a → H[a]? = some r → DenP H P r.fields S → DenP H P fs F →
      DenP H P ((k, .ref a) :: fs) (.node k r.recipe r.cls S F)

theorem Spec.Den.toP {H : Heap α} {fs F} (h : Den H fs F) : DenP H (fun _ => True) fs F := by
  induction h with
  | nil => exact .nil
  | leaf _ ih => exact .leaf ih
  | ref h1 _ _ ih1 ih2 => exact .ref trivial h1 ih1 ih2

theorem DenP.toDen {H : Heap α} {P fs F} (h : DenP H P fs F) : Den H fs F := by
  induction h with
  | nil => exact .nil
  | leaf _ ih => exact .leaf ih
  | ref _ h1 _ _ ih1 ih2 => exact .ref h1 ih1 ih2

theorem lt_of_get {H : Heap α} {a : ℕ} {r : Rec α} (h : H[a]? = some r) : a < H.length := by
  by_contra hc
  rw [List.getElem?_eq_none (not_lt.1 hc)] at h
  simp at h

theorem DenP.mono {H H' : Heap α} {P Q : ℕ → Prop} (hH : ∀ a, a < H.length → P a → H'[a]? = H[a]?)
    (hPQ : ∀ a, a < H.length → P a → Q a) {fs F} (h : DenP H P fs F) : DenP H' Q fs F := by
  induction h with
  | nil => exact .nil
  | leaf _ ih => exact .leaf ih
  | ref hp h1 _ _ ih1 ih2 =>
    exact .ref (hPQ _ (lt_of_get h1) hp) (by rw [hH _ (lt_of_get h1) hp]; exact h1) ih1 ih2

theorem get_append {H L : Heap α} {a : ℕ} (h : a < H.length) : (H ++ L)[a]? = H[a]? :=
  List.getElem?_append_left h

theorem Copy.prefix {H H' : Heap α} {fs fs'} (h : Copy H fs H' fs') : ∃ L, H' = H ++ L := by
  induction h with
  | nil => exact ⟨[], by simp⟩
  | leaf _ ih => exact ih
  | ref _ _ _ ih1 ih2 =>
    obtain ⟨L1, h1⟩ := ih1
    obtain ⟨L2, h2⟩ := ih2
    rw [h1, List.append_assoc, List.append_assoc] at h2
    exact ⟨_, h2⟩

theorem Copy.length_le {H H' : Heap α} {fs fs'} (h : Copy H fs H' fs') : H.length ≤ H'.length := by
  obtain ⟨L, rfl⟩ := h.prefix; simp

theorem Copy.get {H H' : Heap α} {fs fs'} (h : Copy H fs H' fs') {a : ℕ} (ha : a < H.length) :
    H'[a]? = H[a]? := by
  obtain ⟨L, rfl⟩ := h.prefix; exact get_append ha

/-- A deep copy is the same tree in new objects. -/
theorem Copy.den {H H' : Heap α} {fs fs'} (h : Copy H fs H' fs') : ∀ {F P}, DenP H P fs F →
    DenP H' (fun a => H.length ≤ a ∧ a < H'.length) fs' F := by
  induction h with
  | nil => intro F P h; cases h; exact .nil
  | leaf _ ih => intro F P h; cases h with | leaf h => exact .leaf (ih h)
  | @ref H k a r H1 rf fs H2 fs' hr hc1 hc2 ih1 ih2 =>
    intro F P h
    cases h with
    | ref hp h1 hS hF =>
      rw [hr] at h1
      cases h1
      have l1 := hc1.length_le
      have l2 := hc2.length_le
      simp only [List.length_append, List.length_singleton] at l2
      have hF' := ih2 (hF.mono (H' := H1 ++ [{ r with fields := rf }]) (Q := P)
        (fun a ha _ => by rw [get_append (by omega), hc1.get ha]) fun _ _ h => h)
      have hS' := ih1 hS
      have hg : H2[H1.length]? = some { r with fields := rf } := by
        rw [hc2.get (by simp)]; simp
      refine DenP.ref (r := { r with fields := rf }) ⟨l1, by omega⟩ hg ?_ ?_
      · exact hS'.mono (fun b hb _ => by rw [hc2.get (by simp; omega), get_append hb])
          fun b hb h => ⟨h.1, by omega⟩
      · exact hF'.mono (fun _ _ _ => rfl) fun b hb h => ⟨by simp at h; omega, h.2⟩

theorem copy_exists : ∀ (F : Fields α) {H : Heap α} {fs}, Den H fs F → ∃ H' fs', Copy H fs H' fs' := by
  intro F
  induction F with
  | nil => intro H fs h; cases h; exact ⟨_, _, .nil _⟩
  | leaf k l F ih =>
    intro H fs h
    cases h with | leaf h => obtain ⟨H', fs', h'⟩ := ih h; exact ⟨_, _, .leaf h'⟩
  | node k b c S F ihS ihF =>
    intro H fs h
    cases h with
    | @ref _ a r _ _ _ h1 h2 h3 =>
      obtain ⟨H1, rf, c1⟩ := ihS h2
      obtain ⟨H2, fs', c2⟩ := ihF (H := H1 ++ [{ r with fields := rf }]) (h3.toP.mono (fun a ha _ => by
        rw [get_append (lt_of_lt_of_le ha c1.length_le), c1.get ha]) (Q := fun _ => True) fun _ _ _ => trivial).toDen
      exact ⟨_, _, .ref h1 c1 c2⟩

/-- The keys in a list of attributes. -/
theorem DenP.keys {H : Heap α} {P fs F} (h : DenP H P fs F) : fs.map Prod.fst = F.keys := by
  induction h with
  | nil => rfl
  | leaf _ ih => simp [Fields.keys, ih]
  | ref _ _ _ _ _ ih => simp [Fields.keys, ih]

theorem ValueAt_keys {z : ℝ} {F G : Fields α} (h : ValueAt z F G) : G.keys = F.keys := by
  induction h with
  | nil => rfl
  | data _ ih => simp [Fields.keys, ih]
  | fn _ _ ih => simp [Fields.keys, ih]
  | node _ _ _ ih => simp [Fields.keys, ih]

theorem ValueAt_refl_of_constant {z : ℝ} : ∀ {F : Fields α}, F.Constant → ValueAt z F F := by
  intro F
  induction F with
  | nil => intro _; exact .nil
  | leaf k l F ih =>
    cases l with
    | data a => intro h; exact .data (ih h)
    | fn f => intro h; exact h.elim
  | node k b c S F ihS ihF => intro h; exact .node (ihS h.1) (ihF h.2)

theorem ValueAt_constant {z : ℝ} {F G : Fields α} (h : ValueAt z F G) : G.Constant := by
  induction h with
  | nil => trivial
  | data _ ih => exact ih
  | fn _ _ ih => exact ih
  | node _ _ ih1 ih2 => exact ⟨ih1, ih2⟩

theorem ValueAt_eq_of_constant {z : ℝ} {F G : Fields α} (h : ValueAt z F G) : F.Constant → G = F := by
  induction h with
  | nil => intro _; rfl
  | data _ ih => intro hc; rw [ih hc]
  | fn _ _ _ => intro hc; exact hc.elim
  | node _ _ ih1 ih2 => intro hc; rw [ih1 hc.1, ih2 hc.2]

theorem Spec.Fields.Constant.proper {z : ℝ} : ∀ {F : Fields α}, F.Constant → F.Proper z := by
  intro F
  induction F with
  | nil => intro _; trivial
  | leaf k l F ih =>
    cases l with
    | data a => exact ih
    | fn f => intro h; exact h.elim
  | node k b c S F ihS ihF =>
    intro h
    refine ⟨?_, ihF h.2⟩
    cases b
    · exact h.1
    · exact ihS h.1

theorem drop_cons {β : Type} {l : List β} {i : ℕ} {x : β} (h : l[i]? = some x) : l.drop i = x :: l.drop (i + 1) := by
  obtain ⟨hi, rfl⟩ := List.getElem?_eq_some_iff.1 h
  exact List.drop_eq_getElem_cons hi

/-- The effect of the evaluation loop. -/
theorem evalLoop_effect {params : String → List String} {z : ℝ} {H H' : Heap α} {d i : ℕ}
    (h : EvalLoop params z H d i H') : ∀ r, H[d]? = some r →
    H.length ≤ H'.length ∧ (∀ a, a < H.length → a ≠ d → H'[a]? = H[a]?) ∧
    ∃ r', H'[d]? = some r' ∧ (∀ j, j < i → r'.fields[j]? = r.fields[j]?) ∧
      ∀ (P : ℕ → Prop) F, ¬P d → (∀ a, H.length ≤ a → P a) → DenP H P (r.fields.drop i) F → F.Proper z →
        ∃ G, ValueAt z F G ∧ DenP H' P (r'.fields.drop i) G := by
  induction h with
  | @done H d i r h1 h2 =>
    intro r0 hr
    rw [h1] at hr
    cases hr
    refine ⟨le_rfl, fun _ _ _ => rfl, r, h1, fun _ _ => rfl, fun P F _ _ hd hp => ?_⟩
    rw [List.drop_eq_nil_of_le h2] at hd ⊢
    cases hd
    exact ⟨.nil, .nil, .nil⟩
  | @data H d i r k a H' h1 h2 _ ih =>
    intro r0 hr
    rw [h1] at hr
    cases hr
    obtain ⟨e1, e2, r', e3, e4, e5⟩ := ih r h1
    refine ⟨e1, e2, r', e3, fun j hj => e4 j (by omega), fun P F hP hQ hd hp => ?_⟩
    rw [drop_cons h2] at hd
    rw [drop_cons (by rw [e4 i (by omega)]; exact h2)]
    cases hd with
    | leaf hd =>
      obtain ⟨G, g1, g2⟩ := e5 P _ hP hQ hd hp
      exact ⟨_, .data g1, .leaf g2⟩
  | @fn H d i r k f l H' h1 h2 h3 _ ih =>
    intro r0 hr
    rw [h1] at hr
    cases hr
    have hdl := lt_of_get h1
    have hil : i < r.fields.length := (List.getElem?_eq_some_iff.1 h2).1
    obtain ⟨e1, e2, r', e3, e4, e5⟩ := ih _ (by rw [List.getElem?_set_self hdl])
    simp only [List.length_set] at e1 e2
    refine ⟨e1, fun a ha hne => ?_, r', e3, fun j hj => ?_, fun P F hP hQ hd hp => ?_⟩
    · rw [e2 a ha hne, List.getElem?_set_ne (Ne.symm hne)]
    · rw [e4 j (by omega)]; simp only; rw [List.getElem?_set_ne (by omega)]
    · rw [drop_cons h2] at hd
      have hri : r'.fields[i]? = some (k, .leaf l) := by
        rw [e4 i (by omega)]; simp only; rw [List.getElem?_set_self hil]
      rw [drop_cons hri]
      cases hd with
      | leaf hd =>
        obtain ⟨⟨a, ha⟩, hp⟩ := hp
        rw [h3] at ha
        cases ha
        obtain ⟨G, g1, g2⟩ := e5 P _ hP (by simpa using hQ) (by
          simp only
          rw [List.drop_set_of_lt (by omega)]
          exact hd.mono (fun b _ hb => by rw [List.getElem?_set_ne (by rintro rfl; exact hP hb)]) fun _ _ h => h) hp
        exact ⟨_, .fn h3 g1, .leaf g2⟩
  | @plain H d i r k c q H' h1 h2 h3 h4 _ ih =>
    intro r0 hr
    rw [h1] at hr
    cases hr
    obtain ⟨e1, e2, r', e3, e4, e5⟩ := ih r h1
    refine ⟨e1, e2, r', e3, fun j hj => e4 j (by omega), fun P F hP hQ hd hp => ?_⟩
    rw [drop_cons h2] at hd
    rw [drop_cons (by rw [e4 i (by omega)]; exact h2)]
    cases hd with
    | ref hc hg hS hd =>
      rw [h3] at hg
      cases hg
      obtain ⟨hp1, hp2⟩ := hp
      rw [h4] at hp1
      simp only [Bool.false_eq_true, if_false] at hp1
      obtain ⟨G, g1, g2⟩ := e5 P _ hP hQ hd hp2
      have hmem : ∀ a, a < H.length → P a → H'[a]? = H[a]? := fun a ha hPa =>
        e2 a ha (by rintro rfl; exact hP hPa)
      exact ⟨_, .node (ValueAt_refl_of_constant hp1) g1, .ref hc (by rw [hmem _ (lt_of_get h3) hc]; exact h3)
        (hS.mono hmem fun _ _ h => h) g2⟩
  | @recipe H d i r k c q H1 fs H2 D r' H' h1 h2 h3 h4 hcopy _ hD hparams hr' _ ih1 ih2 =>
    intro r0 hr
    rw [h1] at hr
    cases hr
    have hdl := lt_of_get h1
    have hil : i < r.fields.length := (List.getElem?_eq_some_iff.1 h2).1
    have l1 := hcopy.length_le
    obtain ⟨a1, a2, D', a3, -, a5⟩ := ih1 ⟨false, "dict", fs⟩ (by simp)
    rw [hD] at a3
    cases a3
    simp only [List.length_append, List.length_singleton] at a1 a2
    -- the outer heap is not touched by the nested call
    have hold : ∀ a, a < H.length → (H2 ++ [{ q with fields := D.fields }])[a]? = H[a]? := fun a ha => by
      rw [get_append (by omega), a2 a (by omega) (by omega), get_append (by omega), hcopy.get ha]
    have hrr : r' = r := by rw [hold d hdl, h1] at hr'; exact (Option.some.inj hr').symm
    subst hrr
    obtain ⟨e1, e2, r2, e3, e4, e5⟩ := ih2 _ (by rw [List.getElem?_set_self (by simp; omega)])
    simp only [List.length_set, List.length_append, List.length_singleton] at e1 e2
    refine ⟨by omega, fun a ha hne => ?_, r2, e3, fun j hj => ?_, fun P F hP hQ hd hp => ?_⟩
    · rw [e2 a (by omega) hne, List.getElem?_set_ne (Ne.symm hne), hold a ha]
    · rw [e4 j (by omega)]; simp only; rw [List.getElem?_set_ne (by omega)]
    · rw [drop_cons h2] at hd
      have hri : r2.fields[i]? = some (k, .ref H2.length) := by
        rw [e4 i (by omega)]; simp only; rw [List.getElem?_set_self hil]
      rw [drop_cons hri]
      cases hd with
      | ref hc hg hS hd =>
        rw [h3] at hg
        cases hg
        obtain ⟨hp1, hp2⟩ := hp
        rw [h4] at hp1
        simp only [if_true] at hp1
        -- nested result
        obtain ⟨G1, b1, b2⟩ := a5 (fun a => H.length ≤ a ∧ a ≠ H1.length) _ (by simp)
          (fun a ha => by simp at ha; exact ⟨by omega, by omega⟩)
          (by
            simp only [List.drop_zero]
            exact (hcopy.den hS).mono (fun a ha _ => get_append ha) fun a ha h => ⟨h.1, by omega⟩) hp1
        simp only [List.drop_zero] at b2
        -- the rest
        obtain ⟨G2, c1, c2⟩ := e5 P _ hP (fun a ha => hQ a (by simp at ha; omega)) (by
          simp only
          rw [List.drop_set_of_lt (by omega)]
          exact hd.mono (fun b hb hPb => by
            rw [List.getElem?_set_ne (by rintro rfl; exact hP hPb), hold b hb]) fun _ _ h => h) hp2
        have hb : H'[H2.length]? = some { q with fields := D.fields } := by
          rw [e2 _ (by omega) (by omega), List.getElem?_set_ne (by omega)]; simp
        refine ⟨_, .node b1 c1, DenP.ref (r := { q with fields := D.fields }) (hQ _ (by omega)) hb ?_ c2⟩
        exact b2.mono (fun a ha hPa => by
          rw [e2 a (by omega) (by omega), List.getElem?_set_ne (by omega), get_append ha]) fun a _ h => hQ a h.1

/-- **C59, purity.** Evaluating a recipe changes none of the objects that existed before. -/
theorem c59_pure (params : String → List String) (H H' : Heap α) (a b : ℕ) (z : ℝ)
    (h : CallRecipe params H a z H' b) : H.length ≤ b ∧ b < H'.length ∧ ∀ c, c < H.length → H'[c]? = H[c]? := by
  obtain ⟨q, H1, fs, H2, D, -, -, hcopy, hloop, -, -, rfl, rfl⟩ := h
  obtain ⟨e1, e2, -⟩ := evalLoop_effect hloop ⟨false, "dict", fs⟩ (by simp)
  simp only [List.length_append, List.length_singleton] at e1 e2
  have l1 := hcopy.length_le
  refine ⟨by omega, by simp, fun c hc => ?_⟩
  rw [get_append (by omega), e2 c (by omega) (by omega), get_append (by omega), hcopy.get hc]

/-- **C59, values** (`_partial`: functions are assumed to be attributes of recipes, not of plain objects inside
them, and to return data). The result of evaluating at `z` is an object of the same class with every function, at
any depth, replaced by its value at `z`. -/
theorem c59_values_partial (params : String → List String) (H H' : Heap α) (a b : ℕ) (z : ℝ) (cls : String)
    (F : Fields α) (hobj : Obj H a true cls F) (hF : F.Proper z) (h : CallRecipe params H a z H' b) :
    ∃ G, ValueAt z F G ∧ Obj H' b true cls G := by
  obtain ⟨q, H1, fs, H2, D, hq, hrec, hcopy, hloop, hD, -, rfl, rfl⟩ := h
  obtain ⟨r, hr, h1, h2, h3⟩ := hobj
  rw [hq] at hr
  cases hr
  obtain ⟨e1, e2, D', e3, -, e5⟩ := evalLoop_effect hloop ⟨false, "dict", fs⟩ (by simp)
  rw [hD] at e3
  cases e3
  simp only [List.length_append, List.length_singleton] at e1 e2
  obtain ⟨G, g1, g2⟩ := e5 (fun a => a ≠ H1.length) F (by simp) (fun a ha => by simp at ha; omega)
    (by
      simp only [List.drop_zero]
      exact (hcopy.den h3.toP).mono (fun a ha _ => get_append ha) fun a ha _ => by omega) hF
  refine ⟨G, g1, { q with fields := D.fields }, by simp, hrec, h2, ?_⟩
  simp only [List.drop_zero] at g2
  exact (g2.mono (fun a ha _ => get_append ha) (Q := fun _ => True) fun _ _ _ => trivial).toDen

/-- **C59, settling.** Evaluating the result again, at any height, gives the same values. -/
theorem c59_settles_partial (params : String → List String) (H H' H'' : Heap α) (a b c : ℕ) (z z' : ℝ)
    (cls : String) (F : Fields α) (hobj : Obj H a true cls F) (hF : F.Proper z) (h : CallRecipe params H a z H' b)
    (h' : CallRecipe params H' b z' H'' c) :
    ∃ G, ValueAt z F G ∧ Obj H' b true cls G ∧ Obj H'' c true cls G := by
  obtain ⟨G, g1, g2⟩ := c59_values_partial params H H' a b z cls F hobj hF h
  have hc := ValueAt_constant g1
  obtain ⟨G', k1, k2⟩ := c59_values_partial params H' H'' b c z' cls G g2 hc.proper h'
  rw [ValueAt_eq_of_constant k1 hc] at k2
  exact ⟨G, g1, g2, k2⟩

/-- The loop runs through. -/
theorem evalLoop_exists {params : String → List String} {z : ℝ} : ∀ (F : Fields α) (H : Heap α) (d i : ℕ)
    (r : Rec α) (P : ℕ → Prop), H[d]? = some r → ¬P d → (∀ a, H.length ≤ a → P a) →
    DenP H P (r.fields.drop i) F → F.Proper z → F.Fits params → ∃ H', EvalLoop params z H d i H' := by
  intro F
  induction F with
  | nil =>
    intro H d i r P hd _ _ hF _ _
    refine ⟨H, .done hd ?_⟩
    generalize he : r.fields.drop i = e at hF
    cases hF
    exact List.drop_eq_nil_iff.1 he
  | leaf k l F ih =>
    intro H d i r P hd hP hQ hF hp hf
    generalize he : r.fields.drop i = e at hF
    cases hF with
    | @leaf _ _ fs _ hF =>
      have hi : r.fields[i]? = some (k, .leaf l) := by
        have := congrArg (fun x => x[0]?) he
        simpa using this
      have hdrop : r.fields.drop (i + 1) = fs := by
        rw [drop_cons hi] at he; exact (List.cons.inj he).2
      rw [← hdrop] at hF
      cases l with
      | data a =>
        obtain ⟨H', h'⟩ := ih H d (i + 1) r P hd hP hQ hF hp hf
        exact ⟨H', .data hd hi h'⟩
      | fn f =>
        obtain ⟨⟨a, ha⟩, hp⟩ := hp
        obtain ⟨H', h'⟩ := ih (H.set d { r with fields := r.fields.set i (k, .leaf (.data a)) }) d (i + 1)
          { r with fields := r.fields.set i (k, .leaf (.data a)) } P
          (by rw [List.getElem?_set_self (lt_of_get hd)]) hP (by simpa using hQ)
          (by
            simp only
            rw [List.drop_set_of_lt (by omega)]
            exact hF.mono (fun b _ hb => by rw [List.getElem?_set_ne (by rintro rfl; exact hP hb)])
              fun _ _ h => h) hp hf
        exact ⟨H', .fn hd hi ha h'⟩
  | node k b c S F ihS ihF =>
    intro H d i r P hd hP hQ hF hp hf
    generalize he : r.fields.drop i = e at hF
    cases hF with
    | @ref _ a q _ fs _ ha hq hS hF =>
      have hi : r.fields[i]? = some (k, .ref a) := by
        have := congrArg (fun x => x[0]?) he
        simpa using this
      have hdrop : r.fields.drop (i + 1) = fs := by
        rw [drop_cons hi] at he; exact (List.cons.inj he).2
      rw [← hdrop] at hF
      obtain ⟨hp1, hp2⟩ := hp
      obtain ⟨hf1, hf2⟩ := hf
      cases hb : q.recipe with
      | false =>
        obtain ⟨H', h'⟩ := ihF H d (i + 1) r P hd hP hQ hF hp2 hf2
        exact ⟨H', .plain hd hi hq hb h'⟩
      | true =>
        rw [hb] at hp1
        simp only [if_true] at hp1
        obtain ⟨hf1, hf3⟩ := hf1 hb
        obtain ⟨H1, rf, hcopy⟩ := copy_exists S hS.toDen
        have l1 := hcopy.length_le
        have hdl := lt_of_get hd
        have hS1 : DenP (H1 ++ [⟨false, "dict", rf⟩]) (fun a => H.length ≤ a ∧ a ≠ H1.length) rf S :=
          (hcopy.den hS).mono (fun a ha _ => get_append ha) fun a ha h => ⟨h.1, by omega⟩
        obtain ⟨H2, hloop⟩ := ihS (H1 ++ [⟨false, "dict", rf⟩]) H1.length 0 ⟨false, "dict", rf⟩
          (fun a => H.length ≤ a ∧ a ≠ H1.length) (by simp) (by simp)
          (fun a ha => by simp at ha; exact ⟨by omega, by omega⟩) (by simpa using hS1) hp1 hf3
        obtain ⟨a1, a2, D, a3, -, a5⟩ := evalLoop_effect hloop ⟨false, "dict", rf⟩ (by simp)
        obtain ⟨G1, b1, b2⟩ := a5 (fun a => H.length ≤ a ∧ a ≠ H1.length) S (by simp)
          (fun a ha => by simp at ha; exact ⟨by omega, by omega⟩) (by simpa using hS1) hp1
        simp only [List.drop_zero] at b2
        simp only [List.length_append, List.length_singleton] at a1 a2
        have hold : ∀ a, a < H.length → (H2 ++ [{ q with fields := D.fields }])[a]? = H[a]? := fun a ha => by
          rw [get_append (by omega), a2 a (by omega) (by omega), get_append (by omega), hcopy.get ha]
        have hkeys : ∀ e ∈ D.fields, e.1 ∈ params q.cls := by
          intro e he
          apply hf1
          rw [← ValueAt_keys b1, ← b2.keys]
          exact List.mem_map_of_mem he
        obtain ⟨H', h'⟩ := ihF ((H2 ++ [{ q with fields := D.fields }]).set d
          { r with fields := r.fields.set i (k, .ref H2.length) }) d (i + 1)
          { r with fields := r.fields.set i (k, .ref H2.length) } P
          (by rw [List.getElem?_set_self (by simp; omega)]) hP
          (fun a ha => hQ a (by simp at ha; omega))
          (by
            simp only
            rw [List.drop_set_of_lt (by omega)]
            exact hF.mono (fun b hb hPb => by
              rw [List.getElem?_set_ne (by rintro rfl; exact hP hPb), hold b hb]) fun _ _ h => h) hp2 hf2
        exact ⟨H', .recipe hd hi hq hb hcopy hloop a3 hkeys (by rw [hold d hdl]; exact hd) h'⟩

/-- **C59, success.** A recipe whose functions return data can be evaluated if every object in it only has
attributes that its constructor accepts. -/
theorem c59_success_partial (params : String → List String) (H : Heap α) (a : ℕ) (z : ℝ) (cls : String)
    (F : Fields α) (hobj : Obj H a true cls F) (hF : F.Proper z) (hfit : F.Fits params)
    (hkeys : ∀ k ∈ F.keys, k ∈ params cls) : ∃ H' b, CallRecipe params H a z H' b := by
  obtain ⟨r, hr, h1, h2, h3⟩ := hobj
  obtain ⟨H1, fs, hcopy⟩ := copy_exists F h3
  have hS1 : DenP (H1 ++ [⟨false, "dict", fs⟩]) (fun a => a ≠ H1.length) fs F :=
    (hcopy.den h3.toP).mono (fun a ha _ => get_append ha) fun a ha _ => by omega
  obtain ⟨H2, hloop⟩ := evalLoop_exists F (H1 ++ [⟨false, "dict", fs⟩]) H1.length 0 ⟨false, "dict", fs⟩
    (fun a => a ≠ H1.length) (by simp) (by simp) (fun a ha => by simp at ha; omega) (by simpa using hS1) hF hfit
  obtain ⟨-, -, D, a3, -, a5⟩ := evalLoop_effect hloop ⟨false, "dict", fs⟩ (by simp)
  obtain ⟨G1, b1, b2⟩ := a5 (fun a => a ≠ H1.length) F (by simp) (fun a ha => by simp at ha; omega)
    (by simpa using hS1) hF
  simp only [List.drop_zero] at b2
  refine ⟨_, _, r, H1, fs, H2, D, hr, h1, hcopy, hloop, a3, ?_, rfl, rfl⟩
  intro e he
  rw [h2]
  apply hkeys
  rw [← ValueAt_keys b1, ← b2.keys]
  exact List.mem_map_of_mem he

theorem Copy.keys {H H' : Heap α} {fs fs'} (h : Copy H fs H' fs') : fs'.map Prod.fst = fs.map Prod.fst := by
  induction h with
  | nil => rfl
  | leaf _ ih => simp [ih]
  | ref _ _ _ _ ih => simp [ih]

theorem set_keys {β : Type} {l : List (String × β)} {i : ℕ} {k : String} {x y : β} (h : l[i]? = some (k, x)) :
    (l.set i (k, y)).map Prod.fst = l.map Prod.fst := by
  obtain ⟨hi, he⟩ := List.getElem?_eq_some_iff.1 h
  rw [List.map_set]
  apply List.ext_getElem?
  intro j
  by_cases hj : i = j
  · subst hj
    rw [List.getElem?_set_self (by simpa using hi)]
    simp [hi, he]
  · rw [List.getElem?_set_ne hj]

theorem evalLoop_keys {params : String → List String} {z : ℝ} {H H' : Heap α} {d i : ℕ}
    (h : EvalLoop params z H d i H') : ∀ r r', H[d]? = some r → H'[d]? = some r' →
      r'.fields.map Prod.fst = r.fields.map Prod.fst := by
  induction h with
  | @done H d i r h1 h2 =>
    intro r0 r' hr hr'
    rw [hr] at hr'; cases hr'; rfl
  | data _ _ _ ih => exact ih
  | @fn H d i r k f l H' h1 h2 h3 _ ih =>
    intro r0 r' hr hr'
    rw [h1] at hr; cases hr
    rw [ih _ r' (by rw [List.getElem?_set_self (lt_of_get h1)]) hr']
    exact set_keys h2
  | plain _ _ _ _ _ ih => exact ih
  | @recipe H d i r k c q H1 fs H2 D r1 H' h1 h2 h3 h4 hcopy hloop hD hparams hr1 _ ih1 ih2 =>
    intro r0 r' hr hr'
    rw [h1] at hr; cases hr
    have hdl := lt_of_get h1
    have l1 := hcopy.length_le
    obtain ⟨a1, a2, -⟩ := evalLoop_effect hloop ⟨false, "dict", fs⟩ (by simp)
    simp only [List.length_append, List.length_singleton] at a1 a2
    have hrr : r1 = r := by
      rw [get_append (by omega), a2 d (by omega) (by omega), get_append (by omega), hcopy.get hdl, h1] at hr1
      exact (Option.some.inj hr1).symm
    subst hrr
    rw [ih2 _ r' (by rw [List.getElem?_set_self (by simp; omega)]) hr']
    exact set_keys h2

/-- **C59 is violated** for recipes with an attribute that their constructor does not know: they cannot be
evaluated at any height. `Gear` creates such a recipe from a `GearToothGenerator`, because
`gear_recipe_from_curve` stores a `cone_angle` in it (gggears_core.py:879-881). -/
theorem c59_attribute_violated (params : String → List String) (H : Heap α) (a : ℕ) (cls : String) (F : Fields α)
    (hobj : Obj H a true cls F) (k : String) (hk : k ∈ F.keys) (hk' : k ∉ params cls) (z : ℝ) :
    ¬∃ H' b, CallRecipe params H a z H' b := by
  rintro ⟨H', b, q, H1, fs, H2, D, hq, hrec, hcopy, hloop, hD, hpar, -⟩
  obtain ⟨r, hr, h1, h2, h3⟩ := hobj
  rw [hq] at hr
  cases hr
  have e := evalLoop_keys hloop ⟨false, "dict", fs⟩ D (by simp) hD
  simp only at e
  rw [hcopy.keys, h3.toP.keys] at e
  rw [← e] at hk
  obtain ⟨x, hx, rfl⟩ := List.mem_map.1 hk
  exact hk' (h2 ▸ hpar x hx)

/-- **C59 is violated** for functions inside plain objects: a `ConicData` (which is what the gear classes put into
their recipe) with a cone angle that depends on the height keeps the function, so that it is not replaced by
its value. -/
theorem c59_nested_violated : ∃ (params : String → List String) (H H' : Heap ℝ) (a b : ℕ) (F : Fields ℝ),
    Obj H a true "GearProfileRecipe" F ∧ F.Fits params ∧ CallRecipe params H a 1 H' b ∧
      F = .node "cone" false "ConicData" (.leaf "cone_angle" (.fn fun z => some (.data z)) .nil) .nil ∧
      ¬∃ G, ValueAt 1 F G ∧ Obj H' b true "GearProfileRecipe" G := by
  let c0 : Rec ℝ := ⟨false, "ConicData", [("cone_angle", .leaf (.fn fun z => some (.data z)))]⟩
  let r0 : Rec ℝ := ⟨true, "GearProfileRecipe", [("cone", .ref 0)]⟩
  let r1 : Rec ℝ := ⟨true, "GearProfileRecipe", [("cone", .ref 2)]⟩
  let d0 : Rec ℝ := ⟨false, "dict", [("cone", .ref 2)]⟩
  refine ⟨fun _ => ["cone"], [c0, r0], [c0, r0, c0, d0, r1], 1, 4, _, ?_, ?_, ?_, rfl, ?_⟩
  · exact ⟨r0, rfl, rfl, rfl, Den.ref (r := c0) rfl (.leaf .nil) .nil⟩
  · exact ⟨by simp, trivial⟩
  · refine ⟨r0, [c0, r0, c0], [("cone", .ref 2)], [c0, r0, c0, d0], d0, rfl, rfl, ?_, ?_, rfl, ?_, rfl, rfl⟩
    · exact Copy.ref (H1 := [c0, r0]) (r := c0) rfl (.leaf (.nil _)) (.nil _)
    · exact EvalLoop.plain (r := d0) (k := "cone") (c := 2) (q := c0) rfl rfl rfl rfl
        (.done (r := d0) rfl (by simp [d0]))
    · simp [d0]
  · rintro ⟨G, h1, r, h2, -, -, h3⟩
    cases h2
    have hc := ValueAt_constant h1
    cases h3 with
    | ref h4 h5 _ =>
      cases h4
      cases h5 with
      | leaf h6 => exact hc.1

/-- A concrete case for the other theorems: a recipe with a nested recipe whose scale depends on the height, and a
plain object. -/
example : let t0 : Rec ℝ := ⟨true, "GearTransformRecipe", [("scale", .leaf (.fn fun z => some (.data (1 - z))))]⟩
    let c0 : Rec ℝ := ⟨false, "ConicData", [("cone_angle", .leaf (.data 1))]⟩
    let r0 : Rec ℝ := ⟨true, "GearProfileRecipe", [("transform", .ref 0), ("cone", .ref 1)]⟩
    let params : String → List String := fun s => if s = "GearTransformRecipe" then ["scale"] else
      ["transform", "cone"]
    ∃ F, Obj [t0, c0, r0] 2 true "GearProfileRecipe" F ∧ (∀ z, F.Proper z) ∧ F.Fits params ∧
      (∀ k ∈ F.keys, k ∈ params "GearProfileRecipe") ∧ ¬F.Constant := by
  intro t0 c0 r0 params
  refine ⟨_, ⟨r0, rfl, rfl, rfl, Den.ref (r := t0) rfl (.leaf .nil) (Den.ref (r := c0) rfl (.leaf .nil) .nil)⟩,
    ?_, ?_, ?_, ?_⟩
  · intro z; exact ⟨⟨⟨_, rfl⟩, trivial⟩, trivial, trivial⟩
  · exact ⟨fun _ => ⟨by simp [Fields.keys, params, t0], trivial⟩, by simp [c0], trivial⟩
  · simp [Fields.keys, params]
  · rintro ⟨h, -⟩; exact h

/-- A concrete case for `c59_attribute_violated`. -/
example : let g : Rec ℝ := ⟨true, "GearToothGenerator", [("pitch_radius", .leaf (.data 1)),
      ("cone_angle", .leaf (.data 0))]⟩
    let params : String → List String := fun _ => ["pitch_intersect_angle", "pitch_radius", "tooth_angle",
      "ref_limits"]
    ∃ F, Obj [g] 0 true "GearToothGenerator" F ∧ "cone_angle" ∈ F.keys ∧
      "cone_angle" ∉ params "GearToothGenerator" :=
  ⟨_, ⟨_, rfl, rfl, rfl, .leaf (.leaf .nil)⟩, by simp [Fields.keys], by simp⟩

end Verif
