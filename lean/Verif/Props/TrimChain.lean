import Verif.Props.TrimPath

/-!
# Property C45: a trimmed chain runs through exactly the requested piece
-/

namespace Verif

open Real Set

section
variable {α : Type} {o : CurveOps α}

/-- The members after the first `k` ones, by index. -/
theorem getElem_shift (x w : List α) (z : List α) (i : ℕ) : (w ++ z)[w.length + i]? = (x ++ z)[x.length + i]? := by
  rw [List.getElem?_append_right (Nat.le_add_right _ _), List.getElem?_append_right (Nat.le_add_right _ _)]
  congr 1; omega

/-- Meeting ends, when the beginning of the chain is replaced. -/
theorem meets_start {x y w : List α} {a a' : α} (h : Meets o (x ++ a :: y)) (hw : ∀ b ∈ w, o.active b = false)
    (hact : o.active a = true) (he : o.eval a' 1 = o.eval a 1) : Meets o (w ++ a' :: y) := by
  have hat : ∀ i, (w ++ a' :: y)[w.length + (i + 1)]? = (x ++ a :: y)[x.length + (i + 1)]? := by
    intro i
    have := getElem_shift (x ++ [a]) (w ++ [a']) y i
    simp only [List.append_assoc, List.singleton_append, List.length_append, List.length_singleton] at this
    rw [show w.length + (i + 1) = w.length + 1 + i by ring, show x.length + (i + 1) = x.length + 1 + i by ring]
    exact this
  intro j k b c hjk hj hk hb hc hmid
  have hjw : w.length ≤ j := by
    by_contra hlt
    rw [not_le] at hlt
    rw [List.getElem?_append_left hlt] at hj
    rw [hw b (List.mem_of_getElem? hj)] at hb
    exact absurd hb Bool.false_ne_true
  obtain ⟨j', rfl⟩ := Nat.exists_eq_add_of_le hjw
  obtain ⟨k', rfl⟩ : ∃ k', k = w.length + (k' + 1) := ⟨k - w.length - 1, by omega⟩
  rw [hat] at hk
  have hm : ∀ (i : ℕ) (d : α), x.length + j' < i → i < x.length + (k' + 1) → (x ++ a :: y)[i]? = some d → o.active d = false := by
    intro i d h1 h2 h3
    obtain ⟨i', rfl⟩ : ∃ i', i = x.length + (i' + 1) := ⟨i - x.length - 1, by omega⟩
    exact hmid (w.length + (i' + 1)) d (by omega) (by omega) (by rw [hat]; exact h3)
  rcases j' with _ | j'
  · have hba : b = a' := by simpa using hj.symm
    rw [hba, he]
    exact h (x.length + 0) (x.length + (k' + 1)) a c (by omega) (by simp) hk hact hc hm
  · rw [hat] at hj
    exact h _ _ b c (by omega) hj hk hb hc hm

/-- Meeting ends, when the end of the chain is replaced. -/
theorem meets_end {x y w : List α} {a a' : α} (h : Meets o (x ++ a :: y)) (hw : ∀ b ∈ w, o.active b = false)
    (hact : o.active a = true) (he : o.eval a' 0 = o.eval a 0) : Meets o (x ++ a' :: w) := by
  have hat : ∀ i, i < x.length → (x ++ a' :: w)[i]? = (x ++ a :: y)[i]? := by
    intro i hi
    rw [List.getElem?_append_left hi, List.getElem?_append_left hi]
  intro j k b c hjk hj hk hb hc hmid
  have hkx : k ≤ x.length := by
    by_contra hlt
    rw [not_le] at hlt
    obtain ⟨k', rfl⟩ : ∃ k', k = x.length + (k' + 1) := ⟨k - x.length - 1, by omega⟩
    rw [List.getElem?_append_right (Nat.le_add_right _ _), Nat.add_sub_cancel_left, List.getElem?_cons_succ] at hk
    rw [hw c (List.mem_of_getElem? hk)] at hc
    exact absurd hc Bool.false_ne_true
  rw [hat j (by omega)] at hj
  have hm : ∀ (i : ℕ) (d : α), j < i → i < k → (x ++ a :: y)[i]? = some d → o.active d = false :=
    fun i d h1 h2 h3 => hmid i d h1 h2 (by rw [hat i (by omega)]; exact h3)
  rcases hkx.lt_or_eq with hlt | rfl
  · rw [hat k hlt] at hk
    exact h j k b c hjk hj hk hb hc hm
  · have hca : c = a' := by simpa using hk.symm
    rw [hca, he]
    exact h j x.length b a hjk hj (by simp) hb hact hm

/-- The point at a distance along the chain. -/
theorem chainEval_at {l x y : List α} {a : α} (h : AllPos o l) (hm : Meets o l) (hl : l = x ++ a :: y) (hact : o.active a = true)
    {X : ℝ} (h1 : chainLen o x ≤ X) (h2 : X ≤ chainLen o x + o.len a) :
    chainEval o l (X / chainLen o l) = o.eval a ((X - chainLen o x) / o.len a) := by
  have hmem : a ∈ l := by rw [hl]; simp
  have hL := chainLen_pos_of h ⟨a, hmem, hact⟩
  have hg : l[x.length]? = some a := by rw [hl]; simp
  have hpl : preLen o l x.length = chainLen o x := by rw [hl]; exact preLen_split x _
  have e : X / chainLen o l * chainLen o l = X := div_mul_cancel₀ X hL.ne'
  rw [chainEval_member h hm hL hg hact (by rw [hpl, e]; exact h1) (by rw [hpl, e]; exact h2), hpl, e]

/-- A position lies on an active member. -/
theorem member_at {l : List α} (h : AllPos o l) {X : ℝ} (h0 : 0 < X) (h1 : X ≤ chainLen o l) :
    ∃ x a y, l = x ++ a :: y ∧ o.active a = true ∧ chainLen o x < X ∧ X ≤ chainLen o x + o.len a := by
  have hL : 0 < chainLen o l := h0.trans_le h1
  obtain ⟨k, a, ha, q1, q2⟩ := exists_index h.nonNeg hL (div_pos h0 hL) ((div_le_one hL).2 h1)
  rw [div_mul_cancel₀ X hL.ne'] at q1 q2
  have hs := split_at ha
  have hpl : preLen o l k = chainLen o (l.take k) := rfl
  rw [hpl] at q1 q2
  exact ⟨_, a, _, hs, active_of_len (by linarith), q1, q2⟩

end

/-- Two runs, one after the other: first a changed one, then a shifted one. -/
theorem glue_first {φ : ℝ → ℝ} {σ A p q r : ℝ} (hp : 0 < p) (hq : 0 < q) (hr : 0 ≤ r) (h1 : StrictMonoOn φ (Icc 0 1))
    (h2 : φ '' Icc 0 1 = Icc σ 1) : ∃ g : ℝ → ℝ, StrictMonoOn g (Icc 0 (p + r)) ∧
      g '' Icc 0 (p + r) = Icc (A + q * σ) (A + q + r) ∧ (∀ X, 0 ≤ X → X ≤ p → g X = A + q * φ (X / p)) ∧
      ∀ X, p < X → g X = A + q + (X - p) := by
  have e1 := (mono_ends h1 h2).2
  have m : ∀ X, 0 ≤ X → X ≤ p → X / p ∈ Icc (0 : ℝ) 1 := fun X a b => ⟨div_nonneg a hp.le, (div_le_one hp).2 b⟩
  have hi : ∀ s ∈ Icc (0 : ℝ) 1, φ s ∈ Icc σ 1 := fun s hs => h2 ▸ mem_image_of_mem φ hs
  have hσ : σ ≤ 1 := (hi 0 ⟨le_refl _, zero_le_one⟩).1.trans (hi 0 ⟨le_refl _, zero_le_one⟩).2
  have gp : ∀ X, 0 ≤ X → X ≤ p → (fun X => if X ≤ p then A + q * φ (X / p) else A + q + (X - p)) X = A + q * φ (X / p) :=
    fun X _ b => if_pos b
  have gn : ∀ X, p < X → (fun X => if X ≤ p then A + q * φ (X / p) else A + q + (X - p)) X = A + q + (X - p) :=
    fun X b => if_neg (not_le.2 b)
  refine ⟨fun X => if X ≤ p then A + q * φ (X / p) else A + q + (X - p), ?_, ?_, gp, gn⟩
  · intro X hX Y hY hXY
    rcases le_or_gt Y p with hy | hy
    · rw [gp X hX.1 (hXY.le.trans hy), gp Y hY.1 hy]
      have := h1 (m X hX.1 (hXY.le.trans hy)) (m Y hY.1 hy) (div_lt_div_of_pos_right hXY hp)
      nlinarith
    · rw [gn Y hy]
      rcases le_or_gt X p with hx | hx
      · rw [gp X hX.1 hx]
        have := (hi _ (m X hX.1 hx)).2
        nlinarith
      · rw [gn X hx]; linarith
  · apply Subset.antisymm
    · rintro _ ⟨X, hX, rfl⟩
      rcases le_or_gt X p with hx | hx
      · rw [gp X hX.1 hx]
        have := hi _ (m X hX.1 hx)
        exact ⟨by nlinarith [this.1], by nlinarith [this.2]⟩
      · rw [gn X hx]
        exact ⟨by nlinarith, by linarith [hX.2]⟩
    · intro z hz
      rcases le_or_gt z (A + q) with hzq | hzq
      · have : (z - A) / q ∈ φ '' Icc 0 1 := by
          rw [h2]
          exact ⟨by rw [le_div_iff₀ hq]; linarith [hz.1], by rw [div_le_one hq]; linarith⟩
        obtain ⟨u, hu, e⟩ := this
        have hup : p * u ≤ p := by nlinarith [hu.2]
        refine ⟨p * u, ⟨mul_nonneg hp.le hu.1, by linarith⟩, ?_⟩
        rw [gp _ (mul_nonneg hp.le hu.1) hup, mul_div_cancel_left₀ u hp.ne', e]
        field_simp; ring
      · refine ⟨p + (z - A - q), ⟨by linarith, by linarith [hz.2]⟩, ?_⟩
        rw [gn _ (by linarith)]; ring

/-- Two runs, one after the other: first an unchanged one, then a changed one. -/
theorem glue_second {φ : ℝ → ℝ} {σ A p q : ℝ} (hA : 0 ≤ A) (hp : 0 < p) (hq : 0 < q) (h1 : StrictMonoOn φ (Icc 0 1))
    (h2 : φ '' Icc 0 1 = Icc 0 σ) : ∃ g : ℝ → ℝ, StrictMonoOn g (Icc 0 (A + p)) ∧
      g '' Icc 0 (A + p) = Icc 0 (A + q * σ) ∧ (∀ X, X ≤ A → g X = X) ∧
      ∀ X, A < X → X ≤ A + p → g X = A + q * φ ((X - A) / p) := by
  obtain ⟨e0, e1⟩ := mono_ends h1 h2
  have m : ∀ X, A ≤ X → X ≤ A + p → (X - A) / p ∈ Icc (0 : ℝ) 1 := fun X a b =>
    ⟨div_nonneg (by linarith) hp.le, (div_le_one hp).2 (by linarith)⟩
  have hi : ∀ s ∈ Icc (0 : ℝ) 1, φ s ∈ Icc 0 σ := fun s hs => h2 ▸ mem_image_of_mem φ hs
  have m0 : (0 : ℝ) ∈ Icc (0 : ℝ) 1 := ⟨le_refl _, zero_le_one⟩
  have hσ : 0 ≤ σ := (hi 0 m0).1.trans (hi 0 m0).2
  have gp : ∀ X, X ≤ A → (fun X => if X ≤ A then X else A + q * φ ((X - A) / p)) X = X := fun X b => if_pos b
  have gn : ∀ X, A < X → X ≤ A + p → (fun X => if X ≤ A then X else A + q * φ ((X - A) / p)) X = A + q * φ ((X - A) / p) :=
    fun X b _ => if_neg (not_le.2 b)
  have pos : ∀ X, A < X → X ≤ A + p → 0 < φ ((X - A) / p) := by
    intro X h1' h2'
    rw [← e0]
    exact h1 m0 (m X h1'.le h2') (div_pos (by linarith) hp)
  refine ⟨fun X => if X ≤ A then X else A + q * φ ((X - A) / p), ?_, ?_, gp, gn⟩
  · intro X hX Y hY hXY
    rcases le_or_gt Y A with hy | hy
    · rw [gp X (hXY.le.trans hy), gp Y hy]; exact hXY
    · rw [gn Y hy hY.2]
      rcases le_or_gt X A with hx | hx
      · rw [gp X hx]
        have := pos Y hy hY.2
        nlinarith
      · rw [gn X hx hX.2]
        have := h1 (m X hx.le hX.2) (m Y hy.le hY.2) (div_lt_div_of_pos_right (by linarith) hp)
        nlinarith
  · apply Subset.antisymm
    · rintro _ ⟨X, hX, rfl⟩
      rcases le_or_gt X A with hx | hx
      · rw [gp X hx]
        exact ⟨hX.1, by nlinarith⟩
      · rw [gn X hx hX.2]
        have := hi _ (m X hx.le hX.2)
        exact ⟨by nlinarith [this.1], by nlinarith [this.2]⟩
    · intro z hz
      rcases le_or_gt z A with hzA | hzA
      · exact ⟨z, ⟨hz.1, by linarith⟩, gp z hzA⟩
      · have : (z - A) / q ∈ φ '' Icc 0 1 := by
          rw [h2]
          exact ⟨div_nonneg (by linarith) hq.le, by rw [div_le_iff₀ hq]; linarith [hz.2]⟩
        obtain ⟨u, hu, e⟩ := this
        have hu0 : 0 < u := by
          rcases hu.1.lt_or_eq with h | h
          · exact h
          · rw [← h, e0] at e
            have := div_pos (sub_pos.2 hzA) hq
            linarith
        have hup : p * u ≤ p := by nlinarith [hu.2]
        refine ⟨A + p * u, ⟨by nlinarith, by linarith⟩, ?_⟩
        rw [gn _ (by nlinarith) (by linarith), add_sub_cancel_left, mul_div_cancel_left₀ u hp.ne', e]
        field_simp; ring

section
variable {α : Type} {o : CurveOps α}

/-- Scaling a run of distances to a run of parameters. -/
theorem scaled_run {g : ℝ → ℝ} {l m A B : ℝ} (hl : 0 < l) (hm : 0 < m) (h1 : StrictMonoOn g (Icc 0 l)) (h2 : g '' Icc 0 l = Icc A B) :
    StrictMonoOn (fun s => g (s * l) / m) (Icc 0 1) ∧ (fun s => g (s * l) / m) '' Icc 0 1 = Icc (A / m) (B / m) := by
  have ms : ∀ s ∈ Icc (0 : ℝ) 1, s * l ∈ Icc 0 l := fun s hs => ⟨mul_nonneg hs.1 hl.le, by nlinarith [hs.2]⟩
  refine ⟨fun s hs t ht hst => div_lt_div_of_pos_right (h1 (ms s hs) (ms t ht) (by nlinarith)) hm, ?_⟩
  apply Subset.antisymm
  · rintro _ ⟨s, hs, rfl⟩
    have : g (s * l) ∈ Icc A B := h2 ▸ mem_image_of_mem g (ms s hs)
    exact ⟨div_le_div_of_nonneg_right this.1 hm.le, div_le_div_of_nonneg_right this.2 hm.le⟩
  · intro z hz
    have : z * m ∈ g '' Icc 0 l := by
      rw [h2]
      exact ⟨by rw [← div_le_iff₀ hm]; exact hz.1, by rw [← le_div_iff₀ hm]; exact hz.2⟩
    obtain ⟨X, hX, e⟩ := this
    refine ⟨X / l, ⟨div_nonneg hX.1 hl.le, (div_le_one hl).2 hX.2⟩, ?_⟩
    simp only
    rw [div_mul_cancel₀ X hl.ne', e, mul_div_cancel_right₀ z hm.ne']

/-- A chain whose first part is cut away. -/
theorem piece_start {x y w : List α} {a a' : α} {σ : ℝ} (h : AllPos o (x ++ a :: y)) (hm : Meets o (x ++ a :: y))
    (hd : AllPos o (w ++ a' :: y)) (hw : ∀ b ∈ w, o.active b = false) (hact : o.active a = true) (hact' : o.active a' = true)
    (hσ : 0 ≤ σ) (hP : Spec.Piece (o.eval a') (o.eval a) σ 1) :
    Meets o (w ++ a' :: y) ∧ Spec.Piece (chainEval o (w ++ a' :: y)) (chainEval o (x ++ a :: y))
      ((chainLen o x + o.len a * σ) / chainLen o (x ++ a :: y)) 1 := by
  have hmd : Meets o (w ++ a' :: y) := meets_start hm hw hact hP.ends.2
  refine ⟨hmd, ?_⟩
  obtain ⟨φ, p1, p2, p3⟩ := hP
  have hq : 0 < o.len a := by rw [len_of_active hact]; exact h a (by simp) hact
  have hp : 0 < o.len a' := by rw [len_of_active hact']; exact hd a' (by simp) hact'
  have hyn : AllPos o y := fun b hb => h b (by simp [hb])
  have hr : 0 ≤ chainLen o y := chainLen_nonneg hyn.nonNeg
  obtain ⟨g, g1, g2, g3, g4⟩ := glue_first (A := chainLen o x) hp hq hr p1 p2
  have hLl : chainLen o (x ++ a :: y) = chainLen o x + o.len a + chainLen o y := by rw [chainLen_append, chainLen_cons]; ring
  have hLd : chainLen o (w ++ a' :: y) = o.len a' + chainLen o y := by
    rw [chainLen_append, chainLen_cons, chainLen_inactive hw]; ring
  have hL := chainLen_pos_of h ⟨a, by simp, hact⟩
  have hL' := chainLen_pos_of hd ⟨a', by simp, hact'⟩
  rw [← hLd] at g1 g2
  obtain ⟨s1, s2⟩ := scaled_run hL' hL g1 g2
  rw [← hLl, div_self hL.ne'] at s2
  refine ⟨_, s1, s2, ?_⟩
  intro s hs
  obtain ⟨X, hX⟩ : ∃ X, X = s * chainLen o (w ++ a' :: y) := ⟨_, rfl⟩
  have hX0 : 0 ≤ X := by rw [hX]; exact mul_nonneg hs.1 hL'.le
  have hX1 : X ≤ chainLen o (w ++ a' :: y) := by rw [hX]; nlinarith [hs.2]
  have hsX : s = X / chainLen o (w ++ a' :: y) := by rw [hX, mul_div_cancel_right₀ s hL'.ne']
  rw [← hX, hsX]
  rcases le_or_gt X (o.len a') with hle | hgt
  · have mX : X / o.len a' ∈ Icc (0 : ℝ) 1 := ⟨div_nonneg hX0 hp.le, (div_le_one hp).2 hle⟩
    have hφ : φ (X / o.len a') ∈ Icc σ 1 := p2 ▸ mem_image_of_mem φ mX
    have hφ0 := hσ.trans hφ.1
    rw [g3 X hX0 hle, chainEval_at hd hmd rfl hact' (by rw [chainLen_inactive hw]; exact hX0)
        (by rw [chainLen_inactive hw]; linarith), chainEval_at h hm rfl hact (by nlinarith)
        (by nlinarith [hφ.2]), chainLen_inactive hw, sub_zero, p3 _ mX, add_sub_cancel_left, mul_div_cancel_left₀ _ hq.ne']
  · obtain ⟨u, b, v, hy, hb, q1, q2⟩ := member_at hyn (X := X - o.len a') (by linarith) (by rw [hLd] at hX1; linarith)
    rw [g4 X hgt]
    have hld : w ++ a' :: y = (w ++ a' :: u) ++ b :: v := by rw [hy]; simp
    have hll : x ++ a :: y = (x ++ a :: u) ++ b :: v := by rw [hy]; simp
    have e1 : chainLen o (w ++ a' :: u) = o.len a' + chainLen o u := by
      rw [chainLen_append, chainLen_cons, chainLen_inactive hw]; ring
    have e2 : chainLen o (x ++ a :: u) = chainLen o x + o.len a + chainLen o u := by rw [chainLen_append, chainLen_cons]; ring
    rw [chainEval_at hd hmd hld hb (by rw [e1]; linarith) (by rw [e1]; linarith),
      chainEval_at h hm hll hb (by rw [e2]; linarith) (by rw [e2]; linarith), e1, e2]
    congr 2; ring

/-- A chain whose last part is cut away. -/
theorem piece_end {x y w : List α} {a a' : α} {σ : ℝ} (h : AllPos o (x ++ a :: y)) (hm : Meets o (x ++ a :: y))
    (hd : AllPos o (x ++ a' :: w)) (hw : ∀ b ∈ w, o.active b = false) (hact : o.active a = true) (hact' : o.active a' = true)
    (hσ : σ ≤ 1) (hP : Spec.Piece (o.eval a') (o.eval a) 0 σ) :
    Meets o (x ++ a' :: w) ∧ Spec.Piece (chainEval o (x ++ a' :: w)) (chainEval o (x ++ a :: y))
      0 ((chainLen o x + o.len a * σ) / chainLen o (x ++ a :: y)) := by
  have hmd : Meets o (x ++ a' :: w) := meets_end hm hw hact hP.ends.1
  refine ⟨hmd, ?_⟩
  obtain ⟨φ, p1, p2, p3⟩ := hP
  have hq : 0 < o.len a := by rw [len_of_active hact]; exact h a (by simp) hact
  have hp : 0 < o.len a' := by rw [len_of_active hact']; exact hd a' (by simp) hact'
  have hxn : AllPos o x := fun b hb => h b (by simp [hb])
  have hA : 0 ≤ chainLen o x := chainLen_nonneg hxn.nonNeg
  obtain ⟨g, g1, g2, g3, g4⟩ := glue_second hA hp hq p1 p2
  have hLd : chainLen o (x ++ a' :: w) = chainLen o x + o.len a' := by
    rw [chainLen_append, chainLen_cons, chainLen_inactive hw]; ring
  have hL := chainLen_pos_of h ⟨a, by simp, hact⟩
  have hL' := chainLen_pos_of hd ⟨a', by simp, hact'⟩
  rw [← hLd] at g1 g2
  obtain ⟨s1, s2⟩ := scaled_run hL' hL g1 g2
  rw [zero_div] at s2
  refine ⟨_, s1, s2, ?_⟩
  intro s hs
  obtain ⟨X, hX⟩ : ∃ X, X = s * chainLen o (x ++ a' :: w) := ⟨_, rfl⟩
  have hX0 : 0 ≤ X := by rw [hX]; exact mul_nonneg hs.1 hL'.le
  have hX1 : X ≤ chainLen o x + o.len a' := by rw [← hLd, hX]; nlinarith [hs.2]
  have hsX : s = X / chainLen o (x ++ a' :: w) := by rw [hX, mul_div_cancel_right₀ s hL'.ne']
  rw [← hX, hsX]
  have second : chainLen o x ≤ X → g X = chainLen o x + o.len a * φ ((X - chainLen o x) / o.len a') →
      chainEval o (x ++ a' :: w) (X / chainLen o (x ++ a' :: w)) =
        chainEval o (x ++ a :: y) (g X / chainLen o (x ++ a :: y)) := by
    intro hgt e
    have mX : (X - chainLen o x) / o.len a' ∈ Icc (0 : ℝ) 1 :=
      ⟨div_nonneg (by linarith) hp.le, (div_le_one hp).2 (by linarith)⟩
    have hφ : φ ((X - chainLen o x) / o.len a') ∈ Icc 0 σ := p2 ▸ mem_image_of_mem φ mX
    rw [e, chainEval_at hd hmd rfl hact' hgt hX1, chainEval_at h hm rfl hact (by nlinarith [hφ.1])
      (by nlinarith [hφ.2]), p3 _ mX, add_sub_cancel_left, mul_div_cancel_left₀ _ hq.ne']
  rcases le_or_gt X (chainLen o x) with hle | hgt
  · rcases hX0.lt_or_eq with hpos | hz
    · obtain ⟨u, b, v, hx, hb, q1, q2⟩ := member_at hxn hpos hle
      rw [g3 X hle]
      have hld : x ++ a' :: w = u ++ b :: (v ++ a' :: w) := by rw [hx]; simp
      have hll : x ++ a :: y = u ++ b :: (v ++ a :: y) := by rw [hx]; simp
      rw [chainEval_at hd hmd hld hb q1.le q2, chainEval_at h hm hll hb q1.le q2]
    · by_cases hoff : ∀ b ∈ x, o.active b = false
      · have e0 := chainLen_inactive hoff
        refine second (by rw [e0, ← hz]) ?_
        rw [g3 X hle, ← hz, e0, sub_zero, zero_div, (mono_ends p1 p2).1, mul_zero, add_zero]
      · push Not at hoff
        obtain ⟨b, hb, hb'⟩ := hoff
        obtain ⟨c, hc⟩ : ∃ c, x.find? o.active = some c :=
          Option.isSome_iff_exists.1 (List.find?_isSome.2 ⟨b, hb, by simpa using hb'⟩)
        obtain ⟨hcact, u, v, hx, hu⟩ := List.find?_eq_some_iff_append.1 hc
        have hu' : ∀ b ∈ u, o.active b = false := fun b hb => by simpa using hu b hb
        have e0 := chainLen_inactive hu'
        have hlc : 0 ≤ o.len c := by rw [len_of_active hcact]; exact (hxn c (by rw [hx]; simp) hcact).le
        have hld : x ++ a' :: w = u ++ c :: (v ++ a' :: w) := by rw [hx]; simp
        have hll : x ++ a :: y = u ++ c :: (v ++ a :: y) := by rw [hx]; simp
        rw [g3 X hle, chainEval_at hd hmd hld hcact (by rw [e0]; exact hX0) (by rw [e0, ← hz]; linarith),
          chainEval_at h hm hll hcact (by rw [e0]; exact hX0) (by rw [e0, ← hz]; linarith)]
  · exact second hgt.le (g4 X hgt hX1)

end

/-- The members of a chain that can be cut anywhere. -/
def ChainPath (l : List Curve) : Prop := (∀ a ∈ l, a.active = true → a.PathOk) ∧ Meets curveOps l ∧ ∃ a ∈ l, a.active = true

theorem ChainPath.allPos {l : List Curve} (h : ChainPath l) : AllPos curveOps l := fun a ha hact => (h.1 a ha hact).len

theorem ChainPath.pos {l : List Curve} (h : ChainPath l) : 0 < chainLen curveOps l := chainLen_pos_of h.allPos h.2.2

theorem Curve.PathOk.eval_some {c : Curve} (h : c.PathOk) {s : ℝ} (hs : s ∈ Icc (0 : ℝ) 1) : ∃ p, c.eval s = some p := by
  obtain ⟨τ, -, -, t3⟩ := h.run
  exact ⟨_, by rw [Curve.eval, t3 s hs]; rfl⟩

theorem ChainPath.eval_some {l : List Curve} (h : ChainPath l) {s : ℝ} (hs : s ∈ Icc (0 : ℝ) 1) :
    ∃ p, chainEval curveOps l s = some p := by
  obtain ⟨k, σ, a, e, ha, hact, s0, s1, -⟩ := c43_lookup l h.allPos.nonNeg h.pos s hs.1 hs.2
  obtain ⟨p, hp⟩ := (h.1 a (List.mem_of_getElem? ha) hact).eval_some ⟨s0, s1⟩
  exact ⟨p, by rw [chainEval, e]; simp only [Option.bind_some, ha]; exact hp⟩

theorem start_inside {x y w : List Curve} {a a' : Curve} {s σ : ℝ} (h : ChainPath (x ++ a :: y)) (hact : a.active = true)
    (hw : ∀ b ∈ w, curveOps.active b = false) (es : curveOps.setStart a σ = some a') (σ0 : 0 ≤ σ) (hσ : σ < 1)
    (hs : chainLen curveOps x + σ * curveOps.len a = s * chainLen curveOps (x ++ a :: y)) :
    ChainPath (w ++ a' :: y) ∧ Spec.Piece (chainEval curveOps (w ++ a' :: y)) (chainEval curveOps (x ++ a :: y)) s 1 := by
  obtain ⟨b, eb, hb, hP⟩ := c41_start_path a (h.1 a (by simp) hact) σ σ0 hσ
  have hba : a' = b := Option.some.inj (es.symm.trans eb)
  subst hba
  have hok : ∀ b ∈ w ++ a' :: y, b.active = true → b.PathOk := by
    intro b hb' hbact
    rcases List.mem_append.1 hb' with hb' | hb'
    · exact absurd hbact (by rw [show b.active = false from hw b hb']; simp)
    · rcases List.mem_cons.1 hb' with rfl | hb'
      · exact hb
      · exact h.1 b (by simp [hb']) hbact
  obtain ⟨q1, q2⟩ := piece_start h.allPos h.2.1 (fun b hb hbact => (hok b hb hbact).len) hw hact hb.act σ0 hP
  refine ⟨⟨hok, q1, a', by simp, hb.act⟩, ?_⟩
  rwa [mul_comm (curveOps.len a), hs, mul_div_cancel_right₀ s h.pos.ne'] at q2

/-- **C45, the whole piece, start.** After `set_start_on(s)` a chain runs through exactly the part from `s` on, when `s`
is not the place where a member ends. -/
theorem c45_start_path (l : List Curve) (h : ChainPath l) (s : ℝ) (h0 : 0 ≤ s) (h1 : s < 1)
    (hj : ∀ x a y, l = x ++ a :: y → a.active = true → chainLen curveOps x + curveOps.len a ≠ s * chainLen curveOps l)
    (preserve : Bool) : ∃ d, chainSetStart curveOps l s preserve = some d ∧ ChainPath d ∧
      Spec.Piece (chainEval curveOps d) (chainEval curveOps l) s 1 := by
  obtain ⟨p, hp⟩ := h.eval_some (s := s) ⟨h0, h1.le⟩
  obtain ⟨d, e, -, ⟨x, a, y, w, a', σ, rfl, rfl, hact, hw, es, σ0, σ1, hs⟩, -⟩ := c45_start_partial curve_lawful l
    h.allPos.nonNeg h.pos (fun a ha hact => ⟨(h.1 a ha hact).sampled, (h.1 a ha hact).fresh⟩) s h0 h1.le p hp preserve
  have hσ : σ < 1 := by
    refine lt_of_le_of_ne σ1 fun e1 => hj x a y rfl hact ?_
    rw [← hs, e1, one_mul]
  exact ⟨_, e, start_inside h hact hw es σ0 hσ hs⟩

/-- **C45, the whole piece, end.** After `set_end_on(s)` a chain runs through exactly the part up to `s`. -/
theorem c45_end_path (l : List Curve) (h : ChainPath l) (s : ℝ) (h0 : 0 < s) (h1 : s ≤ 1) (preserve : Bool) :
    ∃ d, chainSetEnd curveOps l s preserve = some d ∧ ChainPath d ∧
      Spec.Piece (chainEval curveOps d) (chainEval curveOps l) 0 s ∧
      ∀ a ∈ d, a.active = true → ∃ b ∈ l, a.kind = b.kind := by
  obtain ⟨p, hp⟩ := h.eval_some (s := s) ⟨h0.le, h1⟩
  obtain ⟨d, e, -, x, a, y, a', w, σ, rfl, rfl, hact, hact', hw, es, σ0, σ1, hs, -⟩ := c45_end_partial curve_lawful l
    h.allPos.nonNeg h.pos (fun a ha hact => ⟨(h.1 a ha hact).sampled, (h.1 a ha hact).fresh⟩) s h0 h1 p hp preserve
  obtain ⟨b, eb, hb, hP⟩ := c41_end_path a (h.1 a (by simp) hact) σ σ0 σ1
  have hba : a' = b := Option.some.inj (es.symm.trans eb)
  subst hba
  have hok : ∀ b ∈ x ++ a' :: w, b.active = true → b.PathOk := by
    intro b hb' hbact
    rcases List.mem_append.1 hb' with hb' | hb'
    · exact h.1 b (by simp [hb']) hbact
    · rcases List.mem_cons.1 hb' with rfl | hb'
      · exact hb
      · exact absurd hbact (by rw [show b.active = false from hw b hb']; simp)
  obtain ⟨q1, q2⟩ := piece_end h.allPos h.2.1 (fun b hb hbact => (hok b hb hbact).len) hw hact hb.act σ1 hP
  rw [mul_comm (curveOps.len a), hs, mul_div_cancel_right₀ s h.pos.ne'] at q2
  refine ⟨_, e, ⟨hok, q1, a', by simp, hb.act⟩, q2, ?_⟩
  intro b hb' hbact
  rcases List.mem_append.1 hb' with hb' | hb'
  · exact ⟨b, by simp [hb'], rfl⟩
  · rcases List.mem_cons.1 hb' with rfl | hb'
    · refine ⟨a, by simp, ?_⟩
      rw [Curve.setEndOn, Option.map_eq_some_iff] at eb
      obtain ⟨t, _, rfl⟩ := eb
      rw [updateLengths_kind]
    · exact absurd hbact (by rw [show b.active = false from hw b hb']; simp)

/-! ### Cutting at a joint -/

theorem npInterp_const {xp fp : ℕ → ℝ} {n : ℕ} {c : ℝ} (h : ∀ i, fp i = c) (x : ℝ) : npInterp xp fp n x = c := by
  simp only [npInterp, h, sub_self, zero_div, zero_mul, add_zero, ite_self]

theorem linspace_same (a : ℝ) (n i : ℕ) : linspace a a n i = a := by rw [linspace]; ring

theorem chordLen_same (f : ℝ → V3) {t : ℕ → ℝ} {a : ℝ} (h : ∀ i, t i = a) (n : ℕ) : chordLen f t n = 0 := by
  induction n with
  | zero => rfl
  | succ n ih =>
    rw [chordLen, ih, h, h, sub_self]
    simp [norm3, dot]

/-- What is left when everything is cut away: a curve without length at the former end. -/
theorem cut_all {c : Curve} (h : c.PathOk) (ha : ∀ r a m M, c.kind ≠ .arc r a m M) :
    ∃ d, c.setStartOn 1 = some d ∧ d.active = true ∧ d.length = 0 ∧ ∀ s ∈ Icc (0 : ℝ) 1, d.eval s = c.eval 1 := by
  obtain ⟨τ, t1, t2, t3⟩ := h.run
  have m1 : (1 : ℝ) ∈ Icc (0 : ℝ) 1 := ⟨zero_le_one, le_refl _⟩
  have e1 := (mono_ends t1 t2).2
  have ec : c.eval 1 = some (c.kind.fn c.t1) := by rw [Curve.eval, t3 1 m1, e1]; rfl
  have es : c.setStartOn 1 = some ({ c with t0 := c.t1 } : Curve).updateLengths := by
    rw [Curve.setStartOn, t3 1 m1, e1]; rfl
  refine ⟨_, es, by rw [updateLengths_active]; exact h.act, ?_, fun s hs => ?_⟩
  · rw [Curve.updateLengths]
    cases hk : c.kind with
    | generic f n => simp only; exact chordLen_same f (linspace_same c.t1 n) n
    | line p q => simp only [sub_self, abs_zero, mul_zero]
    | arc r a m M => exact absurd hk (ha r a m M)
  · have hl : ∀ i, ({ c with t0 := c.t1 } : Curve).updateLengths.lookup.t i = c.t1 := by
      intro i
      rw [Curve.updateLengths]
      cases hk : c.kind with
      | generic f n => simp only; exact linspace_same c.t1 n i
      | line p q => simp only [ite_self]
      | arc r a m M => simp only [ite_self]
    rw [Curve.eval, Curve.s2t, if_neg (not_lt.2 hs.1), if_neg (not_lt.2 hs.2), npInterp_const hl, updateLengths_kind, ec]
    rfl

/-- **C45, the whole piece, start, at a joint as well.** After `set_start_on(s)` a chain runs through exactly the part from
`s` on. If `s` is the end of a member, this member must not be an arc. -/
theorem c45_start_piece (l : List Curve) (h : ChainPath l) (s : ℝ) (h0 : 0 ≤ s) (h1 : s < 1)
    (hj : ∀ x a y, l = x ++ a :: y → a.active = true → chainLen curveOps x + curveOps.len a = s * chainLen curveOps l →
      ∀ r A m M, a.kind ≠ .arc r A m M) (preserve : Bool) :
    ∃ d, chainSetStart curveOps l s preserve = some d ∧ Spec.Piece (chainEval curveOps d) (chainEval curveOps l) s 1 ∧
      0 < chainLen curveOps d ∧ (∃ a ∈ d, a.active = true) ∧ chainUpdate curveOps d = d := by
  obtain ⟨p, hp⟩ := h.eval_some (s := s) ⟨h0, h1.le⟩
  obtain ⟨d, e, hgood, ⟨x, a, y, w, a', σ, rfl, rfl, hact, hw, es, σ0, σ1, hs⟩, hends⟩ := c45_start_partial curve_lawful l
    h.allPos.nonNeg h.pos (fun a ha hact => ⟨(h.1 a ha hact).sampled, (h.1 a ha hact).fresh⟩) s h0 h1.le p hp preserve
  have hfix := chainUpdate_eq curve_lawful hgood
  rcases σ1.lt_or_eq with hσ | hσ
  · obtain ⟨hd, hP⟩ := start_inside h hact hw es σ0 hσ hs
    exact ⟨_, e, hP, hd.pos, hd.2.2, hfix⟩
  subst hσ
  rw [one_mul] at hs
  obtain ⟨b, eb, bact, blen, bev⟩ := cut_all (h.1 a (by simp) hact) (hj x a y rfl hact hs)
  have hba : a' = b := Option.some.inj (es.symm.trans eb)
  subst hba
  have hyn : AllPos curveOps y := fun b hb => h.allPos b (by simp [hb])
  have hLl : chainLen curveOps (x ++ a :: y) = chainLen curveOps x + curveOps.len a + chainLen curveOps y := by
    rw [chainLen_append, chainLen_cons]; ring
  have hL := h.pos
  have hy : 0 < chainLen curveOps y := by nlinarith
  have blen' : curveOps.len a' = 0 := by rw [len_of_active (o := curveOps) bact]; exact blen
  have hLd : chainLen curveOps (w ++ a' :: y) = chainLen curveOps y := by
    rw [chainLen_append, chainLen_cons, chainLen_inactive hw, blen']; ring
  have hdn : NonNeg curveOps (w ++ a' :: y) := by
    intro c hc hcact
    rcases List.mem_append.1 hc with hc | hc
    · exact absurd hcact (by rw [hw c hc]; simp)
    · rcases List.mem_cons.1 hc with rfl | hc
      · exact blen.ge
      · exact (hyn c hc hcact).le
  have hL' : 0 < chainLen curveOps (w ++ a' :: y) := by rw [hLd]; exact hy
  obtain ⟨hst, -⟩ := hends hdn hL' (by
    intro c hc hcact hc0
    rcases List.mem_append.1 hc with hc | hc
    · exact absurd hcact (by rw [hw c hc]; simp)
    · rcases List.mem_cons.1 hc with rfl | hc
      · show c.eval (1 / 2) = c.eval 0
        rw [bev _ ⟨by norm_num, by norm_num⟩, bev 0 ⟨le_refl _, zero_le_one⟩]
      · exact absurd hc0 (hyn c hc hcact).ne')
  refine ⟨_, e, ?_, hL', ⟨a', by simp, bact⟩, hfix⟩
  have hsum : s + chainLen curveOps y / chainLen curveOps (x ++ a :: y) = 1 := by
    field_simp
    linarith
  have hpos : 0 < chainLen curveOps y / chainLen curveOps (x ++ a :: y) := div_pos hy hL
  refine ⟨fun u => s + u * (chainLen curveOps y / chainLen curveOps (x ++ a :: y)), ?_, ?_, ?_⟩
  · intro u _ v _ huv
    simp only
    nlinarith
  · apply Subset.antisymm
    · rintro _ ⟨u, hu, rfl⟩
      exact ⟨by nlinarith [hu.1], by nlinarith [hu.2]⟩
    · intro z hz
      refine ⟨(z - s) / (chainLen curveOps y / chainLen curveOps (x ++ a :: y)), ⟨div_nonneg (by linarith [hz.1]) hpos.le,
        (div_le_one hpos).2 (by linarith [hz.2])⟩, ?_⟩
      simp only
      rw [div_mul_cancel₀ _ hpos.ne']; ring
  · intro u hu
    rcases hu.1.lt_or_eq with hu0 | hu0
    · have hX1 : u * chainLen curveOps y ≤ chainLen curveOps y := by nlinarith [hu.2]
      obtain ⟨x1, b, y1, rfl, hb, q1, q2⟩ := member_at hyn (X := u * chainLen curveOps y) (mul_pos hu0 hy) hX1
      obtain ⟨Y, hY⟩ : ∃ Y, Y = chainLen curveOps (x1 ++ b :: y1) := ⟨_, rfl⟩
      rw [← hY] at hLl hLd q1 q2 ⊢
      have hg : (w ++ a' :: (x1 ++ b :: y1))[(w ++ a' :: x1).length]? = some b := by
        rw [show w ++ a' :: (x1 ++ b :: y1) = (w ++ a' :: x1) ++ b :: y1 by simp]; simp
      have hpre : preLen curveOps (w ++ a' :: (x1 ++ b :: y1)) (w ++ a' :: x1).length = chainLen curveOps x1 := by
        rw [show w ++ a' :: (x1 ++ b :: y1) = (w ++ a' :: x1) ++ b :: y1 by simp, preLen_split, chainLen_append, chainLen_cons,
          chainLen_inactive hw, blen']; ring
      rw [chainEval, getSIndex_eq hdn hL' hg (by rw [hpre, hLd]; exact q1) (by rw [hpre, hLd]; exact q2)]
      simp only [Option.bind_some, hg]
      have e2 : chainLen curveOps (x ++ a :: x1) = chainLen curveOps x + curveOps.len a + chainLen curveOps x1 := by
        rw [chainLen_append, chainLen_cons]; ring
      have e3 : s + u * (Y / chainLen curveOps (x ++ a :: (x1 ++ b :: y1))) =
          (chainLen curveOps x + curveOps.len a + u * Y) / chainLen curveOps (x ++ a :: (x1 ++ b :: y1)) := by
        rw [hs]; field_simp
      rw [e3, chainEval_at h.allPos h.2.1 (show x ++ a :: (x1 ++ b :: y1) = (x ++ a :: x1) ++ b :: y1 by simp) hb
        (by rw [e2]; linarith) (by rw [e2]; linarith), hpre, hLd, e2]
      congr 2; ring
    · simp only [← hu0, zero_mul, add_zero]
      rw [hst, hp]

theorem lineC_path {p q : V3} (h : q - p ≠ 0) : (lineC p q).PathOk := by
  refine ⟨?_, ?_, (lineC_fresh p q).2, ?_, ?_, ?_⟩
  · rw [lineC, Curve.make, if_pos rfl, updateLengths_active]
  · rw [lineC, Curve.make, if_pos rfl, updateLengths_kind]; trivial
  · rw [lineC, Curve.make, if_pos rfl, updateLengths_t0, updateLengths_t1]; exact zero_lt_one
  · rw [lineC, Curve.make, if_pos rfl, updateLengths_t0, updateLengths_t1, updateLengths_kind]
    intro x _ y _ e
    by_contra hne
    apply h
    have e' : (1 - x) • p + x • q = (1 - y) • p + y • q := e
    have : (x - y) • (q - p) = 0 := by
      have := sub_eq_zero.2 e'
      rw [← this]; module
    exact (smul_eq_zero.1 this).resolve_left (sub_ne_zero.2 hne)
  · rw [lineC_length]; exact norm3_pos h

theorem make_path {f : ℝ → V3} {N : ℕ} {ta tb : ℝ} (hN : 1 ≤ N) (hab : ta < tb) (hinj : InjOn f (Icc ta tb)) :
    (Curve.make (.generic f N) true ta tb).PathOk := by
  have hl := (strict_run f N hN hab fun i hi e =>
    absurd (hinj (linspace_mem hab.le hi.le hN) (linspace_mem hab.le hi hN) e) (linspace_step hab hN i).ne).choose_spec.2.2.2.2.2
  refine ⟨?_, ?_, updateLengths_fix_make _ _ _, ?_, ?_, hl⟩
  · rw [Curve.make, if_pos rfl, updateLengths_active]
  · rw [Curve.make, if_pos rfl, updateLengths_kind]; exact hN
  · rw [Curve.make, if_pos rfl, updateLengths_t0, updateLengths_t1]; exact hab
  · rw [Curve.make, if_pos rfl, updateLengths_t0, updateLengths_t1, updateLengths_kind]; exact hinj

/-- A chain of two paths. -/
theorem pair_path {c d : Curve} (hc : c.PathOk) (hd : d.PathOk) (h : c.eval 1 = d.eval 0) : ChainPath [c, d] := by
  refine ⟨?_, ?_, c, by simp, hc.act⟩
  · intro a ha _
    rcases List.mem_cons.1 ha with rfl | ha
    · exact hc
    · rw [List.mem_singleton.1 ha]; exact hd
  · intro j k a b hjk hj hk _ _ _
    have hk2 : k < 2 := (List.getElem?_eq_some_iff.1 hk).1
    obtain ⟨rfl, rfl⟩ : j = 0 ∧ k = 1 := by omega
    obtain rfl : c = a := by simpa using hj
    obtain rfl : d = b := by simpa using hk
    exact h

/-- A corner of two lines with length 1. -/
theorem corner_path : ChainPath [lineC 0 RIGHT, lineC RIGHT (RIGHT + UP)] :=
  pair_path (lineC_path (by
    intro e
    have := congrFun e 0
    simp [RIGHT] at this)) (lineC_path (by
    intro e
    have := congrFun e 1
    simp [UP, RIGHT] at this)) (by rw [lineC_eval, lineC_eval]; simp)

/-- The corner, trimmed at its joint and inside its members. -/
theorem c45_path_case :
    (∃ d, chainSetStart curveOps [lineC 0 RIGHT, lineC RIGHT (RIGHT + UP)] (1 / 2) false = some d ∧
      Spec.Piece (chainEval curveOps d) (chainEval curveOps [lineC 0 RIGHT, lineC RIGHT (RIGHT + UP)]) (1 / 2) 1) ∧
    (∃ d, chainSetStart curveOps [lineC 0 RIGHT, lineC RIGHT (RIGHT + UP)] (1 / 4) false = some d ∧ ChainPath d ∧
      Spec.Piece (chainEval curveOps d) (chainEval curveOps [lineC 0 RIGHT, lineC RIGHT (RIGHT + UP)]) (1 / 4) 1) ∧
    ∃ d, chainSetEnd curveOps [lineC 0 RIGHT, lineC RIGHT (RIGHT + UP)] (3 / 4) false = some d ∧ ChainPath d ∧
      Spec.Piece (chainEval curveOps d) (chainEval curveOps [lineC 0 RIGHT, lineC RIGHT (RIGHT + UP)]) 0 (3 / 4) := by
  have l1 : curveOps.len (lineC 0 RIGHT) = 1 := by
    rw [len_of_active (o := curveOps) (corner_path.1 _ (by simp) (by rw [lineC, Curve.make, if_pos rfl, updateLengths_active])).act]
    show (lineC 0 RIGHT).length = 1
    rw [lineC_length]; simp [norm3, dot, RIGHT]
  have l2 : curveOps.len (lineC RIGHT (RIGHT + UP)) = 1 := by
    rw [len_of_active (o := curveOps) (corner_path.1 _ (by simp) (by rw [lineC, Curve.make, if_pos rfl, updateLengths_active])).act]
    show (lineC RIGHT (RIGHT + UP)).length = 1
    rw [lineC_length]; simp [norm3, dot, UP, RIGHT]
  have L : chainLen curveOps [lineC 0 RIGHT, lineC RIGHT (RIGHT + UP)] = 2 := by
    rw [chainLen_cons, chainLen_cons, l1, l2]; simp [chainLen]; norm_num
  have mem : ∀ x a y, [lineC 0 RIGHT, lineC RIGHT (RIGHT + UP)] = x ++ a :: y →
      (x = [] ∧ a = lineC 0 RIGHT) ∨ (x = [lineC 0 RIGHT] ∧ a = lineC RIGHT (RIGHT + UP)) := by
    intro x a y h
    rcases x with _ | ⟨x1, x⟩
    · simp at h; exact .inl ⟨rfl, h.1.symm⟩
    · rcases x with _ | ⟨x2, x⟩
      · simp at h; right; exact ⟨by rw [h.1], h.2.1.symm⟩
      · simp at h
  refine ⟨?_, ?_, ?_⟩
  · obtain ⟨d, h1, h2, -⟩ := c45_start_piece _ corner_path (1 / 2) (by norm_num) (by norm_num) (by
      intro x a y h _ _ r A m M e
      rcases mem x a y h with ⟨-, rfl⟩ | ⟨-, rfl⟩ <;>
        (rw [lineC, Curve.make, if_pos rfl, updateLengths_kind] at e; cases e)) false
    exact ⟨d, h1, h2⟩
  · exact c45_start_path _ corner_path (1 / 4) (by norm_num) (by norm_num) (by
      intro x a y h _
      rw [L]
      rcases mem x a y h with ⟨rfl, rfl⟩ | ⟨rfl, rfl⟩
      · rw [l1]; simp [chainLen]; norm_num
      · rw [l2, chainLen_cons, l1]; simp [chainLen]; norm_num) false
  · obtain ⟨d, h1, h2, h3, -⟩ := c45_end_path _ corner_path (3 / 4) (by norm_num) (by norm_num) false
    exact ⟨d, h1, h2, h3⟩

/-- A line, trimmed at both ends. -/
theorem c41_path_case : (∃ d, (lineC 0 RIGHT).setStartOn (1 / 4) = some d ∧ d.PathOk ∧ Spec.Piece d.eval (lineC 0 RIGHT).eval (1 / 4) 1) ∧
    ∃ d, (lineC 0 RIGHT).setEndOn (3 / 4) = some d ∧ d.PathOk ∧ Spec.Piece d.eval (lineC 0 RIGHT).eval 0 (3 / 4) := by
  have h := corner_path.1 (lineC 0 RIGHT) (by simp) (by rw [lineC, Curve.make, if_pos rfl, updateLengths_active])
  exact ⟨c41_start_path _ h _ (by norm_num) (by norm_num), c41_end_path _ h _ (by norm_num) (by norm_num)⟩

end Verif
