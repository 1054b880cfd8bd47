import Verif.Model.Chain

/-! # Lemmas about chain lookup -/

namespace Verif

section
variable {P : ℕ → ℝ} {s : ℝ}

theorem searchLeft_le (P : ℕ → ℝ) (s : ℝ) (n : ℕ) : searchLeft P s n ≤ n := by
  induction n with
  | zero => simp [searchLeft]
  | succ n ih => rw [searchLeft]; split_ifs <;> omega

theorem searchLeft_lt {n : ℕ} (h : 0 < searchLeft P s n) : P (searchLeft P s n - 1) < s := by
  induction n with
  | zero => simp [searchLeft] at h
  | succ n ih =>
    rw [searchLeft] at h ⊢
    split_ifs at h ⊢ with hx
    · simpa using hx
    · exact ih h

theorem searchLeft_ge {n k : ℕ} (h : searchLeft P s n ≤ k) (hk : k < n) : s ≤ P k := by
  induction n with
  | zero => omega
  | succ n ih =>
    rw [searchLeft] at h
    split_ifs at h with hx
    · omega
    · rcases Nat.lt_or_ge k n with h1 | h1
      · exact ih h h1
      · rw [show k = n by omega]; exact not_lt.1 hx

theorem searchLeft_unique {n r : ℕ} (hr : r ≤ n) (h1 : 0 < r → P (r - 1) < s)
    (h2 : ∀ k, r ≤ k → k < n → s ≤ P k) : searchLeft P s n = r := by
  rcases Nat.lt_trichotomy (searchLeft P s n) r with h | h | h
  · have := searchLeft_ge (P := P) (s := s) (n := n) (k := r - 1) (by omega) (by omega)
    have := h1 (by omega)
    linarith
  · exact h
  · have h3 := searchLeft_lt (P := P) (s := s) (n := n) (by omega)
    have := h2 (searchLeft P s n - 1) (by omega) (by have := searchLeft_le P s n; omega)
    linarith

end

section
variable {α : Type} (o : CurveOps α)

/-- Active members have non-negative lengths. -/
def NonNeg (l : List α) : Prop := ∀ a ∈ l, o.active a = true → 0 ≤ o.length a

theorem len_nonneg {o : CurveOps α} {l : List α} (h : NonNeg o l) {a : α} (ha : a ∈ l) :
    0 ≤ o.len a := by
  rw [CurveOps.len]
  split_ifs with h1
  · exact h a ha h1
  · exact le_refl _

theorem active_of_len {o : CurveOps α} {a : α} (h : 0 < o.len a) : o.active a = true := by
  rw [CurveOps.len] at h
  split_ifs at h with h1
  · exact h1
  · exact absurd h (lt_irrefl _)

theorem len_of_active {o : CurveOps α} {a : α} (h : o.active a = true) : o.len a = o.length a := by
  rw [CurveOps.len, if_pos h]

theorem len_of_inactive {o : CurveOps α} {a : α} (h : o.active a = false) : o.len a = 0 := by
  rw [CurveOps.len, h]; simp

@[simp] theorem preLen_zero (l : List α) : preLen o l 0 = 0 := by simp [preLen]

theorem preLen_succ {l : List α} {k : ℕ} {a : α} (h : l[k]? = some a) :
    preLen o l (k + 1) = preLen o l k + o.len a := by
  simp [preLen, List.take_add_one, h]

theorem preLen_length (l : List α) : preLen o l l.length = chainLen o l := by
  simp [preLen, chainLen]

theorem preLen_mono {o : CurveOps α} {l : List α} (h : NonNeg o l) {i j : ℕ} (hij : i ≤ j)
    (hj : j ≤ l.length) : preLen o l i ≤ preLen o l j := by
  induction j with
  | zero => rw [show i = 0 by omega]
  | succ j ih =>
    rcases Nat.lt_or_ge i (j + 1) with h1 | h1
    · have hg : l[j]? = some l[j] := List.getElem?_eq_getElem (by omega)
      rw [preLen_succ o hg]
      have := len_nonneg h (List.getElem_mem (l := l) (n := j) (by omega))
      have := ih (by omega) (by omega)
      linarith
    · rw [show i = j + 1 by omega]

theorem activeMin_le {l : List α} {k : ℕ} {a : α} (h : l[k]? = some a) (ha : o.active a = true) :
    activeMin o l ≤ k := by
  rw [activeMin]
  obtain ⟨hk, rfl⟩ := List.getElem?_eq_some_iff.1 h
  by_contra hlt
  push Not at hlt
  have := List.not_of_lt_findIdx hlt
  simp_all

theorem activeMin_spec {l : List α} {k : ℕ} {a : α} (h : l[k]? = some a) (ha : o.active a = true) :
    ∃ b, l[activeMin o l]? = some b ∧ o.active b = true := by
  have hle := activeMin_le o h ha
  obtain ⟨hk, rfl⟩ := List.getElem?_eq_some_iff.1 h
  have hlt : activeMin o l < l.length := by omega
  exact ⟨l[activeMin o l], List.getElem?_eq_getElem hlt, List.findIdx_getElem (w := hlt)⟩

theorem inactive_of_lt_activeMin {l : List α} {k : ℕ} {a : α} (hk : k < activeMin o l)
    (h : l[k]? = some a) : o.active a = false := by
  by_contra hne
  have := activeMin_le o h (by simpa using hne)
  omega

theorem le_activeMaxSucc {l : List α} {k : ℕ} {a : α} (h : l[k]? = some a)
    (ha : o.active a = true) : k + 1 ≤ activeMaxSucc o l := by
  obtain ⟨hk, rfl⟩ := List.getElem?_eq_some_iff.1 h
  rw [activeMaxSucc]
  have hr : l.reverse[l.length - 1 - k]? = some l[k] := by
    rw [List.getElem?_reverse (by omega), show l.length - 1 - (l.length - 1 - k) = k by omega]
    exact List.getElem?_eq_getElem hk
  have := activeMin_le o hr ha
  rw [activeMin] at this
  omega

theorem activeMaxSucc_spec {l : List α} {k : ℕ} {a : α} (h : l[k]? = some a)
    (ha : o.active a = true) :
    ∃ j b, activeMaxSucc o l = j + 1 ∧ l[j]? = some b ∧ o.active b = true := by
  obtain ⟨hk, rfl⟩ := List.getElem?_eq_some_iff.1 h
  have hr : l.reverse[l.length - 1 - k]? = some l[k] := by
    rw [List.getElem?_reverse (by omega), show l.length - 1 - (l.length - 1 - k) = k by omega]
    exact List.getElem?_eq_getElem hk
  obtain ⟨b, hb, hb'⟩ := activeMin_spec o hr ha
  have hle := activeMin_le o hr ha
  refine ⟨l.length - 1 - l.reverse.findIdx o.active, b, ?_, ?_, hb'⟩
  · rw [activeMaxSucc]
    rw [activeMin] at hle
    omega
  · rw [activeMin] at hb hle
    rw [List.getElem?_reverse (by omega)] at hb
    exact hb

variable {o}

theorem list_sum_nonpos (l : List ℝ) (h : ∀ x ∈ l, x ≤ 0) : l.sum ≤ 0 := by
  induction l with
  | nil => simp
  | cons a t ih =>
    rw [List.sum_cons]
    have h1 := h a (by simp)
    have h2 := ih fun x hx => h x (by simp [hx])
    linarith

theorem exists_pos {l : List α} (hL : 0 < chainLen o l) :
    ∃ (k : ℕ) (a : α), l[k]? = some a ∧ o.active a = true ∧ 0 < o.len a := by
  by_contra hne
  push Not at hne
  have : ∀ x ∈ l.map o.len, x ≤ 0 := by
    intro x hx
    obtain ⟨a, ha, rfl⟩ := List.mem_map.1 hx
    obtain ⟨k, hk, rfl⟩ := List.mem_iff_getElem.1 ha
    by_contra hpos
    push Not at hpos
    have := hne k _ (List.getElem?_eq_getElem hk) (active_of_len hpos)
    linarith
  have := list_sum_nonpos _ this
  rw [chainLen] at hL
  linarith

/-- Lookup on the half-open interval of a member with positive length. -/
theorem getSIndex_eq {l : List α} (h : NonNeg o l) (hL : 0 < chainLen o l) {k : ℕ} {a : α} {s : ℝ}
    (ha : l[k]? = some a) (h1 : preLen o l k < s * chainLen o l)
    (h2 : s * chainLen o l ≤ preLen o l k + o.len a) :
    getSIndex o l s = some (k, (s * chainLen o l - preLen o l k) / o.len a) := by
  have hlen : 0 < o.len a := by linarith
  have hact := active_of_len hlen
  have hk : k < l.length := (List.getElem?_eq_some_iff.1 ha).1
  have hr : searchLeft (portion o l) s (l.length + 1) = k + 1 := by
    apply searchLeft_unique (by omega)
    · intro _
      rw [Nat.add_sub_cancel, portion, div_lt_iff₀ hL]; exact h1
    · intro j hj hjn
      rw [portion, le_div_iff₀ hL]
      have := preLen_mono h hj (by omega)
      rw [preLen_succ o ha] at this
      linarith
  have c1 := le_activeMaxSucc o ha hact
  have c2 := activeMin_le o ha hact
  rw [getSIndex, if_neg hL.ne']
  simp only [hr]
  rw [if_neg (show ¬ activeMaxSucc o l < k + 1 by omega),
    if_neg (show ¬ k + 1 < activeMin o l + 1 by omega), if_neg (by omega)]
  have e : portion o l (k + 1) - portion o l (k + 1 - 1) = o.len a / chainLen o l := by
    rw [Nat.add_sub_cancel, portion, portion, preLen_succ o ha]; ring
  rw [e, if_pos (by positivity), Nat.add_sub_cancel, portion]
  have := hL.ne'
  have := hlen.ne'
  congr 2
  field_simp

/-- Every position in (0, 1] lies in the half-open interval of a member. -/
theorem exists_index {l : List α} (h : NonNeg o l) (hL : 0 < chainLen o l) {s : ℝ} (h0 : 0 < s)
    (h1 : s ≤ 1) :
    ∃ (k : ℕ) (a : α), l[k]? = some a ∧ preLen o l k < s * chainLen o l ∧
      s * chainLen o l ≤ preLen o l k + o.len a := by
  obtain ⟨r, hr⟩ : ∃ r, r = searchLeft (portion o l) s (l.length + 1) := ⟨_, rfl⟩
  have hpos : 0 < r := by
    by_contra hz
    have := searchLeft_ge (P := portion o l) (s := s) (n := l.length + 1) (k := 0) (by omega)
      (by omega)
    rw [portion, preLen_zero, zero_div] at this
    linarith
  have hlt := searchLeft_lt (P := portion o l) (s := s) (n := l.length + 1) (by omega)
  rw [← hr] at hlt
  have hle : r ≤ l.length := by
    by_contra hgt
    have := searchLeft_le (portion o l) s (l.length + 1)
    rw [show r - 1 = l.length by omega, portion, preLen_length, div_self hL.ne'] at hlt
    linarith
  have hge := searchLeft_ge (P := portion o l) (s := s) (n := l.length + 1) (k := r) hr.symm.le
    (by omega)
  have hg : l[r - 1]? = some l[r - 1] := List.getElem?_eq_getElem (by omega)
  refine ⟨r - 1, _, hg, ?_, ?_⟩
  · rwa [portion, div_lt_iff₀ hL] at hlt
  · rw [portion, le_div_iff₀ hL] at hge
    have := preLen_succ o hg
    rw [show r - 1 + 1 = r by omega] at this
    linarith

theorem preLen_activeMin {l : List α} {j : ℕ} (hj : j ≤ activeMin o l) : preLen o l j = 0 := by
  induction j with
  | zero => exact preLen_zero o l
  | succ j ih =>
    rcases h : l[j]? with _ | a
    · have : preLen o l (j + 1) = preLen o l j := by simp [preLen, List.take_add_one, h]
      rw [this, ih (by omega)]
    · rw [preLen_succ o h, ih (by omega), len_of_inactive (inactive_of_lt_activeMin o (by omega) h)]
      ring

/-- Lookup at or before the start. -/
theorem getSIndex_nonpos {l : List α} (h : NonNeg o l) (hL : 0 < chainLen o l) {s : ℝ}
    (hs : s ≤ 0) :
    ∃ a, l[activeMin o l]? = some a ∧ o.active a = true ∧
      getSIndex o l s = some (activeMin o l,
        if o.len a ≠ 0 then s * chainLen o l / o.len a else 1 / 2) := by
  obtain ⟨k, b, hk, hb, _⟩ := exists_pos hL
  obtain ⟨a, ha, hact⟩ := activeMin_spec o hk hb
  refine ⟨a, ha, hact, ?_⟩
  have hr : searchLeft (portion o l) s (l.length + 1) = 0 := by
    apply searchLeft_unique (by omega) (by omega)
    intro j _ hjn
    rw [portion, le_div_iff₀ hL]
    have := preLen_mono h (Nat.zero_le j) (by omega)
    rw [preLen_zero] at this
    nlinarith
  have hlt := (List.getElem?_eq_some_iff.1 ha).1
  rw [getSIndex, if_neg hL.ne']
  simp only [hr]
  rw [if_neg (show ¬ activeMaxSucc o l < 0 by omega),
    if_pos (show 0 < activeMin o l + 1 by omega), if_neg (by omega), Nat.add_sub_cancel]
  have e0 : portion o l (activeMin o l) = 0 := by
    rw [portion, preLen_activeMin (le_refl _), zero_div]
  have e1 : portion o l (activeMin o l + 1) = o.len a / chainLen o l := by
    rw [portion, preLen_succ o ha, preLen_activeMin (le_refl _), zero_add]
  rw [e0, e1, sub_zero, sub_zero]
  have hL' := hL.ne'
  by_cases hz : o.len a = 0
  · simp [hz]
  · rw [if_pos (div_ne_zero hz hL'), if_pos hz]
    congr 2
    field_simp

/-- Lookup after the end. -/
theorem getSIndex_gt {l : List α} (hL : 0 < chainLen o l) {s : ℝ} (h : NonNeg o l)
    (hs : 1 < s) :
    ∃ (k : ℕ) (a : α), l[k]? = some a ∧ o.active a = true ∧ activeMaxSucc o l = k + 1 ∧
      getSIndex o l s = some (k,
        if o.len a ≠ 0 then (s * chainLen o l - preLen o l k) / o.len a else 1 / 2) := by
  obtain ⟨k, b, hk, hb, _⟩ := exists_pos hL
  obtain ⟨j, a, hj, ha, hact⟩ := activeMaxSucc_spec o hk hb
  refine ⟨j, a, ha, hact, hj, ?_⟩
  have hlt := (List.getElem?_eq_some_iff.1 ha).1
  have hr : searchLeft (portion o l) s (l.length + 1) = l.length + 1 := by
    apply searchLeft_unique (le_refl _)
    · intro _
      rw [Nat.add_sub_cancel, portion, preLen_length, div_self hL.ne']; exact hs
    · intro j h1 h2; omega
  have hmin := activeMin_le o ha hact
  rw [getSIndex, if_neg hL.ne']
  simp only [hr]
  rw [if_pos (show activeMaxSucc o l < l.length + 1 by omega), hj,
    if_neg (show ¬ j + 1 < activeMin o l + 1 by omega), if_neg (by omega), Nat.add_sub_cancel]
  have e : portion o l (j + 1) - portion o l j = o.len a / chainLen o l := by
    rw [portion, portion, preLen_succ o ha]; ring
  rw [e]
  have hL' := hL.ne'
  by_cases hz : o.len a = 0
  · simp [hz]
  · rw [if_pos (div_ne_zero hz hL'), if_pos hz, portion]
    congr 2
    field_simp

end

end Verif
