import Verif.Model.Curve

/-! # Facts about the piecewise linear interpolation -/

namespace Verif

open Real

theorem lastLe_le (xp : ℕ → ℝ) (x : ℝ) (n : ℕ) : lastLe xp x n ≤ n := by
  induction n with
  | zero => simp [lastLe]
  | succ n ih => rw [lastLe]; split_ifs <;> omega

theorem lastLe_spec {xp : ℕ → ℝ} {x : ℝ} (h0 : xp 0 ≤ x) (n : ℕ) : xp (lastLe xp x n) ≤ x := by
  induction n with
  | zero => simpa [lastLe] using h0
  | succ n ih => rw [lastLe]; split_ifs with h <;> assumption

theorem lt_lastLe_succ {xp : ℕ → ℝ} {x : ℝ} {n : ℕ} (h : lastLe xp x n < n) :
    x < xp (lastLe xp x n + 1) := by
  induction n with
  | zero => omega
  | succ n ih =>
    rw [lastLe] at h ⊢
    split_ifs at h ⊢ with hx
    · omega
    · rcases Nat.lt_or_ge (lastLe xp x n) n with h1 | h1
      · exact ih h1
      · have : lastLe xp x n = n := le_antisymm (lastLe_le _ _ _) h1
        rw [this]; exact not_le.1 hx

theorem le_lastLe {xp : ℕ → ℝ} {x : ℝ} {k n : ℕ} (hk : k ≤ n) (h : xp k ≤ x) :
    k ≤ lastLe xp x n := by
  induction n with
  | zero => simpa [lastLe] using hk
  | succ n ih =>
    rw [lastLe]
    split_ifs with hx
    · exact hk
    · apply ih
      rcases Nat.lt_or_ge k (n + 1) with h1 | h1
      · omega
      · have : k = n + 1 := by omega
        rw [this] at h; exact absurd h hx

theorem lastLe_unique {xp : ℕ → ℝ} {x : ℝ} {k n : ℕ} (hk : k ≤ n) (h : xp k ≤ x)
    (hmono : ∀ i j, i ≤ j → j ≤ n → xp i ≤ xp j) (h' : k < n → x < xp (k + 1)) :
    lastLe xp x n = k := by
  apply le_antisymm _ (le_lastLe hk h)
  by_contra hlt
  push Not at hlt
  have h0 : xp 0 ≤ x := le_trans (hmono 0 k (Nat.zero_le _) hk) h
  have h1 := lastLe_spec h0 n
  have h2 := hmono (k + 1) (lastLe xp x n) hlt (lastLe_le _ _ _)
  have h3 := h' (by have := lastLe_le xp x n; omega)
  linarith

theorem lastLe_last {xp : ℕ → ℝ} {x : ℝ} {n : ℕ} (h : xp n ≤ x) : lastLe xp x n = n := by
  cases n with
  | zero => rfl
  | succ n => rw [lastLe, if_pos h]

theorem npInterp_last {xp fp : ℕ → ℝ} {x : ℝ} {n : ℕ} (h0 : xp 0 ≤ x) (h : xp n ≤ x) :
    npInterp xp fp n x = fp n := by
  rw [npInterp, if_neg (not_lt.2 h0)]
  simp only [lastLe_last h, if_true]

/-- Interpolation on the segment `[xp k, xp (k+1))`. -/
theorem npInterp_seg {xp fp : ℕ → ℝ} {x : ℝ} {k n : ℕ} (hk : k < n)
    (hmono : ∀ i j, i ≤ j → j ≤ n → xp i ≤ xp j) (h : xp k ≤ x) (h' : x < xp (k + 1)) :
    npInterp xp fp n x = fp k + (fp (k + 1) - fp k) / (xp (k + 1) - xp k) * (x - xp k) := by
  have h0 : xp 0 ≤ x := le_trans (hmono 0 k (Nat.zero_le _) hk.le) h
  have hl : lastLe xp x n = k := lastLe_unique hk.le h hmono (fun _ => h')
  rw [npInterp, if_neg (not_lt.2 h0)]
  simp only [hl, if_neg hk.ne]

/-- The same on the closed segment, if the segment has positive length and the next point is not
repeated. -/
theorem npInterp_seg' {xp fp : ℕ → ℝ} {x : ℝ} {k n : ℕ} (hk : k < n)
    (hmono : ∀ i j, i < j → j ≤ n → xp i < xp j) (h : xp k ≤ x) (h' : x ≤ xp (k + 1)) :
    npInterp xp fp n x = fp k + (fp (k + 1) - fp k) / (xp (k + 1) - xp k) * (x - xp k) := by
  have hmono' : ∀ i j, i ≤ j → j ≤ n → xp i ≤ xp j := by
    intro i j hij hj
    rcases Nat.lt_or_ge i j with h1 | h1
    · exact (hmono i j h1 hj).le
    · rw [show i = j by omega]
  rcases lt_or_eq_of_le h' with h1 | h1
  · exact npInterp_seg hk hmono' h h1
  · have hd : xp (k + 1) - xp k ≠ 0 := by
      have := hmono k (k + 1) (by omega) (by omega); linarith
    have hr : fp k + (fp (k + 1) - fp k) / (xp (k + 1) - xp k) * (x - xp k) = fp (k + 1) := by
      rw [h1, div_mul_cancel₀ _ hd]; ring
    rw [hr]
    rcases Nat.lt_or_ge (k + 1) n with h2 | h2
    · rw [npInterp_seg h2 hmono' h1.ge (by rw [h1]; exact hmono _ _ (by omega) (by omega)), h1]
      ring
    · have : k + 1 = n := by omega
      rw [npInterp_last (le_trans (hmono' 0 k (Nat.zero_le _) hk.le) h) (by rw [← this]; exact h1.ge),
        this]

/-- The value lies between the table values of the segment found. -/
theorem npInterp_between {xp fp : ℕ → ℝ} {x : ℝ} {n : ℕ} (h0 : xp 0 ≤ x)
    (hf : ∀ i j, i ≤ j → j ≤ n → fp i ≤ fp j) :
    fp (lastLe xp x n) ≤ npInterp xp fp n x ∧
      (lastLe xp x n < n → npInterp xp fp n x ≤ fp (lastLe xp x n + 1)) := by
  rw [npInterp, if_neg (not_lt.2 h0)]
  obtain ⟨j, hj⟩ : ∃ j, j = lastLe xp x n := ⟨_, rfl⟩
  have hle := lastLe_le xp x n
  have hsp := lastLe_spec h0 n
  have hlt := @lt_lastLe_succ xp x n
  simp only [← hj] at *
  by_cases hjn : j = n
  · rw [if_pos hjn, hjn]; exact ⟨le_refl _, fun h => absurd h (lt_irrefl _)⟩
  · rw [if_neg hjn]
    have hjn' : j < n := lt_of_le_of_ne hle hjn
    have h1 := hlt hjn'
    have h2 := hf j (j + 1) (by omega) (by omega)
    have hd : 0 < xp (j + 1) - xp j := by linarith
    have hq : 0 ≤ (x - xp j) / (xp (j + 1) - xp j) := div_nonneg (by linarith) hd.le
    have hq1 : (x - xp j) / (xp (j + 1) - xp j) ≤ 1 := by rw [div_le_one hd]; linarith
    have e : (fp (j + 1) - fp j) / (xp (j + 1) - xp j) * (x - xp j) =
        (fp (j + 1) - fp j) * ((x - xp j) / (xp (j + 1) - xp j)) := by ring
    rw [e]
    constructor
    · nlinarith
    · intro _; nlinarith

theorem npInterp_mono {xp fp : ℕ → ℝ} {x y : ℝ} {n : ℕ} (h0 : xp 0 ≤ x) (hxy : x ≤ y)
    (hf : ∀ i j, i ≤ j → j ≤ n → fp i ≤ fp j) : npInterp xp fp n x ≤ npInterp xp fp n y := by
  have h0y : xp 0 ≤ y := le_trans h0 hxy
  have hj : lastLe xp x n ≤ lastLe xp y n :=
    le_lastLe (lastLe_le _ _ _) (le_trans (lastLe_spec h0 n) hxy)
  rcases Nat.lt_or_ge (lastLe xp x n) (lastLe xp y n) with h1 | h1
  · have h2 := (npInterp_between h0 hf).2 (by have := lastLe_le xp y n; omega)
    have h3 := (npInterp_between h0y hf).1
    have h4 := hf (lastLe xp x n + 1) (lastLe xp y n) h1 (lastLe_le _ _ _)
    linarith
  · have he : lastLe xp y n = lastLe xp x n := le_antisymm h1 hj
    rw [npInterp, npInterp, if_neg (not_lt.2 h0), if_neg (not_lt.2 h0y)]
    simp only [he]
    split_ifs with hn
    · exact le_refl _
    · have hjn : lastLe xp x n < n := lt_of_le_of_ne (lastLe_le _ _ _) hn
      have h2 := hf (lastLe xp x n) (lastLe xp x n + 1) (by omega) (by omega)
      have h3 := lt_lastLe_succ hjn
      have h4 := lastLe_spec h0 n
      have h5 : 0 ≤ (fp (lastLe xp x n + 1) - fp (lastLe xp x n)) /
          (xp (lastLe xp x n + 1) - xp (lastLe xp x n)) :=
        div_nonneg (by linarith) (by linarith)
      nlinarith

theorem npInterp_neg (xp fp : ℕ → ℝ) (n : ℕ) (x : ℝ) :
    npInterp xp (fun i => -fp i) n x = -npInterp xp fp n x := by
  rw [npInterp, npInterp]
  split_ifs
  · rfl
  · simp only; split_ifs
    · rfl
    · ring

/-! ### The table of `update_lengths` -/

theorem linspace_zero (a b : ℝ) (n : ℕ) : linspace a b n 0 = a := by simp [linspace]

theorem linspace_last (a b : ℝ) {n : ℕ} (h : 0 < n) : linspace a b n n = b := by
  have : (n : ℝ) ≠ 0 := by positivity
  rw [linspace, div_self this]; ring

theorem linspace_mono {a b : ℝ} (hab : a ≤ b) (n : ℕ) {i j : ℕ} (h : i ≤ j) :
    linspace a b n i ≤ linspace a b n j := by
  rw [linspace, linspace]
  have h1 : (i : ℝ) / n ≤ j / n := by
    apply div_le_div_of_nonneg_right _ (Nat.cast_nonneg _); exact_mod_cast h
  nlinarith

theorem linspace_strict {a b : ℝ} (hab : a < b) {n : ℕ} (hn : 0 < n) {i j : ℕ} (h : i < j) :
    linspace a b n i < linspace a b n j := by
  rw [linspace, linspace]
  have hn' : (0 : ℝ) < n := by exact_mod_cast hn
  have h1 : (i : ℝ) / n < j / n := by
    apply div_lt_div_of_pos_right _ hn'; exact_mod_cast h
  nlinarith

theorem chordLen_mono (f : ℝ → V3) (t : ℕ → ℝ) {i j : ℕ} (h : i ≤ j) :
    chordLen f t i ≤ chordLen f t j := by
  induction j with
  | zero => rw [show i = 0 by omega]
  | succ j ih =>
    rcases Nat.lt_or_ge i (j + 1) with h1 | h1
    · rw [chordLen]
      have := norm3_nonneg (f (t (j + 1)) - f (t j))
      linarith [ih (by omega)]
    · rw [show i = j + 1 by omega]

theorem chordLen_nonneg (f : ℝ → V3) (t : ℕ → ℝ) (i : ℕ) : 0 ≤ chordLen f t i :=
  chordLen_mono f t (Nat.zero_le i)

/-- Samples with the same cumulated length are the same point. -/
theorem chordLen_eq_imp (f : ℝ → V3) (t : ℕ → ℝ) {i j : ℕ} (h : i ≤ j)
    (e : chordLen f t i = chordLen f t j) : f (t i) = f (t j) := by
  induction j with
  | zero => rw [show i = 0 by omega]
  | succ j ih =>
    rcases Nat.lt_or_ge i (j + 1) with h1 | h1
    · have h2 := chordLen_mono f t (show i ≤ j by omega)
      have h3 := norm3_nonneg (f (t (j + 1)) - f (t j))
      have h4 : chordLen f t (j + 1) = chordLen f t j + norm3 (f (t (j + 1)) - f (t j)) := rfl
      have h5 : norm3 (f (t (j + 1)) - f (t j)) = 0 := by linarith
      rw [ih (by omega) (by linarith)]
      have : f (t (j + 1)) - f (t j) = 0 := by
        by_contra hne; exact (norm3_pos hne).ne' h5
      exact (sub_eq_zero.1 this).symm
    · rw [show i = j + 1 by omega]

end Verif
