import Verif.Lemmas.Interp

/-! # Properties C38, C39, C40, C41, C42, C47, C48: single curves -/

namespace Verif

open Real

/-- The curve has at least two length samples (`lenght_approx_ndiv ≥ 2`; lines and arcs always). -/
def CurveKind.Sampled : CurveKind → Prop
  | .generic _ n => 1 ≤ n
  | _ => True

/-- What `update_lengths` establishes about the lookup table. -/
structure Curve.Tabled (c : Curve) : Prop where
  pos : 1 ≤ c.lookup.n
  s_zero : c.lookup.s 0 = 0
  s_last : c.lookup.s c.lookup.n = 1
  s_mono : ∀ i j, i ≤ j → j ≤ c.lookup.n → c.lookup.s i ≤ c.lookup.s j
  t_zero : c.lookup.t 0 = c.t0
  t_last : c.lookup.t c.lookup.n = c.t1
  t_mono : c.t0 ≤ c.t1 → ∀ i j, i ≤ j → j ≤ c.lookup.n → c.lookup.t i ≤ c.lookup.t j
  t_anti : c.t1 ≤ c.t0 → ∀ i j, i ≤ j → j ≤ c.lookup.n → c.lookup.t j ≤ c.lookup.t i
  same : ∀ i j, i ≤ j → j ≤ c.lookup.n → c.lookup.s i = c.lookup.s j →
    c.kind.fn (c.lookup.t i) = c.kind.fn (c.lookup.t j)

theorem updateLengths_kind (c : Curve) : c.updateLengths.kind = c.kind := by
  rw [Curve.updateLengths]; split <;> simp_all

theorem updateLengths_t0 (c : Curve) : c.updateLengths.t0 = c.t0 := by
  rw [Curve.updateLengths]; split <;> rfl

theorem updateLengths_t1 (c : Curve) : c.updateLengths.t1 = c.t1 := by
  rw [Curve.updateLengths]; split <;> rfl

theorem updateLengths_active (c : Curve) : c.updateLengths.active = c.active := by
  rw [Curve.updateLengths]; split <;> rfl

/-- A table with two entries 0, 1. -/
theorem two_tabled (c : Curve) (len : ℝ) : Curve.Tabled { c with
    length := len
    lookup := ⟨1, fun i => if i = 0 then 0 else 1, fun i => if i = 0 then c.t0 else c.t1⟩ } := by
  refine ⟨le_refl _, rfl, rfl, ?_, rfl, rfl, ?_, ?_, ?_⟩
  · intro i j hij _
    simp only
    split_ifs <;> first | omega | norm_num
  · intro h i j hij _
    simp only
    split_ifs <;> first | omega | exact h | exact le_refl _
  · intro h i j hij _
    simp only
    split_ifs <;> first | omega | exact h | exact le_refl _
  · intro i j hij _
    simp only
    intro he
    split_ifs at he ⊢ <;> first | omega | rfl | norm_num at he

theorem updateLengths_tabled (c : Curve) (hs : c.kind.Sampled) : c.updateLengths.Tabled := by
  have hk := updateLengths_kind c
  rw [Curve.updateLengths] at hk ⊢
  cases hkind : c.kind with
  | line p0 p1 => simp only [← hkind]; exact two_tabled c _
  | arc r a ce M => simp only [← hkind]; exact two_tabled c _
  | generic f n =>
    rw [hkind] at hs
    have hn : 1 ≤ n := hs
    obtain ⟨t, ht⟩ : ∃ t, t = linspace c.t0 c.t1 n := ⟨_, rfl⟩
    have tn : t n = c.t1 := by rw [ht]; exact linspace_last _ _ hn
    have t0 : t 0 = c.t0 := by rw [ht]; exact linspace_zero _ _ _
    have tm : c.t0 ≤ c.t1 → ∀ i j, i ≤ j → j ≤ n → t i ≤ t j := by
      intro h i j hij _; rw [ht]; exact linspace_mono h n hij
    have ta : c.t1 ≤ c.t0 → ∀ i j, i ≤ j → j ≤ n → t j ≤ t i := by
      intro h i j hij _
      rw [ht, linspace, linspace]
      have h1 : (i : ℝ) / n ≤ j / n := by
        apply div_le_div_of_nonneg_right _ (Nat.cast_nonneg _); exact_mod_cast hij
      nlinarith
    simp only [← ht]
    by_cases hlen : chordLen f t n = 0
    · simp only [hlen, if_true]
      refine ⟨hn, linspace_zero _ _ _, linspace_last _ _ hn, ?_, t0, tn, tm, ta, ?_⟩
      · intro i j hij _; exact linspace_mono zero_le_one n hij
      · intro i j hij hj _
        simp only [CurveKind.fn]
        apply chordLen_eq_imp f t hij
        have h1 := chordLen_nonneg f t i
        have h2 := chordLen_mono f t hij
        have h3 := chordLen_mono f t hj
        linarith
    · simp only [if_neg hlen]
      have hpos : 0 < chordLen f t n := lt_of_le_of_ne (chordLen_nonneg f t n) (Ne.symm hlen)
      refine ⟨hn, ?_, div_self hlen, ?_, t0, tn, tm, ta, ?_⟩
      · simp [chordLen]
      · intro i j hij _
        exact div_le_div_of_nonneg_right (chordLen_mono f t hij) hpos.le
      · intro i j hij hj he
        simp only [CurveKind.fn]
        apply chordLen_eq_imp f t hij
        simp only at he
        field_simp at he
        exact he

/-! ### C38 -/

theorem Curve.Tabled.eval_zero {c : Curve} (h : c.Tabled) : c.eval 0 = some (c.kind.fn c.t0) := by
  rw [Curve.eval, Curve.s2t, if_neg (lt_irrefl _), if_neg (by norm_num)]
  simp only [Option.map_some, Option.some.injEq]
  have h0 : c.lookup.s 0 ≤ 0 := h.s_zero.le
  have hle := lastLe_le c.lookup.s 0 c.lookup.n
  have hsp := lastLe_spec h0 c.lookup.n
  have hge := h.s_mono 0 _ (Nat.zero_le _) hle
  have he : c.lookup.s (lastLe c.lookup.s 0 c.lookup.n) = 0 :=
    le_antisymm hsp (h.s_zero.symm.le.trans hge)
  have hv : npInterp c.lookup.s c.lookup.t c.lookup.n 0 =
      c.lookup.t (lastLe c.lookup.s 0 c.lookup.n) := by
    rw [npInterp, if_neg (not_lt.2 h0)]
    simp only [he]
    split_ifs with hn
    · rw [hn]
    · ring
  rw [hv, ← h.t_zero]
  exact (h.same 0 _ (Nat.zero_le _) hle (by rw [h.s_zero, he])).symm

theorem Curve.Tabled.s2t_one {c : Curve} (h : c.Tabled) : c.s2t 1 = some c.t1 := by
  rw [Curve.s2t, if_neg (by norm_num), if_neg (lt_irrefl _)]
  rw [npInterp_last (by rw [h.s_zero]; norm_num) h.s_last.le, h.t_last]

theorem Curve.Tabled.eval_one {c : Curve} (h : c.Tabled) : c.eval 1 = some (c.kind.fn c.t1) := by
  rw [Curve.eval, h.s2t_one]; rfl

/-- **C38, ends.** After `update_lengths` the curve starts at its function's value at `t_0` and ends at
the value at `t_1`, for every function (also with repeated sample points), range and number of
samples. -/
theorem c38_ends (c : Curve) (hs : c.kind.Sampled) :
    c.updateLengths.eval 0 = some (c.kind.fn c.t0) ∧
      c.updateLengths.eval 1 = some (c.kind.fn c.t1) := by
  have h := updateLengths_tabled c hs
  rw [h.eval_zero, h.eval_one, updateLengths_kind, updateLengths_t0, updateLengths_t1]
  exact ⟨rfl, rfl⟩

/-- **C38, order.** On [0, 1] the map from `s` to `t` is defined, stays between `t_0` and `t_1`, and
is monotone: increasing if `t_0 ≤ t_1`, decreasing if `t_1 ≤ t_0`. -/
theorem c38_monotone (c : Curve) (hs : c.kind.Sampled) (x y : ℝ) (hx : 0 ≤ x) (hxy : x ≤ y)
    (hy : y ≤ 1) :
    ∃ a b, c.updateLengths.s2t x = some a ∧ c.updateLengths.s2t y = some b ∧
      (c.t0 ≤ c.t1 → c.t0 ≤ a ∧ a ≤ b ∧ b ≤ c.t1) ∧
      (c.t1 ≤ c.t0 → c.t1 ≤ b ∧ b ≤ a ∧ a ≤ c.t0) := by
  have h := updateLengths_tabled c hs
  have e0 := updateLengths_t0 c
  have e1 := updateLengths_t1 c
  obtain ⟨d, hd⟩ : ∃ d, d = c.updateLengths := ⟨_, rfl⟩
  rw [← hd] at h e0 e1 ⊢
  refine ⟨npInterp d.lookup.s d.lookup.t d.lookup.n x,
    npInterp d.lookup.s d.lookup.t d.lookup.n y, ?_, ?_, ?_, ?_⟩
  · rw [Curve.s2t, if_neg (not_lt.2 hx), if_neg (by linarith)]
  · rw [Curve.s2t, if_neg (by linarith), if_neg (not_lt.2 hy)]
  · intro ht
    rw [← e0, ← e1] at ht ⊢
    have hm := h.t_mono ht
    have hx0 : d.lookup.s 0 ≤ x := by rw [h.s_zero]; exact hx
    have hy0 : d.lookup.s 0 ≤ y := by linarith
    refine ⟨?_, npInterp_mono hx0 hxy hm, ?_⟩
    · have h1 := (npInterp_between hx0 hm).1
      have h2 := hm 0 _ (Nat.zero_le _) (lastLe_le d.lookup.s x d.lookup.n)
      rw [h.t_zero] at h2; linarith
    · have h1 := npInterp_mono (fp := d.lookup.t) (n := d.lookup.n) hy0 hy hm
      rwa [npInterp_last (by rw [h.s_zero]; norm_num) h.s_last.le, h.t_last] at h1
  · intro ht
    rw [← e0, ← e1] at ht ⊢
    have hm : ∀ i j, i ≤ j → j ≤ d.lookup.n → -d.lookup.t i ≤ -d.lookup.t j := by
      intro i j hij hj; exact neg_le_neg (h.t_anti ht i j hij hj)
    have hx0 : d.lookup.s 0 ≤ x := by rw [h.s_zero]; exact hx
    have hy0 : d.lookup.s 0 ≤ y := by linarith
    have n1 := npInterp_neg d.lookup.s d.lookup.t d.lookup.n x
    have n2 := npInterp_neg d.lookup.s d.lookup.t d.lookup.n y
    refine ⟨?_, ?_, ?_⟩
    · have h1 := npInterp_mono (fp := fun i => -d.lookup.t i) (n := d.lookup.n) hy0 hy hm
      rw [npInterp_last (by rw [h.s_zero]; norm_num) h.s_last.le, h.t_last, n2] at h1
      linarith
    · have := npInterp_mono (fp := fun i => -d.lookup.t i) (n := d.lookup.n) hx0 hxy hm
      rw [n1, n2] at this; linarith
    · have h1 := (npInterp_between (fp := fun i => -d.lookup.t i) (n := d.lookup.n) hx0 hm).1
      have h2 := hm 0 _ (Nat.zero_le _) (lastLe_le d.lookup.s x d.lookup.n)
      rw [n1] at h1
      rw [h.t_zero] at h2; linarith

/-- **C38, proportionality.** At the fraction of the polygon length reached by sample `i`, the curve is
at sample `i`. -/
theorem c38_samples (c : Curve) (f : ℝ → V3) (n : ℕ) (hk : c.kind = .generic f n) (hn : 1 ≤ n)
    (hlen : c.updateLengths.length ≠ 0) (i : ℕ) (hi : i ≤ n) :
    c.updateLengths.eval (chordLen f (linspace c.t0 c.t1 n) i / c.updateLengths.length) =
      some (f (linspace c.t0 c.t1 n i)) := by
  have h := updateLengths_tabled c (by rw [hk]; exact hn)
  obtain ⟨t, ht⟩ : ∃ t, t = linspace c.t0 c.t1 n := ⟨_, rfl⟩
  have hl : c.updateLengths.length = chordLen f t n := by
    rw [Curve.updateLengths, hk, ht]
  have hlk : c.updateLengths.lookup = ⟨n, fun i => chordLen f t i / chordLen f t n, t⟩ := by
    rw [hl] at hlen
    rw [Curve.updateLengths, hk]
    simp only [← ht, if_neg hlen]
  have hfn : c.updateLengths.kind.fn = f := by rw [updateLengths_kind, hk]; rfl
  rw [hl] at hlen ⊢
  rw [← ht, Curve.eval]
  obtain ⟨d, hd⟩ : ∃ d, d = c.updateLengths := ⟨_, rfl⟩
  rw [← hd] at h hlk hfn ⊢
  obtain ⟨x, hx⟩ : ∃ x, x = chordLen f t i / chordLen f t n := ⟨_, rfl⟩
  have hsi : d.lookup.s i = x := by rw [hlk, hx]
  have hin : i ≤ d.lookup.n := by rw [hlk]; exact hi
  have hx0 : 0 ≤ x := by rw [← hsi, ← h.s_zero]; exact h.s_mono 0 i (Nat.zero_le _) hin
  have hx1 : x ≤ 1 := by rw [← hsi, ← h.s_last]; exact h.s_mono i _ hin (le_refl _)
  rw [← hx, Curve.s2t, if_neg (not_lt.2 hx0), if_neg (not_lt.2 hx1)]
  simp only [Option.map_some, Option.some.injEq]
  have hs0 : d.lookup.s 0 ≤ x := by rw [h.s_zero]; exact hx0
  obtain ⟨j, hj⟩ : ∃ j, j = lastLe d.lookup.s x d.lookup.n := ⟨_, rfl⟩
  have hjn : j ≤ d.lookup.n := by rw [hj]; exact lastLe_le _ _ _
  have hij : i ≤ j := by rw [hj]; exact le_lastLe hin hsi.le
  have hsj : d.lookup.s j = x := by
    apply le_antisymm
    · rw [hj]; exact lastLe_spec hs0 _
    · rw [← hsi]; exact h.s_mono i j hij hjn
  have hv : npInterp d.lookup.s d.lookup.t d.lookup.n x = d.lookup.t j := by
    rw [npInterp, if_neg (not_lt.2 hs0)]
    simp only [← hj]
    split_ifs with hn
    · rw [hn]
    · rw [hsj]; ring
  have := h.same i j hij hjn (by rw [hsi, hsj])
  rw [hv, hfn] at *
  rw [← this, hlk]

/-- Concrete case: a parabola with a repeated first point is a curve in the sense of C38. -/
example : (CurveKind.generic (fun t => ![t ^ 2, 0, 0]) 20).Sampled := by
  simp [CurveKind.Sampled]

/-! ### C39 -/

/-- No two neighbouring samples coincide and the parameter range is increasing. -/
structure Curve.Strict (c : Curve) : Prop where
  tab : c.Tabled
  s_strict : ∀ i j, i < j → j ≤ c.lookup.n → c.lookup.s i < c.lookup.s j
  t_strict : ∀ i j, i < j → j ≤ c.lookup.n → c.lookup.t i < c.lookup.t j

/-- Interpolation in one table and then in the transposed one is the identity on the range. -/
theorem interp_inverse {xp fp : ℕ → ℝ} {n : ℕ} {x : ℝ}
    (hx : ∀ i j, i < j → j ≤ n → xp i < xp j) (hf : ∀ i j, i < j → j ≤ n → fp i < fp j)
    (h0 : xp 0 ≤ x) (h1 : x ≤ xp n) (hn : 1 ≤ n) :
    npInterp fp xp n (npInterp xp fp n x) = x ∧ fp 0 ≤ npInterp xp fp n x ∧
      npInterp xp fp n x ≤ fp n := by
  have hf' : ∀ i j, i ≤ j → j ≤ n → fp i ≤ fp j := by
    intro i j hij hj
    rcases Nat.lt_or_ge i j with h | h
    · exact (hf i j h hj).le
    · rw [show i = j by omega]
  obtain ⟨k, hk⟩ : ∃ k, k = min (lastLe xp x n) (n - 1) := ⟨_, rfl⟩
  have hkn : k < n := by omega
  have hle := lastLe_le xp x n
  have hk1 : xp k ≤ x := by
    rcases Nat.lt_or_ge (lastLe xp x n) n with h | h
    · rw [show k = lastLe xp x n by omega]; exact lastLe_spec h0 n
    · have : xp n ≤ x := by
        have := lastLe_spec h0 n; rwa [show lastLe xp x n = n by omega] at this
      have h2 := hx k n (by omega) (le_refl _)
      linarith
  have hk2 : x ≤ xp (k + 1) := by
    rcases Nat.lt_or_ge (lastLe xp x n) n with h | h
    · rw [show k = lastLe xp x n by omega]; exact (lt_lastLe_succ h).le
    · rw [show k + 1 = n by omega]; exact h1
  have hd := hx k (k + 1) (by omega) (by omega)
  have hfd := hf k (k + 1) (by omega) (by omega)
  have e := npInterp_seg' (fp := fp) hkn hx hk1 hk2
  have hq0 : 0 ≤ (x - xp k) / (xp (k + 1) - xp k) := div_nonneg (by linarith) (by linarith)
  have hq1 : (x - xp k) / (xp (k + 1) - xp k) ≤ 1 := by
    rw [div_le_one (by linarith)]; linarith
  have e' : npInterp xp fp n x = fp k + (fp (k + 1) - fp k) *
      ((x - xp k) / (xp (k + 1) - xp k)) := by rw [e]; ring
  have l1 : fp k ≤ npInterp xp fp n x := by rw [e']; nlinarith
  have l2 : npInterp xp fp n x ≤ fp (k + 1) := by rw [e']; nlinarith
  refine ⟨?_, le_trans (hf' 0 k (Nat.zero_le _) hkn.le) l1, le_trans l2 (hf' (k + 1) n hkn (le_refl _))⟩
  rw [npInterp_seg' hkn hf l1 l2, e']
  have h3 : xp (k + 1) - xp k ≠ 0 := by linarith
  have h4 : fp (k + 1) - fp k ≠ 0 := by linarith
  field_simp
  ring

theorem interpolate_inverse {x x0 x1 y0 y1 y : ℝ} (hy : y1 - y0 ≠ 0)
    (h : interpolate x x0 x1 y0 y1 = some y) : interpolate y y0 y1 x0 x1 = some x := by
  rw [interpolate] at h ⊢
  split_ifs at h with h1
  rw [if_neg hy]
  simp only [Option.some.injEq] at h ⊢
  rw [← h]
  field_simp
  ring

/-- **C39.** For a curve without repeated neighbouring samples and with an increasing parameter range,
`t2s ∘ s2t` and `s2t ∘ t2s` are the identity on the whole line, including both extrapolations. -/
theorem c39_inverse (c : Curve) (h : c.Strict) (x : ℝ) :
    (∃ t, c.s2t x = some t ∧ c.t2s t = some x) ∧ (∃ s, c.t2s x = some s ∧ c.s2t s = some x) := by
  have hT := h.tab
  have hn := hT.pos
  have s01 : c.lookup.s 0 < c.lookup.s 1 := h.s_strict 0 1 (by omega) hn
  have t01 : c.lookup.t 0 < c.lookup.t 1 := h.t_strict 0 1 (by omega) hn
  have snn : c.lookup.s (c.lookup.n - 1) < c.lookup.s c.lookup.n :=
    h.s_strict _ _ (by omega) (le_refl _)
  have tnn : c.lookup.t (c.lookup.n - 1) < c.lookup.t c.lookup.n :=
    h.t_strict _ _ (by omega) (le_refl _)
  have hs0 := hT.s_zero
  have hs1 := hT.s_last
  have ht0 := hT.t_zero
  have ht1 := hT.t_last
  constructor
  · rw [Curve.s2t]
    by_cases hx : x < 0
    · refine ⟨c.lookup.t 0 + (c.lookup.t 1 - c.lookup.t 0) * (x - c.lookup.s 0) /
        (c.lookup.s 1 - c.lookup.s 0), ?_, ?_⟩
      · rw [if_pos hx, interpolate, if_neg (by linarith)]
      · have hlt : c.lookup.t 0 + (c.lookup.t 1 - c.lookup.t 0) * (x - c.lookup.s 0) /
            (c.lookup.s 1 - c.lookup.s 0) < c.t0 := by
          rw [ht0]
          have : (c.lookup.t 1 - c.t0) * (x - c.lookup.s 0) / (c.lookup.s 1 - c.lookup.s 0) < 0 := by
            apply div_neg_of_neg_of_pos _ (by linarith)
            rw [hs0]; nlinarith
          linarith
        rw [Curve.t2s, if_pos hlt]
        apply interpolate_inverse (by linarith)
        rw [interpolate, if_neg (by linarith)]
    · rw [if_neg hx]
      by_cases hx1 : 1 < x
      · refine ⟨c.lookup.t c.lookup.n + (c.lookup.t (c.lookup.n - 1) - c.lookup.t c.lookup.n) *
          (x - c.lookup.s c.lookup.n) / (c.lookup.s (c.lookup.n - 1) - c.lookup.s c.lookup.n), ?_, ?_⟩
        · rw [if_pos hx1, interpolate, if_neg (by linarith)]
        · have hgt : c.t1 < c.lookup.t c.lookup.n + (c.lookup.t (c.lookup.n - 1) -
              c.lookup.t c.lookup.n) * (x - c.lookup.s c.lookup.n) /
                (c.lookup.s (c.lookup.n - 1) - c.lookup.s c.lookup.n) := by
            rw [ht1]
            have : 0 < (c.lookup.t (c.lookup.n - 1) - c.t1) * (x - c.lookup.s c.lookup.n) /
                (c.lookup.s (c.lookup.n - 1) - c.lookup.s c.lookup.n) := by
              apply div_pos_of_neg_of_neg _ (by linarith)
              rw [hs1]; nlinarith
            linarith
          have hnl : ¬ c.lookup.t c.lookup.n + (c.lookup.t (c.lookup.n - 1) -
              c.lookup.t c.lookup.n) * (x - c.lookup.s c.lookup.n) /
                (c.lookup.s (c.lookup.n - 1) - c.lookup.s c.lookup.n) < c.t0 := by
            have := h.t_strict 0 c.lookup.n (by omega) (le_refl _)
            rw [ht0, ht1] at this
            linarith
          rw [Curve.t2s, if_neg hnl, if_pos hgt]
          apply interpolate_inverse (by linarith)
          rw [interpolate, if_neg (by linarith)]
      · rw [if_neg hx1]
        obtain ⟨e, l1, l2⟩ := interp_inverse h.s_strict h.t_strict (x := x)
          (by rw [hs0]; linarith) (by rw [hs1]; linarith) hn
        refine ⟨_, rfl, ?_⟩
        rw [ht0] at l1
        rw [ht1] at l2
        rw [Curve.t2s, if_neg (by linarith), if_neg (by linarith)]
        rw [e]
  · have t0n := h.t_strict 0 c.lookup.n (by omega) (le_refl _)
    rw [Curve.t2s]
    by_cases hx : x < c.t0
    · refine ⟨c.lookup.s 0 + (c.lookup.s 1 - c.lookup.s 0) * (x - c.lookup.t 0) /
        (c.lookup.t 1 - c.lookup.t 0), ?_, ?_⟩
      · rw [if_pos hx, interpolate, if_neg (by linarith)]
      · have hlt : c.lookup.s 0 + (c.lookup.s 1 - c.lookup.s 0) * (x - c.lookup.t 0) /
            (c.lookup.t 1 - c.lookup.t 0) < 0 := by
          rw [hs0]
          have : (c.lookup.s 1 - 0) * (x - c.lookup.t 0) / (c.lookup.t 1 - c.lookup.t 0) < 0 := by
            apply div_neg_of_neg_of_pos _ (by linarith)
            rw [ht0]; nlinarith
          linarith
        rw [Curve.s2t, if_pos hlt]
        apply interpolate_inverse (by linarith)
        rw [interpolate, if_neg (by linarith)]
    · rw [if_neg hx]
      by_cases hx1 : c.t1 < x
      · refine ⟨c.lookup.s c.lookup.n + (c.lookup.s (c.lookup.n - 1) - c.lookup.s c.lookup.n) *
          (x - c.lookup.t c.lookup.n) / (c.lookup.t (c.lookup.n - 1) - c.lookup.t c.lookup.n), ?_, ?_⟩
        · rw [if_pos hx1, interpolate, if_neg (by linarith)]
        · have hgt : 1 < c.lookup.s c.lookup.n + (c.lookup.s (c.lookup.n - 1) -
              c.lookup.s c.lookup.n) * (x - c.lookup.t c.lookup.n) /
                (c.lookup.t (c.lookup.n - 1) - c.lookup.t c.lookup.n) := by
            rw [hs1]
            have : 0 < (c.lookup.s (c.lookup.n - 1) - 1) * (x - c.lookup.t c.lookup.n) /
                (c.lookup.t (c.lookup.n - 1) - c.lookup.t c.lookup.n) := by
              apply div_pos_of_neg_of_neg _ (by linarith)
              rw [ht1]; nlinarith
            linarith
          rw [Curve.s2t, if_neg (by linarith), if_pos hgt]
          apply interpolate_inverse (by linarith)
          rw [interpolate, if_neg (by linarith)]
      · rw [if_neg hx1]
        obtain ⟨e, l1, l2⟩ := interp_inverse h.t_strict h.s_strict (x := x)
          (by rw [ht0]; linarith) (by rw [ht1]; linarith) hn
        refine ⟨_, rfl, ?_⟩
        rw [hs0] at l1
        rw [hs1] at l2
        rw [Curve.s2t, if_neg (by linarith), if_neg (by linarith)]
        rw [e]

/-- `update_lengths` gives such a table when neighbouring samples differ and `t_0 < t_1`. -/
theorem c39_strict (c : Curve) (hs : c.kind.Sampled) (ht : c.t0 < c.t1)
    (hd : ∀ f n, c.kind = .generic f n → ∀ i, i < n →
      f (linspace c.t0 c.t1 n i) ≠ f (linspace c.t0 c.t1 n (i + 1))) : c.updateLengths.Strict := by
  have hT := updateLengths_tabled c hs
  refine ⟨hT, ?_, ?_⟩
  · rw [Curve.updateLengths]
    cases hk : c.kind with
    | line p0 p1 => intro i j hij hj; simp only at hj ⊢; rw [if_pos (by omega), if_neg (by omega)]; norm_num
    | arc r a ce M =>
      intro i j hij hj; simp only at hj ⊢; rw [if_pos (by omega), if_neg (by omega)]; norm_num
    | generic f n =>
      rw [hk] at hs
      have hn : 1 ≤ n := hs
      simp only
      have hstep : ∀ i, i < n → chordLen f (linspace c.t0 c.t1 n) i <
          chordLen f (linspace c.t0 c.t1 n) (i + 1) := by
        intro i hi
        rw [chordLen]
        have := norm3_pos (sub_ne_zero.2 (hd f n hk i hi).symm)
        linarith
      have hlt : ∀ i j, i < j → j ≤ n → chordLen f (linspace c.t0 c.t1 n) i <
          chordLen f (linspace c.t0 c.t1 n) j := by
        intro i j hij hj
        induction j with
        | zero => omega
        | succ j ih =>
          rcases Nat.lt_or_ge i j with h | h
          · exact lt_trans (ih h (by omega)) (hstep j (by omega))
          · rw [show i = j by omega]; exact hstep j (by omega)
      have hpos : 0 < chordLen f (linspace c.t0 c.t1 n) n := by
        have := hlt 0 n (by omega) (le_refl _); simpa [chordLen] using this
      rw [if_neg hpos.ne']
      intro i j hij hj
      exact div_lt_div_of_pos_right (hlt i j hij hj) hpos
  · rw [Curve.updateLengths]
    cases hk : c.kind with
    | line p0 p1 => intro i j hij hj; simp only at hj ⊢; rw [if_pos (by omega), if_neg (by omega)]; exact ht
    | arc r a ce M =>
      intro i j hij hj; simp only at hj ⊢; rw [if_pos (by omega), if_neg (by omega)]; exact ht
    | generic f n =>
      rw [hk] at hs
      intro i j hij hj
      exact linspace_strict ht hs hij

/-- Concrete case: a straight line over [0, 1] with 21 samples. -/
example : ∀ i, i < 20 → (fun t : ℝ => (![t, 0, 0] : V3)) (linspace 0 1 20 i) ≠
    (fun t : ℝ => (![t, 0, 0] : V3)) (linspace 0 1 20 (i + 1)) := by
  intro i _ h
  have := congrFun h 0
  simp at this
  have h2 := linspace_strict (a := 0) (b := 1) (by norm_num) (n := 20) (by norm_num)
    (Nat.lt_succ_self i)
  linarith

/-! ### C40 -/

/-- Interpolation in a flipped table. -/
theorem npInterp_flip {xp fp xp' fp' : ℕ → ℝ} {n : ℕ} {x : ℝ} (hn : 1 ≤ n)
    (hx : ∀ i j, i < j → j ≤ n → xp i < xp j) (h0 : xp 0 ≤ x) (h1 : x ≤ xp n)
    (hxp' : ∀ i, i ≤ n → xp' i = 1 - xp (n - i)) (hfp' : ∀ i, i ≤ n → fp' i = fp (n - i)) :
    npInterp xp' fp' n (1 - x) = npInterp xp fp n x := by
  obtain ⟨k, hk⟩ : ∃ k, k = min (lastLe xp x n) (n - 1) := ⟨_, rfl⟩
  have hkn : k < n := by omega
  have hle := lastLe_le xp x n
  have hk1 : xp k ≤ x := by
    rcases Nat.lt_or_ge (lastLe xp x n) n with h | h
    · rw [show k = lastLe xp x n by omega]; exact lastLe_spec h0 n
    · have : xp n ≤ x := by
        have := lastLe_spec h0 n; rwa [show lastLe xp x n = n by omega] at this
      have h2 := hx k n (by omega) (le_refl _)
      linarith
  have hk2 : x ≤ xp (k + 1) := by
    rcases Nat.lt_or_ge (lastLe xp x n) n with h | h
    · rw [show k = lastLe xp x n by omega]; exact (lt_lastLe_succ h).le
    · rw [show k + 1 = n by omega]; exact h1
  have hd := hx k (k + 1) (by omega) (by omega)
  rw [npInterp_seg' (k := k) hkn hx hk1 hk2]
  have hx' : ∀ i j, i < j → j ≤ n → xp' i < xp' j := by
    intro i j hij hj
    rw [hxp' i (by omega), hxp' j hj]
    have := hx (n - j) (n - i) (by omega) (by omega)
    linarith
  have e1 : xp' (n - 1 - k) = 1 - xp (k + 1) := by
    rw [hxp' _ (by omega), show n - (n - 1 - k) = k + 1 by omega]
  have e2 : xp' (n - 1 - k + 1) = 1 - xp k := by
    rw [hxp' _ (by omega), show n - (n - 1 - k + 1) = k by omega]
  have e3 : fp' (n - 1 - k) = fp (k + 1) := by
    rw [hfp' _ (by omega), show n - (n - 1 - k) = k + 1 by omega]
  have e4 : fp' (n - 1 - k + 1) = fp k := by
    rw [hfp' _ (by omega), show n - (n - 1 - k + 1) = k by omega]
  rw [npInterp_seg' (k := n - 1 - k) (by omega) hx' (by rw [e1]; linarith) (by rw [e2]; linarith),
    e1, e2, e3, e4]
  have h3 : xp (k + 1) - xp k ≠ 0 := by linarith
  have h4 : 1 - xp k - (1 - xp (k + 1)) ≠ 0 := by intro h; apply h3; linarith
  field_simp
  ring

/-- Interpolation only looks at the first `n + 1` entries. -/
theorem npInterp_congr {xp fp fp' : ℕ → ℝ} {n : ℕ} (h : ∀ i, i ≤ n → fp i = fp' i) (x : ℝ) :
    npInterp xp fp n x = npInterp xp fp' n x := by
  have hl := lastLe_le xp x n
  rw [npInterp, npInterp, h 0 (Nat.zero_le _), h n (le_refl _)]
  split_ifs
  · rfl
  · simp only
    split_ifs with hj
    · rfl
    · rw [h _ hl, h _ (by omega)]

/-- **C40, involution.** Reversing twice restores the curve: every evaluation, including extrapolation,
is unchanged. -/
theorem c40_twice (c : Curve) (hn : 1 ≤ c.lookup.n) (s : ℝ) :
    c.reverse.reverse.eval s = c.eval s ∧ c.reverse.reverse.t0 = c.t0 ∧
      c.reverse.reverse.t1 = c.t1 ∧ c.reverse.reverse.length = c.length := by
  refine ⟨?_, rfl, rfl, rfl⟩
  rw [Curve.eval, Curve.eval]
  congr 1
  rw [Curve.s2t, Curve.s2t]
  simp only [Curve.reverse]
  have e : ∀ i, i ≤ c.lookup.n → c.lookup.t (c.lookup.n - (c.lookup.n - i)) = c.lookup.t i := by
    intro i hi; rw [Nat.sub_sub_self hi]
  rw [e 0 (Nat.zero_le _), e 1 hn, e _ (le_refl _), e _ (Nat.sub_le _ _),
    npInterp_congr (fp' := c.lookup.t) e]

/-- **C40, symmetric tables (partial).** If the length table is symmetric (uniform speed, or any symmetric
distribution of the sample lengths), `reverse` runs the curve backwards exactly.
Missing: curves whose table is not symmetric, where the claim is false (`c40_violated`). -/
theorem c40_symmetric_partial (c : Curve) (h : c.Strict)
    (hsym : ∀ i, i ≤ c.lookup.n → c.lookup.s (c.lookup.n - i) = 1 - c.lookup.s i)
    (s : ℝ) (h0 : 0 ≤ s) (h1 : s ≤ 1) : c.reverse.eval s = c.eval (1 - s) := by
  rw [Curve.eval, Curve.eval]
  congr 1
  rw [Curve.s2t, Curve.s2t, if_neg (not_lt.2 h0), if_neg (not_lt.2 h1), if_neg (by linarith),
    if_neg (by linarith)]
  simp only [Curve.reverse]
  have := npInterp_flip (xp := c.lookup.s) (fp := c.lookup.t) (xp' := c.lookup.s)
    (fp' := fun i => c.lookup.t (c.lookup.n - i)) (x := 1 - s) h.tab.pos h.s_strict
    (by rw [h.tab.s_zero]; linarith) (by rw [h.tab.s_last]; linarith)
    (by intro i hi; rw [hsym i hi]; ring) (fun i _ => rfl)
  rw [show 1 - (1 - s) = s by ring] at this
  rw [this]

/-- A lookup with two entries is affine on the whole line. -/
theorem s2t_two (c : Curve) (hn : c.lookup.n = 1) (h0 : c.lookup.s 0 = 0) (h1 : c.lookup.s 1 = 1)
    (s : ℝ) : c.s2t s = some (c.lookup.t 0 + (c.lookup.t 1 - c.lookup.t 0) * s) := by
  rw [Curve.s2t]
  simp only [hn, h0, h1, interpolate, npInterp, lastLe]
  by_cases a : s < 0
  · simp [a]
  · by_cases b : 1 < s
    · simp only [a, b, if_true, if_false]; norm_num; ring
    · simp only [a, b, if_false]
      by_cases d : 1 ≤ s
      · have : s = 1 := by linarith
        simp [this]
      · simp [d, h0, h1]

/-- A line or an arc is evaluated at `t_0 + (t_1 - t_0) s`. -/
theorem s2t_line_arc (c : Curve) (hk : ∀ f n, c.kind ≠ .generic f n) (s : ℝ) :
    c.updateLengths.s2t s = some (c.t0 + (c.t1 - c.t0) * s) := by
  have hl : c.updateLengths.lookup =
      ⟨1, fun i => if i = 0 then 0 else 1, fun i => if i = 0 then c.t0 else c.t1⟩ := by
    rw [Curve.updateLengths]
    cases h : c.kind with
    | generic f n => exact absurd h (hk f n)
    | line _ _ => rfl
    | arc _ _ _ _ => rfl
  rw [s2t_two _ (by rw [hl]) (by rw [hl]; rfl) (by rw [hl]; rfl), hl]
  simp

/-- **C40, lines and arcs (partial).** For every line and arc, any range and also outside [0, 1],
`reverse` runs the curve backwards exactly. -/
theorem c40_line_arc_partial (c : Curve) (hk : ∀ f n, c.kind ≠ .generic f n) (s : ℝ) :
    c.updateLengths.reverse.eval s = c.updateLengths.eval (1 - s) := by
  have hl : c.updateLengths.lookup =
      ⟨1, fun i => if i = 0 then 0 else 1, fun i => if i = 0 then c.t0 else c.t1⟩ := by
    rw [Curve.updateLengths]
    cases h : c.kind with
    | generic f n => exact absurd h (hk f n)
    | line _ _ => rfl
    | arc _ _ _ _ => rfl
  rw [Curve.eval, Curve.eval, s2t_line_arc c hk,
    s2t_two _ (by rw [Curve.reverse, hl]) (by rw [Curve.reverse, hl]; rfl)
      (by rw [Curve.reverse, hl]; rfl)]
  simp only [Curve.reverse, hl, Option.map_some, Option.some.injEq]
  congr 1
  simp
  ring

/-- **C40, ends (partial).** Without repeated samples the reversed curve starts at the old end and ends
at the old start. -/
theorem c40_ends_partial (c : Curve) (h : c.Strict) :
    c.reverse.eval 0 = c.eval 1 ∧ c.reverse.eval 1 = c.eval 0 := by
  have hT := h.tab
  have l0 : lastLe c.lookup.s 0 c.lookup.n = 0 := by
    apply lastLe_unique (Nat.zero_le _) hT.s_zero.le hT.s_mono
    intro hn
    have := h.s_strict 0 1 (by omega) hn
    rw [hT.s_zero] at this; exact this
  constructor
  · rw [hT.eval_one, Curve.eval, Curve.s2t, if_neg (lt_irrefl _), if_neg (by norm_num)]
    simp only [Curve.reverse, npInterp, l0, hT.s_zero, lt_irrefl, if_false, Option.map_some]
    rw [if_neg (by have := hT.pos; omega)]
    simp [hT.t_last]
  · rw [hT.eval_zero, Curve.eval, Curve.s2t, if_neg (by norm_num), if_neg (lt_irrefl _)]
    simp only [Curve.reverse]
    rw [npInterp_last (by rw [hT.s_zero]; norm_num) hT.s_last.le]
    simp [hT.t_zero]

theorem linspace_flip (a b : ℝ) {n i : ℕ} (hn : 0 < n) (hi : i ≤ n) :
    linspace b a n i = linspace a b n (n - i) := by
  have : (n : ℝ) ≠ 0 := by positivity
  rw [linspace, linspace, Nat.cast_sub hi]
  field_simp
  ring

theorem chordLen_flip (f : ℝ → V3) (t t' : ℕ → ℝ) (n : ℕ) (h : ∀ i, i ≤ n → t' i = t (n - i))
    (i : ℕ) (hi : i ≤ n) : chordLen f t' i = chordLen f t n - chordLen f t (n - i) := by
  induction i with
  | zero => simp [chordLen]
  | succ i ih =>
    rw [chordLen, ih (by omega), h _ hi, h i (by omega)]
    have e : chordLen f t (n - i) = chordLen f t (n - (i + 1)) +
        norm3 (f (t (n - i)) - f (t (n - (i + 1)))) := by
      conv_lhs => rw [show n - i = n - (i + 1) + 1 by omega, chordLen,
        show n - (i + 1) + 1 = n - i by omega]
    rw [e, ← norm3_neg, neg_sub]
    ring

/-- **C40, recomputed (partial).** When the lengths are computed again after `reverse` (as every trimming
does), the curve runs exactly backwards, for every curve without repeated samples and every `s` in
[0, 1]. -/
theorem c40_recomputed_partial (c : Curve) (hs : c.kind.Sampled) (h : c.updateLengths.Strict) (s : ℝ)
    (h0 : 0 ≤ s) (h1 : s ≤ 1) :
    c.updateLengths.reverse.updateLengths.eval s = c.updateLengths.eval (1 - s) := by
  by_cases hk : ∀ f n, c.kind ≠ .generic f n
  · rw [Curve.eval, Curve.eval, s2t_line_arc c hk, s2t_line_arc _ (by
      intro f n; simp only [Curve.reverse, updateLengths_kind]; exact hk f n)]
    simp only [Curve.reverse, updateLengths_kind, updateLengths_t0, updateLengths_t1, Option.map_some]
    congr 2
    ring
  · push Not at hk
    obtain ⟨f, n, hk⟩ := hk
    rw [hk] at hs
    have hn : 1 ≤ n := hs
    obtain ⟨t, ht⟩ : ∃ t, t = linspace c.t0 c.t1 n := ⟨_, rfl⟩
    obtain ⟨t', ht'⟩ : ∃ t', t' = linspace c.t1 c.t0 n := ⟨_, rfl⟩
    have hflip : ∀ i, i ≤ n → t' i = t (n - i) := by
      intro i hi; rw [ht, ht']; exact linspace_flip _ _ hn hi
    obtain ⟨S, hS⟩ : ∃ S, S = if chordLen f t n = 0 then linspace 0 1 n else
        fun i => chordLen f t i / chordLen f t n := ⟨_, rfl⟩
    obtain ⟨S', hS'⟩ : ∃ S', S' = if chordLen f t' n = 0 then linspace 0 1 n else
        fun i => chordLen f t' i / chordLen f t' n := ⟨_, rfl⟩
    have l1 : c.updateLengths.lookup = ⟨n, S, t⟩ := by
      rw [Curve.updateLengths, hk, hS, ht]
    have l2 : c.updateLengths.reverse.updateLengths.lookup = ⟨n, S', t'⟩ := by
      rw [Curve.updateLengths, Curve.reverse]
      simp only [updateLengths_kind, updateLengths_t0, updateLengths_t1, hk]
      rw [hS', ht']
    have hlen : chordLen f t' n = chordLen f t n := by
      rw [chordLen_flip f t t' n hflip n (le_refl _), Nat.sub_self, chordLen, sub_zero]
    have hSS : ∀ i, i ≤ n → S' i = 1 - S (n - i) := by
      intro i hi
      rw [hS, hS', hlen]
      split_ifs with hz
      · rw [linspace, linspace, Nat.cast_sub hi]
        have : (n : ℝ) ≠ 0 := by positivity
        field_simp
        ring
      · simp only [chordLen_flip f t t' n hflip i hi]
        field_simp
    rw [Curve.eval, Curve.eval, Curve.s2t, Curve.s2t, if_neg (not_lt.2 h0), if_neg (not_lt.2 h1),
      if_neg (by linarith), if_neg (by linarith), l1, l2]
    simp only [Option.map_some, Option.some.injEq]
    have hstr := h.s_strict
    have z0 := h.tab.s_zero
    have z1 := h.tab.s_last
    rw [l1] at hstr z0 z1
    have := npInterp_flip (xp := S) (fp := t) (xp' := S') (fp' := t') (x := 1 - s) hn hstr
      (by simp only at z0; rw [z0]; linarith) (by simp only at z1; rw [z1]; linarith) hSS hflip
    rw [show 1 - (1 - s) = s by ring] at this
    rw [this]
    simp [Curve.reverse, updateLengths_kind]

/-- The parabola `(t², 0, 0)` on [0, 1] with three length samples. -/
noncomputable def parabola : Curve := Curve.make (.generic (fun t => ![t ^ 2, 0, 0]) 2) true 0 1

theorem parabola_lookup : parabola.lookup.n = 2 ∧ parabola.lookup.s 0 = 0 ∧
    parabola.lookup.s 1 = 1 / 4 ∧ parabola.lookup.s 2 = 1 ∧ parabola.lookup.t 0 = 0 ∧
    parabola.lookup.t 1 = 1 / 2 ∧ parabola.lookup.t 2 = 1 := by
  have hx : ∀ a : ℝ, norm3 ![a, 0, 0] = |a| := by
    intro a
    apply norm3_eq_of_dot (abs_nonneg _)
    simp [dot, sq_abs]; ring
  have d1 : chordLen (fun t => (![t ^ 2, 0, 0] : V3)) (linspace 0 1 2) 1 = 1 / 4 := by
    rw [chordLen, chordLen]
    simp only [linspace]
    rw [show (![(0 + (1 - 0) * (((0 + 1 : ℕ) : ℝ) / ((2 : ℕ) : ℝ))) ^ 2, 0, 0] : V3) -
      ![(0 + (1 - 0) * (((0 : ℕ) : ℝ) / ((2 : ℕ) : ℝ))) ^ 2, 0, 0] = ![1 / 4, 0, 0] by
        apply V3.ext3 <;> simp <;> norm_num, hx]
    norm_num
  have d2 : chordLen (fun t => (![t ^ 2, 0, 0] : V3)) (linspace 0 1 2) 2 = 1 := by
    rw [chordLen, d1]
    simp only [linspace]
    rw [show (![(0 + (1 - 0) * (((1 + 1 : ℕ) : ℝ) / ((2 : ℕ) : ℝ))) ^ 2, 0, 0] : V3) -
      ![(0 + (1 - 0) * (((1 : ℕ) : ℝ) / ((2 : ℕ) : ℝ))) ^ 2, 0, 0] = ![3 / 4, 0, 0] by
        apply V3.ext3 <;> simp <;> norm_num, hx]
    norm_num
  have hl : parabola.lookup = ⟨2, fun i => chordLen (fun t => (![t ^ 2, 0, 0] : V3))
      (linspace 0 1 2) i / 1, linspace 0 1 2⟩ := by
    rw [parabola, Curve.make, if_pos rfl, Curve.updateLengths]
    simp only [d2, one_ne_zero, if_false]
  rw [hl]
  refine ⟨rfl, ?_, ?_, ?_, ?_, ?_, ?_⟩
  · simp [chordLen]
  · simp only [d1]; norm_num
  · simp only [d2]; norm_num
  all_goals simp only [linspace]; norm_num

/-- **C40 is violated.** `reverse` flips the `t` column of the lookup but keeps the `s` column, so a curve
whose speed is not symmetric is not run backwards: the reversed parabola at 1/4 is not the original
at 3/4. -/
theorem c40_violated : ∃ (c : Curve) (s : ℝ), c.Strict ∧ 0 ≤ s ∧ s ≤ 1 ∧
    c.reverse.eval s ≠ c.eval (1 - s) := by
  obtain ⟨hn, s0, s1, s2, t0, t1, t2⟩ := parabola_lookup
  have hk : parabola.kind = .generic (fun t => ![t ^ 2, 0, 0]) 2 := by
    rw [parabola, Curve.make, if_pos rfl, updateLengths_kind]
  have hst : parabola.Strict := by
    have hT : parabola.Tabled := by
      rw [parabola, Curve.make, if_pos rfl]
      exact updateLengths_tabled _ (by simp [CurveKind.Sampled])
    refine ⟨hT, ?_, ?_⟩ <;> rw [hn] <;> intro i j hij hj
    · have : (i = 0 ∧ j = 1) ∨ (i = 0 ∧ j = 2) ∨ (i = 1 ∧ j = 2) := by omega
      rcases this with ⟨rfl, rfl⟩ | ⟨rfl, rfl⟩ | ⟨rfl, rfl⟩ <;> simp only [s0, s1, s2] <;> norm_num
    · have : (i = 0 ∧ j = 1) ∨ (i = 0 ∧ j = 2) ∨ (i = 1 ∧ j = 2) := by omega
      rcases this with ⟨rfl, rfl⟩ | ⟨rfl, rfl⟩ | ⟨rfl, rfl⟩ <;> simp only [t0, t1, t2] <;> norm_num
  refine ⟨parabola, 1 / 4, hst, by norm_num, by norm_num, ?_⟩
  rw [Curve.eval, Curve.eval, Curve.s2t, Curve.s2t, if_neg (by norm_num), if_neg (by norm_num),
    if_neg (by norm_num), if_neg (by norm_num)]
  have e1 : npInterp parabola.reverse.lookup.s parabola.reverse.lookup.t parabola.reverse.lookup.n
      (1 / 4) = 1 / 2 := by
    simp only [Curve.reverse, hn, npInterp, lastLe, s0, s1, s2]
    norm_num [s1, s2, t1]
  have e2 : npInterp parabola.lookup.s parabola.lookup.t parabola.lookup.n (1 - 1 / 4) = 5 / 6 := by
    simp only [hn, npInterp, lastLe, s0, s1, s2]
    norm_num [s1, s2, t1, t2]
  simp only [e1, e2, Option.map_some, ne_eq, Option.some.injEq]
  simp only [Curve.reverse, hk, CurveKind.fn]
  intro h
  have := congrFun h 0
  norm_num at this

/-! ### C41 -/

/-- The curve starts at its function's value at `t_0` and ends at the value at `t_1`. By C38 this holds
after every `update_lengths`. -/
def Curve.EndsOk (c : Curve) : Prop :=
  c.eval 0 = some (c.kind.fn c.t0) ∧ c.eval 1 = some (c.kind.fn c.t1)

theorem endsOk_updateLengths (c : Curve) (hs : c.kind.Sampled) : c.updateLengths.EndsOk := by
  have h := updateLengths_tabled c hs
  exact ⟨h.eval_zero, h.eval_one⟩

theorem eval_some {c : Curve} {s : ℝ} {p : V3} (h : c.eval s = some p) :
    ∃ t, c.s2t s = some t ∧ c.kind.fn t = p := by
  rw [Curve.eval, Option.map_eq_some_iff] at h
  exact h

/-- **C41, start.** `set_start_on(s)` makes the curve start at the point it had at `s` and keeps its
end. -/
theorem c41_start (c : Curve) (hs : c.kind.Sampled) (he : c.EndsOk) (s : ℝ) (p : V3)
    (hp : c.eval s = some p) :
    ∃ d, c.setStartOn s = some d ∧ d.eval 0 = some p ∧ d.eval 1 = c.eval 1 ∧ d.EndsOk ∧
      d.kind = c.kind := by
  obtain ⟨t, h1, h2⟩ := eval_some hp
  rw [Curve.setStartOn, h1]
  refine ⟨_, rfl, ?_, ?_, endsOk_updateLengths { c with t0 := t } hs,
    updateLengths_kind { c with t0 := t }⟩
  · rw [← h2]; exact (c38_ends { c with t0 := t } hs).1
  · rw [he.2]; exact (c38_ends { c with t0 := t } hs).2

/-- **C41, end.** `set_end_on(s)` makes the curve end at the point it had at `s` and keeps its start. -/
theorem c41_end (c : Curve) (hs : c.kind.Sampled) (he : c.EndsOk) (s : ℝ) (p : V3)
    (hp : c.eval s = some p) :
    ∃ d, c.setEndOn s = some d ∧ d.eval 1 = some p ∧ d.eval 0 = c.eval 0 ∧ d.EndsOk ∧
      d.kind = c.kind := by
  obtain ⟨t, h1, h2⟩ := eval_some hp
  rw [Curve.setEndOn, h1]
  refine ⟨_, rfl, ?_, ?_, endsOk_updateLengths { c with t1 := t } hs,
    updateLengths_kind { c with t1 := t }⟩
  · rw [← h2]; exact (c38_ends { c with t1 := t } hs).2
  · rw [he.1]; exact (c38_ends { c with t1 := t } hs).1

/-- **C41, both.** `set_start_and_end_on(s0, s1)` makes the curve run from the point it had at `s0` to
the point it had at `s1`. -/
theorem c41_both (c : Curve) (hs : c.kind.Sampled) (s0 s1 : ℝ) (p q : V3)
    (hp : c.eval s0 = some p) (hq : c.eval s1 = some q) :
    ∃ d, c.setStartAndEndOn s0 s1 = some d ∧ d.eval 0 = some p ∧ d.eval 1 = some q := by
  obtain ⟨t, h1, h2⟩ := eval_some hp
  obtain ⟨t', h3, h4⟩ := eval_some hq
  rw [Curve.setStartAndEndOn, h1, h3]
  refine ⟨_, rfl, ?_, ?_⟩
  · rw [← h2]; exact (c38_ends { c with t0 := t, t1 := t' } hs).1
  · rw [← h4]; exact (c38_ends { c with t0 := t, t1 := t' } hs).2

/-- **C41, cut.** `cut(s)` returns two curves that meet at the old point at `s` and keep the outer
ends. -/
theorem c41_cut (c : Curve) (hs : c.kind.Sampled) (he : c.EndsOk) (s : ℝ) (p : V3)
    (hp : c.eval s = some p) :
    ∃ a b, c.cut s = some (a, b) ∧ a.eval 0 = c.eval 0 ∧ a.eval 1 = some p ∧ b.eval 0 = some p ∧
      b.eval 1 = c.eval 1 := by
  obtain ⟨b, h1, h2, h3, _⟩ := c41_start c hs he s p hp
  obtain ⟨a, h4, h5, h6, _⟩ := c41_end c hs he s p hp
  rw [Curve.cut, h1, h4]
  exact ⟨a, b, rfl, h6, h5, h2, h3⟩

/-- **C41, nothing else.** Every point of the trimmed curve is a point of the original between the two
trimming positions. -/
theorem c41_piece (c : Curve) (hs : c.kind.Sampled) (h : c.Strict) (s0 s1 : ℝ) (h0 : 0 ≤ s0)
    (h01 : s0 ≤ s1) (h1 : s1 ≤ 1) :
    ∃ d, c.setStartAndEndOn s0 s1 = some d ∧ ∀ x, 0 ≤ x → x ≤ 1 →
      ∃ y, s0 ≤ y ∧ y ≤ s1 ∧ d.eval x = c.eval y := by
  have hT := h.tab
  obtain ⟨a, ha⟩ : ∃ a, a = npInterp c.lookup.s c.lookup.t c.lookup.n s0 := ⟨_, rfl⟩
  obtain ⟨b, hb⟩ : ∃ b, b = npInterp c.lookup.s c.lookup.t c.lookup.n s1 := ⟨_, rfl⟩
  have ea : c.s2t s0 = some a := by
    rw [Curve.s2t, if_neg (by linarith), if_neg (by linarith), ha]
  have eb : c.s2t s1 = some b := by
    rw [Curve.s2t, if_neg (by linarith), if_neg (by linarith), hb]
  obtain ⟨ia, la1, la2⟩ := interp_inverse h.s_strict h.t_strict (x := s0)
    (by rw [hT.s_zero]; linarith) (by rw [hT.s_last]; linarith) hT.pos
  obtain ⟨ib, lb1, lb2⟩ := interp_inverse h.s_strict h.t_strict (x := s1)
    (by rw [hT.s_zero]; linarith) (by rw [hT.s_last]; linarith) hT.pos
  rw [← ha] at ia la1 la2
  rw [← hb] at ib lb1 lb2
  have ht01 : c.t0 ≤ c.t1 := by
    have := h.t_strict 0 c.lookup.n hT.pos (le_refl _)
    rw [hT.t_zero, hT.t_last] at this; exact this.le
  have hab : a ≤ b := by
    rw [ha, hb]; exact npInterp_mono (by rw [hT.s_zero]; exact h0) h01 (hT.t_mono ht01)
  rw [Curve.setStartAndEndOn, ea, eb]
  refine ⟨_, rfl, ?_⟩
  intro x hx0 hx1
  obtain ⟨u, v, hu, hv, hm, -⟩ := c38_monotone { c with t0 := a, t1 := b } hs x 1 hx0 hx1 (le_refl _)
  obtain ⟨m1, m2, m3⟩ := hm hab
  simp only at m1 m3
  obtain ⟨iu, lu1, lu2⟩ := interp_inverse h.t_strict h.s_strict (x := u) (by linarith) (by linarith)
    hT.pos
  refine ⟨npInterp c.lookup.t c.lookup.s c.lookup.n u, ?_, ?_, ?_⟩
  · rw [← ia]; exact npInterp_mono la1 m1 hT.s_mono
  · rw [← ib]; exact npInterp_mono (by linarith) (by linarith) hT.s_mono
  · rw [Curve.eval, hu, Curve.eval, Curve.s2t, if_neg (by rw [hT.s_zero] at lu1; linarith),
      if_neg (by rw [hT.s_last] at lu2; linarith), iu, updateLengths_kind]

/-! ### C42 -/

/-- **C42, lines (partial).** Cutting a line at any position in [0, 1] gives two pieces whose lengths add
to the length of the line and are not negative. Missing: arcs, where the claim is false. -/
theorem c42_line_partial (c : Curve) (p0 p1 : V3) (hk : c.kind = .line p0 p1) (s : ℝ) (h0 : 0 ≤ s)
    (h1 : s ≤ 1) :
    ∃ a b, c.updateLengths.cut s = some (a, b) ∧ a.length + b.length = c.updateLengths.length ∧
      0 ≤ a.length ∧ 0 ≤ b.length := by
  have hk' : ∀ f n, c.kind ≠ .generic f n := by intro f n; rw [hk]; intro h; cases h
  have hl : ∀ d : Curve, d.kind = .line p0 p1 →
      d.updateLengths.length = norm3 (p1 - p0) * |d.t1 - d.t0| := by
    intro d hd; rw [Curve.updateLengths, hd]
  rw [Curve.cut, Curve.setEndOn, Curve.setStartOn, s2t_line_arc c hk']
  refine ⟨_, _, rfl, ?_⟩
  have hkk : c.updateLengths.kind = .line p0 p1 := by rw [updateLengths_kind, hk]
  simp only
  rw [hl { c.updateLengths with t1 := c.t0 + (c.t1 - c.t0) * s } hkk,
    hl { c.updateLengths with t0 := c.t0 + (c.t1 - c.t0) * s } hkk, hl c hk]
  simp only [updateLengths_t0, updateLengths_t1]
  have hn := norm3_nonneg (p1 - p0)
  refine ⟨?_, by positivity, by positivity⟩
  rw [← mul_add]
  congr 1
  rw [show c.t0 + (c.t1 - c.t0) * s - c.t0 = (c.t1 - c.t0) * s by ring,
    show c.t1 - (c.t0 + (c.t1 - c.t0) * s) = (c.t1 - c.t0) * (1 - s) by ring, abs_mul, abs_mul,
    abs_of_nonneg h0, abs_of_nonneg (by linarith : 0 ≤ 1 - s)]
  ring

/-- **C42 is violated for arcs.** The stored length ignores trimming: both halves of any arc with a
positive radius and angle report the full length. A negative angle gives a negative length. -/
theorem c42_violated (r ang : ℝ) (ctr : V3) (M : M3) (hr : 0 < r) (ha : 0 < ang) :
    (∃ a b, (Curve.make (.arc r ang ctr M) true 0 1).cut (1 / 2) = some (a, b) ∧
      a.length + b.length ≠ (Curve.make (.arc r ang ctr M) true 0 1).length) ∧
      (Curve.make (.arc r (-ang) ctr M) true 0 1).length < 0 := by
  have hpos : 0 < r * ang := by positivity
  constructor
  · rw [Curve.make, if_pos rfl, Curve.cut, Curve.setEndOn, Curve.setStartOn,
      s2t_line_arc _ (by intro f n h; cases h)]
    refine ⟨_, _, rfl, ?_⟩
    simp only [Curve.updateLengths]
    intro h
    linarith
  · rw [Curve.make, if_pos rfl]
    simp only [Curve.updateLengths]
    linarith

/-! ### C47 -/

/-- A curve made from a function on [0, 1] starts and ends at the values there, active or not. -/
theorem make_ends (f : ℝ → V3) (n : ℕ) (hn : 1 ≤ n) (act : Bool) :
    (Curve.make (.generic f n) act 0 1).eval 0 = some (f 0) ∧
      (Curve.make (.generic f n) act 0 1).eval 1 = some (f 1) := by
  cases act with
  | true => exact c38_ends ⟨.generic f n, true, 0, 1, 0, Lookup.default⟩ hn
  | false =>
    have hd : ∀ s : ℝ, 0 ≤ s → s ≤ 1 → npInterp Lookup.default.s Lookup.default.t 1 s = s := by
      intro s h0 h1
      have d0 : Lookup.default.s 0 = -10 ^ 6 := rfl
      have d1 : Lookup.default.s 1 = 10 ^ 6 := rfl
      have e0 : Lookup.default.t 0 = -10 ^ 6 := rfl
      have e1 : Lookup.default.t 1 = 10 ^ 6 := rfl
      have hl : lastLe Lookup.default.s s 1 = 0 := by
        rw [lastLe, if_neg (by rw [d1]; norm_num; linarith), lastLe]
      rw [npInterp, if_neg (by rw [d0]; norm_num; linarith)]
      simp only [hl]
      norm_num [d0, d1, e0, e1]
    constructor
    · rw [Curve.make, if_neg (by simp), Curve.eval, Curve.s2t, if_neg (by norm_num),
        if_neg (by norm_num)]
      simp only [Option.map_some, CurveKind.fn]
      rw [show Lookup.default.n = 1 from rfl, hd 0 (by norm_num) (by norm_num)]
    · rw [Curve.make, if_neg (by simp), Curve.eval, Curve.s2t, if_neg (by norm_num),
        if_neg (by norm_num)]
      simp only [Option.map_some, CurveKind.fn]
      rw [show Lookup.default.n = 1 from rfl, hd 1 (by norm_num) (by norm_num)]

/-- **C47 (partial).** Sum, difference and multiple start and end at the combination of the operands'
ends; so does the quotient of a curve whose natural range is [0, 1].
Missing: the quotient of a curve with another range, where the claim is false. -/
theorem c47_partial (a b : Curve) (k : ℝ) (p q p' q' : V3) (ha : a.eval 0 = some p)
    (ha' : a.eval 1 = some p') (hb : b.eval 0 = some q) (hb' : b.eval 1 = some q') :
    ((a.add b).eval 0 = some (p + q) ∧ (a.add b).eval 1 = some (p' + q')) ∧
    ((a.sub b).eval 0 = some (p - q) ∧ (a.sub b).eval 1 = some (p' - q')) ∧
    ((a.mul k).eval 0 = some (k • p) ∧ (a.mul k).eval 1 = some (k • p')) ∧
    (a.t0 = 0 → a.t1 = 1 → (a.div k).eval 0 = some ((1 / k) • p) ∧
      (a.div k).eval 1 = some ((1 / k) • p')) := by
  have e1 : a.evalD 0 = p := by rw [Curve.evalD, ha]; rfl
  have e2 : a.evalD 1 = p' := by rw [Curve.evalD, ha']; rfl
  have e3 : b.evalD 0 = q := by rw [Curve.evalD, hb]; rfl
  have e4 : b.evalD 1 = q' := by rw [Curve.evalD, hb']; rfl
  refine ⟨?_, ?_, ?_, ?_⟩
  · have := make_ends (fun t => a.evalD t + b.evalD t) 20 (by norm_num) (a.active && b.active)
    rw [Curve.add]; simpa [e1, e2, e3, e4] using this
  · have := make_ends (fun t => a.evalD t - b.evalD t) 20 (by norm_num) (a.active && b.active)
    rw [Curve.sub]; simpa [e1, e2, e3, e4] using this
  · have := make_ends (fun t => k • a.evalD t) 20 (by norm_num) a.active
    rw [Curve.mul]; simpa [e1, e2, e3, e4] using this
  · intro h0 h1
    have := make_ends (fun t => (1 / k) • a.evalD t) 20 (by norm_num) a.active
    rw [Curve.div, h0, h1]; simpa [e1, e2, e3, e4] using this

/-- **C47 is violated for division.** The quotient keeps the operand's natural range but evaluates the
operand with the natural parameter in place of the length parameter: dividing a trimmed line by 1
moves its start. -/
theorem c47_violated : ∃ (a : Curve) (k : ℝ) (p : V3), k ≠ 0 ∧ a.active = true ∧
    a.eval 0 = some p ∧ (a.div k).eval 0 ≠ some ((1 / k) • p) := by
  refine ⟨Curve.make (.line 0 ![1, 0, 0]) true (1 / 2) 1, 1, ![1 / 2, 0, 0], one_ne_zero, ?_, ?_, ?_⟩
  · rw [Curve.make, if_pos rfl, updateLengths_active]
  · rw [Curve.make, if_pos rfl, (c38_ends ⟨.line 0 ![1, 0, 0], true, 1 / 2, 1, 0, Lookup.default⟩ trivial).1]
    simp only [CurveKind.fn, Option.some.injEq]
    apply V3.ext3 <;> simp
  · have ht : (Curve.make (.line 0 ![1, 0, 0]) true (1 / 2) 1).t0 = 1 / 2 := by
      rw [Curve.make, if_pos rfl, updateLengths_t0]
    have hact : (Curve.make (.line 0 ![1, 0, 0]) true (1 / 2) 1).active = true := by
      rw [Curve.make, if_pos rfl, updateLengths_active]
    rw [Curve.div, hact, Curve.make, if_pos rfl, (c38_ends _ (by simp [CurveKind.Sampled])).1]
    simp only [CurveKind.fn, ht, Option.some.injEq]
    have he : (Curve.make (.line 0 ![1, 0, 0]) true (1 / 2) 1).evalD (1 / 2) = ![3 / 4, 0, 0] := by
      rw [Curve.evalD, Curve.eval, Curve.make, if_pos rfl, s2t_line_arc _ (by intro f n h; cases h)]
      simp only [Option.map_some, Option.getD_some, updateLengths_kind, CurveKind.fn]
      apply V3.ext3 <;> simp <;> norm_num
    rw [he]
    intro h
    have := congrFun (Option.some.inj h) 0
    norm_num at this

/-! ### C48 -/

/-- **C48 is violated.** Every order above one raises `TypeError`, for every curve. -/
theorem c48_violated (c : Curve) (t delta : ℝ) (direction : ℤ) (n : ℕ) (hn : 2 ≤ n) :
    c.derivative t direction delta n = none := by
  obtain ⟨m, rfl⟩ : ∃ m, n = m + 2 := ⟨n - 2, by omega⟩
  rw [Curve.derivative, Option.bind_eq_none_iff]
  intro v _
  rw [numericDiff]
  split_ifs <;> simp [PyFun.call]

/-- **C48, first order (partial).** On a straight line the first order value is the exact velocity with
respect to the length parameter, in every direction mode, for every step and at every position
(also outside [0, 1]). -/
theorem c48_affine_partial (c : Curve) (p0 p1 : V3) (hk : c.kind = .line p0 p1) (t delta : ℝ)
    (hd : delta ≠ 0) (direction : ℤ) :
    c.updateLengths.derivative t direction delta 1 = some ((c.t1 - c.t0) • (p1 - p0)) := by
  have hk' : ∀ f n, c.kind ≠ .generic f n := by intro f n; rw [hk]; intro h; cases h
  have he : ∀ s, c.updateLengths.eval s = some ((1 - (c.t0 + (c.t1 - c.t0) * s)) • p0 +
      (c.t0 + (c.t1 - c.t0) * s) • p1) := by
    intro s
    rw [Curve.eval, s2t_line_arc c hk', updateLengths_kind, hk]; rfl
  rw [Curve.derivative, numericDiff]
  simp only [PyFun.call]
  split_ifs
  · rw [he, he]
    simp only [Option.some.injEq]
    apply V3.ext3 <;> simp <;> field_simp <;> ring
  · rw [he, he]
    simp only [Option.some.injEq]
    apply V3.ext3 <;> simp <;> field_simp <;> ring
  · rw [he, he]
    simp only [Option.some.injEq]
    apply V3.ext3 <;> simp <;> field_simp <;> ring

end Verif
