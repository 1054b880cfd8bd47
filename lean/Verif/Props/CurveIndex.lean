import Verif.Model.CurveIndex
import Verif.Spec.Winding
import Verif.Props.TrimEx
import Mathlib.Analysis.SpecialFunctions.Complex.LogBounds
import Mathlib.Analysis.Real.Pi.Bounds

/-!
# C147: `curve_index` counts the turns of a closed curve
-/

namespace Verif

open Real Set

/-- Half the difference of a number near 1 and its inverse is nearly its logarithm. -/
theorem half_diff_log {δ : ℂ} (h : ‖δ‖ ≤ 1) : ‖(Complex.exp δ - Complex.exp (-δ)) / 2 - δ‖ ≤ 2 / 9 * ‖δ‖ ^ 3 := by
  have h1 := Complex.exp_bound h (n := 3) (by norm_num)
  have h2 := Complex.exp_bound (x := -δ) (by rwa [norm_neg]) (n := 3) (by norm_num)
  rw [norm_neg] at h2
  have e : (Complex.exp δ - Complex.exp (-δ)) / 2 - δ =
      ((Complex.exp δ - ∑ m ∈ Finset.range 3, δ ^ m / m.factorial) -
        (Complex.exp (-δ) - ∑ m ∈ Finset.range 3, (-δ) ^ m / m.factorial)) / 2 := by
    simp [Finset.sum_range_succ, Nat.factorial]
    ring
  rw [e, norm_div]
  have h3 := norm_sub_le (Complex.exp δ - ∑ m ∈ Finset.range 3, δ ^ m / m.factorial)
    (Complex.exp (-δ) - ∑ m ∈ Finset.range 3, (-δ) ^ m / m.factorial)
  have e2 : ‖(2 : ℂ)‖ = 2 := by simp
  rw [e2, div_le_iff₀ (by norm_num)]
  norm_num [Nat.factorial] at h1 h2
  linarith

/-- Over a short stretch the angle changes by less than a quarter turn. -/
theorem short_turn {θ : ℝ → ℝ} {a b : ℝ} (hab : a ≤ b) (hc : ContinuousOn θ (Icc a b))
    (hp : ∀ t ∈ Icc a b, 0 < cos (θ t - θ a)) : |θ b - θ a| < π / 2 := by
  by_contra hcon
  rcases le_abs.1 (not_lt.1 hcon) with h | h
  · obtain ⟨t, ht, e⟩ : θ a + π / 2 ∈ θ '' Icc a b := intermediate_value_Icc hab hc ⟨by linarith [pi_pos], by linarith⟩
    have := hp t ht
    rw [e, add_sub_cancel_left, cos_pi_div_two] at this
    exact lt_irrefl _ this
  · obtain ⟨t, ht, e⟩ : θ a - π / 2 ∈ θ '' Icc a b := intermediate_value_Icc' hab hc ⟨by linarith, by linarith [pi_pos]⟩
    have := hp t ht
    rw [e, show θ a - π / 2 - θ a = -(π / 2) by ring, cos_neg, cos_pi_div_two] at this
    exact lt_irrefl _ this

/-- The sum of central differences, rearranged. -/
theorem central_sum (w : ℕ → ℂ) (n : ℕ) (hn : 0 < n) (hw : w n = w 0) (c : ℂ) :
    ∑ k ∈ Finset.range n, ((w ((k + 1) % n) + c) - (w ((k + (n - 1)) % n) + c)) / 2 / (w k) =
      ∑ k ∈ Finset.range n, (w (k + 1) / w k - w k / w (k + 1)) / 2 := by
  obtain ⟨m, rfl⟩ : ∃ m, n = m + 1 := ⟨n - 1, by omega⟩
  have h1 : ∀ k ∈ Finset.range (m + 1), w ((k + 1) % (m + 1)) = w (k + 1) := by
    intro k hk
    rw [Finset.mem_range] at hk
    by_cases h : k + 1 = m + 1
    · rw [h, Nat.mod_self, hw]
    · rw [Nat.mod_eq_of_lt (by omega)]
  have h2 : ∑ k ∈ Finset.range (m + 1), w ((k + (m + 1 - 1)) % (m + 1)) / w k = ∑ k ∈ Finset.range (m + 1), w k / w (k + 1) := by
    rw [Finset.sum_range_succ', Finset.sum_range_succ, hw]
    congr 1
    · refine Finset.sum_congr rfl fun k hk => ?_
      rw [Finset.mem_range] at hk
      rw [show k + 1 + (m + 1 - 1) = k + (m + 1) by omega, Nat.add_mod_right, Nat.mod_eq_of_lt (by omega)]
    · rw [show 0 + (m + 1 - 1) = m by omega, Nat.mod_eq_of_lt (by omega)]
  have h3 : ∀ g : ℕ → ℂ, ∑ k ∈ Finset.range (m + 1), g k / 2 = (∑ k ∈ Finset.range (m + 1), g k) / 2 := fun g => by
    rw [Finset.sum_div]
  rw [h3, Finset.sum_sub_distrib, ← h2, ← Finset.sum_sub_distrib, ← h3]
  refine Finset.sum_congr rfl fun k hk => ?_
  rw [h1 k hk]
  ring

set_option maxHeartbeats 1000000 in
/-- **C147.** The closed curve turns `m` times around the centre, its distance from it is at least `d`, and its points move at most
with speed `L`. If there are at least `2 L / d` samples, `curve_index` returns the number of turns (without sign), up to an error of
at most `(L / d)³ / (8 n²)`. The curve need not be smooth. -/
theorem c147_index {f : ℝ → Option V3} {P : ℝ → V3} {center : V3} {L d : ℝ} {m : ℤ} {n : ℕ}
    (hf : ∀ s ∈ Icc (0 : ℝ) 1, f s = some (P s)) (hclosed : planar (P 0) = planar (P 1))
    (hL : ∀ s ∈ Icc (0 : ℝ) 1, ∀ t ∈ Icc (0 : ℝ) 1, ‖planar (P s) - planar (P t)‖ ≤ L * |s - t|) (hd : 0 < d)
    (hfar : ∀ s ∈ Icc (0 : ℝ) 1, d ≤ ‖planar (P s) - planar center‖)
    (hm : Spec.TurnsAround (fun s => planar (P s)) (planar center) m) (hn : 0 < n) (hnL : 2 * L ≤ n * d) :
    ∃ v, curveIndex f center n = some v ∧ |v - abs (m : ℝ)| ≤ (L / d) ^ 3 / (8 * n ^ 2) := by
  obtain ⟨ρ, θ, hθ, hpol, hturn⟩ := hm
  have hn0 : (0 : ℝ) < n := by exact_mod_cast hn
  obtain ⟨c, ec⟩ : ∃ c, c = planar center := ⟨_, rfl⟩
  rw [← ec] at hfar hpol
  simp only at hpol
  have hL0 : 0 ≤ L := by
    have := (norm_nonneg _).trans (hL 0 ⟨le_refl _, zero_le_one⟩ 1 ⟨zero_le_one, le_refl _⟩)
    simpa using this
  have hmem : ∀ k, k ≤ n → (k : ℝ) / n ∈ Icc (0 : ℝ) 1 := fun k hk =>
    ⟨by positivity, (div_le_one hn0).2 (by exact_mod_cast hk)⟩
  have hne : ∀ s ∈ Icc (0 : ℝ) 1, planar (P s) - c ≠ 0 := fun s hs h => by
    have := hfar s hs
    rw [h, norm_zero] at this
    linarith
  -- the samples seen from the centre, running on beyond the last one
  obtain ⟨w, ew⟩ : ∃ w : ℕ → ℂ, w = fun k => if k ≤ n then planar (P (k / n)) - c else 1 := ⟨_, rfl⟩
  have hw : ∀ k ≤ n, w k = planar (P (k / n)) - c := fun k hk => by rw [ew]; simp only [if_pos hk]
  have hwn : w n = w 0 := by
    rw [hw n (le_refl _), hw 0 hn.le, div_self hn0.ne', Nat.cast_zero, zero_div, hclosed]
  -- steps
  obtain ⟨δ, eδ⟩ : ∃ δ : ℕ → ℂ, δ = fun k => ((Real.log (ρ ((k + 1 : ℕ) / n)) - Real.log (ρ (k / n)) : ℝ) : ℂ) +
    ((θ ((k + 1 : ℕ) / n) - θ (k / n) : ℝ) : ℂ) * Complex.I := ⟨_, rfl⟩
  have hpolar : ∀ s ∈ Icc (0 : ℝ) 1, planar (P s) - c = ρ s * Complex.exp (θ s * Complex.I) := fun s hs => by
    rw [(hpol s hs).2]; ring
  have hexp : ∀ k < n, Complex.exp (δ k) = w (k + 1) / w k := by
    intro k hk
    have r0 := (hpol _ (hmem k hk.le)).1
    have r1 := (hpol _ (hmem (k + 1) hk)).1
    have e : ∀ x : ℝ, 0 < x → Complex.exp (Real.log x : ℝ) = x := fun x hx => by
      rw [← Complex.ofReal_exp, Real.exp_log hx]
    rw [hw k hk.le, hw (k + 1) hk, hpolar _ (hmem k hk.le), hpolar _ (hmem (k + 1) hk), eδ]
    simp only
    rw [Complex.exp_add, Complex.ofReal_sub, Complex.ofReal_sub, sub_mul, Complex.exp_sub, Complex.exp_sub, e _ r0, e _ r1,
      div_mul_div_comm]
  have hstep : ∀ k < n, ‖δ k‖ ≤ 3 / 2 * (L / (n * d)) := by
    intro k hk
    have hab : (k : ℝ) / n ≤ (k + 1 : ℕ) / n := by
      refine div_le_div_of_nonneg_right ?_ hn0.le
      push_cast
      linarith
    have hlen : ((k + 1 : ℕ) : ℝ) / n - k / n = 1 / n := by push_cast; ring
    have ma := hmem k hk.le
    have mb := hmem (k + 1) hk
    obtain ⟨a, ea⟩ : ∃ a : ℝ, a = k / n := ⟨_, rfl⟩
    obtain ⟨b, eb⟩ : ∃ b : ℝ, b = (k + 1 : ℕ) / n := ⟨_, rfl⟩
    rw [← ea] at hab hlen ma
    rw [← eb] at hab hlen mb
    have hsub : ∀ t ∈ Icc a b, t ∈ Icc (0 : ℝ) 1 := fun t ht => ⟨ma.1.trans ht.1, ht.2.trans mb.2⟩
    have hratio : ∀ t ∈ Icc a b, ‖(planar (P t) - c) / (planar (P a) - c) - 1‖ ≤ L / (n * d) := by
      intro t ht
      have e : (planar (P t) - c) / (planar (P a) - c) - 1 = (planar (P t) - planar (P a)) / (planar (P a) - c) := by
        have := hne a ma
        field_simp
        ring
      rw [e, norm_div]
      have h1 := hL t (hsub t ht) a ma
      have h2 : |t - a| ≤ 1 / n := by rw [abs_of_nonneg (by linarith [ht.1])]; linarith [ht.2]
      have h3 : ‖planar (P t) - planar (P a)‖ ≤ L / n := by
        refine h1.trans ((mul_le_mul_of_nonneg_left h2 hL0).trans ?_)
        rw [mul_one_div]
      rw [← div_div]
      exact div_le_div₀ (by positivity) h3 hd (hfar a ma)
    have hhalf : L / (n * d) ≤ 1 / 2 := by
      rw [div_le_div_iff₀ (by positivity) (by norm_num)]; linarith
    have hcos : ∀ t ∈ Icc a b, 0 < cos (θ t - θ a) := by
      intro t ht
      have h1 := (hratio t ht).trans hhalf
      have ra := (hpol a ma).1
      have rt := (hpol t (hsub t ht)).1
      rw [hpolar t (hsub t ht), hpolar a ma, mul_div_mul_comm, ← Complex.exp_sub, ← sub_mul, ← Complex.ofReal_div,
        ← Complex.ofReal_sub] at h1
      have h2 := (Complex.abs_re_le_norm _).trans h1
      rw [Complex.sub_re, Complex.re_ofReal_mul, Complex.exp_ofReal_mul_I_re, Complex.one_re] at h2
      have h3 := (abs_le.1 h2).1
      have h4 : 0 < ρ t / ρ a * cos (θ t - θ a) := by linarith
      exact (pos_iff_pos_of_mul_pos h4).1 (div_pos rt ra)
    have hquarter := short_turn hab (hθ.mono hsub) hcos
    have him : (δ k).im = θ b - θ a := by
      rw [eδ, ea, eb]
      simp
    have hlog : Complex.log (w (k + 1) / w k) = δ k := by
      rw [← hexp k hk]
      have := abs_lt.1 hquarter
      exact Complex.log_exp (by rw [him]; linarith [pi_pos]) (by rw [him]; linarith [pi_pos])
    have h1 : ‖w (k + 1) / w k - 1‖ ≤ L / (n * d) := by
      rw [hw k hk.le, hw (k + 1) hk, ← ea, ← eb]
      exact hratio b ⟨hab, le_refl _⟩
    have h2 := Complex.norm_log_one_add_half_le_self (h1.trans hhalf)
    rw [add_sub_cancel, hlog] at h2
    linarith
  -- the sum of the steps
  have hsum : ∑ k ∈ Finset.range n, δ k = ((2 * π * m : ℝ) : ℂ) * Complex.I := by
    have h1 := Finset.sum_range_sub (fun k : ℕ => ((Real.log (ρ (k / n)) : ℝ) : ℂ) + ((θ (k / n) : ℝ) : ℂ) * Complex.I) n
    have h2 : ∀ k ∈ Finset.range n, δ k = ((Real.log (ρ ((k + 1 : ℕ) / n)) : ℝ) : ℂ) + ((θ ((k + 1 : ℕ) / n) : ℝ) : ℂ) * Complex.I -
        (((Real.log (ρ (k / n)) : ℝ) : ℂ) + ((θ (k / n) : ℝ) : ℂ) * Complex.I) := by
      intro k _
      rw [eδ]
      push_cast
      ring
    rw [Finset.sum_congr rfl h2]
    refine h1.trans ?_
    have hρ : ρ 1 = ρ 0 := by
      have n1 : ∀ s ∈ Icc (0 : ℝ) 1, ρ s = ‖planar (P s) - c‖ := fun s hs => by
        rw [hpolar s hs, norm_mul, Complex.norm_exp_ofReal_mul_I, mul_one, Complex.norm_real, Real.norm_of_nonneg (hpol s hs).1.le]
      rw [n1 1 ⟨zero_le_one, le_refl _⟩, n1 0 ⟨le_refl _, zero_le_one⟩, hclosed]
    rw [Nat.cast_zero, zero_div, div_self hn0.ne', hρ, ← hturn]
    push_cast
    ring
  -- the index
  have hcond : ∀ k < n, ∃ p, f (k / n) = some p ∧ planar p ≠ planar center := fun k hk =>
    ⟨_, hf _ (hmem k hk.le), fun h => hne _ (hmem k hk.le) (by rw [ec, h, sub_self])⟩
  have hval : ∀ k ≤ n, planar ((f (k / n)).getD 0) = w k + c := fun k hk => by
    rw [hf _ (hmem k hk), hw k hk]
    simp
  have hS : ∑ k ∈ Finset.range n, (planar ((f (((k + 1) % n : ℕ) / n)).getD 0) - planar ((f (((k + (n - 1)) % n : ℕ) / n)).getD 0)) / 2 /
      (planar ((f (k / n)).getD 0) - planar center) = ∑ k ∈ Finset.range n, (w (k + 1) / w k - w k / w (k + 1)) / 2 := by
    rw [← central_sum w n hn hwn c]
    refine Finset.sum_congr rfl fun k hk => ?_
    rw [Finset.mem_range] at hk
    rw [hval _ (Nat.mod_lt _ hn).le, hval _ (Nat.mod_lt _ hn).le, hval k hk.le, ← ec, add_sub_cancel_right]
  have herr : ‖∑ k ∈ Finset.range n, (w (k + 1) / w k - w k / w (k + 1)) / 2 - ((2 * π * m : ℝ) : ℂ) * Complex.I‖ ≤
      3 / 4 * (L / d) ^ 3 / n ^ 2 := by
    rw [← hsum, ← Finset.sum_sub_distrib]
    have h1 : ∀ k ∈ Finset.range n, ‖(w (k + 1) / w k - w k / w (k + 1)) / 2 - δ k‖ ≤ 2 / 9 * (3 / 2 * (L / (n * d))) ^ 3 := by
      intro k hk
      rw [Finset.mem_range] at hk
      have e : w k / w (k + 1) = Complex.exp (-δ k) := by rw [Complex.exp_neg, hexp k hk, inv_div]
      rw [e, ← hexp k hk]
      have h2 := hstep k hk
      have hhalf : L / (n * d) ≤ 1 / 2 := by
        rw [div_le_div_iff₀ (by positivity) (by norm_num)]; linarith
      refine (half_diff_log (by linarith)).trans ?_
      exact mul_le_mul_of_nonneg_left (pow_le_pow_left₀ (norm_nonneg _) h2 3) (by norm_num)
    refine (norm_sum_le_of_le _ h1).trans (le_of_eq ?_)
    rw [Finset.sum_const, Finset.card_range, nsmul_eq_mul]
    field_simp
    ring
  refine ⟨_, by rw [curveIndex, if_pos hcond], ?_⟩
  simp only
  rw [hS]
  obtain ⟨q, eq'⟩ : ∃ q : ℂ, q = ∑ k ∈ Finset.range n, (w (k + 1) / w k - w k / w (k + 1)) / 2 := ⟨_, rfl⟩
  rw [← eq'] at herr ⊢
  have h1 := (abs_norm_sub_norm_le q (((2 * π * m : ℝ) : ℂ) * Complex.I)).trans herr
  rw [norm_mul, Complex.norm_I, mul_one, Complex.norm_real, Real.norm_eq_abs, abs_mul, abs_of_pos (by positivity : 0 < 2 * π)] at h1
  have e : ‖q‖ * 1 / (2 * π) - |(m : ℝ)| = (‖q‖ - 2 * π * |(m : ℝ)|) / (2 * π) := by
    field_simp
  rw [e, abs_div, abs_of_pos (by positivity : 0 < 2 * π), div_le_iff₀ (by positivity)]
  refine h1.trans ?_
  have hp := pi_gt_three
  have h2 : 0 ≤ (L / d) ^ 3 / (8 * n ^ 2) := by positivity
  have h3 : 3 / 4 * (L / d) ^ 3 / n ^ 2 = (L / d) ^ 3 / (8 * n ^ 2) * 6 := by field_simp; ring
  rw [h3]
  exact mul_le_mul_of_nonneg_left (by linarith) h2

/-- A closed curve to the left of the centre does not turn around it. -/
theorem turnsAround_left {γ : ℝ → ℂ} {c : ℂ} (hc : ContinuousOn γ (Icc 0 1)) (h : ∀ t ∈ Icc (0 : ℝ) 1, (γ t).re < c.re)
    (hclosed : γ 0 = γ 1) : Spec.TurnsAround γ c 0 := by
  have hs : ∀ t ∈ Icc (0 : ℝ) 1, c - γ t ∈ Complex.slitPlane := fun t ht => Or.inl (by rw [Complex.sub_re]; linarith [h t ht])
  refine ⟨fun t => ‖c - γ t‖, fun t => Complex.arg (c - γ t) + π, ?_, fun t ht => ?_, ?_⟩
  · refine ContinuousOn.add (fun t ht => ?_) continuousOn_const
    exact ContinuousAt.comp_continuousWithinAt (f := fun t => c - γ t) (Complex.continuousAt_arg (hs t ht)) ((continuousOn_const.sub hc) t ht)
  · refine ⟨norm_pos_iff.2 (Complex.slitPlane_ne_zero (hs t ht)), ?_⟩
    have e : Complex.exp (((Complex.arg (c - γ t) + π : ℝ) : ℂ) * Complex.I) = -Complex.exp (Complex.arg (c - γ t) * Complex.I) := by
      push_cast
      rw [add_mul, Complex.exp_add, Complex.exp_pi_mul_I, mul_neg_one]
    rw [e, mul_neg, Complex.norm_mul_exp_arg_mul_I]
    ring
  · simp [hclosed]

theorem planar_circle (r x : ℝ) : planar ![r * cos x, r * sin x, 0] = r * Complex.exp (x * Complex.I) := by
  apply Complex.ext <;> simp [planar, Complex.exp_ofReal_mul_I_re, Complex.exp_ofReal_mul_I_im]

/-- Chords of a circle are shorter than the arcs. -/
theorem circle_speed {r : ℝ} (hr : 0 ≤ r) (s t : ℝ) : ‖planar ![r * cos (2 * π * s), r * sin (2 * π * s), 0] -
    planar ![r * cos (2 * π * t), r * sin (2 * π * t), 0]‖ ≤ 2 * π * r * |s - t| := by
  rw [planar_circle, planar_circle, ← mul_sub, norm_mul, Complex.norm_real, Real.norm_of_nonneg hr]
  have h1 : Complex.exp (((2 * π * s : ℝ) : ℂ) * Complex.I) - Complex.exp (((2 * π * t : ℝ) : ℂ) * Complex.I) =
      Complex.exp (((2 * π * t : ℝ) : ℂ) * Complex.I) * (Complex.exp (Complex.I * ((2 * π * s - 2 * π * t : ℝ) : ℂ)) - 1) := by
    rw [mul_sub, ← Complex.exp_add, mul_one]
    congr 2
    push_cast
    ring
  rw [h1, norm_mul, Complex.norm_exp_ofReal_mul_I, one_mul]
  have h2 := Real.norm_exp_I_mul_ofReal_sub_one_le (x := 2 * π * s - 2 * π * t)
  have h3 : ‖2 * π * s - 2 * π * t‖ = 2 * π * |s - t| := by
    rw [← mul_sub, Real.norm_eq_abs, abs_mul, abs_of_pos (by positivity)]
  rw [h3] at h2
  calc _ ≤ r * (2 * π * |s - t|) := mul_le_mul_of_nonneg_left h2 hr
    _ = _ := by ring

/-- **C147, case.** A circle counts once around its centre and not at all around a point two radii to the right of it, with the default
number of samples up to an error below one in ten thousand. -/
theorem c147_case {r : ℝ} (hr : 0 < r) : (∃ v, curveIndex (circ r).eval 0 1000 = some v ∧ |v - 1| ≤ 1 / 10000) ∧
    ∃ v, curveIndex (circ r).eval ![2 * r, 0, 0] 1000 = some v ∧ |v| ≤ 1 / 10000 := by
  have p4 := pi_lt_d4
  have hpi := pi_pos
  have hcl : planar ![r * cos (2 * π * 0), r * sin (2 * π * 0), 0] = planar ![r * cos (2 * π * 1), r * sin (2 * π * 1), 0] := by
    simp
  have hbound : (2 * π * r / r) ^ 3 / (8 * ((1000 : ℕ) : ℝ) ^ 2) ≤ 1 / 10000 := by
    rw [mul_div_assoc, div_self hr.ne', mul_one, div_le_iff₀ (by norm_num)]
    have : (2 * π) ^ 3 ≤ 7 ^ 3 := pow_le_pow_left₀ (by positivity) (by linarith) 3
    push_cast
    linarith
  have hsam : 2 * (2 * π * r) ≤ ((1000 : ℕ) : ℝ) * r := by
    push_cast
    nlinarith
  have hsq : ∀ x : ℝ, (r * cos x) ^ 2 + (r * sin x) ^ 2 = r ^ 2 := fun x => by linear_combination r ^ 2 * sin_sq_add_cos_sq x
  constructor
  · obtain ⟨v, e, h⟩ := c147_index (f := (circ r).eval) (P := fun s => ![r * cos (2 * π * s), r * sin (2 * π * s), 0]) (center := 0) (m := 1)
      (n := 1000) (fun s _ => circ_eval r s) hcl (fun s _ t _ => circle_speed hr.le s t) hr (fun s _ => by
        refine le_of_eq (Eq.symm ?_)
        rw [Complex.norm_eq_sqrt_sq_add_sq]
        simp only [planar]
        simp [hsq, hr.le]) ⟨fun _ => r, fun s => 2 * π * s, by fun_prop, fun s _ => ⟨hr, by
          simp only
          rw [planar_circle, show planar 0 = 0 from Complex.ext rfl rfl, zero_add]⟩, by simp⟩ (by norm_num) hsam
    refine ⟨v, e, ?_⟩
    simp only [Int.cast_one, abs_one] at h
    exact h.trans hbound
  · obtain ⟨v, e, h⟩ := c147_index (f := (circ r).eval) (P := fun s => ![r * cos (2 * π * s), r * sin (2 * π * s), 0])
      (center := ![2 * r, 0, 0]) (m := 0) (n := 1000) (fun s _ => circ_eval r s) hcl (fun s _ t _ => circle_speed hr.le s t) hr (fun s _ => by
        refine le_trans ?_ (Complex.abs_re_le_norm _)
        simp only [planar]
        simp
        have := mul_le_mul_of_nonneg_left (cos_le_one (2 * π * s)) hr.le
        rw [abs_of_neg (by linarith)]
        linarith) (turnsAround_left (by
          have e : (fun s : ℝ => planar ![r * cos (2 * π * s), r * sin (2 * π * s), 0]) =
              fun s : ℝ => (r : ℂ) * Complex.exp (((2 * π * s : ℝ) : ℂ) * Complex.I) := funext fun s => planar_circle r _
          rw [e]
          exact Continuous.continuousOn (by fun_prop)) (fun s _ => by
          simp [planar]
          have := mul_le_mul_of_nonneg_left (cos_le_one (2 * π * s)) hr.le
          linarith) hcl) (by norm_num) hsam
    refine ⟨v, e, ?_⟩
    simp only [Int.cast_zero, abs_zero, sub_zero] at h
    exact h.trans hbound

end Verif
