import Verif.Props.Simple
import Mathlib.Analysis.SpecialFunctions.Trigonometric.ArctanDeriv
import Mathlib.Analysis.Calculus.Deriv.MeanValue
import Mathlib.Analysis.Real.Pi.Bounds

/-!
# Property C139 for involute teeth
-/

namespace Verif

open Real Set

/-! ### Involutes in polar coordinates -/

/-- The polar angle of an involute as a function of its parameter. -/
noncomputable def invAngle (t : ℝ) : ℝ := t - arctan t

theorem invAngle_strict : StrictMonoOn invAngle (Ici 0) := by
  apply strictMonoOn_of_deriv_pos (convex_Ici 0)
  · exact (continuous_id.sub continuous_arctan).continuousOn
  · intro x hx
    rw [interior_Ici] at hx
    have hx' : 0 < x := hx
    have : HasDerivAt invAngle (1 - 1 / (1 + x ^ 2)) x := (hasDerivAt_id x).sub (hasDerivAt_arctan x)
    rw [this.deriv, sub_pos, div_lt_one (by positivity)]
    nlinarith

theorem invAngle_zero : invAngle 0 = 0 := by simp [invAngle]

theorem involute_polar (t r ang z : ℝ) : involuteCircle t r ang 0 z =
    ![r * √(1 + t ^ 2) * cos (invAngle t + ang), r * √(1 + t ^ 2) * sin (invAngle t + ang), z] := by
  have hs : √(1 + t ^ 2) ≠ 0 := (sqrt_pos.2 (by positivity)).ne'
  have e : invAngle t + ang = (t + ang) - arctan t := by rw [invAngle]; ring
  rw [involuteCircle_eq, e, cos_sub, sin_sub, cos_arctan, sin_arctan]
  apply V3.ext3
  · simp; field_simp
  · simp; field_simp
  · simp

theorem involute_dist (t r ang z : ℝ) : involuteCircle t r ang 0 z 0 ^ 2 + involuteCircle t r ang 0 z 1 ^ 2 =
    r ^ 2 * (1 + t ^ 2) := by
  rw [involuteCircle_eq]
  simp
  linear_combination (r ^ 2 * (1 + t ^ 2)) * sin_sq_add_cos_sq (t + ang)

theorem involute_angle {t r ang : ℝ} (z : ℝ) (hr : 0 < r) (h0 : -π < invAngle t + ang) (h1 : invAngle t + ang ≤ π) :
    arctan2 (involuteCircle t r ang 0 z 1) (involuteCircle t r ang 0 z 0) = invAngle t + ang := by
  rw [involute_polar]
  exact arctan2_polar (mul_pos hr (sqrt_pos.2 (by positivity))) h0 h1

theorem involute_continuous (r ang z : ℝ) : Continuous fun t => involuteCircle t r ang 0 z := by
  simp only [involuteCircle_eq]
  refine continuous_pi fun i => ?_
  fin_cases i
  · simp; fun_prop
  · simp; fun_prop
  · simp; exact continuous_const

/-! ### Curves over increasing parameters -/

/-- A sampled curve without coinciding samples runs through its parameter range from one end to the other. -/
theorem strict_run (f : ℝ → V3) (N : ℕ) (hN : 1 ≤ N) {ta tb : ℝ} (hab : ta < tb)
    (hd : ∀ i : ℕ, i < N → f (linspace ta tb N i) ≠ f (linspace ta tb N (i + 1))) :
    ∃ τ : ℝ → ℝ, StrictMonoOn τ (Icc 0 1) ∧ ContinuousOn τ (Icc 0 1) ∧ τ 0 = ta ∧ τ 1 = tb ∧
      (∀ s, 0 ≤ s → s ≤ 1 → (Curve.make (.generic f N) true ta tb).eval s = some (f (τ s))) ∧
      0 < (Curve.make (.generic f N) true ta tb).length := by
  obtain ⟨c, hc⟩ : ∃ c : Curve, c = ⟨.generic f N, true, ta, tb, 0, Lookup.default⟩ := ⟨_, rfl⟩
  have hmake : Curve.make (.generic f N) true ta tb = c.updateLengths := by rw [hc, Curve.make, if_pos rfl]
  have hk : c.kind = .generic f N := by rw [hc]
  have hst : c.updateLengths.Strict := c39_strict c (by rw [hk]; exact hN) (by rw [hc]; exact hab) (by
    intro g m hg
    rw [hk] at hg
    obtain ⟨rfl, rfl⟩ := CurveKind.generic.inj hg
    rw [hc]
    exact hd)
  rw [hmake]
  have hlen : 0 < c.updateLengths.length := by
    have hl : c.updateLengths.length = chordLen f (linspace ta tb N) N := by
      rw [Curve.updateLengths, hk, hc]
    rw [hl]
    refine lt_of_le_of_ne (chordLen_nonneg _ _ _) fun e => hd 0 hN ?_
    refine chordLen_eq_imp f (linspace ta tb N) (Nat.zero_le 1) (le_antisymm (chordLen_mono _ _ (Nat.zero_le 1)) ?_)
    calc chordLen f (linspace ta tb N) (0 + 1) ≤ chordLen f (linspace ta tb N) N := chordLen_mono _ _ hN
      _ = 0 := e.symm
      _ = chordLen f (linspace ta tb N) 0 := rfl
  obtain ⟨d, hd'⟩ : ∃ d, d = c.updateLengths := ⟨_, rfl⟩
  have hfn : d.kind.fn = f := by rw [hd', updateLengths_kind, hk]; rfl
  have ht0 : d.t0 = ta := by rw [hd', updateLengths_t0, hc]
  have ht1 : d.t1 = tb := by rw [hd', updateLengths_t1, hc]
  rw [← hd'] at hst hlen ⊢
  have hT := hst.tab
  refine ⟨npInterp d.lookup.s d.lookup.t d.lookup.n, ?_, ?_, ?_, ?_, ?_, hlen⟩
  · intro x hx y hy hxy
    have h0 : d.lookup.s 0 ≤ x := by rw [hT.s_zero]; exact hx.1
    refine lt_of_le_of_ne (npInterp_mono h0 hxy.le (hT.t_mono (by rw [ht0, ht1]; exact hab.le))) ?_
    intro e
    have i1 := (interp_inverse (x := x) hst.s_strict hst.t_strict h0 (by rw [hT.s_last]; exact hx.2) hT.pos).1
    have i2 := (interp_inverse (x := y) hst.s_strict hst.t_strict (by rw [hT.s_zero]; exact hy.1)
      (by rw [hT.s_last]; exact hy.2) hT.pos).1
    rw [e, i2] at i1
    exact hxy.ne' i1
  · have hcont := npInterp_continuousOn (fp := d.lookup.t) hst.s_strict
    rwa [hT.s_zero, hT.s_last] at hcont
  · have h01 : d.lookup.s 0 < d.lookup.s 1 := hst.s_strict 0 1 (by omega) hT.pos
    have l0 : lastLe d.lookup.s 0 d.lookup.n = 0 :=
      lastLe_unique (Nat.zero_le _) hT.s_zero.le hT.s_mono fun _ => by rw [hT.s_zero] at h01; exact h01
    rw [npInterp, if_neg (by rw [hT.s_zero]; exact lt_irrefl _)]
    simp only [l0, hT.s_zero, hT.t_zero, sub_self, mul_zero, add_zero, ht0]
    rw [if_neg (by have := hT.pos; omega)]
  · rw [npInterp_last (by rw [hT.s_zero]; exact zero_le_one) hT.s_last.le, hT.t_last, ht1]
  · intro s h0 h1
    rw [Curve.eval, Curve.s2t, if_neg (not_lt.2 h0), if_neg (not_lt.2 h1), hfn]
    rfl

/-- The involute part of a flank. -/
theorem involute_run {r ang z ta tb : ℝ} (hr : 0 < r) (h0 : 0 ≤ ta) (hab : ta < tb) (N : ℕ) (hN : 1 ≤ N) :
    ∃ τ : ℝ → ℝ, StrictMonoOn τ (Icc 0 1) ∧ ContinuousOn τ (Icc 0 1) ∧ τ 0 = ta ∧ τ 1 = tb ∧
      (∀ s, 0 ≤ s → s ≤ 1 → (Curve.make (.generic (fun t => involuteCircle t r ang 0 z) N) true ta tb).eval s =
        some (involuteCircle (τ s) r ang 0 z)) ∧
      0 < (Curve.make (.generic (fun t => involuteCircle t r ang 0 z) N) true ta tb).length := by
  refine strict_run _ N hN hab fun i hi e => ?_
  have hN' : (0 : ℝ) < N := by exact_mod_cast hN
  have d0 := involute_dist (linspace ta tb N i) r ang z
  rw [show involuteCircle (linspace ta tb N i) r ang 0 z = _ from e, involute_dist] at d0
  have d1 := mul_left_cancel₀ (pow_pos hr 2).ne' d0
  have a0 : 0 ≤ linspace ta tb N i := by
    rw [linspace]
    have : 0 ≤ (tb - ta) * (i / N) := mul_nonneg (sub_pos.2 hab).le (by positivity)
    linarith
  have a1 : linspace ta tb N i < linspace ta tb N (i + 1) := by
    have hd : linspace ta tb N (i + 1) - linspace ta tb N i = (tb - ta) / N := by
      simp only [linspace]; push_cast; field_simp; ring
    have := div_pos (sub_pos.2 hab) hN'
    linarith
  nlinarith

/-- The gaps between the ends of a flank and its mirror images, in polar coordinates. -/
theorem exactGaps_polar {T : ℝ → V3} {pitch R θ z R' θ' z' : ℝ} (h0 : T 0 = ![R * cos θ, R * sin θ, z])
    (h1 : T 1 = ![R' * cos θ', R' * sin θ', z'])
    (hg : θ = -(pitch / 2) ∨ 1 / 10 ^ 10 < 2 * R * sin (pitch / 2 + θ))
    (ht : θ' = 0 ∨ 1 / 10 ^ 10 < 2 * R' * sin (-θ')) : ExactGaps T pitch := by
  constructor
  · have e : rootStart T pitch = ![R * cos (-θ - pitch), R * sin (-θ - pitch), z] := by
      rw [rootStart, h0, Rz_app, cos_sub, sin_sub]
      apply V3.ext3 <;> simp [flipY] <;> ring
    rcases hg with hg | hg
    · right
      rw [e, h0, show -θ - pitch = θ by rw [hg]; ring]
    · left
      refine hg.trans_le ?_
      obtain ⟨u, hu⟩ : ∃ u, u = pitch / 2 + θ := ⟨_, rfl⟩
      have e1 : -θ - pitch = -(pitch / 2) - u := by rw [hu]; ring
      have e2 : θ = -(pitch / 2) + u := by rw [hu]; ring
      rw [e, h0, ← hu, e1]
      conv_rhs => rw [e2]
      rw [norm3]
      refine Real.le_sqrt_of_sq_le ?_
      simp only [dot, Pi.sub_apply, Matrix.cons_val_zero, Matrix.cons_val_one, Matrix.cons_val,
        cos_add, sin_add, cos_sub, sin_sub, cos_neg, sin_neg]
      have := sin_sq_add_cos_sq (pitch / 2)
      have h4 : (2 * R * sin u) ^ 2 = (2 * R * sin u) ^ 2 * (sin (pitch / 2) ^ 2 + cos (pitch / 2) ^ 2) := by
        rw [this, mul_one]
      rw [h4]
      apply le_of_eq
      ring
  · rcases ht with ht | ht
    · right
      rw [h1, ht]
      apply V3.ext3 <;> simp [flipY]
    · left
      refine ht.trans_le ?_
      rw [h1, norm3]
      refine Real.le_sqrt_of_sq_le ?_
      apply le_of_eq
      simp [dot, flipY]
      ring

theorem ExactGaps.congr {T T' : ℝ → V3} {pitch : ℝ} (h : ExactGaps T pitch) (e0 : T' 0 = T 0) (e1 : T' 1 = T 1) :
    ExactGaps T' pitch := by
  rw [ExactGaps, rootStart, e0, e1]
  exact h

/-- An involute that stays between the middle of the gap and the middle of the tooth runs outwards there. -/
theorem involute_outward {r ang z ta tb pitch : ℝ} {τ : ℝ → ℝ} (hr : 0 < r) (h0 : 0 ≤ ta) (hm : StrictMonoOn τ (Icc 0 1))
    (e0 : τ 0 = ta) (e1 : τ 1 = tb) (hpi : pitch ≤ π) (hp : 0 < pitch) (hg : -(pitch / 2) ≤ invAngle ta + ang)
    (ht : invAngle tb + ang ≤ 0) : Spec.OutwardFlank (fun s => involuteCircle (τ s) r ang 0 z) pitch := by
  have m0 : (0 : ℝ) ∈ Icc (0 : ℝ) 1 := ⟨le_refl _, zero_le_one⟩
  have m1 : (1 : ℝ) ∈ Icc (0 : ℝ) 1 := ⟨zero_le_one, le_refl _⟩
  have hτ : ∀ s ∈ Icc (0 : ℝ) 1, ta ≤ τ s := fun s hs => e0 ▸ hm.monotoneOn m0 hs hs.1
  have hτ' : ∀ s ∈ Icc (0 : ℝ) 1, τ s ≤ tb := fun s hs => e1 ▸ hm.monotoneOn hs m1 hs.2
  have hlo : ∀ s ∈ Icc (0 : ℝ) 1, invAngle ta ≤ invAngle (τ s) := fun s hs =>
    invAngle_strict.monotoneOn h0 (h0.trans (hτ s hs)) (hτ s hs)
  have hhi : ∀ s ∈ Icc (0 : ℝ) 1, invAngle (τ s) ≤ invAngle tb := fun s hs =>
    invAngle_strict.monotoneOn (h0.trans (hτ s hs)) (h0.trans ((hτ s hs).trans (hτ' s hs))) (hτ' s hs)
  have hang : ∀ s ∈ Icc (0 : ℝ) 1, arctan2 (involuteCircle (τ s) r ang 0 z 1) (involuteCircle (τ s) r ang 0 z 0) =
      invAngle (τ s) + ang := by
    intro s hs
    have a := hlo s hs
    have b := hhi s hs
    exact involute_angle z hr (by linarith [pi_pos]) (by linarith [pi_pos])
  refine ⟨?_, ?_, ?_, ?_, ?_, ?_⟩
  · rw [involute_dist]; positivity
  · rw [hang 0 m0, e0]; exact hg
  · intro s hs t ht' hst
    simp only
    rw [involute_dist, involute_dist]
    have := hm hs ht' hst
    have a := h0.trans (hτ s hs)
    have : τ s ^ 2 < τ t ^ 2 := by nlinarith
    have := mul_lt_mul_of_pos_left this (pow_pos hr 2)
    linarith
  · intro s s0 s1
    rw [hang s ⟨s0.le, s1⟩]
    have h := hm m0 ⟨s0.le, s1⟩ s0
    rw [e0] at h
    have := invAngle_strict (a := ta) (b := τ s) h0 (h0.trans h.le) h
    linarith
  · intro s s0 s1
    rw [hang s ⟨s0, s1.le⟩]
    have h := hm ⟨s0, s1.le⟩ m1 s1
    rw [e1] at h
    have := invAngle_strict (a := τ s) (b := tb) (h0.trans (hτ s ⟨s0, s1.le⟩))
      (h0.trans ((hτ s ⟨s0, s1.le⟩).trans h.le)) h
    linarith
  · rw [hang 1 m1, e1]; exact ht

/-- **C139, involute flanks.** Involute teeth whose flank starts on or outside the base circle: the flank is the involute of
a circle with radius `r` from parameter `ta` to `tb`. If it starts on its side of the middle of the gap and ends on its side
of the middle of the tooth, the outline of the gear is closed and simple. -/
theorem c139_involute {asEuler : M3 → ℝ × ℝ × ℝ} (hE : EulerOk asEuler) {r ang z ta tb pitch : ℝ} (hr : 0 < r)
    (h0 : 0 ≤ ta) (hab : ta < tb) (N : ℕ) (hN : 1 ≤ N) (n : ℕ) (h2 : 2 ≤ n) (hn : n * pitch = 2 * π)
    (hg : -(pitch / 2) ≤ invAngle ta + ang) (ht : invAngle tb + ang ≤ 0)
    (hg' : invAngle ta + ang = -(pitch / 2) ∨
      1 / 10 ^ 10 < 2 * (r * √(1 + ta ^ 2)) * sin (pitch / 2 + (invAngle ta + ang)))
    (ht' : invAngle tb + ang = 0 ∨ 1 / 10 ^ 10 < 2 * (r * √(1 + tb ^ 2)) * sin (-(invAngle tb + ang)))
    (rA rD rO : ℝ) (centerO : V3) :
    ∃ P, closeProfile curveOps asEuler (Curve.make (.generic (fun t => involuteCircle t r ang 0 z) N) true ta tb)
        rA rD rO centerO pitch = some P ∧
      Spec.SimpleOutline (chainEval (sumOps curveOps curveOps) (P.chain curveOps)) pitch n := by
  obtain ⟨τ, hm, hc, e0, e1, hev, hlen⟩ := involute_run (ang := ang) (z := z) hr h0 hab N hN
  have hn2 : (2 : ℝ) ≤ n := by exact_mod_cast h2
  have hp : 0 < pitch := by
    by_contra hneg
    have := mul_nonpos_of_nonneg_of_nonpos (by linarith : (0 : ℝ) ≤ n) (not_lt.1 hneg)
    linarith [pi_pos]
  have hpi : pitch ≤ π := by nlinarith
  refine c139_simple hE (T := fun s => involuteCircle (τ s) r ang 0 z) ?_
    (updateLengths_fix_make (.generic (fun t => involuteCircle t r ang 0 z) N) ta tb) hlen hev ?_
    (involute_outward hr h0 hm e0 e1 hpi hp hg ht) n h2 hn ?_ rA rD rO centerO
  · show (Curve.make _ true ta tb).active = true
    rw [Curve.make, if_pos rfl, updateLengths_active]
  · exact (involute_continuous r ang z).comp_continuousOn hc
  · exact exactGaps_polar (by rw [e0, involute_polar]) (by rw [e1, involute_polar]) hg' ht'

/-! ### Flanks with a root line -/

/-- A chain of a curve `A` and an outward flank `B` is an outward flank, if the distance from the axis grows along `A` and
`A` stays on the flank's side of the two middles. -/
theorem outward_two {α : Type} {o : CurveOps α} {a b : α} {A B G : ℝ → V3} {pitch : ℝ} (ha : o.active a = true)
    (hb : o.active b = true) (la : 0 < o.length a) (lb : 0 < o.length b)
    (hA : ∀ s, 0 ≤ s → s ≤ 1 → o.eval a s = some (A s)) (hB : ∀ s, 0 ≤ s → s ≤ 1 → o.eval b s = some (B s))
    (hAB : A 1 = B 0) (hG : ∀ s, 0 ≤ s → s ≤ 1 → chainEval o [a, b] s = some (G s))
    (off : 0 < A 0 0 ^ 2 + A 0 1 ^ 2) (root : -(pitch / 2) ≤ arctan2 (A 0 1) (A 0 0))
    (grows : StrictMonoOn (fun s => A s 0 ^ 2 + A s 1 ^ 2) (Icc 0 1))
    (gap : ∀ s, 0 < s → s ≤ 1 → -(pitch / 2) < arctan2 (A s 1) (A s 0))
    (tooth : ∀ s, 0 ≤ s → s ≤ 1 → arctan2 (A s 1) (A s 0) < 0) (hf : Spec.OutwardFlank B pitch) :
    G 0 = A 0 ∧ G 1 = B 1 ∧ Spec.OutwardFlank G pitch := by
  have m0 : (0 : ℝ) ∈ Icc (0 : ℝ) 1 := ⟨le_refl _, zero_le_one⟩
  have m1 : (1 : ℝ) ∈ Icc (0 : ℝ) 1 := ⟨zero_le_one, le_refl _⟩
  have hnn : NonNeg o [a, b] := by
    intro c hc _
    simp only [List.mem_cons, List.not_mem_nil, or_false] at hc
    rcases hc with rfl | rfl
    · exact la.le
    · exact lb.le
  have hla : o.len a = o.length a := by rw [CurveOps.len, if_pos ha]
  have hlb : o.len b = o.length b := by rw [CurveOps.len, if_pos hb]
  have hL : 0 < chainLen o [a, b] := by
    rw [chainLen, List.map_cons, List.map_cons, List.sum_cons, List.sum_cons, hla, hlb]
    simp
    linarith
  have look : ∀ s, 0 ≤ s → s ≤ 1 → ∃ σ, 0 ≤ σ ∧ σ ≤ 1 ∧ (0 < s → 0 < σ) ∧
      ((G s = A σ ∧ σ * o.length a = s * (o.length a + o.length b)) ∨
        (G s = B σ ∧ o.length a + σ * o.length b = s * (o.length a + o.length b))) := by
    intro s s0 s1
    obtain ⟨k, σ, c, g1, g2, -, g4, g5, g6, g7, -⟩ := c43_lookup (o := o) [a, b] hnn hL s s0 s1
    refine ⟨σ, g4, g5, fun h => (g7 h).1, ?_⟩
    have hev := hG s s0 s1
    rw [chainEval, g1] at hev
    match k, g2 with
    | 0, g2 =>
      left
      cases Option.some.inj g2
      simp [hla, hlb] at g6
      simp [hA σ g4 g5] at hev
      exact ⟨hev.symm, g6⟩
    | 1, g2 =>
      right
      cases Option.some.inj g2
      simp [hla, hlb] at g6
      simp [hB σ g4 g5] at hev
      exact ⟨hev.symm, g6⟩
  have eA : ∀ σ ∈ Icc (0 : ℝ) 1, A σ 0 ^ 2 + A σ 1 ^ 2 ≤ A 1 0 ^ 2 + A 1 1 ^ 2 := fun σ h =>
    grows.monotoneOn h m1 h.2
  have eB : ∀ σ ∈ Icc (0 : ℝ) 1, B 0 0 ^ 2 + B 0 1 ^ 2 ≤ B σ 0 ^ 2 + B σ 1 ^ 2 := fun σ h =>
    hf.grows.monotoneOn m0 h h.1
  have g0 : G 0 = A 0 := by
    obtain ⟨σ, s0, s1, -, ⟨h1, h2⟩ | ⟨h1, h2⟩⟩ := look 0 (le_refl _) zero_le_one
    · rw [zero_mul] at h2
      rcases mul_eq_zero.1 h2 with h | h
      · rw [h1, h]
      · exact absurd h la.ne'
    · have := mul_nonneg s0 lb.le
      linarith
  have g1 : G 1 = B 1 := by
    obtain ⟨σ, s0, s1, -, ⟨h1, h2⟩ | ⟨h1, h2⟩⟩ := look 1 zero_le_one (le_refl _)
    · have := mul_le_mul_of_nonneg_right s1 la.le
      linarith
    · rw [h1, show σ = 1 from mul_right_cancel₀ lb.ne' (by linarith)]
  refine ⟨g0, g1, by rw [g0]; exact off, by rw [g0]; exact root, ?_, ?_, ?_, by rw [g1]; exact hf.tip⟩
  · intro s hs t ht hst
    obtain ⟨σ, s0, s1, -, hσ⟩ := look s hs.1 hs.2
    obtain ⟨σ', t0, t1, -, hσ'⟩ := look t ht.1 ht.2
    have hlt := mul_lt_mul_of_pos_right hst (add_pos la lb)
    rcases hσ with ⟨e, h⟩ | ⟨e, h⟩ <;> rcases hσ' with ⟨e', h'⟩ | ⟨e', h'⟩
    · simp only [e, e']
      exact grows ⟨s0, s1⟩ ⟨t0, t1⟩ (lt_of_mul_lt_mul_right (by linarith) la.le)
    · simp only [e, e']
      have x1 := eA σ ⟨s0, s1⟩
      have x2 := eB σ' ⟨t0, t1⟩
      rw [hAB] at x1
      rcases s1.lt_or_eq with h1 | h1
      · have := grows ⟨s0, s1⟩ m1 h1
        simp only [hAB] at this
        linarith
      · rcases t0.lt_or_eq with h2 | h2
        · have := hf.grows m0 ⟨t0, t1⟩ h2
          simp only at this
          linarith
        · rw [h1] at h
          rw [← h2] at h'
          linarith
    · have := mul_nonneg s0 lb.le
      have := mul_le_mul_of_nonneg_right t1 la.le
      linarith
    · simp only [e, e']
      exact hf.grows ⟨s0, s1⟩ ⟨t0, t1⟩ (lt_of_mul_lt_mul_right (by linarith) lb.le)
  · intro s s0 s1
    obtain ⟨σ, x0, x1, x2, ⟨e, -⟩ | ⟨e, -⟩⟩ := look s s0.le s1
    · rw [e]; exact gap σ (x2 s0) x1
    · rw [e]; exact hf.gap σ (x2 s0) x1
  · intro s s0 s1
    obtain ⟨σ, x0, x1, x2, ⟨e, -⟩ | ⟨e, h⟩⟩ := look s s0 s1.le
    · rw [e]; exact tooth σ x0 x1
    · rw [e]
      refine hf.tooth σ x0 (lt_of_le_of_ne x1 fun h1 => ?_)
      rw [h1, one_mul] at h
      have := mul_lt_mul_of_pos_right s1 (add_pos la lb)
      linarith

/-- **C139, involute flanks with a root line.** Involute teeth that reach below the base circle, as
`generate_involute_curve` makes them (gearteeth.py:34-72) and the root circle cuts them off: a line from a place `l` on the
way between half the base circle and the base circle, radially to the base circle, and from there the involute up to
parameter `tb`. -/
theorem c139_root_line {asEuler : M3 → ℝ × ℝ × ℝ} (hE : EulerOk asEuler) {r ang l tb pitch : ℝ} (hr : 0 < r) (l0 : 0 ≤ l)
    (l1 : l < 1) (hab : 0 < tb) (N : ℕ) (hN : 1 ≤ N) (n : ℕ) (h2 : 2 ≤ n) (hn : n * pitch = 2 * π)
    (hg : -(pitch / 2) < ang) (ht : invAngle tb + ang ≤ 0)
    (hg' : 1 / 10 ^ 10 < 2 * ((1 + l) / 2 * r) * sin (pitch / 2 + ang))
    (ht' : invAngle tb + ang = 0 ∨ 1 / 10 ^ 10 < 2 * (r * √(1 + tb ^ 2)) * sin (-(invAngle tb + ang)))
    (rA rD rO : ℝ) (centerO : V3) :
    ∃ P, closeProfile (chainOps curveOps) asEuler
        ⟨[Curve.make (.line ((1 / 2 : ℝ) • involuteCircle 0 r ang 0 0) (involuteCircle 0 r ang 0 0)) true l 1,
          Curve.make (.generic (fun t => involuteCircle t r ang 0 0) N) true 0 tb], true⟩
        rA rD rO centerO pitch = some P ∧
      Spec.SimpleOutline (chainEval (sumOps (chainOps curveOps) curveOps) (P.chain (chainOps curveOps))) pitch n := by
  obtain ⟨τ, hm, hc, e0, e1, hev, hlen⟩ := involute_run (ang := ang) (z := 0) hr (le_refl 0) hab N hN
  have hn2 : (2 : ℝ) ≤ n := by exact_mod_cast h2
  have hp : 0 < pitch := by
    by_contra hneg
    have := mul_nonpos_of_nonneg_of_nonpos (by linarith : (0 : ℝ) ≤ n) (not_lt.1 hneg)
    linarith [pi_pos]
  have hpi : pitch ≤ π := by nlinarith
  have ha0 : ang < 0 := by
    have := invAngle_strict (a := 0) (b := tb) (le_refl (0 : ℝ)) hab.le hab
    rw [invAngle_zero] at this
    linarith
  have hp0 : involuteCircle 0 r ang 0 0 = ![r * cos ang, r * sin ang, 0] := by
    rw [involute_polar, invAngle_zero]; simp
  obtain ⟨a, hadef⟩ : ∃ a, a = Curve.make (.line ((1 / 2 : ℝ) • involuteCircle 0 r ang 0 0)
    (involuteCircle 0 r ang 0 0)) true l 1 := ⟨_, rfl⟩
  obtain ⟨b, hbdef⟩ : ∃ b, b = Curve.make (.generic (fun t => involuteCircle t r ang 0 0) N) true 0 tb := ⟨_, rfl⟩
  rw [← hadef, ← hbdef]
  rw [← hbdef] at hev hlen
  have haact : curveOps.active a = true := by
    rw [hadef]
    exact line_act ((1 / 2 : ℝ) • involuteCircle 0 r ang 0 0) (involuteCircle 0 r ang 0 0) l 1
  have hbact : curveOps.active b = true := by
    show b.active = true
    rw [hbdef, Curve.make, if_pos rfl, updateLengths_active]
  have hafix : curveOps.updateLengths a = a := by
    rw [hadef]
    exact line_upd ((1 / 2 : ℝ) • involuteCircle 0 r ang 0 0) (involuteCircle 0 r ang 0 0) l 1
  have hbfix : curveOps.updateLengths b = b := by
    rw [hbdef]; exact updateLengths_fix_make (.generic (fun t => involuteCircle t r ang 0 0) N) 0 tb
  have hn0 : norm3 (involuteCircle 0 r ang 0 0) = r := by
    rw [hp0]
    refine norm3_eq_of_dot hr.le ?_
    simp [dot]
    linear_combination r ^ 2 * sin_sq_add_cos_sq ang
  have halen : 0 < curveOps.length a := by
    rw [hadef]
    show 0 < Curve.length _
    rw [line_trim, show involuteCircle 0 r ang 0 0 - (1 / 2 : ℝ) • involuteCircle 0 r ang 0 0 =
      (1 / 2 : ℝ) • involuteCircle 0 r ang 0 0 by apply V3.ext3 <;> simp <;> ring, norm3_smul, hn0,
      abs_of_pos (sub_pos.2 l1), abs_of_pos (by norm_num)]
    have := sub_pos.2 l1
    positivity
  obtain ⟨μ, hμ⟩ : ∃ μ : ℝ → ℝ, μ = fun s => (1 + (l + (1 - l) * s)) / 2 := ⟨_, rfl⟩
  obtain ⟨A, hA⟩ : ∃ A : ℝ → V3, A = fun s => ![μ s * r * cos ang, μ s * r * sin ang, 0] := ⟨_, rfl⟩
  have haev : ∀ s, curveOps.eval a s = some (A s) := by
    intro s
    rw [hadef]
    show Curve.eval _ s = _
    rw [line_eval, hp0, hA, hμ]
    congr 1
    apply V3.ext3 <;> simp <;> ring
  have hμpos : ∀ s, 0 ≤ s → 0 < μ s := by
    intro s s0
    rw [hμ]
    have := mul_nonneg (sub_pos.2 l1).le s0
    simp only
    linarith
  have hdist : ∀ s, A s 0 ^ 2 + A s 1 ^ 2 = (μ s * r) ^ 2 := by
    intro s
    rw [hA]
    simp
    linear_combination (μ s * r) ^ 2 * sin_sq_add_cos_sq ang
  have hangle : ∀ s, 0 ≤ s → arctan2 (A s 1) (A s 0) = ang := by
    intro s s0
    rw [hA]
    exact arctan2_polar (mul_pos (hμpos s s0) hr) (by linarith [pi_pos]) (by linarith [pi_pos])
  have hA1 : A 1 = involuteCircle 0 r ang 0 0 := by
    rw [hA, hμ, hp0]
    apply V3.ext3 <;> simp
  obtain ⟨B, hB⟩ : ∃ B : ℝ → V3, B = fun s => involuteCircle (τ s) r ang 0 0 := ⟨_, rfl⟩
  have hBc : ContinuousOn B (Icc 0 1) := by
    rw [hB]; exact (involute_continuous r ang 0).comp_continuousOn hc
  have hAc : Continuous A := by
    rw [hA, hμ]
    refine continuous_pi fun i => ?_
    fin_cases i
    · simp; fun_prop
    · simp; fun_prop
    · simp; exact continuous_const
  have hev' : ∀ s, 0 ≤ s → s ≤ 1 → curveOps.eval b s = some (B s) := by rw [hB]; exact hev
  have hAB : A 1 = B 0 := by rw [hA1, hB]; simp only [e0]
  have hpos : AllPos curveOps [a, b] := by
    intro c hc' _
    simp only [List.mem_cons, List.not_mem_nil, or_false] at hc'
    rcases hc' with rfl | rfl
    · exact halen
    · exact hlen
  have hmeets : Meets curveOps [a, b] := by
    intro j k x y hjk hx hy _ _ _
    have hk : k < 2 := by
      have := (List.getElem?_eq_some_iff.1 hy).1
      simpa using this
    obtain rfl : k = 1 := by omega
    obtain rfl : j = 0 := by omega
    cases Option.some.inj hx
    cases Option.some.inj hy
    rw [haev, hev' 0 (le_refl _) zero_le_one, hAB]
  obtain ⟨G, hGc, hG⟩ := c44_continuous [a, b] hpos hmeets ⟨a, by simp, haact⟩ (by
    intro c hc' _
    simp only [List.mem_cons, List.not_mem_nil, or_false] at hc'
    rcases hc' with rfl | rfl
    · exact ⟨A, hAc.continuousOn, fun s _ _ => haev s⟩
    · exact ⟨B, hBc, hev'⟩)
  obtain ⟨g0, g1, hf⟩ := outward_two (pitch := pitch) haact hbact halen hlen (fun s _ _ => haev s) hev' hAB hG
    (by rw [hdist]; exact pow_pos (mul_pos (hμpos 0 (le_refl _)) hr) 2)
    (by rw [hangle 0 (le_refl _)]; exact hg.le)
    (by
      intro s hs t ht hst
      simp only [hdist]
      have h1 := hμpos s hs.1
      have h2 : μ s < μ t := by
        rw [hμ]
        have := mul_lt_mul_of_pos_left hst (sub_pos.2 l1)
        simp only
        linarith
      have := mul_lt_mul_of_pos_right h2 hr
      have := mul_pos h1 hr
      nlinarith)
    (fun s s0 _ => by rw [hangle s s0.le]; exact hg) (fun s s0 _ => by rw [hangle s s0]; exact ha0)
    (by rw [hB]; exact involute_outward hr (le_refl 0) hm e0 e1 hpi hp (by rw [invAngle_zero]; linarith) ht)
  refine c139_simple hE (T := G) ?_ ?_ ?_ hG hGc hf n h2 hn ?_ rA rD rO centerO
  · simp [chainOps, haact]
  · have : chainUpdate curveOps [a, b] = [a, b] := by
      simp [chainUpdate, haact, hbact, hafix, hbfix]
    simp only [chainOps, this]
  · show 0 < chainLen curveOps [a, b]
    simp [chainLen, CurveOps.len, haact, hbact]
    exact add_pos halen hlen
  · refine exactGaps_polar (R := (1 + l) / 2 * r) (θ := ang) (z := 0) (z' := 0) (by rw [g0, hA, hμ]; simp) ?_ (Or.inr hg') ht'
    rw [g1, hB]
    simp only [e1]
    exact involute_polar _ _ _ _

/-- A gear with ten teeth: base circle 10, root circle 7.5, tip circle 14.1. The flank starts with a root line. -/
theorem c139_case (asEuler : M3 → ℝ × ℝ × ℝ) (hE : EulerOk asEuler) :
    ∃ P, closeProfile (chainOps curveOps) asEuler
        ⟨[Curve.make (.line ((1 / 2 : ℝ) • involuteCircle 0 10 (-1 / 4) 0 0) (involuteCircle 0 10 (-1 / 4) 0 0)) true (1 / 2) 1,
          Curve.make (.generic (fun t => involuteCircle t 10 (-1 / 4) 0 0) 20) true 0 1], true⟩
        14 7 5 0 (π / 5) = some P ∧
      Spec.SimpleOutline (chainEval (sumOps (chainOps curveOps) curveOps) (P.chain (chainOps curveOps))) (π / 5) 10 := by
  have h1 := pi_gt_d2
  have h2 := pi_lt_d2
  have i1 : invAngle 1 = 1 - π / 4 := by rw [invAngle, arctan_one]
  have low : ∀ x : ℝ, 1 / 50 < x → x < 1 → 1 / 100 < sin x := by
    intro x x0 x1
    have h := sin_gt_sub_cube (by linarith : 0 < x)
    have : x ^ 3 ≤ x := by nlinarith [mul_nonneg (by linarith : 0 ≤ x) (sq_nonneg x), mul_pos (by linarith : 0 < x) (by nlinarith : 0 < 1 - x ^ 2)]
    linarith
  refine c139_root_line hE (by norm_num) (by norm_num) (by norm_num) zero_lt_one 20 (by norm_num) 10 (by norm_num)
    (by push_cast; ring) (by linarith) (by rw [i1]; linarith) ?_ (Or.inr ?_) _ _ _ _
  · have := low (π / 5 / 2 + -1 / 4) (by linarith) (by linarith)
    linarith
  · have := low (-(invAngle 1 + -1 / 4)) (by rw [i1]; linarith) (by rw [i1]; linarith)
    have h3 : (1 : ℝ) ≤ √(1 + 1 ^ 2) := Real.one_le_sqrt.2 (by norm_num)
    have := mul_le_mul h3 this.le (by norm_num) (by linarith)
    nlinarith

end Verif
