import Verif.Props.TrimChain
import Verif.Props.TrimEx
import Verif.Model.InvoluteTooth

/-!
# Property C140: the outline of a spur gear, from the parameters of its teeth
-/

namespace Verif

open Real Set

/-! ### Flanks in polar coordinates -/

/-- A flank in polar coordinates: the distance from the axis grows, the angle grows from `ang` to 0, perhaps after a
straight radial part. -/
structure Fan (G : ℝ → V3) (ang : ℝ) (R θ : ℝ → ℝ) : Prop where
  polar : ∀ s ∈ Icc (0 : ℝ) 1, G s = ![R s * cos (θ s), R s * sin (θ s), 0]
  pos : 0 < R 0
  grows : StrictMonoOn R (Icc 0 1)
  cont : ContinuousOn G (Icc 0 1)
  turns : MonotoneOn θ (Icc 0 1)
  start : θ 0 = ang
  fin : θ 1 = 0
  strict : ∀ s ∈ Icc (0 : ℝ) 1, ∀ t ∈ Icc (0 : ℝ) 1, s < t → ang < θ t → θ s < θ t

section
variable {G T : ℝ → V3} {ang pitch a b : ℝ} {R θ φ : ℝ → ℝ}

theorem run_continuous (h : StrictMonoOn φ (Icc 0 1)) (hi : φ '' Icc 0 1 = Icc a b) : ContinuousOn φ (Icc 0 1) := by
  have : OrdConnected (φ '' Icc 0 1) := by rw [hi]; exact ordConnected_Icc
  have hc := (h.orderIso φ (Icc 0 1)).continuous
  rw [continuousOn_iff_continuous_domRestrict]
  exact continuous_subtype_val.comp hc

theorem Fan.radius (F : Fan G ang R θ) {s : ℝ} (hs : s ∈ Icc (0 : ℝ) 1) : 0 < R s :=
  F.pos.trans_le (F.grows.monotoneOn ⟨le_refl _, zero_le_one⟩ hs hs.1)

theorem Fan.range (F : Fan G ang R θ) {s : ℝ} (hs : s ∈ Icc (0 : ℝ) 1) : ang ≤ θ s ∧ θ s ≤ 0 :=
  ⟨F.start ▸ F.turns ⟨le_refl _, zero_le_one⟩ hs hs.1, F.fin ▸ F.turns hs ⟨zero_le_one, le_refl _⟩ hs.2⟩

theorem Fan.angle (F : Fan G ang R θ) (hang : -π < ang) {s : ℝ} (hs : s ∈ Icc (0 : ℝ) 1) :
    arctan2 (G s 1) (G s 0) = θ s := by
  obtain ⟨h1, h2⟩ := F.range hs
  rw [F.polar s hs]
  exact arctan2_polar (F.radius hs) (by linarith) (by linarith [pi_pos])

theorem Fan.dist (F : Fan G ang R θ) {s : ℝ} (hs : s ∈ Icc (0 : ℝ) 1) : G s 0 ^ 2 + G s 1 ^ 2 = R s ^ 2 := by
  rw [F.polar s hs]
  simp
  linear_combination R s ^ 2 * sin_sq_add_cos_sq (θ s)

/-- A piece of such a flank runs outwards between the middles, when it starts on its side of the middle of the gap. -/
theorem Fan.piece (F : Fan G ang R θ) (hang : -π < ang) (hneg : ang < 0) (h : StrictMonoOn φ (Icc 0 1))
    (hi : φ '' Icc 0 1 = Icc a b) (ha : 0 ≤ a) (hb : b ≤ 1) (hT : ∀ s ∈ Icc (0 : ℝ) 1, T s = G (φ s))
    (hroot : -(pitch / 2) < ang ∨ ang < -(pitch / 2) ∧ -(pitch / 2) ≤ θ a) :
    Spec.OutwardFlank T pitch ∧ ContinuousOn T (Icc 0 1) := by
  have m0 : (0 : ℝ) ∈ Icc (0 : ℝ) 1 := ⟨le_refl _, zero_le_one⟩
  have m1 : (1 : ℝ) ∈ Icc (0 : ℝ) 1 := ⟨zero_le_one, le_refl _⟩
  obtain ⟨e0, e1⟩ := mono_ends h hi
  have m : ∀ s ∈ Icc (0 : ℝ) 1, φ s ∈ Icc (0 : ℝ) 1 := by
    intro s hs
    have : φ s ∈ Icc a b := hi ▸ mem_image_of_mem φ hs
    exact ⟨ha.trans this.1, this.2.trans hb⟩
  have hang' : ∀ s ∈ Icc (0 : ℝ) 1, arctan2 (T s 1) (T s 0) = θ (φ s) := fun s hs => by
    rw [hT s hs]; exact F.angle hang (m s hs)
  have hdist : ∀ s ∈ Icc (0 : ℝ) 1, T s 0 ^ 2 + T s 1 ^ 2 = R (φ s) ^ 2 := fun s hs => by
    rw [hT s hs]; exact F.dist (m s hs)
  refine ⟨⟨?_, ?_, ?_, ?_, ?_, ?_⟩, ?_⟩
  · rw [hdist 0 m0]; exact pow_pos (F.radius (m 0 m0)) 2
  · rw [hang' 0 m0, e0]
    rcases hroot with h1 | h1
    · exact h1.le.trans (F.range (e0 ▸ m 0 m0)).1
    · exact h1.2
  · intro s hs t ht hst
    simp only
    rw [hdist s hs, hdist t ht]
    exact pow_lt_pow_left₀ (F.grows (m s hs) (m t ht) (h hs ht hst)) (F.radius (m s hs)).le two_ne_zero
  · intro s s0 s1
    have hs : s ∈ Icc (0 : ℝ) 1 := ⟨s0.le, s1⟩
    rw [hang' s hs]
    rcases hroot with h1 | ⟨h1, h2⟩
    · exact h1.trans_le (F.range (m s hs)).1
    · have hlt := h m0 hs s0
      rw [e0] at hlt
      have ma : a ∈ Icc (0 : ℝ) 1 := e0 ▸ m 0 m0
      have h3 := F.turns ma (m s hs) hlt.le
      exact h2.trans_lt (F.strict a ma (φ s) (m s hs) hlt (by linarith))
  · intro s s0 s1
    have hs : s ∈ Icc (0 : ℝ) 1 := ⟨s0, s1.le⟩
    rw [hang' s hs, ← F.fin]
    have h3 := h hs m1 s1
    exact F.strict _ (m s hs) 1 m1 (h3.trans_le (m 1 m1).2) (by rw [F.fin]; exact hneg)
  · rw [hang' 1 m1]; exact (F.range (m 1 m1)).2
  · exact (F.cont.comp (run_continuous h hi) m).congr hT

end

/-! ### The generated tooth curve -/

theorem involute_inj {r ang z tb : ℝ} (hr : 0 < r) : InjOn (fun t => involuteCircle t r ang 0 z) (Icc 0 tb) := by
  intro x hx y hy e
  have d0 := involute_dist x r ang z
  rw [show involuteCircle x r ang 0 z = _ from e, involute_dist] at d0
  have d1 := mul_left_cancel₀ (pow_pos hr 2).ne' d0
  have d2 : x ^ 2 = y ^ 2 := by linarith
  exact (pow_left_inj₀ hx.1 hy.1 two_ne_zero).1 d2

/-- The polar coordinates of a radial line up to the base circle with radius `r`, and of an involute beyond it. -/
def InvoluteShape (r ang : ℝ) (R θ : ℝ → ℝ) : Prop :=
  ∀ s ∈ Icc (0 : ℝ) 1, R s ≤ r ∧ θ s = ang ∨ ∃ t, 0 ≤ t ∧ R s = r * √(1 + t ^ 2) ∧ θ s = invAngle t + ang

/-- The connector line and the involute, as a flank in polar coordinates. -/
theorem tooth_fan {r ang tb : ℝ} (hr : 0 < r) (htb : 0 < tb) (hend : invAngle tb + ang = 0) (N : ℕ) (hN : 1 ≤ N) {q : V3}
    (hq : (Curve.make (.generic (fun t => involuteCircle t r ang 0 0) N) true 0 tb).eval 0 = some q) :
    ChainPath [lineC ((1 / 2 : ℝ) • q) q, Curve.make (.generic (fun t => involuteCircle t r ang 0 0) N) true 0 tb] ∧
      ∃ G R θ, Fan G ang R θ ∧ R 0 = r / 2 ∧ R 1 = r * √(1 + tb ^ 2) ∧ InvoluteShape r ang R θ ∧
        ∀ s ∈ Icc (0 : ℝ) 1, chainEval curveOps [lineC ((1 / 2 : ℝ) • q) q, Curve.make (.generic (fun t => involuteCircle t r ang 0 0) N) true 0 tb] s = some (G s) := by
  have m0 : (0 : ℝ) ∈ Icc (0 : ℝ) 1 := ⟨le_refl _, zero_le_one⟩
  have m1 : (1 : ℝ) ∈ Icc (0 : ℝ) 1 := ⟨zero_le_one, le_refl _⟩
  obtain ⟨τ, t1, t2, t3, t4, t5, -⟩ := involute_run (ang := ang) (z := 0) hr (le_refl 0) htb N hN
  have hJ := make_path hN htb (involute_inj (ang := ang) (z := 0) (tb := tb) hr)
  obtain ⟨J, eJ⟩ : ∃ J, J = Curve.make (.generic (fun t => involuteCircle t r ang 0 0) N) true 0 tb := ⟨_, rfl⟩
  rw [← eJ] at hq t5 hJ ⊢
  have hq' : q = ![r * cos ang, r * sin ang, 0] := by
    have := t5 0 (le_refl _) zero_le_one
    rw [hq, t3, involute_polar] at this
    rw [Option.some.inj this, invAngle_zero]; simp
  have hqn : norm3 (q - (1 / 2 : ℝ) • q) = r / 2 := by
    apply norm3_eq_of_dot (by linarith)
    rw [hq']
    simp [dot]
    linear_combination (r ^ 2 / 4) * sin_sq_add_cos_sq ang
  have hqd : q - (1 / 2 : ℝ) • q ≠ 0 := by
    intro e
    rw [e] at hqn
    have : norm3 (0 : V3) = 0 := by simp [norm3, dot]
    linarith
  have hP := pair_path (lineC_path hqd) hJ (by rw [lineC_eval, hq]; simp)
  refine ⟨hP, ?_⟩
  obtain ⟨C, eC⟩ : ∃ C, C = lineC ((1 / 2 : ℝ) • q) q := ⟨_, rfl⟩
  have hCl : curveOps.len C = r / 2 := by
    rw [len_of_active (o := curveOps) (by rw [eC]; exact (lineC_path hqd).act)]
    show C.length = _
    rw [eC, lineC_length, hqn]
  have hCe : ∀ s, curveOps.eval C s = some (((1 + s) / 2) • q) := by
    intro s
    show C.eval s = _
    rw [eC, lineC_eval]; congr 1; module
  have hCa : curveOps.active C = true := by rw [eC]; exact (lineC_path hqd).act
  have hJl : 0 < curveOps.len J := by rw [len_of_active (o := curveOps) hJ.act]; exact hJ.len
  rw [← eC] at hP ⊢
  obtain ⟨ℓ, hℓ⟩ : ∃ ℓ, ℓ = curveOps.len J := ⟨_, rfl⟩
  have hL : chainLen curveOps [C, J] = r / 2 + ℓ := by
    rw [chainLen_cons, chainLen_cons, hCl, ← hℓ]; simp [chainLen]
  rw [← hℓ] at hJl
  obtain ⟨L, eL⟩ : ∃ L, L = r / 2 + ℓ := ⟨_, rfl⟩
  have hL0 : 0 < L := by rw [eL]; linarith
  -- shares of the two members
  obtain ⟨m, em⟩ : ∃ m : ℝ → ℝ, m = fun s => min (s * L) (r / 2) / (r / 2) := ⟨_, rfl⟩
  obtain ⟨v, ev⟩ : ∃ v : ℝ → ℝ, v = fun s => max (s * L - r / 2) 0 / ℓ := ⟨_, rfl⟩
  have hr2 : 0 < r / 2 := by linarith
  have vm : ∀ s ∈ Icc (0 : ℝ) 1, v s ∈ Icc (0 : ℝ) 1 := by
    intro s hs
    rw [ev]
    refine ⟨div_nonneg (le_max_right _ _) hJl.le, (div_le_one hJl).2 (max_le ?_ hJl.le)⟩
    nlinarith [hs.2]
  have mlo : ∀ s, s * L ≤ r / 2 → m s = s * L / (r / 2) ∧ v s = 0 := by
    intro s hs
    rw [em, ev]
    simp only
    rw [min_eq_left hs, max_eq_right (by linarith), zero_div]
    exact ⟨rfl, rfl⟩
  have mhi : ∀ s, r / 2 ≤ s * L → m s = 1 ∧ v s = (s * L - r / 2) / ℓ := by
    intro s hs
    rw [em, ev]
    simp only
    rw [min_eq_right hs, max_eq_left (by linarith), div_self hr2.ne']
    exact ⟨rfl, rfl⟩
  have mmono : ∀ s t, s ≤ t → m s ≤ m t := by
    intro s t hst
    rw [em]
    exact div_le_div_of_nonneg_right (min_le_min (by nlinarith) (le_refl _)) hr2.le
  have vmono : ∀ s t, s ≤ t → v s ≤ v t := by
    intro s t hst
    rw [ev]
    exact div_le_div_of_nonneg_right (max_le_max (by nlinarith) (le_refl _)) hJl.le
  have vstrict : ∀ s t, s < t → 0 < v t → v s < v t := by
    intro s t hst hv
    rcases le_or_gt (t * L) (r / 2) with h | h
    · rw [(mlo t h).2] at hv; exact absurd hv (lt_irrefl _)
    · rcases le_or_gt (s * L) (r / 2) with h' | h'
      · rw [(mlo s h').2]; exact hv
      · rw [(mhi s h'.le).2, (mhi t h.le).2]
        exact div_lt_div_of_pos_right (by nlinarith) hJl
  have mstrict : ∀ s t, s < t → v t = 0 → m s < m t := by
    intro s t hst hv
    have ht : t * L ≤ r / 2 := by
      by_contra hc
      rw [not_le] at hc
      rw [(mhi t hc.le).2] at hv
      have := div_pos (sub_pos.2 hc) hJl
      linarith
    rw [(mlo t ht).1, (mlo s (by nlinarith)).1]
    exact div_lt_div_of_pos_right (by nlinarith) hr2
  have τ0 : ∀ s ∈ Icc (0 : ℝ) 1, 0 ≤ τ (v s) := by
    intro s hs
    have := t1.monotoneOn m0 (vm s hs) (vm s hs).1
    rwa [t3] at this
  have invmono : ∀ s ∈ Icc (0 : ℝ) 1, ∀ t ∈ Icc (0 : ℝ) 1, s ≤ t → τ (v s) ≤ τ (v t) := fun s hs t ht hst =>
    t1.monotoneOn (vm s hs) (vm t ht) (vmono s t hst)
  obtain ⟨R, eR⟩ : ∃ R : ℝ → ℝ, R = fun s => r * ((1 + m s) / 2) + r * (√(1 + τ (v s) ^ 2) - 1) := ⟨_, rfl⟩
  obtain ⟨θ, eθ⟩ : ∃ θ : ℝ → ℝ, θ = fun s => invAngle (τ (v s)) + ang := ⟨_, rfl⟩
  have v0 : v 0 = 0 ∧ m 0 = 0 := by
    obtain ⟨h1, h2⟩ := mlo 0 (by linarith)
    exact ⟨h2, by rw [h1]; simp⟩
  have v1 : v 1 = 1 ∧ m 1 = 1 := by
    obtain ⟨h1, h2⟩ := mhi 1 (by linarith)
    refine ⟨?_, h1⟩
    rw [h2, eL, show 1 * (r / 2 + ℓ) - r / 2 = ℓ by ring, div_self hJl.ne']
  have mcont : Continuous m := by rw [em]; fun_prop
  have vcont : Continuous v := by rw [ev]; fun_prop
  have τcont : ContinuousOn (fun s => τ (v s)) (Icc 0 1) := t2.comp vcont.continuousOn vm
  have Rcont : ContinuousOn R (Icc 0 1) := by
    rw [eR]
    have h1 : ContinuousOn (fun s => √(1 + τ (v s) ^ 2)) (Icc 0 1) :=
      (continuous_sqrt.comp_continuousOn (continuousOn_const.add (τcont.pow 2)))
    have h2 : ContinuousOn m (Icc 0 1) := mcont.continuousOn
    exact (continuousOn_const.mul ((continuousOn_const.add h2).div_const 2)).add
      (continuousOn_const.mul (h1.sub continuousOn_const))
  have θcont : ContinuousOn θ (Icc 0 1) := by
    rw [eθ]
    have h0 : Continuous invAngle := continuous_id.sub continuous_arctan
    exact (h0.comp_continuousOn τcont).add continuousOn_const
  have smono : ∀ x y : ℝ, 0 ≤ x → x ≤ y → √(1 + x ^ 2) ≤ √(1 + y ^ 2) := fun x y h1 h2 =>
    sqrt_le_sqrt (by nlinarith)
  have sstrict : ∀ x y : ℝ, 0 ≤ x → x < y → √(1 + x ^ 2) < √(1 + y ^ 2) := fun x y h1 h2 =>
    sqrt_lt_sqrt (by positivity) (by nlinarith)
  refine ⟨fun s => ![R s * cos (θ s), R s * sin (θ s), 0], R, θ, ⟨fun _ _ => rfl, ?_, ?_, ?_, ?_, ?_, ?_, ?_⟩, ?_, ?_, ?_, ?_⟩
  · rw [eR]; simp only; rw [v0.1, v0.2, t3]; simp; exact hr
  · intro s hs t ht hst
    rw [eR]
    simp only
    rcases (vm t ht).1.lt_or_eq with hv | hv
    · have h1 := t1 (vm s hs) (vm t ht) (vstrict s t hst hv)
      have h2 := mul_lt_mul_of_pos_left (sstrict _ _ (τ0 s hs) h1) hr
      have h3 := mul_le_mul_of_nonneg_left (mmono s t hst.le) hr.le
      linarith
    · have h1 := mul_lt_mul_of_pos_left (mstrict s t hst hv.symm) hr
      have h2 := mul_le_mul_of_nonneg_left (smono _ _ (τ0 s hs) (invmono s hs t ht hst.le)) hr.le
      linarith
  · refine continuousOn_pi.2 fun i => ?_
    fin_cases i
    · exact Rcont.mul (continuous_cos.comp_continuousOn θcont)
    · exact Rcont.mul (continuous_sin.comp_continuousOn θcont)
    · exact continuousOn_const
  · intro s hs t ht hst
    rw [eθ]
    simp only
    have := invAngle_strict.monotoneOn (τ0 s hs) (τ0 t ht) (invmono s hs t ht hst)
    linarith
  · rw [eθ]; simp only; rw [v0.1, t3, invAngle_zero, zero_add]
  · rw [eθ]; simp only; rw [v1.1, t4, hend]
  · intro s hs t ht hst hlt
    rw [eθ] at hlt ⊢
    simp only at hlt ⊢
    have hv : 0 < v t := by
      rcases (vm t ht).1.lt_or_eq with hv | hv
      · exact hv
      · rw [← hv, t3, invAngle_zero, zero_add] at hlt
        exact absurd hlt (lt_irrefl _)
    have := invAngle_strict (τ0 s hs) (τ0 t ht) (t1 (vm s hs) (vm t ht) (vstrict s t hst hv))
    linarith
  · rw [eR]; simp only; rw [v0.1, v0.2, t3]; simp; ring
  · rw [eR]; simp only; rw [v1.1, v1.2, t4]; ring
  · intro s hs
    rw [eR, eθ]
    simp only
    rcases le_or_gt (s * L) (r / 2) with h | h
    · obtain ⟨h1, h2⟩ := mlo s h
      left
      rw [h2, t3, invAngle_zero, h1]
      have : s * L / (r / 2) ≤ 1 := (div_le_one hr2).2 h
      refine ⟨?_, by ring⟩
      have h3 := mul_le_mul_of_nonneg_left this hr.le
      simp
      linarith
    · obtain ⟨h1, h2⟩ := mhi s h.le
      right
      refine ⟨τ (v s), τ0 s hs, ?_, rfl⟩
      rw [h1]; ring
  · intro s hs
    have hsL : s = s * L / chainLen curveOps [C, J] := by rw [hL, ← eL, mul_div_cancel_right₀ s hL0.ne']
    rcases le_or_gt (s * L) (r / 2) with h | h
    · obtain ⟨h1, h2⟩ := mlo s h
      have e := chainEval_at hP.allPos hP.2.1 (x := []) (y := [J]) (a := C) rfl hCa (X := s * L)
        (by simp [chainLen]; exact mul_nonneg hs.1 hL0.le) (by rw [hCl]; simp [chainLen]; exact h)
      rw [← hsL] at e
      rw [e, hCe, hCl, eR, eθ]
      simp only
      rw [h1, h2, t3, invAngle_zero, hq']
      congr 1
      apply V3.ext3 <;> simp [chainLen]
      all_goals ring
    · obtain ⟨h1, h2⟩ := mhi s h.le
      have e := chainEval_at hP.allPos hP.2.1 (x := [C]) (y := []) (a := J) rfl hJ.act (X := s * L)
        (by rw [chainLen_cons, hCl]; simp [chainLen]; exact h.le)
        (by rw [chainLen_cons, hCl, ← hℓ]; simp [chainLen]; nlinarith [hs.2])
      rw [← hsL] at e
      have hc : chainLen curveOps [C] = r / 2 := by rw [chainLen_cons, hCl]; simp [chainLen]
      rw [e, hc, ← hℓ, ← h2]
      show J.eval _ = _
      rw [t5 _ (vm s hs).1 (vm s hs).2, involute_polar, eR, eθ]
      simp only
      rw [h1]
      rw [show r * ((1 + 1) / 2) + r * (√(1 + τ (v s) ^ 2) - 1) = r * √(1 + τ (v s) ^ 2) by ring]

theorem chordLen_turned (r ang : ℝ) (t : ℕ → ℝ) (n : ℕ) :
    chordLen (fun t => involuteCircle t r ang 0 0) t n = chordLen (fun t => involuteCircle t r 0 0 0) t n := by
  induction n with
  | zero => rfl
  | succ n ih =>
    rw [chordLen, chordLen, ih]
    congr 1
    rw [norm3, norm3]
    congr 1
    simp only [involute_polar, add_zero, dot, Pi.sub_apply, cos_add, sin_add]
    simp
    obtain ⟨A, hA⟩ : ∃ A, A = r * √(1 + t (n + 1) ^ 2) := ⟨_, rfl⟩
    obtain ⟨B, hB⟩ : ∃ B, B = r * √(1 + t n ^ 2) := ⟨_, rfl⟩
    rw [← hA, ← hB]
    linear_combination ((A * cos (invAngle (t (n + 1))) - B * cos (invAngle (t n))) ^ 2 +
      (A * sin (invAngle (t (n + 1))) - B * sin (invAngle (t n))) ^ 2) * sin_sq_add_cos_sq ang

/-- Turning an involute does not change its lengths. -/
theorem turned_eq (r ang : ℝ) :
    turnedInvolute r ang = Curve.make (.generic (fun t => involuteCircle t r ang 0 0) 20) true 0 2 := by
  rw [turnedInvolute, baseInvolute, Curve.make, Curve.make, if_pos rfl, if_pos rfl]
  simp only [Curve.updateLengths, ORIGIN_eq, chordLen_turned r ang]

/-- What the searches of the tooth generator have to return: the involute meets the pitch circle, and the turned involute meets
the plane in the middle of the tooth, both on the curve. -/
structure ToothSearches (S : ScalarSolvers) (pia rp alpha : ℝ) : Prop where
  pitch : (findCurveIntersect S.toSolvers (baseInvolute (rp * cos alpha)).eval (arcInit rp (2 * π) ORIGIN 0 0 0 true).eval
    (1 / 2, 0) .equality).success = true
  pitch0 : 0 ≤ (findCurveIntersect S.toSolvers (baseInvolute (rp * cos alpha)).eval
    (arcInit rp (2 * π) ORIGIN 0 0 0 true).eval (1 / 2, 0) .equality).x.1
  pitch1 : (findCurveIntersect S.toSolvers (baseInvolute (rp * cos alpha)).eval
    (arcInit rp (2 * π) ORIGIN 0 0 0 true).eval (1 / 2, 0) .equality).x.1 ≤ 1
  middle : (findCurvePlaneIntersect S (turnedInvolute (rp * cos alpha) (-(pia + (tan alpha - alpha)))).eval UP 1).success = true
  middle0 : 0 ≤ (findCurvePlaneIntersect S (turnedInvolute (rp * cos alpha) (-(pia + (tan alpha - alpha)))).eval UP 1).x
  middle1 : (findCurvePlaneIntersect S (turnedInvolute (rp * cos alpha) (-(pia + (tan alpha - alpha)))).eval UP 1).x ≤ 1

/-- The generated tooth curve: a radial line from half the base radius and an involute up to the middle of the tooth. -/
theorem tooth_generated {S : ScalarSolvers} (hS : Honest S) {pia rp alpha : ℝ} (hrp : 0 < rp) (ha0 : 0 < alpha)
    (ha1 : alpha < π / 2) (h0 : 0 < pia) (h1 : pia + (tan alpha - alpha) ≤ π / 2) (hs : ToothSearches S pia rp alpha) :
    ∃ l G R θ, involuteToothCurve S pia rp alpha = some l ∧ ChainPath l ∧ Fan G (-(pia + (tan alpha - alpha))) R θ ∧
      R 0 = rp * cos alpha / 2 ∧ (∀ s ∈ Icc (0 : ℝ) 1, chainEval curveOps l s = some (G s)) ∧
      (∃ tb, 0 < tb ∧ tb ≤ 2 ∧ invAngle tb = pia + (tan alpha - alpha) ∧ R 1 = rp * cos alpha * √(1 + tb ^ 2)) ∧
      InvoluteShape (rp * cos alpha) (-(pia + (tan alpha - alpha))) R θ ∧ chainUpdate curveOps l = l ∧ ∀ a ∈ l, ∀ u A m M, a.kind ≠ .arc u A m M := by
  have hc : 0 < cos alpha := cos_pos_of_mem_Ioo ⟨by linarith, ha1⟩
  have hlt : alpha < tan alpha := Real.lt_tan ha0 ha1
  obtain ⟨r, er⟩ : ∃ r, r = rp * cos alpha := ⟨_, rfl⟩
  have hr : 0 < r := by rw [er]; exact mul_pos hrp hc
  obtain ⟨ang, eang⟩ : ∃ ang, ang = -(pia + (tan alpha - alpha)) := ⟨_, rfl⟩
  obtain ⟨s2, q0, q1, s1, p0, p1⟩ := hs
  obtain ⟨τ, t1, -, t3, t4, t5, -⟩ := involute_run (ang := 0) (z := 0) hr (le_refl 0) zero_lt_two 20 (by norm_num)
  have m0 : (0 : ℝ) ∈ Icc (0 : ℝ) 1 := ⟨le_refl _, zero_le_one⟩
  have hbase : baseInvolute r = Curve.make (.generic (fun t => involuteCircle t r 0 0 0) 20) true 0 2 := by
    rw [baseInvolute, ORIGIN_eq]
  rw [← er] at s2 q0 q1 s1 p0 p1
  rw [← eang] at s1 p0 p1
  -- the crossing with the pitch circle
  obtain ⟨sol, esol⟩ : ∃ sol, sol = findCurveIntersect S.toSolvers (baseInvolute r).eval
    (arcInit rp (2 * π) ORIGIN 0 0 0 true).eval (1 / 2, 0) .equality := ⟨_, rfl⟩
  obtain ⟨p, hp, hp'⟩ := intersect_success hS s2
  rw [← esol] at s2 q0 q1 hp hp'
  have hpe : p = involuteCircle (τ sol.x.1) r 0 0 0 := by
    have := t5 _ q0 q1
    rw [← hbase, hp] at this
    exact Option.some.inj this
  have hpn : norm3 p = rp := by
    rw [ORIGIN_eq, show arcInit rp (2 * π) 0 0 0 0 true = circ rp from rfl, circ_eval] at hp'
    rw [← Option.some.inj hp']
    apply norm3_eq_of_dot hrp.le
    simp [dot]
    linear_combination rp ^ 2 * sin_sq_add_cos_sq (2 * π * sol.x.2)
  have hτ0 : 0 ≤ τ sol.x.1 := by
    have := t1.monotoneOn m0 ⟨q0, q1⟩ q0
    rwa [t3] at this
  have hsp := (c24_pitch_crossing pia rp alpha (τ sol.x.1) hrp ha0 ha1 (by linarith [pi_pos]) hτ0 (by
    rw [← er, ← hpe]; exact hpn)).1
  have hangle : -(pia + angleBetween RIGHT p) = ang := by
    have := congrArg Prod.snd hsp
    rw [spurInvolute] at this
    simp only [ORIGIN_eq] at this
    rw [hpe, er, eang]
    exact this
  -- the middle of the tooth
  obtain ⟨υ, u1, u2, us⟩ := (make_path (N := 20) (by norm_num) zero_lt_two (involute_inj (ang := ang) (z := 0) hr)).run
  have u5 : ∀ s, 0 ≤ s → s ≤ 1 → (Curve.make (.generic (fun t => involuteCircle t r ang 0 0) 20) true 0 2).eval s =
      some (involuteCircle (υ s) r ang 0 0) := fun s h2 h3 => by rw [Curve.eval, us s ⟨h2, h3⟩]; rfl
  obtain ⟨u3, u4⟩ : υ 0 = 0 ∧ υ 1 = 2 := mono_ends u1 u2
  obtain ⟨σ, eσ⟩ : ∃ σ, σ = (findCurvePlaneIntersect S (turnedInvolute r ang).eval UP 1).x := ⟨_, rfl⟩
  have hcost : ((turnedInvolute r ang).eval σ).map (fun p => dot (p - ORIGIN) UP) = some 0 := by
    rw [eσ]; exact hS.root1 _ _ s1
  rw [← eσ] at p0 p1
  have hu0 : 0 ≤ υ σ := by
    have := u1.monotoneOn m0 ⟨p0, p1⟩ p0
    rwa [u3] at this
  have hu2 : υ σ ≤ 2 := by
    have := u1.monotoneOn ⟨p0, p1⟩ ⟨zero_le_one, le_refl _⟩ p1
    rwa [u4] at this
  have hinv : invAngle (υ σ) + ang = 0 := by
    rw [turned_eq, u5 σ p0 p1, involute_polar, Option.map_some] at hcost
    have h2 : r * √(1 + υ σ ^ 2) * sin (invAngle (υ σ) + ang) = 0 := by
      have := Option.some.inj hcost
      simpa [dot, UP, ORIGIN] using this
    have h3 : 0 < r * √(1 + υ σ ^ 2) := mul_pos hr (sqrt_pos.2 (by positivity))
    have h4 := (mul_eq_zero.1 h2).resolve_left h3.ne'
    have h5 : 0 ≤ invAngle (υ σ) := by
      have := invAngle_strict.monotoneOn (le_refl (0 : ℝ)) hu0 hu0
      rwa [invAngle_zero] at this
    have h6 : invAngle (υ σ) ≤ 2 := by
      have : 0 ≤ arctan (υ σ) := arctan_nonneg.2 hu0
      rw [invAngle]; linarith
    have h7 := pi_gt_three
    exact (sin_eq_zero_iff_of_lt_of_lt (by rw [eang]; linarith) (by rw [eang]; linarith)).1 h4
  have hupos : 0 < υ σ := by
    rcases hu0.lt_or_eq with h | h
    · exact h
    · rw [← h, invAngle_zero, eang] at hinv; linarith
  have hset : (turnedInvolute r ang).setEndOn σ =
      some (Curve.make (.generic (fun t => involuteCircle t r ang 0 0) 20) true 0 (υ σ)) := by
    rw [turned_eq, Curve.setEndOn, us σ ⟨p0, p1⟩]
    rfl
  obtain ⟨q, hq⟩ := (make_path (N := 20) (by norm_num) hupos (involute_inj (ang := ang) (z := 0) hr)).eval_some m0
  obtain ⟨hP, G, R, θ, F, R0, R1, hsh, hG⟩ := tooth_fan hr hupos hinv 20 (by norm_num) hq
  have hfix := chainUpdate_eq curve_lawful (l := [lineC ((1 / 2 : ℝ) • q) q,
    Curve.make (.generic (fun t => involuteCircle t r ang 0 0) 20) true 0 (υ σ)]) fun a ha hact =>
      ⟨(hP.1 a ha hact).sampled, (hP.1 a ha hact).fresh⟩
  refine ⟨_, G, R, θ, ?_, hP, eang ▸ F, by rw [R0, er], hG, ⟨υ σ, hupos, hu2, by linarith, by rw [R1, er]⟩, er ▸ eang ▸ hsh, hfix, ?_⟩
  swap
  · intro a ha u A m M e
    rcases List.mem_cons.1 ha with rfl | ha
    · rw [lineC, Curve.make, if_pos rfl, updateLengths_kind] at e; cases e
    · rw [List.mem_singleton.1 ha, Curve.make, if_pos rfl, updateLengths_kind] at e; cases e
  rw [involuteToothCurve]
  simp only [← er, ← esol, hp, Option.bind_some, hangle, ← eσ, hset, hq, Option.map_some]
  rw [← hfix]
  rfl

/-! ### Trimming -/

open scoped Classical in
/-- Where `trim_reference_profile` cuts the tooth curve `f` at the tip, gggears_core.py:445-471. -/
noncomputable def tipCut (S : ScalarSolvers) (f : ℝ → Option V3) (rA : Curve) (pitch : ℝ) : ℝ :=
  let guess := -pitch / 8 / rA.length
  let sol := findCurveIntersect S.toSolvers f rA.eval (9 / 10, guess) .equality
  let sol := if sol.success then sol else findCurveIntersect S.toSolvers f rA.eval (9 / 10, guess) .minDistance
  if (sol.success = true ∨ isClose f rA.eval sol.x) ∧ ∃ p, f sol.x.1 = some p ∧ p 1 < 0 then sol.x.1
  else (findCurvePlaneIntersect S f UP 1).x

open scoped Classical in
/-- The intersection of the tooth curve with the root circle that `trim_reference_profile` works with,
gggears_core.py:476-500. -/
noncomputable def rootSol (S : ScalarSolvers) (f : ℝ → Option V3) (rD : Curve) (pitch : ℝ) : Solved (ℝ × ℝ) :=
  let guess := -pitch / 2 / rD.length
  let sol1 := findCurveIntersect S.toSolvers f rD.eval (3 / 10, guess) .equality
  let sol2 := findCurveIntersect S.toSolvers f rD.eval (0, guess) .minDistance
  if sol1.success then sol1 else if sol2.success = true ∨ isClose f rD.eval sol1.x then sol2 else sol1

/-- Whether that intersection is taken for one. -/
def rootFound (S : ScalarSolvers) (f : ℝ → Option V3) (rD : Curve) (pitch : ℝ) : Prop :=
  (rootSol S f rD pitch).success = true ∨
    isClose f rD.eval (findCurveIntersect S.toSolvers f rD.eval (3 / 10, -pitch / 2 / rD.length) .equality).x

open scoped Classical in
/-- Where the search for the middle of the gap starts, gggears_core.py:505-510. -/
noncomputable def rootGuess (S : ScalarSolvers) (f : ℝ → Option V3) (rD : Curve) (pitch : ℝ) : ℝ :=
  if rootFound S f rD pitch then (rootSol S f rD pitch).x.1 else 1 / 10

open scoped Classical in
/-- Where `trim_reference_profile` cuts the tooth curve `f` at the root, gggears_core.py:473-525. -/
noncomputable def rootCut (S : ScalarSolvers) (f : ℝ → Option V3) (rD : Curve) (pitch : ℝ) : ℝ :=
  if rootFound S f rD pitch ∧ ∃ p, f (rootSol S f rD pitch).x.1 = some p ∧ -pitch / 2 < arctan2 (p 1) (p 0) then
    (rootSol S f rD pitch).x.1
  else
    let mid := findCurvePlaneIntersect S f (rotateVector UP (-pitch / 2)) (rootGuess S f rD pitch)
    let bot := S.minimize1 (fun t => (f t).map fun p => √(p 0 ^ 2 + p 1 ^ 2)) mid.x
    (if mid.x < bot.x then bot else mid).x

theorem trimTip_cut {α : Type} (o : CurveOps α) (S : ScalarSolvers) (tooth : α) (rA : Curve) {tipFillet : ℝ} (pitch : ℝ)
    (h : tipFillet ≤ 0) : trimTip o S tooth rA tipFillet pitch = o.setEnd tooth (tipCut S (o.eval tooth) rA pitch) := by
  rw [trimTip, if_neg (not_lt.2 h), tipCut]
  simp only
  rw [apply_ite (o.setEnd tooth)]

theorem trimRoot_cut {α : Type} (o : CurveOps α) (S : ScalarSolvers) (tooth : α) (rD : Curve) {rootFillet : ℝ} (pitch : ℝ)
    (h : rootFillet ≤ 0) : trimRoot o S tooth rD rootFillet pitch = o.setStart tooth (rootCut S (o.eval tooth) rD pitch) := by
  rw [trimRoot, if_neg (not_lt.2 h), rootCut]
  simp only
  rw [apply_ite (o.setStart tooth)]
  simp only [rootGuess, rootFound, rootSol]
  congr

/-- A minimiser that never ends at a greater value than the one it starts from. -/
def Descends (S : ScalarSolvers) : Prop :=
  ∀ (cost : ℝ → Option ℝ) (guess v : ℝ), cost guess = some v → ∃ w, cost (S.minimize1 cost guess).x = some w ∧ w ≤ v

/-- The angle at which the root is cut: never beyond the middle of the gap, if the search for the middle of the gap succeeds. -/
theorem rootCut_angle {S : ScalarSolvers} (hS : Honest S) (hD : Descends S) {f : ℝ → Option V3} {rD : Curve} {pitch : ℝ}
    (hp : 0 < pitch) (hpi : pitch ≤ π) {R θ : ℝ → ℝ} (hf : ∀ s ∈ Icc (0 : ℝ) 1, f s = some ![R s * cos (θ s), R s * sin (θ s), 0])
    (hR : StrictMonoOn R (Icc 0 1)) (hR0 : 0 < R 0) (hθ : ∀ s ∈ Icc (0 : ℝ) 1, -(π / 2) ≤ θ s ∧ θ s ≤ 0)
    (h0 : 0 ≤ rootCut S f rD pitch) (h1 : rootCut S f rD pitch < 1)
    (hgap : ∀ guess, (findCurvePlaneIntersect S f (rotateVector UP (-pitch / 2)) guess).success = true ∧
      0 ≤ (findCurvePlaneIntersect S f (rotateVector UP (-pitch / 2)) guess).x ∧
      (findCurvePlaneIntersect S f (rotateVector UP (-pitch / 2)) guess).x ≤ 1) :
    -(pitch / 2) ≤ θ (rootCut S f rD pitch) := by
  have hpos : ∀ s ∈ Icc (0 : ℝ) 1, 0 < R s := fun s hs =>
    hR0.trans_le (hR.monotoneOn ⟨le_refl _, zero_le_one⟩ hs hs.1)
  obtain ⟨c, hc⟩ : ∃ c, c = rootCut S f rD pitch := ⟨_, rfl⟩
  rw [← hc] at h0 h1 ⊢
  have mc : c ∈ Icc (0 : ℝ) 1 := ⟨h0, h1.le⟩
  have hangle : ∀ s ∈ Icc (0 : ℝ) 1, ∀ p, f s = some p → arctan2 (p 1) (p 0) = θ s := by
    intro s hs p hp
    rw [hf s hs] at hp
    obtain ⟨h2, h3⟩ := hθ s hs
    rw [← Option.some.inj hp]
    exact arctan2_polar (hpos s hs) (by linarith [pi_pos]) (by linarith [pi_pos])
  rw [rootCut] at hc
  split_ifs at hc with c1
  · obtain ⟨-, p, hp', hlt⟩ := c1
    rw [← hc] at hp'
    rw [hangle c mc p hp'] at hlt
    linarith
  · obtain ⟨mid, hm⟩ : ∃ mid, mid = findCurvePlaneIntersect S f (rotateVector UP (-pitch / 2))
      (rootGuess S f rD pitch) := ⟨_, rfl⟩
    obtain ⟨g1, g2, g3⟩ := hgap (rootGuess S f rD pitch)
    have hcost : (f mid.x).map (fun p => dot (p - ORIGIN) (rotateVector UP (-pitch / 2))) = some 0 := by
      rw [hm]; exact hS.root1 _ _ g1
    simp only [← hm] at hc g1 g2 g3
    have mm : mid.x ∈ Icc (0 : ℝ) 1 := ⟨g2, g3⟩
    have hmid : θ mid.x = -(pitch / 2) := by
      obtain ⟨h2, h3⟩ := hθ _ mm
      rw [hf _ mm, Option.map_some] at hcost
      have h4 : R mid.x * sin (θ mid.x + pitch / 2) = 0 := by
        rw [sin_add, ← Option.some.inj hcost]
        rw [rotateVector, Rz_app, show -pitch / 2 = -(pitch / 2) by ring, cos_neg, sin_neg]
        simp [dot, UP, ORIGIN]
        ring
      have h5 := (mul_eq_zero.1 h4).resolve_left (hpos _ mm).ne'
      have h6 := (sin_eq_zero_iff_of_lt_of_lt (by linarith) (by linarith)).1 h5
      linarith
    split_ifs at hc with c2
    · exfalso
      have hr : ∀ s ∈ Icc (0 : ℝ) 1, (f s).map (fun p => √(p 0 ^ 2 + p 1 ^ 2)) = some (R s) := by
        intro s hs
        rw [hf s hs, Option.map_some]
        congr 1
        rw [← sqrt_sq (hpos s hs).le]
        congr 1
        simp
        rw [sqrt_sq (hpos s hs).le]
        linear_combination R s ^ 2 * sin_sq_add_cos_sq (θ s)
      obtain ⟨w, w1, w2⟩ := hD (fun t => (f t).map fun p => √(p 0 ^ 2 + p 1 ^ 2)) mid.x (R mid.x) (hr _ mm)
      rw [← hc] at w1 c2
      rw [hr c mc] at w1
      have := hR mm mc c2
      rw [Option.some.inj w1] at this
      linarith
    · rw [hc, hmid]

/-- The searches of the trimming: the places found for the tip and for the root lie on the curve. If the tooth curve starts
beyond the middle of the gap, the search for this middle succeeds on the curve. -/
structure TrimSearches (S : ScalarSolvers) (l : List Curve) (rA rD : Curve) (tipFillet pitch start : ℝ) : Prop where
  tip0 : 0 < tipCut S (chainEval curveOps l) rA pitch
  tip1 : tipCut S (chainEval curveOps l) rA pitch ≤ 1
  root0 : ∀ t, trimTip (chainOps curveOps) S ⟨l, true⟩ rA tipFillet pitch = some t →
    0 ≤ rootCut S (chainEval curveOps t.curves) rD pitch
  root1 : ∀ t, trimTip (chainOps curveOps) S ⟨l, true⟩ rA tipFillet pitch = some t →
    rootCut S (chainEval curveOps t.curves) rD pitch < 1
  gap : ∀ t, trimTip (chainOps curveOps) S ⟨l, true⟩ rA tipFillet pitch = some t → start < -(pitch / 2) → ∀ guess,
    (findCurvePlaneIntersect S (chainEval curveOps t.curves) (rotateVector UP (-pitch / 2)) guess).success = true ∧
      0 ≤ (findCurvePlaneIntersect S (chainEval curveOps t.curves) (rotateVector UP (-pitch / 2)) guess).x ∧
      (findCurvePlaneIntersect S (chainEval curveOps t.curves) (rotateVector UP (-pitch / 2)) guess).x ≤ 1

/-- Trimming a flank in polar coordinates gives an outward flank. -/
theorem trim_outward {S : ScalarSolvers} (hS : Honest S) (hD : Descends S) {l : List Curve} {G : ℝ → V3} {ang pitch : ℝ}
    {R θ : ℝ → ℝ} (hl : ChainPath l) (hk : ∀ a ∈ l, ∀ u A m M, a.kind ≠ .arc u A m M)
    (F : Fan G ang R θ) (hG : ∀ s ∈ Icc (0 : ℝ) 1, chainEval curveOps l s = some (G s)) (hang : -(π / 2) ≤ ang) (hneg : ang < 0)
    (hp : 0 < pitch) (hpi : pitch ≤ π) (hne : ang ≠ -(pitch / 2)) {rA rD : Curve} {tipFillet rootFillet : ℝ} (ht : tipFillet ≤ 0)
    (hr : rootFillet ≤ 0) (hs : TrimSearches S l rA rD tipFillet pitch ang) :
    ∃ t t' T, trimTip (chainOps curveOps) S ⟨l, true⟩ rA tipFillet pitch = some t ∧
      trimRoot (chainOps curveOps) S t rD rootFillet pitch = some t' ∧
      (∀ s, 0 ≤ s → s ≤ 1 → (chainOps curveOps).eval t' s = some (T s)) ∧ (chainOps curveOps).active t' = true ∧
      (chainOps curveOps).updateLengths t' = t' ∧ 0 < (chainOps curveOps).length t' ∧ Spec.OutwardFlank T pitch ∧
      ContinuousOn T (Icc 0 1) ∧ chainEval curveOps t.curves (rootCut S (chainEval curveOps t.curves) rD pitch) = some (T 0) ∧
      ∃ a, 0 ≤ a ∧ a < tipCut S (chainEval curveOps l) rA pitch ∧
        chainEval curveOps l a = some (T 0) ∧
        chainEval curveOps l (tipCut S (chainEval curveOps l) rA pitch) = some (T 1) := by
  obtain ⟨d, hd, dpath, ⟨φ, f1, f2, f3⟩, dk⟩ := c45_end_path l hl _ hs.tip0 hs.tip1 false
  have htip : trimTip (chainOps curveOps) S ⟨l, true⟩ rA tipFillet pitch = some ⟨d, true⟩ := by
    rw [trimTip_cut _ _ _ _ _ ht]
    show (chainSetEnd curveOps l (tipCut S (chainEval curveOps l) rA pitch) false).map _ = _
    rw [hd]; rfl
  have r0 := hs.root0 _ htip
  have r1 := hs.root1 _ htip
  have hgap := hs.gap _ htip
  have t0 := hs.tip0
  have t1 := hs.tip1
  obtain ⟨ρ, eρ⟩ : ∃ ρ, ρ = rootCut S (chainEval curveOps d) rD pitch := ⟨_, rfl⟩
  simp only [← eρ] at r0 r1
  have mρ : ρ ∈ Icc (0 : ℝ) 1 := ⟨r0, r1.le⟩
  have mφ : ∀ s ∈ Icc (0 : ℝ) 1, φ s ∈ Icc (0 : ℝ) 1 := by
    intro s hs'
    have : φ s ∈ Icc 0 (tipCut S (chainEval curveOps l) rA pitch) := f2 ▸ mem_image_of_mem φ hs'
    exact ⟨this.1, this.2.trans t1⟩
  have hdG : ∀ s ∈ Icc (0 : ℝ) 1, chainEval curveOps d s = some (G (φ s)) := fun s hs' => by rw [f3 s hs', hG _ (mφ s hs')]
  obtain ⟨e, he, hP, elen, eact, efix⟩ := c45_start_piece d dpath ρ r0 r1 (by
    intro x a y hxy hact _ u A m M hkind
    obtain ⟨b, hb, hbk⟩ := dk a (by rw [hxy]; simp) hact
    exact hk b hb u A m M (by rw [← hbk, hkind])) false
  have hroot : trimRoot (chainOps curveOps) S ⟨d, true⟩ rD rootFillet pitch = some ⟨e, true⟩ := by
    rw [trimRoot_cut _ _ _ _ _ hr]
    show (chainSetStart curveOps d (rootCut S (chainEval curveOps d) rD pitch) false).map _ = _
    rw [← eρ, he]; rfl
  obtain ⟨ψ, g1, g2, g3⟩ := hP.trans r0 (le_refl 1) f1 f2 f3
  have mψ : ∀ s ∈ Icc (0 : ℝ) 1, ψ s ∈ Icc (0 : ℝ) 1 := by
    intro s hs'
    have : ψ s ∈ Icc (φ ρ) (φ 1) := g2 ▸ mem_image_of_mem ψ hs'
    exact ⟨(mφ ρ mρ).1.trans this.1, this.2.trans (mφ 1 ⟨zero_le_one, le_refl _⟩).2⟩
  obtain ⟨o1, o2⟩ := F.piece (T := fun s => G (ψ s)) (pitch := pitch) (by linarith [pi_pos]) hneg g1 g2 (mφ ρ mρ).1
    (mφ 1 ⟨zero_le_one, le_refl _⟩).2 (fun _ _ => rfl) (by
      rcases lt_or_gt_of_ne hne with h | h
      · refine .inr ⟨h, ?_⟩
        have := rootCut_angle hS hD (f := chainEval curveOps d) (rD := rD) (R := fun s => R (φ s)) (θ := fun s => θ (φ s)) hp hpi
          (fun s hs' => by rw [hdG s hs', F.polar _ (mφ s hs')]) (fun s hs' t ht' hst => F.grows (mφ s hs') (mφ t ht')
            (f1 hs' ht' hst)) (F.radius (mφ 0 ⟨le_refl _, zero_le_one⟩))
          (fun s hs' => ⟨hang.trans (F.range (mφ s hs')).1, (F.range (mφ s hs')).2⟩) (by rw [← eρ]; exact r0)
          (by rw [← eρ]; exact r1) (hgap h)
        rwa [← eρ] at this
      · exact .inl h)
  obtain ⟨-, f5⟩ := mono_ends f1 f2
  obtain ⟨g4, g5⟩ := mono_ends g1 g2
  have m1 : (1 : ℝ) ∈ Icc (0 : ℝ) 1 := ⟨zero_le_one, le_refl _⟩
  refine ⟨_, _, fun s => G (ψ s), htip, hroot, fun s s0 s1 => ?_, ?_, ?_, elen, o1, o2, ?_, φ ρ, (mφ ρ mρ).1, ?_, ?_, ?_⟩
  · show chainEval curveOps e s = _
    rw [g3 s ⟨s0, s1⟩, hG _ (mψ s ⟨s0, s1⟩)]
  · show (true && e.any curveOps.active) = true
    obtain ⟨a, ha, hact⟩ := eact
    simp only [Bool.true_and, List.any_eq_true]
    exact ⟨a, ha, hact⟩
  · show (⟨chainUpdate curveOps e, true⟩ : Chain Curve) = ⟨e, true⟩
    rw [efix]
  · simp only [g4, ← eρ]
    exact hdG ρ mρ
  · rw [← f5]; exact f1 mρ m1 r1
  · simp only [g4]
    exact hG _ (mφ ρ mρ)
  · simp only [g5, f5]
    exact hG _ ⟨t0.le, t1⟩

/-- **C140.** The teeth of a spur gear without fillets and undercut are generated from pressure angle, pitch radius and tooth
thickness and trimmed at the tip and the root. If the solvers report only true solutions, the two searches of the generator
succeed, and the places found for tip and root lie on the curve, then the flank runs outwards between the middle of the gap and
the middle of the tooth, and the outline of the `n` teeth is closed and does not cross or touch itself. The radii of the
circles do not matter. The gaps left at the root and at the tip are wider than 1e-10 or zero. -/
theorem c140_spur_outline {asEuler : M3 → ℝ × ℝ × ℝ} (hE : EulerOk asEuler) {S : ScalarSolvers} (hS : Honest S) (hD : Descends S)
    {pia rp alpha pitch : ℝ} (hrp : 0 < rp) (ha0 : 0 < alpha) (ha1 : alpha < π / 2) (h0 : 0 < pia)
    (h1 : pia + (tan alpha - alpha) ≤ π / 2) (hs : ToothSearches S pia rp alpha) (n : ℕ) (h2 : 2 ≤ n) (hn : n * pitch = 2 * π)
    (hne : pia + (tan alpha - alpha) ≠ pitch / 2) (rA rD : Curve) {tipFillet rootFillet : ℝ} (ht : tipFillet ≤ 0)
    (hr : rootFillet ≤ 0) (htrim : ∀ l, involuteToothCurve S pia rp alpha = some l →
      TrimSearches S l rA rD tipFillet pitch (-(pia + (tan alpha - alpha)))) (radA radD radO : ℝ) (centerO : V3) :
    ∃ l t t' T, involuteToothCurve S pia rp alpha = some l ∧
      trimTip (chainOps curveOps) S ⟨l, true⟩ rA tipFillet pitch = some t ∧
      trimRoot (chainOps curveOps) S t rD rootFillet pitch = some t' ∧
      (∀ s, 0 ≤ s → s ≤ 1 → (chainOps curveOps).eval t' s = some (T s)) ∧ Spec.OutwardFlank T pitch ∧
      (∃ a, 0 ≤ a ∧ a < tipCut S (chainEval curveOps l) rA pitch ∧ chainEval curveOps l a = some (T 0) ∧
        chainEval curveOps l (tipCut S (chainEval curveOps l) rA pitch) = some (T 1)) ∧
      (ExactGaps T pitch → ∃ P, trimReferenceProfile (chainOps curveOps) asEuler S ⟨l, true⟩ rA rD radA radD radO centerO tipFillet
        rootFillet pitch = some P ∧
        Spec.SimpleOutline (chainEval (sumOps (chainOps curveOps) curveOps) (P.chain (chainOps curveOps))) pitch n) := by
  have hlt : alpha < tan alpha := Real.lt_tan ha0 ha1
  have hn2 : (2 : ℝ) ≤ n := by exact_mod_cast h2
  have hp : 0 < pitch := by
    by_contra hneg
    have := mul_nonpos_of_nonneg_of_nonpos (by linarith : (0 : ℝ) ≤ n) (not_lt.1 hneg)
    linarith [pi_pos]
  have hpi : pitch ≤ π := by nlinarith
  obtain ⟨l, G, R, θ, hl, hpath, F, -, hG, -, -, -, hk⟩ := tooth_generated hS hrp ha0 ha1 h0 h1 hs
  obtain ⟨t, t', T, e1, e2, hT, a1, a2, a3, hout, hcont, -, hends⟩ := trim_outward hS hD hpath hk F hG (by linarith) (by linarith)
    hp hpi (fun e => hne (by linarith)) ht hr (htrim l hl)
  refine ⟨l, t, t', T, hl, e1, e2, hT, hout, hends, fun hx => ?_⟩
  obtain ⟨P, hP, hsimple⟩ := c139_simple hE a1 a2 a3 hT hcont hout n h2 hn hx radA radD radO centerO
  refine ⟨P, ?_, hsimple⟩
  rw [trimReferenceProfile, e1, Option.bind_some, e2, Option.bind_some, hP]

end Verif
