import Verif.Props.SpurOutline

/-!
# Flanks made of two curves in polar coordinates
-/

namespace Verif

open Real Set

/-- Two curves that follow one another, both with growing distance from the axis and growing polar angle, are a flank in polar
coordinates. The angle of the first one may stay constant. -/
theorem pair_fan {C J : Curve} {RC θC RJ θJ : ℝ → ℝ} {ang : ℝ} (hC : C.PathOk) (hJ : J.PathOk)
    (eC : ∀ s ∈ Icc (0 : ℝ) 1, C.eval s = some ![RC s * cos (θC s), RC s * sin (θC s), 0])
    (eJ : ∀ s ∈ Icc (0 : ℝ) 1, J.eval s = some ![RJ s * cos (θJ s), RJ s * sin (θJ s), 0])
    (gC : StrictMonoOn RC (Icc 0 1)) (gJ : StrictMonoOn RJ (Icc 0 1)) (cC : ContinuousOn RC (Icc 0 1))
    (cC' : ContinuousOn θC (Icc 0 1)) (cJ : ContinuousOn RJ (Icc 0 1)) (cJ' : ContinuousOn θJ (Icc 0 1)) (hpos : 0 < RC 0)
    (hR : RC 1 = RJ 0) (hθ : θC 1 = θJ 0) (mC : MonotoneOn θC (Icc 0 1))
    (sC : ∀ s ∈ Icc (0 : ℝ) 1, ∀ t ∈ Icc (0 : ℝ) 1, s < t → ang < θC t → θC s < θC t) (hstart : θC 0 = ang)
    (mJ : StrictMonoOn θJ (Icc 0 1)) (hfin : θJ 1 = 0) :
    ChainPath [C, J] ∧ ∃ G R θ, Fan G ang R θ ∧ R 0 = RC 0 ∧ R 1 = RJ 1 ∧
      (∀ s ∈ Icc (0 : ℝ) 1, (∃ σ ∈ Icc (0 : ℝ) 1, R s = RC σ ∧ θ s = θC σ) ∨ ∃ σ ∈ Icc (0 : ℝ) 1, R s = RJ σ ∧ θ s = θJ σ) ∧
      ∀ s ∈ Icc (0 : ℝ) 1, chainEval curveOps [C, J] s = some (G s) := by
  have m0 : (0 : ℝ) ∈ Icc (0 : ℝ) 1 := ⟨le_refl _, zero_le_one⟩
  have m1 : (1 : ℝ) ∈ Icc (0 : ℝ) 1 := ⟨zero_le_one, le_refl _⟩
  have hP := pair_path hC hJ (by rw [eC 1 m1, eJ 0 m0, hR, hθ])
  refine ⟨hP, ?_⟩
  have hCa : curveOps.active C = true := hC.act
  obtain ⟨k, hk⟩ : ∃ k, k = curveOps.len C := ⟨_, rfl⟩
  obtain ⟨ℓ, hℓ⟩ : ∃ ℓ, ℓ = curveOps.len J := ⟨_, rfl⟩
  have hCl : 0 < k := by rw [hk, len_of_active (o := curveOps) hC.act]; exact hC.len
  have hJl : 0 < ℓ := by rw [hℓ, len_of_active (o := curveOps) hJ.act]; exact hJ.len
  have hL : chainLen curveOps [C, J] = k + ℓ := by
    rw [chainLen_cons, chainLen_cons, ← hk, ← hℓ]; simp [chainLen]
  obtain ⟨L, eL⟩ : ∃ L, L = k + ℓ := ⟨_, rfl⟩
  have hL0 : 0 < L := by rw [eL]; linarith
  -- shares of the two members
  obtain ⟨m, em⟩ : ∃ m : ℝ → ℝ, m = fun s => min (s * L) k / k := ⟨_, rfl⟩
  obtain ⟨v, ev⟩ : ∃ v : ℝ → ℝ, v = fun s => max (s * L - k) 0 / ℓ := ⟨_, rfl⟩
  have vm : ∀ s ∈ Icc (0 : ℝ) 1, v s ∈ Icc (0 : ℝ) 1 := by
    intro s hs
    rw [ev]
    refine ⟨div_nonneg (le_max_right _ _) hJl.le, (div_le_one hJl).2 (max_le ?_ hJl.le)⟩
    nlinarith [hs.2]
  have mm : ∀ s ∈ Icc (0 : ℝ) 1, m s ∈ Icc (0 : ℝ) 1 := by
    intro s hs
    rw [em]
    exact ⟨div_nonneg (le_min (mul_nonneg hs.1 hL0.le) hCl.le) hCl.le, (div_le_one hCl).2 (min_le_right _ _)⟩
  have mlo : ∀ s, s * L ≤ k → m s = s * L / k ∧ v s = 0 := by
    intro s hs
    rw [em, ev]
    simp only
    rw [min_eq_left hs, max_eq_right (by linarith), zero_div]
    exact ⟨rfl, rfl⟩
  have mhi : ∀ s, k ≤ s * L → m s = 1 ∧ v s = (s * L - k) / ℓ := by
    intro s hs
    rw [em, ev]
    simp only
    rw [min_eq_right hs, max_eq_left (by linarith), div_self hCl.ne']
    exact ⟨rfl, rfl⟩
  have mmono : ∀ s t, s ≤ t → m s ≤ m t := by
    intro s t hst
    rw [em]
    exact div_le_div_of_nonneg_right (min_le_min (by nlinarith) (le_refl _)) hCl.le
  have vmono : ∀ s t, s ≤ t → v s ≤ v t := by
    intro s t hst
    rw [ev]
    exact div_le_div_of_nonneg_right (max_le_max (by nlinarith) (le_refl _)) hJl.le
  have vstrict : ∀ s t, s < t → 0 < v t → v s < v t := by
    intro s t hst hv
    rcases le_or_gt (t * L) k with h | h
    · rw [(mlo t h).2] at hv; exact absurd hv (lt_irrefl _)
    · rcases le_or_gt (s * L) k with h' | h'
      · rw [(mlo s h').2]; exact hv
      · rw [(mhi s h'.le).2, (mhi t h.le).2]
        exact div_lt_div_of_pos_right (by nlinarith) hJl
  have mstrict : ∀ s t, s < t → v t = 0 → m s < m t := by
    intro s t hst hv
    have ht : t * L ≤ k := by
      by_contra hc
      rw [not_le] at hc
      rw [(mhi t hc.le).2] at hv
      have := div_pos (sub_pos.2 hc) hJl
      linarith
    rw [(mlo t ht).1, (mlo s (by nlinarith)).1]
    exact div_lt_div_of_pos_right (by nlinarith) hCl
  obtain ⟨R, eR⟩ : ∃ R : ℝ → ℝ, R = fun s => RC (m s) + (RJ (v s) - RJ 0) := ⟨_, rfl⟩
  obtain ⟨θ, eθ⟩ : ∃ θ : ℝ → ℝ, θ = fun s => θC (m s) + (θJ (v s) - θJ 0) := ⟨_, rfl⟩
  have v0 : v 0 = 0 ∧ m 0 = 0 := by
    obtain ⟨h1, h2⟩ := mlo 0 (by linarith)
    exact ⟨h2, by rw [h1]; simp⟩
  have v1 : v 1 = 1 ∧ m 1 = 1 := by
    obtain ⟨h1, h2⟩ := mhi 1 (by linarith)
    refine ⟨?_, h1⟩
    rw [h2, eL, show 1 * (k + ℓ) - k = ℓ by ring, div_self hJl.ne']
  have mcont : Continuous m := by rw [em]; fun_prop
  have vcont : Continuous v := by rw [ev]; fun_prop
  have Rcont : ContinuousOn R (Icc 0 1) := by
    rw [eR]
    exact (cC.comp mcont.continuousOn mm).add ((cJ.comp vcont.continuousOn vm).sub continuousOn_const)
  have θcont : ContinuousOn θ (Icc 0 1) := by
    rw [eθ]
    exact (cC'.comp mcont.continuousOn mm).add ((cJ'.comp vcont.continuousOn vm).sub continuousOn_const)
  have split : ∀ s ∈ Icc (0 : ℝ) 1, (s * L ≤ k ∧ R s = RC (s * L / k) ∧ θ s = θC (s * L / k)) ∨
      (k ≤ s * L ∧ R s = RJ (v s) ∧ θ s = θJ (v s)) := by
    intro s _
    rw [eR, eθ]
    simp only
    rcases le_total (s * L) k with h | h
    · obtain ⟨h1, h2⟩ := mlo s h
      left
      rw [h1, h2]
      exact ⟨h, by ring, by ring⟩
    · obtain ⟨h1, -⟩ := mhi s h
      right
      rw [h1, hR, hθ]
      exact ⟨h, by ring, by ring⟩
  refine ⟨fun s => ![R s * cos (θ s), R s * sin (θ s), 0], R, θ, ⟨fun _ _ => rfl, ?_, ?_, ?_, ?_, ?_, ?_, ?_⟩, ?_, ?_, ?_, ?_⟩
  · rw [eR]; simp only; rw [v0.1, v0.2]; simpa using hpos
  · intro s hs t ht hst
    rw [eR]
    simp only
    rcases (vm t ht).1.lt_or_eq with hv | hv
    · have h1 := gJ (vm s hs) (vm t ht) (vstrict s t hst hv)
      have h2 := gC.monotoneOn (mm s hs) (mm t ht) (mmono s t hst.le)
      linarith
    · have h1 := gC (mm s hs) (mm t ht) (mstrict s t hst hv.symm)
      have h2 := gJ.monotoneOn (vm s hs) (vm t ht) (vmono s t hst.le)
      linarith
  · refine continuousOn_pi.2 fun i => ?_
    fin_cases i
    · exact Rcont.mul (continuous_cos.comp_continuousOn θcont)
    · exact Rcont.mul (continuous_sin.comp_continuousOn θcont)
    · exact continuousOn_const
  · intro s hs t ht hst
    rw [eθ]
    simp only
    have h1 := mJ.monotoneOn (vm s hs) (vm t ht) (vmono s t hst)
    have h2 := mC (mm s hs) (mm t ht) (mmono s t hst)
    linarith
  · rw [eθ]; simp only; rw [v0.1, v0.2, hstart]; ring
  · rw [eθ]; simp only; rw [v1.1, v1.2, hfin, hθ]; ring
  · intro s hs t ht hst hlt
    rw [eθ] at hlt ⊢
    simp only at hlt ⊢
    rcases (vm t ht).1.lt_or_eq with hv | hv
    · have h1 := mJ (vm s hs) (vm t ht) (vstrict s t hst hv)
      have h2 := mC (mm s hs) (mm t ht) (mmono s t hst.le)
      linarith
    · have h1 : v s = 0 := le_antisymm (hv ▸ vmono s t hst.le) (vm s hs).1
      rw [h1, ← hv, sub_self, add_zero, add_zero]
      rw [← hv, sub_self, add_zero] at hlt
      exact sC _ (mm s hs) _ (mm t ht) (mstrict s t hst hv.symm) hlt
  · rw [eR]; simp only; rw [v0.1, v0.2]; ring
  · rw [eR]; simp only; rw [v1.1, v1.2, hR]; ring
  · intro s hs
    rcases split s hs with ⟨h, h1, h2⟩ | ⟨-, h1, h2⟩
    · exact .inl ⟨_, ⟨div_nonneg (mul_nonneg hs.1 hL0.le) hCl.le, (div_le_one hCl).2 h⟩, h1, h2⟩
    · exact .inr ⟨_, vm s hs, h1, h2⟩
  · intro s hs
    have hsL : s = s * L / chainLen curveOps [C, J] := by rw [hL, ← eL, mul_div_cancel_right₀ s hL0.ne']
    rcases split s hs with ⟨h, h1, h2⟩ | ⟨h, h1, h2⟩
    · have e := chainEval_at hP.allPos hP.2.1 (x := []) (y := [J]) (a := C) rfl hCa (X := s * L)
        (by simp [chainLen]; exact mul_nonneg hs.1 hL0.le) (by rw [← hk]; simp [chainLen]; exact h)
      rw [← hsL, ← hk] at e
      rw [e]
      beta_reduce
      rw [h1, h2]
      have : (s * L - chainLen curveOps []) / k = s * L / k := by simp [chainLen]
      rw [this]
      exact eC _ ⟨div_nonneg (mul_nonneg hs.1 hL0.le) hCl.le, (div_le_one hCl).2 h⟩
    · have hc : chainLen curveOps [C] = k := by rw [chainLen_cons, ← hk]; simp [chainLen]
      have e := chainEval_at hP.allPos hP.2.1 (x := [C]) (y := []) (a := J) rfl hJ.act (X := s * L)
        (by rw [hc]; exact h) (by rw [hc, ← hℓ]; nlinarith [hs.2])
      rw [← hsL, hc, ← hℓ, ← (mhi s h).2] at e
      rw [e]
      beta_reduce
      rw [h1, h2]
      exact eJ _ (vm s hs)

end Verif
