import Verif.Model.Blank
import Verif.Spec.Blank
import Verif.Props.Core
import Verif.Props.Report
import Verif.Props.Wrapper
import Verif.Props.Profile
import Mathlib.Analysis.Real.Pi.Bounds
import Mathlib.Data.List.Permutation
import Mathlib.MeasureTheory.Measure.Haar.Unique

/-! # Property C132 -/

namespace Verif

open Real MeasureTheory Set

section C132
variable {σ a c s R0 R1 : ℝ}

/-! ### Sets given by distance and depth -/

theorem apexDist_eq (a : ℝ) (p : V3) : Spec.apexDist a p = norm3 (p - ![0, 0, a]) := by
  rw [Spec.apexDist, norm3]
  congr 1
  simp [dot]
  ring

theorem apexDist_sq (a : ℝ) (p : V3) : Spec.apexDist a p ^ 2 = p 0 ^ 2 + p 1 ^ 2 + (p 2 - a) ^ 2 :=
  sq_sqrt (by positivity)

theorem apexDist_nonneg (a : ℝ) (p : V3) : 0 ≤ Spec.apexDist a p := sqrt_nonneg _

theorem apexDepth_sq (hσ : σ * σ = 1) (p : V3) : Spec.apexDepth σ a p ^ 2 = (p 2 - a) ^ 2 := by
  rw [Spec.apexDepth]; linear_combination (p 2 - a) ^ 2 * hσ

theorem apexDepth_le (hσ : σ * σ = 1) (p : V3) : |Spec.apexDepth σ a p| ≤ Spec.apexDist a p := by
  refine abs_le_of_sq_le_sq ?_ (apexDist_nonneg a p)
  rw [apexDist_sq, apexDepth_sq hσ]
  nlinarith [sq_nonneg (p 0), sq_nonneg (p 1)]

theorem continuous_apexDist (a : ℝ) : Continuous (Spec.apexDist a) := by
  unfold Spec.apexDist; fun_prop

theorem continuous_apexDepth (σ a : ℝ) : Continuous (Spec.apexDepth σ a) := by
  unfold Spec.apexDepth; fun_prop

/-- The point of the ray from the apex through `p`. -/
def onRay (a : ℝ) (p : V3) (t : ℝ) : V3 := ![0, 0, a] + t • (p - ![0, 0, a])

theorem onRay_one (a : ℝ) (p : V3) : onRay a p 1 = p := by rw [onRay, one_smul, add_sub_cancel]

theorem continuous_onRay (a : ℝ) (p : V3) : Continuous (onRay a p) := by unfold onRay; fun_prop

theorem apexDist_onRay (a : ℝ) (p : V3) (t : ℝ) : Spec.apexDist a (onRay a p t) = |t| * Spec.apexDist a p := by
  rw [apexDist_eq, apexDist_eq, onRay, add_sub_cancel_left, norm3_smul]

/-- The spherical shell about the apex. -/
def shellSet (a R0 R1 : ℝ) : Set V3 := {p | R1 ≤ Spec.apexDist a p ∧ Spec.apexDist a p ≤ R0}

theorem isClosed_shellSet (a R0 R1 : ℝ) : IsClosed (shellSet a R0 R1) :=
  (isClosed_le continuous_const (continuous_apexDist a)).inter (isClosed_le (continuous_apexDist a) continuous_const)

theorem cut_balls (h1 : 0 < R1) (h : R1 < R0) :
    cutSolid (ballSolid ![0, 0, a] R0 ∪ ballSolid ![0, 0, a] R1) (ballSolid ![0, 0, a] R0 ∩ ballSolid ![0, 0, a] R1) =
      shellSet a R0 R1 := by
  have e : (ballSolid ![0, 0, a] R0 ∪ ballSolid ![0, 0, a] R1) \ (ballSolid ![0, 0, a] R0 ∩ ballSolid ![0, 0, a] R1) =
      {p | R1 < Spec.apexDist a p ∧ Spec.apexDist a p ≤ R0} := by
    ext p
    simp only [ballSolid, ← apexDist_eq, mem_sdiff, mem_union, mem_inter_iff, mem_ofPred_eq]
    constructor
    · rintro ⟨h2 | h2, h3⟩
      · exact ⟨not_le.1 fun h4 => h3 ⟨h2, h4⟩, h2⟩
      · exact absurd ⟨h2.trans h.le, h2⟩ h3
    · rintro ⟨h2, h3⟩
      exact ⟨.inl h3, fun h4 => absurd h4.2 (not_le.2 h2)⟩
  rw [cutSolid, e]
  apply Subset.antisymm
  · exact closure_minimal (fun p hp => ⟨hp.1.le, hp.2⟩) (isClosed_shellSet a R0 R1)
  · rintro p ⟨h2, h3⟩
    rcases h2.lt_or_eq with h2 | h2
    · exact subset_closure ⟨h2, h3⟩
    · have hc : Filter.Tendsto (onRay a p) (nhdsWithin 1 (Ioc 1 (R0 / R1))) (nhds p) := by
        have := (continuous_onRay a p).tendsto 1
        rw [onRay_one] at this
        exact this.mono_left nhdsWithin_le_nhds
      haveI : (nhdsWithin (1 : ℝ) (Ioc 1 (R0 / R1))).NeBot := by
        rw [← mem_closure_iff_nhdsWithin_neBot, closure_Ioc (by rw [ne_eq, eq_comm, div_eq_one_iff_eq h1.ne']; exact h.ne')]
        exact ⟨le_rfl, (one_le_div h1).2 h.le⟩
      refine mem_closure_of_tendsto hc ?_
      filter_upwards [self_mem_nhdsWithin] with t ht
      rw [apexDist_onRay, ← h2, abs_of_pos (by linarith [ht.1])]
      refine ⟨by nlinarith [ht.1], ?_⟩
      have := (le_div_iff₀ h1).1 ht.2
      exact this

theorem interior_shell (h1 : 0 < R1) : interior (shellSet a R0 R1) =
    {p | R1 < Spec.apexDist a p ∧ Spec.apexDist a p < R0} := by
  apply Subset.antisymm
  · intro p hp
    obtain ⟨h2, h3⟩ := interior_subset hp
    have hpos : 0 < Spec.apexDist a p := h1.trans_le h2
    have hn : ∀ᶠ t in nhds (1 : ℝ), onRay a p t ∈ interior (shellSet a R0 R1) := by
      have := (continuous_onRay a p).tendsto 1
      rw [onRay_one] at this
      exact this (isOpen_interior.mem_nhds hp)
    obtain ⟨ε, hε, hb⟩ := Metric.eventually_nhds_iff.1 hn
    constructor
    · refine lt_of_le_of_ne h2 fun e => ?_
      obtain ⟨t, ht⟩ : ∃ t, t = max (1 - ε / 2) (1 / 2) := ⟨_, rfl⟩
      have ht1 : t < 1 := by rw [ht]; exact max_lt (by linarith) (by norm_num)
      have ht0 : 0 < t := by rw [ht]; exact lt_max_of_lt_right (by norm_num)
      have hd : dist t 1 < ε := by
        rw [dist_comm, Real.dist_eq, abs_of_pos (by linarith)]
        have := le_max_left (1 - ε / 2) (1 / 2 : ℝ)
        linarith
      have := (interior_subset (hb hd)).1
      rw [apexDist_onRay, abs_of_pos ht0, ← e] at this
      nlinarith
    · refine lt_of_le_of_ne h3 fun e => ?_
      have hd : dist (1 + ε / 2) 1 < ε := by
        rw [Real.dist_eq, add_sub_cancel_left, abs_of_pos (by linarith)]; linarith
      have := (interior_subset (hb hd)).2
      rw [apexDist_onRay, abs_of_pos (by linarith), ← e] at this
      nlinarith
  · refine interior_maximal (fun p hp => ⟨hp.1.le, hp.2.le⟩) ?_
    exact (isOpen_lt continuous_const (continuous_apexDist a)).inter (isOpen_lt (continuous_apexDist a) continuous_const)

/-! ### The cone of the outside ring -/

theorem inCone_iff (hσ : σ * σ = 1) (hc : 0 < c) (hcs : c ^ 2 + s ^ 2 = 1) (p : V3) :
    Spec.InCone σ a c p ↔ 0 ≤ Spec.apexDepth σ a p ∧
      c ^ 2 * (p 0 ^ 2 + p 1 ^ 2) ≤ s ^ 2 * Spec.apexDepth σ a p ^ 2 := by
  have h1 := apexDist_sq a p
  have h2 := apexDepth_sq (a := a) hσ p
  have h0 := apexDist_nonneg a p
  rw [← h2] at h1
  rw [Spec.InCone]
  constructor
  · intro h
    have h3 : 0 ≤ Spec.apexDepth σ a p := le_trans (by positivity) h
    refine ⟨h3, ?_⟩
    have h4 : (c * Spec.apexDist a p) ^ 2 ≤ Spec.apexDepth σ a p ^ 2 := pow_le_pow_left₀ (by positivity) h 2
    rw [mul_pow, h1] at h4
    nlinarith
  · rintro ⟨h3, h4⟩
    refine le_of_sq_le_sq ?_ h3
    rw [mul_pow, h1]
    nlinarith
  where
    le_of_sq_le_sq {x y : ℝ} (h : x ^ 2 ≤ y ^ 2) (hy : 0 ≤ y) : x ≤ y := le_of_abs_le (abs_le_of_sq_le_sq h hy)

theorem mem_frustum (hσ : σ * σ = 1) (hc : 0 < c) (hs : 0 < s) (hcs : c ^ 2 + s ^ 2 = 1) (h0 : 0 < R0) (h1 : 0 < R1)
    (hne : R0 ≠ R1) (p : V3) :
    p ∈ frustum (R0 * s) (R1 * s) (a - σ * (R1 * c) - (a - σ * (R0 * c))) (a - σ * (R0 * c)) ↔
      Spec.InCone σ a c p ∧ min R0 R1 * c ≤ Spec.apexDepth σ a p ∧ Spec.apexDepth σ a p ≤ max R0 R1 * c := by
  rw [inCone_iff hσ hc hcs]
  have hz : ∀ t, (p 2 = a - σ * (R0 * c) + t * (a - σ * (R1 * c) - (a - σ * (R0 * c))) ↔
      Spec.apexDepth σ a p = (R0 + t * (R1 - R0)) * c) := by
    intro t
    rw [Spec.apexDepth]
    constructor
    · intro h; rw [h]; linear_combination (R0 + t * (R1 - R0)) * c * hσ
    · intro h; linear_combination -σ * h - (p 2 - a) * hσ
  constructor
  · rintro ⟨t, t0, t1, e, h⟩
    rw [hz] at e
    have hR : min R0 R1 ≤ R0 + t * (R1 - R0) ∧ R0 + t * (R1 - R0) ≤ max R0 R1 := by
      rcases le_total R0 R1 with hh | hh
      · rw [min_eq_left hh, max_eq_right hh]; constructor <;> nlinarith
      · rw [min_eq_right hh, max_eq_left hh]; constructor <;> nlinarith
    have hm : 0 < min R0 R1 := lt_min h0 h1
    rw [e]
    refine ⟨⟨by nlinarith [hR.1], ?_⟩, by nlinarith [hR.1], by nlinarith [hR.2]⟩
    have := mul_le_mul_of_nonneg_left h (sq_nonneg c)
    calc c ^ 2 * (p 0 ^ 2 + p 1 ^ 2) ≤ _ := this
      _ = _ := by ring
  · rintro ⟨⟨h2, h3⟩, h4, h5⟩
    have hR : R1 - R0 ≠ 0 := sub_ne_zero.2 hne.symm
    have et : R0 + (Spec.apexDepth σ a p / c - R0) / (R1 - R0) * (R1 - R0) = Spec.apexDepth σ a p / c := by
      rw [div_mul_cancel₀ _ hR]; ring
    have h4' : min R0 R1 ≤ Spec.apexDepth σ a p / c := (le_div_iff₀ hc).2 h4
    have h5' : Spec.apexDepth σ a p / c ≤ max R0 R1 := (div_le_iff₀ hc).2 h5
    refine ⟨(Spec.apexDepth σ a p / c - R0) / (R1 - R0), ?_, ?_, ?_, ?_⟩
    · rcases lt_or_gt_of_ne hne with hh | hh
      · rw [min_eq_left hh.le] at h4'
        exact div_nonneg (by linarith) (by linarith)
      · rw [max_eq_left hh.le] at h5'
        exact div_nonneg_of_nonpos (by linarith) (by linarith)
    · rcases lt_or_gt_of_ne hne with hh | hh
      · rw [max_eq_right hh.le] at h5'
        rw [div_le_one (by linarith)]; linarith
      · rw [min_eq_right hh.le] at h4'
        rw [div_le_one_of_neg (by linarith)]; linarith
    · rw [hz, et, div_mul_cancel₀ _ hc.ne']
    · have e : R0 * s + (Spec.apexDepth σ a p / c - R0) / (R1 - R0) * (R1 * s - R0 * s) = Spec.apexDepth σ a p / c * s := by
        linear_combination s * et
      rw [e, div_mul_eq_mul_div, div_pow, le_div_iff₀ (by positivity)]
      nlinarith

theorem mem_frustumSide (hσ : σ * σ = 1) (hc : 0 < c) (hs : 0 < s) (hcs : c ^ 2 + s ^ 2 = 1) (h0 : 0 < R0) (h1 : 0 < R1)
    (hne : R0 ≠ R1) (p : V3) :
    p ∈ frustumSide (R0 * s) (R1 * s) (a - σ * (R1 * c) - (a - σ * (R0 * c))) (a - σ * (R0 * c)) ↔
      c * Spec.apexDist a p = Spec.apexDepth σ a p ∧ min R0 R1 ≤ Spec.apexDist a p ∧ Spec.apexDist a p ≤ max R0 R1 := by
  have q1 := apexDist_sq a p
  have q2 := apexDepth_sq (a := a) hσ p
  have q0 := apexDist_nonneg a p
  rw [← q2] at q1
  have hz : ∀ t, (p 2 = a - σ * (R0 * c) + t * (a - σ * (R1 * c) - (a - σ * (R0 * c))) ↔
      Spec.apexDepth σ a p = (R0 + t * (R1 - R0)) * c) := by
    intro t
    rw [Spec.apexDepth]
    constructor
    · intro h; rw [h]; linear_combination (R0 + t * (R1 - R0)) * c * hσ
    · intro h; linear_combination -σ * h - (p 2 - a) * hσ
  constructor
  · rintro ⟨t, t0, t1, e, h⟩
    rw [hz] at e
    have hR : min R0 R1 ≤ R0 + t * (R1 - R0) ∧ R0 + t * (R1 - R0) ≤ max R0 R1 := by
      rcases le_total R0 R1 with hh | hh
      · rw [min_eq_left hh, max_eq_right hh]; constructor <;> nlinarith
      · rw [min_eq_right hh, max_eq_left hh]; constructor <;> nlinarith
    have hm : 0 < min R0 R1 := lt_min h0 h1
    have hd : Spec.apexDist a p = R0 + t * (R1 - R0) := by
      refine (pow_left_inj₀ q0 (by linarith [hR.1]) two_ne_zero).1 ?_
      rw [q1, h, e]
      linear_combination (R0 + t * (R1 - R0)) ^ 2 * hcs
    rw [hd, e]
    exact ⟨by ring, hR⟩
  · rintro ⟨h2, h4, h5⟩
    have hR : R1 - R0 ≠ 0 := sub_ne_zero.2 hne.symm
    have et : R0 + (Spec.apexDist a p - R0) / (R1 - R0) * (R1 - R0) = Spec.apexDist a p := by
      rw [div_mul_cancel₀ _ hR]; ring
    refine ⟨(Spec.apexDist a p - R0) / (R1 - R0), ?_, ?_, ?_, ?_⟩
    · rcases lt_or_gt_of_ne hne with hh | hh
      · rw [min_eq_left hh.le] at h4
        exact div_nonneg (by linarith) (by linarith)
      · rw [max_eq_left hh.le] at h5
        exact div_nonneg_of_nonpos (by linarith) (by linarith)
    · rcases lt_or_gt_of_ne hne with hh | hh
      · rw [max_eq_right hh.le] at h5
        rw [div_le_one (by linarith)]; linarith
      · rw [min_eq_right hh.le] at h4
        rw [div_le_one_of_neg (by linarith)]; linarith
    · rw [hz, et, ← h2]; ring
    · have e : R0 * s + (Spec.apexDist a p - R0) / (R1 - R0) * (R1 * s - R0 * s) = Spec.apexDist a p * s := by
        linear_combination s * et
      rw [e]
      rw [← h2] at q1
      linear_combination -q1 - Spec.apexDist a p ^ 2 * hcs

/-- The solid that `gen_ref_solid` makes for outer teeth, if the apex is above the gear. -/
theorem hub_eq (hc : 0 < c) (hs : 0 < s) (hcs : c ^ 2 + s ^ 2 = 1) (h1 : 0 < R1) (h : R1 < R0) :
    (shellSet a R0 R1 ∪ frustum (R0 * s) (R1 * s) (a - 1 * (R1 * c) - (a - 1 * (R0 * c))) (a - 1 * (R0 * c))) ∩
      {p | a - 1 * (R0 * c) ≤ p 2} = Spec.hubBlank 1 a c R0 R1 := by
  ext p
  have hd : (a - 1 * (R0 * c) ≤ p 2 ↔ Spec.apexDepth 1 a p ≤ R0 * c) := by
    rw [Spec.apexDepth]; constructor <;> intro <;> linarith
  rw [mem_inter_iff, mem_union, mem_frustum (σ := 1) (by norm_num) hc hs hcs (h1.trans h) h1 h.ne', mem_ofPred_eq, hd,
    min_eq_right h.le, max_eq_left h.le, Spec.hubBlank, mem_ofPred_eq]
  constructor
  · rintro ⟨h2 | h2, h3⟩
    · by_cases hi : Spec.InCone 1 a c p
      · refine .inl ⟨hi, ?_, h3⟩
        rw [Spec.InCone] at hi
        nlinarith [h2.1]
      · exact .inr ⟨hi, h2⟩
    · exact .inl h2
  · rintro (h2 | ⟨h2, h3⟩)
    · exact ⟨.inr h2, h2.2.2⟩
    · refine ⟨.inl h3, ?_⟩
      rw [Spec.InCone, not_le] at h2
      nlinarith [h3.2]

/-! ### The parts of the shell -/

/-- Spherical coordinates about the apex. -/
noncomputable def sphericalPoint (σ a : ℝ) (x : ℝ × ℝ × ℝ) : V3 :=
  ![x.1 * sin x.2.1 * cos x.2.2, x.1 * sin x.2.1 * sin x.2.2, a - σ * (x.1 * cos x.2.1)]

theorem continuous_sphericalPoint (σ a : ℝ) : Continuous (sphericalPoint σ a) := by
  unfold sphericalPoint
  refine continuous_pi fun i => ?_
  fin_cases i <;> simp <;> fun_prop

theorem sphericalPoint_dist (hσ : σ * σ = 1) (x : ℝ × ℝ × ℝ) (h : 0 ≤ x.1) :
    Spec.apexDist a (sphericalPoint σ a x) = x.1 := by
  refine (pow_left_inj₀ (apexDist_nonneg _ _) h two_ne_zero).1 ?_
  rw [apexDist_sq]
  simp only [sphericalPoint, Matrix.cons_val_zero, Matrix.cons_val_one, Matrix.cons_val]
  have h1 := sin_sq_add_cos_sq x.2.1
  have h2 := sin_sq_add_cos_sq x.2.2
  linear_combination (x.1 * sin x.2.1) ^ 2 * h2 + x.1 ^ 2 * h1 + (x.1 * cos x.2.1) ^ 2 * hσ

theorem sphericalPoint_depth (hσ : σ * σ = 1) (x : ℝ × ℝ × ℝ) :
    Spec.apexDepth σ a (sphericalPoint σ a x) = x.1 * cos x.2.1 := by
  simp only [sphericalPoint, Spec.apexDepth, Matrix.cons_val]
  linear_combination x.1 * cos x.2.1 * hσ

theorem exists_spherical (hσ : σ * σ = 1) (p : V3) (h : 0 < Spec.apexDist a p) :
    ∃ θ φ, 0 ≤ θ ∧ θ ≤ π ∧ sphericalPoint σ a (Spec.apexDist a p, θ, φ) = p := by
  have h1 := apexDist_sq a p
  have h2 := apexDepth_sq (a := a) hσ p
  have h3 := abs_le.1 (apexDepth_le (a := a) hσ p)
  obtain ⟨ρ, hρ⟩ : ∃ ρ, ρ = Spec.apexDist a p := ⟨_, rfl⟩
  obtain ⟨d, hd⟩ : ∃ d, d = Spec.apexDepth σ a p := ⟨_, rfl⟩
  rw [← hρ, ← hd] at h3
  rw [← hρ, ← h2, ← hd] at h1
  rw [← hρ] at h ⊢
  have hcos : cos (arccos (d / ρ)) = d / ρ :=
    cos_arccos (by rw [le_div_iff₀ h]; linarith) (by rw [div_le_one h]; linarith)
  have hax : axisDist p = ρ * sin (arccos (d / ρ)) := by
    refine (pow_left_inj₀ (sqrt_nonneg _) (mul_nonneg h.le (sin_nonneg_of_nonneg_of_le_pi (arccos_nonneg _)
      (arccos_le_pi _))) two_ne_zero).1 ?_
    rw [sq_sqrt (by positivity), mul_pow, sin_sq, hcos]
    field_simp
    linarith
  refine ⟨arccos (d / ρ), arctan2 (p 1) (p 0), arccos_nonneg _, arccos_le_pi _, ?_⟩
  have hp := polar_point p
  rw [sphericalPoint]
  simp only [hcos, ← hax, mul_div_cancel₀ d h.ne']
  have hz : a - σ * d = p 2 := by rw [hd, Spec.apexDepth]; linear_combination (p 2 - a) * hσ
  conv_rhs => rw [hp]
  apply V3.ext3
  · simp
  · simp
  · simp [hz]

/-- The inside and the outside of the cone within the open shell. -/
def openIn (σ a c R0 R1 : ℝ) : Set V3 :=
  {p | (R1 < Spec.apexDist a p ∧ Spec.apexDist a p < R0) ∧ c * Spec.apexDist a p < Spec.apexDepth σ a p}
def openOut (σ a c R0 R1 : ℝ) : Set V3 :=
  {p | (R1 < Spec.apexDist a p ∧ Spec.apexDist a p < R0) ∧ Spec.apexDepth σ a p < c * Spec.apexDist a p}

/-- The rest of the shell. -/
def outerPart (σ a c R0 R1 : ℝ) : Set V3 :=
  {p | Spec.apexDepth σ a p ≤ c * Spec.apexDist a p ∧ R1 ≤ Spec.apexDist a p ∧ Spec.apexDist a p ≤ R0}

theorem isOpen_openIn : IsOpen (openIn σ a c R0 R1) :=
  ((isOpen_lt continuous_const (continuous_apexDist a)).inter (isOpen_lt (continuous_apexDist a) continuous_const)).inter
    (isOpen_lt (continuous_const.mul (continuous_apexDist a)) (continuous_apexDepth σ a))

theorem isOpen_openOut : IsOpen (openOut σ a c R0 R1) :=
  ((isOpen_lt continuous_const (continuous_apexDist a)).inter (isOpen_lt (continuous_apexDist a) continuous_const)).inter
    (isOpen_lt (continuous_apexDepth σ a) (continuous_const.mul (continuous_apexDist a)))

theorem isClosed_ringBlank : IsClosed (Spec.ringBlank σ a c R1 R0) :=
  (isClosed_le (continuous_const.mul (continuous_apexDist a)) (continuous_apexDepth σ a)).inter (isClosed_shellSet a R0 R1)

theorem isClosed_outerPart : IsClosed (outerPart σ a c R0 R1) :=
  (isClosed_le (continuous_apexDepth σ a) (continuous_const.mul (continuous_apexDist a))).inter (isClosed_shellSet a R0 R1)

theorem openIn_image (hσ : σ * σ = 1) (h1 : 0 < R1) {θ : ℝ} (h0 : 0 < θ) (hπ : θ < π) :
    openIn σ a (cos θ) R0 R1 = sphericalPoint σ a '' (Ioo R1 R0 ×ˢ Ico 0 θ ×ˢ univ) := by
  ext p
  constructor
  · rintro ⟨⟨h2, h3⟩, h4⟩
    have hp := h1.trans h2
    obtain ⟨t, φ, t0, t1, e⟩ := exists_spherical (a := a) hσ p hp
    have hd := sphericalPoint_depth (a := a) hσ (Spec.apexDist a p, t, φ)
    rw [e] at hd
    refine ⟨(Spec.apexDist a p, t, φ), ⟨⟨h2, h3⟩, ⟨t0, ?_⟩, mem_univ _⟩, e⟩
    by_contra hn
    have := cos_le_cos_of_nonneg_of_le_pi h0.le t1 (not_lt.1 hn)
    simp only at hd
    nlinarith
  · rintro ⟨⟨r, t, φ⟩, ⟨⟨h2, h3⟩, ⟨t0, t1⟩, -⟩, rfl⟩
    simp only at h2 h3 t0 t1
    rw [openIn, mem_ofPred_eq, sphericalPoint_dist hσ _ (by simp only; linarith), sphericalPoint_depth hσ]
    have := cos_lt_cos_of_nonneg_of_le_pi t0 hπ.le t1
    exact ⟨⟨h2, h3⟩, by simp only; nlinarith⟩

theorem openOut_image (hσ : σ * σ = 1) (h1 : 0 < R1) {θ : ℝ} (h0 : 0 < θ) (hπ : θ < π) :
    openOut σ a (cos θ) R0 R1 = sphericalPoint σ a '' (Ioo R1 R0 ×ˢ Ioc θ π ×ˢ univ) := by
  ext p
  constructor
  · rintro ⟨⟨h2, h3⟩, h4⟩
    have hp := h1.trans h2
    obtain ⟨t, φ, t0, t1, e⟩ := exists_spherical (a := a) hσ p hp
    have hd := sphericalPoint_depth (a := a) hσ (Spec.apexDist a p, t, φ)
    rw [e] at hd
    refine ⟨(Spec.apexDist a p, t, φ), ⟨⟨h2, h3⟩, ⟨?_, t1⟩, mem_univ _⟩, e⟩
    by_contra hn
    have := cos_le_cos_of_nonneg_of_le_pi t0 hπ.le (not_lt.1 hn)
    simp only at hd
    nlinarith
  · rintro ⟨⟨r, t, φ⟩, ⟨⟨h2, h3⟩, ⟨t0, t1⟩, -⟩, rfl⟩
    simp only at h2 h3 t0 t1
    rw [openOut, mem_ofPred_eq, sphericalPoint_dist hσ _ (by simp only; linarith), sphericalPoint_depth hσ]
    have := cos_lt_cos_of_nonneg_of_le_pi h0.le t1 t0
    exact ⟨⟨h2, h3⟩, by simp only; nlinarith⟩

theorem closure_openIn (hσ : σ * σ = 1) (h1 : 0 < R1) (h : R1 < R0) {θ : ℝ} (h0 : 0 < θ) (hπ : θ < π) :
    closure (openIn σ a (cos θ) R0 R1) = Spec.ringBlank σ a (cos θ) R1 R0 := by
  apply Subset.antisymm
  · exact closure_minimal (fun p hp => ⟨hp.2.le, hp.1.1.le, hp.1.2.le⟩) isClosed_ringBlank
  · rintro p ⟨h2, h3, h4⟩
    rw [Spec.InCone] at h2
    have hp := h1.trans_le h3
    obtain ⟨t, φ, t0, t1, e⟩ := exists_spherical (a := a) hσ p hp
    have hd := sphericalPoint_depth (a := a) hσ (Spec.apexDist a p, t, φ)
    rw [e] at hd
    rw [openIn_image hσ h1 h0 hπ]
    refine image_closure_subset_closure_image (continuous_sphericalPoint σ a) ⟨(Spec.apexDist a p, t, φ), ?_, e⟩
    rw [closure_prod_eq, closure_prod_eq, closure_Ioo h.ne, closure_Ico h0.ne, closure_univ]
    refine ⟨⟨h3, h4⟩, ⟨t0, ?_⟩, mem_univ _⟩
    by_contra hn
    have := cos_lt_cos_of_nonneg_of_le_pi h0.le t1 (not_le.1 hn)
    simp only at hd
    nlinarith

theorem closure_openOut (hσ : σ * σ = 1) (h1 : 0 < R1) (h : R1 < R0) {θ : ℝ} (h0 : 0 < θ) (hπ : θ < π) :
    closure (openOut σ a (cos θ) R0 R1) = outerPart σ a (cos θ) R0 R1 := by
  apply Subset.antisymm
  · exact closure_minimal (fun p hp => ⟨hp.2.le, hp.1.1.le, hp.1.2.le⟩) isClosed_outerPart
  · rintro p ⟨h2, h3, h4⟩
    have hp := h1.trans_le h3
    obtain ⟨t, φ, t0, t1, e⟩ := exists_spherical (a := a) hσ p hp
    have hd := sphericalPoint_depth (a := a) hσ (Spec.apexDist a p, t, φ)
    rw [e] at hd
    rw [openOut_image hσ h1 h0 hπ]
    refine image_closure_subset_closure_image (continuous_sphericalPoint σ a) ⟨(Spec.apexDist a p, t, φ), ?_, e⟩
    rw [closure_prod_eq, closure_prod_eq, closure_Ioo h.ne, closure_Ioc hπ.ne, closure_univ]
    refine ⟨⟨h3, h4⟩, ⟨?_, t1⟩, mem_univ _⟩
    by_contra hn
    have := cos_lt_cos_of_nonneg_of_le_pi t0 hπ.le (not_le.1 hn)
    simp only at hd
    nlinarith

/-- Two disjoint open connected sets are the components of their union. -/
theorem component_left {U V : Set V3} (hU : IsOpen U) (hV : IsOpen V) (hd : Disjoint U V) (hc : IsPreconnected U)
    {x : V3} (hx : x ∈ U) : connectedComponentIn (U ∪ V) x = U := by
  apply Subset.antisymm
  · refine isPreconnected_connectedComponentIn.subset_left_of_subset_union hU hV hd
      (connectedComponentIn_subset _ _) ⟨x, mem_connectedComponentIn (.inl hx), hx⟩
  · exact hc.subset_connectedComponentIn hx subset_union_left

/-- The cone divides the shell into two parts. -/
theorem split_shell (hσ : σ * σ = 1) (h1 : 0 < R1) (h : R1 < R0) {θ : ℝ} (h0 : 0 < θ) (hπ : θ < π) (tool : Set V3)
    (ht : ∀ p, p ∈ tool ↔ cos θ * Spec.apexDist a p = Spec.apexDepth σ a p ∧ R1 ≤ Spec.apexDist a p ∧
      Spec.apexDist a p ≤ R0) (P : Set V3) :
    (∃ x ∈ interior (shellSet a R0 R1) \ tool,
        P = closure (connectedComponentIn (interior (shellSet a R0 R1) \ tool) x)) ↔
      P = Spec.ringBlank σ a (cos θ) R1 R0 ∨ P = outerPart σ a (cos θ) R0 R1 := by
  have e : interior (shellSet a R0 R1) \ tool = openIn σ a (cos θ) R0 R1 ∪ openOut σ a (cos θ) R0 R1 := by
    rw [interior_shell h1]
    ext p
    simp only [mem_sdiff, mem_ofPred_eq, ht, openIn, openOut, mem_union]
    constructor
    · rintro ⟨h2, h3⟩
      rcases lt_trichotomy (cos θ * Spec.apexDist a p) (Spec.apexDepth σ a p) with h4 | h4 | h4
      · exact .inl ⟨h2, h4⟩
      · exact absurd ⟨h4, h2.1.le, h2.2.le⟩ h3
      · exact .inr ⟨h2, h4⟩
    · rintro (h2 | h2)
      · exact ⟨h2.1, fun h3 => absurd h3.1 h2.2.ne⟩
      · exact ⟨h2.1, fun h3 => absurd h3.1 h2.2.ne'⟩
  have hdis : Disjoint (openIn σ a (cos θ) R0 R1) (openOut σ a (cos θ) R0 R1) :=
    disjoint_left.2 fun p h2 h3 => absurd h2.2 (not_lt.2 h3.2.le)
  have c1 : IsPreconnected (openIn σ a (cos θ) R0 R1) := by
    rw [openIn_image hσ h1 h0 hπ]
    exact (isPreconnected_Ioo.prod (isPreconnected_Ico.prod isPreconnected_univ)).image _
      (continuous_sphericalPoint σ a).continuousOn
  have c2 : IsPreconnected (openOut σ a (cos θ) R0 R1) := by
    rw [openOut_image hσ h1 h0 hπ]
    exact (isPreconnected_Ioo.prod (isPreconnected_Ioc.prod isPreconnected_univ)).image _
      (continuous_sphericalPoint σ a).continuousOn
  have k1 : ∀ x ∈ openIn σ a (cos θ) R0 R1,
      connectedComponentIn (openIn σ a (cos θ) R0 R1 ∪ openOut σ a (cos θ) R0 R1) x = openIn σ a (cos θ) R0 R1 :=
    fun x hx => component_left isOpen_openIn isOpen_openOut hdis c1 hx
  have k2 : ∀ x ∈ openOut σ a (cos θ) R0 R1,
      connectedComponentIn (openIn σ a (cos θ) R0 R1 ∪ openOut σ a (cos θ) R0 R1) x = openOut σ a (cos θ) R0 R1 :=
    fun x hx => by rw [union_comm]; exact component_left isOpen_openOut isOpen_openIn hdis.symm c2 hx
  rw [e]
  constructor
  · rintro ⟨x, hx | hx, rfl⟩
    · left; rw [k1 x hx, closure_openIn hσ h1 h h0 hπ]
    · right; rw [k2 x hx, closure_openOut hσ h1 h h0 hπ]
  · rintro (rfl | rfl)
    · have hx : sphericalPoint σ a ((R1 + R0) / 2, 0, 0) ∈ openIn σ a (cos θ) R0 R1 := by
        rw [openIn_image hσ h1 h0 hπ]
        exact ⟨_, ⟨⟨by simp only; linarith, by simp only; linarith⟩, ⟨le_rfl, h0⟩, mem_univ _⟩, rfl⟩
      exact ⟨_, .inl hx, by rw [k1 _ hx, closure_openIn hσ h1 h h0 hπ]⟩
    · have hx : sphericalPoint σ a ((R1 + R0) / 2, π, 0) ∈ openOut σ a (cos θ) R0 R1 := by
        rw [openOut_image hσ h1 h0 hπ]
        exact ⟨_, ⟨⟨by simp only; linarith, by simp only; linarith⟩, ⟨hπ, le_rfl⟩, mem_univ _⟩, rfl⟩
      exact ⟨_, .inr hx, by rw [k2 _ hx, closure_openOut hσ h1 h h0 hπ]⟩

/-! ### Volumes -/

/-- Reflection in the horizontal plane through the apex. -/
def reflectZ (a : ℝ) (p : V3) : V3 := fun i => if i = 2 then 2 * a - p i else p i

theorem reflectZ_preserving (a : ℝ) : MeasurePreserving (reflectZ a) volume volume := by
  have h : ∀ i : Fin 3, MeasurePreserving (fun x : ℝ => if i = 2 then 2 * a - x else x) volume volume := by
    intro i
    by_cases hi : i = 2
    · simp only [hi, if_true]; exact Measure.measurePreserving_sub_left volume (2 * a)
    · simp only [hi, if_false]; exact MeasurePreserving.id volume
  exact volume_preserving_pi h

theorem reflectZ_dist (p : V3) : Spec.apexDist a (reflectZ a p) = Spec.apexDist a p := by
  simp only [Spec.apexDist, reflectZ]
  congr 1
  simp
  ring

theorem reflectZ_depth (p : V3) : Spec.apexDepth σ a (reflectZ a p) = -Spec.apexDepth σ a p := by
  simp only [Spec.apexDepth, reflectZ]
  simp
  ring

theorem volume_ringBlank_lt_top : volume (Spec.ringBlank σ a c R1 R0) < ⊤ := by
  refine lt_of_le_of_lt (measure_mono (t := Icc (fun i => ![0, 0, a] i - R0) fun i => ![0, 0, a] i + R0) ?_)
    isCompact_Icc.measure_lt_top
  rintro p ⟨-, -, h⟩
  have h1 := apexDist_sq a p
  have h0 := apexDist_nonneg a p
  have key : ∀ x, x ^ 2 ≤ p 0 ^ 2 + p 1 ^ 2 + (p 2 - a) ^ 2 → -R0 ≤ x ∧ x ≤ R0 := by
    intro x hx
    refine abs_le.1 (abs_le_of_sq_le_sq ?_ (h0.trans h))
    rw [← h1] at hx
    exact hx.trans (pow_le_pow_left₀ h0 h 2)
  have k0 := key (p 0) (by nlinarith [sq_nonneg (p 1), sq_nonneg (p 2 - a)])
  have k1 := key (p 1) (by nlinarith [sq_nonneg (p 0), sq_nonneg (p 2 - a)])
  have k2 := key (p 2 - a) (by nlinarith [sq_nonneg (p 0), sq_nonneg (p 1)])
  constructor
  · intro i; fin_cases i <;> simp <;> linarith
  · intro i; fin_cases i <;> simp <;> linarith

/-- The part of the shell inside a cone that opens by less than a half space is the smaller one. -/
theorem volume_lt (hσ : σ * σ = 1) (h1 : 0 < R1) (h : R1 < R0) (hc : 0 < c) :
    volume (Spec.ringBlank σ a c R1 R0) < volume (outerPart σ a c R0 R1) := by
  obtain ⟨M, hM⟩ : ∃ M : Set V3, M = {p | (R1 < Spec.apexDist a p ∧ Spec.apexDist a p < R0) ∧
    (-(c * Spec.apexDist a p) < Spec.apexDepth σ a p ∧ Spec.apexDepth σ a p < c * Spec.apexDist a p)} := ⟨_, rfl⟩
  have hMo : IsOpen M := by
    rw [hM]
    exact ((isOpen_lt continuous_const (continuous_apexDist a)).inter (isOpen_lt (continuous_apexDist a)
      continuous_const)).inter ((isOpen_lt (continuous_const.mul (continuous_apexDist a)).neg
        (continuous_apexDepth σ a)).inter (isOpen_lt (continuous_apexDepth σ a)
          (continuous_const.mul (continuous_apexDist a))))
  have hMn : M.Nonempty := by
    refine ⟨sphericalPoint σ a ((R1 + R0) / 2, π / 2, 0), ?_⟩
    rw [hM, mem_ofPred_eq, sphericalPoint_dist hσ _ (by simp only; linarith), sphericalPoint_depth hσ]
    simp only [cos_pi_div_two, mul_zero]
    refine ⟨⟨by linarith, by linarith⟩, ?_, ?_⟩
    · rw [neg_lt_zero]; exact mul_pos hc (by linarith)
    · exact mul_pos hc (by linarith)
  have hMv : 0 < volume M := hMo.measure_pos volume hMn
  have hp := (reflectZ_preserving a).measure_preimage (s := Spec.ringBlank σ a c R1 R0)
    isClosed_ringBlank.measurableSet.nullMeasurableSet
  have hdis : Disjoint (reflectZ a ⁻¹' Spec.ringBlank σ a c R1 R0) M := by
    rw [disjoint_left, hM]
    rintro p ⟨h2, -⟩ ⟨-, h3, -⟩
    rw [Spec.InCone, reflectZ_dist, reflectZ_depth] at h2
    linarith
  have hsub : reflectZ a ⁻¹' Spec.ringBlank σ a c R1 R0 ∪ M ⊆ outerPart σ a c R0 R1 := by
    rintro p (⟨h2, h3⟩ | h2)
    · rw [Spec.InCone, reflectZ_dist, reflectZ_depth] at h2
      rw [reflectZ_dist] at h3
      exact ⟨by nlinarith [apexDist_nonneg a p], h3⟩
    · rw [hM] at h2
      exact ⟨h2.2.2.le, h2.1.1.le, h2.1.2.le⟩
  calc volume (Spec.ringBlank σ a c R1 R0) < volume (Spec.ringBlank σ a c R1 R0) + volume M :=
        ENNReal.lt_add_right volume_ringBlank_lt_top.ne hMv.ne'
    _ = volume (reflectZ a ⁻¹' Spec.ringBlank σ a c R1 R0 ∪ M) := by
        rw [measure_union hdis hMo.measurableSet, hp]
    _ ≤ _ := measure_mono hsub

/-! ### Sorting two parts -/

theorem split_pair {x y : Set V3} {l : List (Set V3)} (hn : l.Nodup) (hm : ∀ P, P ∈ l ↔ P = x ∨ P = y) (hne : x ≠ y) :
    l = [x, y] ∨ l = [y, x] := by
  have : l.Perm [x, y] := (List.perm_ext_iff_of_nodup hn (by simp [hne])).2 fun P => by rw [hm]; simp
  exact List.perm_pair.1 this

theorem sortOn_pair {β : Type} [LinearOrder β] (key : Set V3 → β) {x y : Set V3} (h : key x < key y)
    {l : List (Set V3)} (hl : l = [x, y] ∨ l = [y, x]) : sortOn key l = [x, y] := by
  rcases hl with rfl | rfl
  · simp [sortOn, List.insertionSort, List.orderedInsert, h.le]
  · simp [sortOn, List.insertionSort, List.orderedInsert, h]

/-! ### Bounding boxes -/

theorem boxCentre_lower {S B O : Set V3} {lo hi : ℝ} (hS : ∀ p ∈ S, lo ≤ p 2 ∧ p 2 ≤ hi) (hB : IsCompact B)
    (hBS : B ⊆ S) (hOS : O ⊆ S) {b o : V3} (hb : b ∈ B) (hb2 : b 2 = lo) (ho : o ∈ O) (ho2 : o 2 = hi)
    (hn : ∀ p ∈ B, p 2 ≠ hi) : boxCentreZ B < boxCentreZ O := by
  have cB : IsCompact ((fun p : V3 => p 2) '' B) := hB.image (continuous_apply 2)
  have i1 : sInf ((fun p : V3 => p 2) '' B) ≤ lo := by
    rw [← hb2]; exact csInf_le cB.bddBelow ⟨b, hb, rfl⟩
  have i2 : lo ≤ sInf ((fun p : V3 => p 2) '' O) :=
    le_csInf ⟨_, o, ho, rfl⟩ (by rintro _ ⟨p, hp, rfl⟩; exact (hS p (hOS hp)).1)
  have s1 : sSup ((fun p : V3 => p 2) '' B) < hi := by
    obtain ⟨p, hp, e⟩ := cB.sSup_mem ⟨_, b, hb, rfl⟩
    rw [← e]
    exact lt_of_le_of_ne (hS p (hBS hp)).2 (hn p hp)
  have s2 : hi ≤ sSup ((fun p : V3 => p 2) '' O) := by
    rw [← ho2]
    exact le_csSup ⟨hi, by rintro _ ⟨p, hp, rfl⟩; exact (hS p (hOS hp)).2⟩ ⟨o, ho, rfl⟩
  rw [boxCentreZ, boxCentreZ]
  linarith

theorem boxCentre_upper {S B O : Set V3} {lo hi : ℝ} (hS : ∀ p ∈ S, lo ≤ p 2 ∧ p 2 ≤ hi) (hB : IsCompact B)
    (hBS : B ⊆ S) (hOS : O ⊆ S) {b o : V3} (hb : b ∈ B) (hb2 : b 2 = hi) (ho : o ∈ O) (ho2 : o 2 = lo)
    (hn : ∀ p ∈ B, p 2 ≠ lo) : boxCentreZ O < boxCentreZ B := by
  have cB : IsCompact ((fun p : V3 => p 2) '' B) := hB.image (continuous_apply 2)
  have i1 : hi ≤ sSup ((fun p : V3 => p 2) '' B) := by
    rw [← hb2]; exact le_csSup cB.bddAbove ⟨b, hb, rfl⟩
  have i2 : sSup ((fun p : V3 => p 2) '' O) ≤ hi :=
    csSup_le ⟨_, o, ho, rfl⟩ (by rintro _ ⟨p, hp, rfl⟩; exact (hS p (hOS hp)).2)
  have s1 : lo < sInf ((fun p : V3 => p 2) '' B) := by
    obtain ⟨p, hp, e⟩ := cB.sInf_mem ⟨_, b, hb, rfl⟩
    rw [← e]
    exact lt_of_le_of_ne (hS p (hBS hp)).1 (hn p hp).symm
  have s2 : sInf ((fun p : V3 => p 2) '' O) ≤ lo := by
    rw [← ho2]
    exact csInf_le ⟨lo, by rintro _ ⟨p, hp, rfl⟩; exact (hS p (hOS hp)).1⟩ ⟨o, ho, rfl⟩
  rw [boxCentreZ, boxCentreZ]
  linarith

theorem isCompact_of_dist {B : Set V3} (hB : IsClosed B) (h : ∀ p ∈ B, Spec.apexDist a p ≤ R0) : IsCompact B := by
  refine isCompact_Icc.of_isClosed_subset (s := Icc (fun i => ![0, 0, a] i - R0) fun i => ![0, 0, a] i + R0) hB ?_
  intro p hp
  have h := h p hp
  have h1 := apexDist_sq a p
  have h0 := apexDist_nonneg a p
  have key : ∀ x, x ^ 2 ≤ p 0 ^ 2 + p 1 ^ 2 + (p 2 - a) ^ 2 → -R0 ≤ x ∧ x ≤ R0 := by
    intro x hx
    refine abs_le.1 (abs_le_of_sq_le_sq ?_ (h0.trans h))
    rw [← h1] at hx
    exact hx.trans (pow_le_pow_left₀ h0 h 2)
  have k0 := key (p 0) (by nlinarith [sq_nonneg (p 1), sq_nonneg (p 2 - a)])
  have k1 := key (p 1) (by nlinarith [sq_nonneg (p 0), sq_nonneg (p 2 - a)])
  have k2 := key (p 2 - a) (by nlinarith [sq_nonneg (p 0), sq_nonneg (p 1)])
  constructor
  · intro i; fin_cases i <;> simp <;> linarith
  · intro i; fin_cases i <;> simp <;> linarith

/-- At its greatest depth the sphere has one point only. -/
theorem pole_unique (p : V3) (h : Spec.apexDist a p ≤ R0) {e : ℝ} (he : e ^ 2 = R0 ^ 2) (hz : p 2 = a + e) :
    p = ![0, 0, a + e] := by
  have h1 := apexDist_sq a p
  have h0 := apexDist_nonneg a p
  have h2 : Spec.apexDist a p ^ 2 ≤ R0 ^ 2 := pow_le_pow_left₀ h0 h 2
  rw [h1, hz, add_sub_cancel_left, he] at h2
  have a0 : p 0 = 0 := by nlinarith [sq_nonneg (p 0), sq_nonneg (p 1)]
  have a1 : p 1 = 0 := by nlinarith [sq_nonneg (p 0), sq_nonneg (p 1)]
  apply V3.ext3 <;> simp [a0, a1, hz]

theorem hubBlank_dist (hc : 0 < c) {p : V3} (hp : p ∈ Spec.hubBlank σ a c R0 R1) : Spec.apexDist a p ≤ R0 := by
  rcases hp with ⟨h1, -, h2⟩ | ⟨-, -, h2⟩
  · rw [Spec.InCone] at h1
    nlinarith
  · exact h2

theorem pickPart_pair {inside : Bool} {x y : Set V3} (h : boxCentreZ x < boxCentreZ y) {l : List (Set V3)}
    (hl : l = [x, y] ∨ l = [y, x]) : pickPart inside l = some (if inside then y else x) := by
  have hlen : ¬l.length < 2 := by rcases hl with rfl | rfl <;> simp
  rw [pickPart, if_neg hlen, sortOn_pair boxCentreZ h hl]
  cases inside <;> simp

/-! ### From the gear to the blank -/

/-- `P` is the profile of a slice of the gear: its outside ring is that of the reference circles. -/
def RingOf {α : Type} (o : CurveOps α) (asEuler : M3 → ℝ × ℝ × ℝ) (g : GearCore) (P : RefProfile α) : Prop :=
  ∃ (C : RefCircles) (tooth : α) (rA rD rO : ℝ) (m : V3) (pitch : ℝ),
    referenceCircles asEuler g.recipe.gen.pitchRadius g.recipe.limits.hA g.recipe.limits.hD g.recipe.limits.hO
      g.recipe.coneAngle g.recipe.coneBase = some C ∧
    C.o.arcRadius = some rO ∧ C.o.arcCenter = some m ∧ closeProfile o asEuler tooth rA rD rO m pitch = some P

theorem closeProfile_ro {α : Type} {o : CurveOps α} {asEuler : M3 → ℝ × ℝ × ℝ} {tooth : α} {rA rD rO : ℝ} {m : V3}
    {pitch : ℝ} {P : RefProfile α} (h : closeProfile o asEuler tooth rA rD rO m pitch = some P) :
    P.ro.arcRadius = some rO ∧ P.ro.arcCenter = some m := by
  unfold closeProfile at h
  simp only at h
  split at h
  · cases h
  · split at h
    · cases h
    · split at h
      · split at h
        · cases h
          simp [Curve.arcRadius, Curve.arcCenter, arcInit_kind]
        · cases h
      · cases h

theorem circle_arc {asEuler : M3 → ℝ × ℝ × ℝ} {p m ax : V3} {ang : ℝ} {c : Curve}
    (h : arcFromPointCenterAngle asEuler p m ang ax true = some c) :
    c.arcRadius = some (norm3 (p - m)) ∧ c.arcCenter = some m := by
  unfold arcFromPointCenterAngle at h
  simp only at h
  split at h
  · cases h
  · split at h
    · cases h
    · cases h
      simp [Curve.arcRadius, Curve.arcCenter, arcInit_kind]

/-- The cone half angle of the outside ring of a gear. -/
noncomputable def ringAngle (p : GearInput) : ℝ :=
  |p.coneAngle| / 2 - min (if p.insideTeeth then -2 else 2) (p.numTeeth / 2 - DELTA) /
    (p.numTeeth / 2 / sin (|p.coneAngle| / 2))

/-- The height of the apex and the distance of a slice from it. -/
noncomputable def apexHeight (p : GearInput) : ℝ := sgn p.coneAngle * (p.numTeeth / 2 / tan (|p.coneAngle| / 2))
noncomputable def sliceDist (p : GearInput) (z : ℝ) : ℝ :=
  p.numTeeth / 2 / sin (|p.coneAngle| / 2) - sgn p.coneAngle * z

theorem ring_circle {asEuler : M3 → ℝ × ℝ × ℝ} {rp hA hD hO coneAngle : ℝ} (hr : 0 < rp) (h0 : coneAngle ≠ 0)
    (h1 : |coneAngle| < π) {C : RefCircles} (hC : referenceCircles asEuler rp hA hD hO coneAngle rp = some C) :
    C.o.arcRadius = some |rp / sin (|coneAngle| / 2) *
        sin (|coneAngle| / 2 - min hO (rp - DELTA) / (rp / sin (|coneAngle| / 2)))| ∧
      C.o.arcCenter = some ![0, 0, sgn coneAngle * (rp / tan (|coneAngle| / 2) - rp / sin (|coneAngle| / 2) *
        cos (|coneAngle| / 2 - min hO (rp - DELTA) / (rp / sin (|coneAngle| / 2))))] := by
  obtain ⟨hpol, hinv⟩ := polar_pitch_point hr h0 h1
  have hp0 : rp • RIGHT = ![rp, 0, 0] := by apply V3.ext3 <;> simp [RIGHT]
  have hmin : -(if hO > rp - DELTA then rp - DELTA else hO) = -min hO (rp - DELTA) := by
    split_ifs with h
    · rw [min_eq_right (le_of_lt h)]
    · rw [min_eq_left (not_lt.1 h)]
  simp only [referenceCircles, hp0, hpol, hinv, hmin, neg_div, ← sub_eq_add_neg] at hC
  split at hC
  case h_1 c1 c2 c3 c4 e1 e2 e3 e4 =>
    cases hC
    obtain ⟨k1, k2⟩ := circle_arc e4
    rw [k1, k2]
    constructor
    · congr 1
      refine norm3_eq_of_dot (abs_nonneg _) ?_
      rw [sq_abs]
      simp [dot, conePoint, OUT]
      ring
    · congr 1
      apply V3.ext3 <;> simp [conePoint, OUT]
  case h_2 => cases hC

theorem half_angle {x : ℝ} (h0 : x ≠ 0) : sin (x / 2) = sgn x * sin (|x| / 2) ∧ cos (x / 2) = cos (|x| / 2) := by
  rcases lt_or_gt_of_ne h0 with h | h
  · rw [sgn, if_pos h, abs_of_neg h, neg_div, sin_neg, cos_neg]; simp
  · rw [sgn, if_neg (by linarith), if_neg h0, abs_of_pos h]; simp

section gear
variable {α : Type} {o : CurveOps α} {asEuler : M3 → ℝ × ℝ × ℝ}

/-- What `gen_ref_solid` reads from an involute or a cycloid gear. -/
theorem blank_data (p : GearInput) (hn : 0 < p.numTeeth) (make : GearInput → WGear)
    (hmake : make = involuteGear ∨ make = cycloidGear) (h0 : p.coneAngle ≠ 0) (h1 : |p.coneAngle| < π)
    (hθ : 0 < sin (ringAngle p)) (P0 P1 : RefProfile α) (hP0 : RingOf o asEuler (make p).core P0)
    (hP1 : RingOf o asEuler (make p).core P1) (hz0 : 0 < sliceDist p (p.zVals.headD 0))
    (hz1 : 0 < sliceDist p (p.zVals.getLastD 0)) :
    (make p).core.blankData P0 P1 = some
      { center0 := ![0, 0, apexHeight p]
        R0 := sliceDist p (p.zVals.headD 0)
        center1 := ![0, 0, apexHeight p]
        R1 := sliceDist p (p.zVals.getLastD 0)
        ringCenter0 := ![0, 0, apexHeight p - sgn p.coneAngle * (sliceDist p (p.zVals.headD 0) * cos (ringAngle p))]
        ringRadius0 := sliceDist p (p.zVals.headD 0) * sin (ringAngle p)
        ringCenter1 := ![0, 0, apexHeight p - sgn p.coneAngle * (sliceDist p (p.zVals.getLastD 0) * cos (ringAngle p))]
        ringRadius1 := sliceDist p (p.zVals.getLastD 0) * sin (ringAngle p) } := by
  have hmod : ∀ g : WGear, g = involuteGear p ∨ g = cycloidGear p → 
      (∀ z, g.core.recipe.center z = (z * cos (p.coneAngle / 2)) • OUT) ∧
      (∀ z, g.core.recipe.scale z = 1 - z * 2 * sin (p.coneAngle / 2) / p.numTeeth) ∧
      g.core.recipe.coneAngle = p.coneAngle ∧ g.core.recipe.coneBase = p.numTeeth / 2 ∧
      g.core.recipe.limits.hO = (if p.insideTeeth then -2 else 2) ∧ g.core.recipe.gen.pitchRadius = p.numTeeth / 2 ∧
      g.core.zVals = p.zVals := by
    rintro g (rfl | rfl)
    · rw [involuteGear, normalise_pos hn, make_pos hn]
      refine ⟨fun z => rfl, fun z => rfl, rfl, rfl, rfl, ?_, rfl⟩
      simp only [GearInput.calcParams, GearInput.involuteGen]
      split_ifs <;> rfl
    · exact ⟨fun z => rfl, fun z => rfl, rfl, rfl, rfl, rfl, rfl⟩
  obtain ⟨e1, e2, e3, e4, e5, e6, e7⟩ := hmod (make p) (by rcases hmake with rfl | rfl <;> simp)
  obtain ⟨sg, cg⟩ := half_angle h0
  have hr : 0 < p.numTeeth / 2 := by linarith
  have hg0 : 0 < |p.coneAngle| / 2 := by have := abs_pos.2 h0; linarith
  have hsin : 0 < sin (|p.coneAngle| / 2) := sin_pos_of_pos_of_lt_pi hg0 (by linarith [pi_pos])
  have hσ2 : sgn p.coneAngle * sgn p.coneAngle = 1 := sgn_mul_self h0
  have hR : 0 < p.numTeeth / 2 / sin (|p.coneAngle| / 2) := div_pos hr hsin
  have hscale : ∀ z, (make p).core.recipe.scale z * (p.numTeeth / 2 / sin (|p.coneAngle| / 2)) = sliceDist p z := by
    intro z
    rw [e2, sg, sliceDist]
    field_simp
  have key : ∀ (P : RefProfile α), RingOf o asEuler (make p).core P →
      P.ro.arcRadius = some (p.numTeeth / 2 / sin (|p.coneAngle| / 2) * sin (ringAngle p)) ∧
      P.ro.arcCenter = some ![0, 0, sgn p.coneAngle * (p.numTeeth / 2 / tan (|p.coneAngle| / 2) -
        p.numTeeth / 2 / sin (|p.coneAngle| / 2) * cos (ringAngle p))] := by
    rintro P ⟨C, tooth, rA, rD, rO, m, pitch, hC, k1, k2, hP⟩
    rw [e3, e4, e5, e6] at hC
    obtain ⟨c1, c2⟩ := ring_circle hr h0 h1 hC
    obtain ⟨d1, d2⟩ := closeProfile_ro hP
    rw [d1, d2, ← k1, ← k2, c1, c2]
    refine ⟨?_, rfl⟩
    congr 1
    exact abs_of_pos (mul_pos hR hθ)
  obtain ⟨a1, a2⟩ := key P0 hP0
  obtain ⟨b1, b2⟩ := key P1 hP1
  have hcen : ∀ (g : GearCore) (z : ℝ), g.recipe = (make p).core.recipe → g.transform = GearTransform.default →
      (g.coneAtZ z).center = ![0, 0, apexHeight p] := by
    intro g z k1 k2
    simp only [k1, k2, GearCore.coneAtZ, ConicData.center, ConicData.gamma, GearCore.transformAt, GearTransform.mul,
      GearTransform.default, TransformData.default, GearCore.recipeTransform, e1, e2, e3, e4, applyTransform, apexHeight, Rz_zero,
      mul_one, one_smul, app_one, one_mul]
    rw [tan_eq_sin_div_cos, tan_eq_sin_div_cos, sg, cg]
    apply V3.ext3
    · simp [OUT, ORIGIN]
    · simp [OUT, ORIGIN]
    · simp [OUT, ORIGIN]
      have hs' : sgn p.coneAngle ≠ 0 := by intro h; rw [h] at hσ2; simp at hσ2
      field_simp
      linear_combination (-p.numTeeth * cos (|p.coneAngle| / 2)) * hσ2
  have hRz : ∀ (g : GearCore) (z : ℝ), g.recipe = (make p).core.recipe → g.transform = GearTransform.default →
      0 < sliceDist p z → |(g.coneAtZ z).R| = sliceDist p z := by
    intro g z k1 k2 hz
    simp only [k1, k2, GearCore.coneAtZ, ConicData.R, ConicData.gamma, GearCore.transformAt, GearTransform.mul,
      GearTransform.default, TransformData.default, GearCore.recipeTransform, e3, e4, abs_abs, one_mul]
    rw [sg, ← abs_of_pos hz, ← hscale z]
    have : p.numTeeth / 2 / (sgn p.coneAngle * sin (|p.coneAngle| / 2)) * (make p).core.recipe.scale z =
        sgn p.coneAngle * ((make p).core.recipe.scale z * (p.numTeeth / 2 / sin (|p.coneAngle| / 2))) := by
      have hs' : sgn p.coneAngle ≠ 0 := by intro h; rw [h] at hσ2; simp at hσ2
      field_simp
      linear_combination (-(make p).core.recipe.scale z) * hσ2
    rw [this, abs_mul]
    have : |sgn p.coneAngle| = 1 := by
      have : |sgn p.coneAngle| * |sgn p.coneAngle| = 1 := by rw [abs_mul_abs_self, hσ2]
      nlinarith [abs_nonneg (sgn p.coneAngle)]
    rw [this, one_mul]
  have hring : ∀ z, applyGearTransform ![0, 0, sgn p.coneAngle * (p.numTeeth / 2 / tan (|p.coneAngle| / 2) -
        p.numTeeth / 2 / sin (|p.coneAngle| / 2) * cos (ringAngle p))] ((make p).core.recipeTransform z) =
      ![0, 0, apexHeight p - sgn p.coneAngle * (sliceDist p z * cos (ringAngle p))] := by
    intro z
    rw [← hscale z, apexHeight, e2, sg]
    rw [applyGearTransform_eq]
    simp only [GearCore.recipeTransform, e1, e2, sg, cg, app_one, Rz_app]
    rw [tan_eq_sin_div_cos]
    apply V3.ext3
    · simp [OUT]
    · simp [OUT]
    · simp [OUT]
      field_simp
      linear_combination (-2 * z * sin (|p.coneAngle| / 2) * cos (|p.coneAngle| / 2)) * hσ2
  simp only [GearCore.blankData, a1, a2, b1, b2, e7]
  have kc := fun z => hcen ⟨(make p).core.tooth, p.zVals, (make p).core.module_, (make p).core.recipe,
    GearTransform.default⟩ z rfl rfl
  have kr := fun z => hRz ⟨(make p).core.tooth, p.zVals, (make p).core.module_, (make p).core.recipe,
    GearTransform.default⟩ z rfl rfl
  rw [kc, kc, kr _ hz0, kr _ hz1, hring, hring, ← hscale (p.zVals.headD 0), ← hscale (p.zVals.getLastD 0)]
  simp only [GearCore.recipeTransform, Option.some.injEq, BlankData.mk.injEq, true_and]
  refine ⟨?_, ?_⟩ <;> ring

/-- A gear with a cone angle whose slices stay on one side of the apex. -/
structure BevelOk (p : GearInput) : Prop where
  teeth : 1 ≤ p.numTeeth
  cone : p.coneAngle ≠ 0
  cone' : |p.coneAngle| < π
  height : 0 < p.height
  module : 0 < p.module_
  bottom : 0 < sliceDist p (p.zVals.headD 0)
  top : 0 < sliceDist p (p.zVals.getLastD 0)

theorem BevelOk.heights {p : GearInput} (h : BevelOk p) : p.zVals.headD 0 < p.zVals.getLastD 0 := by
  simp only [GearInput.zVals, List.headD_cons, List.getLastD_cons, List.getLastD_nil]
  have := div_pos h.height h.module
  nlinarith

theorem BevelOk.half {p : GearInput} (h : BevelOk p) : 0 < |p.coneAngle| / 2 ∧ |p.coneAngle| / 2 < π / 2 :=
  ⟨by have := abs_pos.2 h.cone; linarith, by linarith [h.cone']⟩

theorem BevelOk.sin_pos {p : GearInput} (h : BevelOk p) : 0 < sin (|p.coneAngle| / 2) :=
  sin_pos_of_pos_of_lt_pi h.half.1 (by linarith [h.half.2, pi_pos])

theorem BevelOk.dist_pos {p : GearInput} (h : BevelOk p) : 0 < p.numTeeth / 2 / sin (|p.coneAngle| / 2) :=
  div_pos (by linarith [h.teeth]) h.sin_pos

/-- The outside ring of a gear with outer teeth is nearer to the axis than the pitch circle. -/
theorem ringAngle_outer {p : GearInput} (h : BevelOk p) (hi : p.insideTeeth = false) :
    0 < ringAngle p ∧ ringAngle p < |p.coneAngle| / 2 := by
  have hR := h.dist_pos
  have hs := h.sin_pos
  have ht := h.teeth
  have hd : (0 : ℝ) < DELTA ∧ DELTA < 1 / 4 := by constructor <;> norm_num [DELTA]
  have hm : 0 < min (2 : ℝ) (p.numTeeth / 2 - DELTA) := lt_min two_pos (by linarith)
  simp only [ringAngle, hi]
  constructor
  · have h1 : min (2 : ℝ) (p.numTeeth / 2 - DELTA) / (p.numTeeth / 2 / sin (|p.coneAngle| / 2)) <
        sin (|p.coneAngle| / 2) := by
      rw [div_lt_iff₀ hR, mul_div_cancel₀ _ hs.ne']
      exact lt_of_le_of_lt (min_le_right _ _) (by linarith)
    have h2 := Real.sin_lt h.half.1
    simp only [Bool.false_eq_true, if_false]
    linarith
  · simp only [Bool.false_eq_true, if_false]
    have := div_pos hm hR
    linarith

theorem ringAngle_inner {p : GearInput} (h : BevelOk p) (hi : p.insideTeeth = true) :
    ringAngle p = |p.coneAngle| / 2 + 2 / (p.numTeeth / 2 / sin (|p.coneAngle| / 2)) := by
  have hd : (DELTA : ℝ) < 1 / 4 := by norm_num [DELTA]
  rw [ringAngle, hi, if_pos rfl, min_eq_left (by linarith [h.teeth]), neg_div, sub_neg_eq_add]

/-- Where a point of the reference sphere is in the slice at height `z`. -/
noncomputable def WGear.inSlice (g : WGear) (z : ℝ) (q : V3) : V3 := applyGearTransform q (g.core.recipeTransform z)

theorem inSlice_facts (p : GearInput) (h : BevelOk p) (make : GearInput → WGear)
    (hmake : make = involuteGear ∨ make = cycloidGear) (z : ℝ) (hz : 0 < sliceDist p z) (q : V3)
    (hq : Spec.apexDist (apexHeight p) q = p.numTeeth / 2 / sin (|p.coneAngle| / 2)) :
    Spec.apexDist (apexHeight p) ((make p).inSlice z q) = sliceDist p z ∧
      Spec.apexDepth (sgn p.coneAngle) (apexHeight p) ((make p).inSlice z q) * (p.numTeeth / 2 / sin (|p.coneAngle| / 2)) =
        sliceDist p z * Spec.apexDepth (sgn p.coneAngle) (apexHeight p) q := by
  have hn : 0 < p.numTeeth := by linarith [h.teeth]
  have hmod : ∀ g : WGear, g = involuteGear p ∨ g = cycloidGear p →
      g.core.recipe.center z = (z * cos (p.coneAngle / 2)) • OUT ∧
      g.core.recipe.scale z = 1 - z * 2 * sin (p.coneAngle / 2) / p.numTeeth := by
    rintro g (rfl | rfl)
    · rw [involuteGear, normalise_pos hn, make_pos hn]; exact ⟨rfl, rfl⟩
    · exact ⟨rfl, rfl⟩
  obtain ⟨e1, e2⟩ := hmod (make p) (by rcases hmake with rfl | rfl <;> simp)
  obtain ⟨sg, cg⟩ := half_angle h.cone
  have hsin := h.sin_pos
  have hR := h.dist_pos
  have hσ2 : sgn p.coneAngle * sgn p.coneAngle = 1 := sgn_mul_self h.cone
  obtain ⟨k, hk⟩ : ∃ k, k = (make p).core.recipe.scale z := ⟨_, rfl⟩
  have hscale : k * (p.numTeeth / 2 / sin (|p.coneAngle| / 2)) = sliceDist p z := by
    rw [hk, e2, sg, sliceDist]
    field_simp
  have hkpos : 0 < k := by
    by_contra hn'
    have := mul_nonpos_of_nonpos_of_nonneg (not_lt.1 hn') hR.le
    linarith
  have hc : z * cos (p.coneAngle / 2) = apexHeight p * (1 - k) := by
    rw [hk, e2, sg, cg, apexHeight, tan_eq_sin_div_cos]
    field_simp
    linear_combination (-z * 2 * cos (|p.coneAngle| / 2) * sin (|p.coneAngle| / 2)) * hσ2
  have hw : (make p).inSlice z q - ![0, 0, apexHeight p] =
      k • app (Rz ((make p).core.recipe.angle z)) (q - ![0, 0, apexHeight p]) := by
    rw [WGear.inSlice, applyGearTransform_eq]
    simp only [GearCore.recipeTransform, app_one, ← hk, e1, hc, Rz_app]
    apply V3.ext3 <;> simp [OUT]
    ring
  constructor
  · rw [apexDist_eq, hw, norm3_smul, (IsRot.Rz _).norm_app, ← apexDist_eq, hq, abs_of_pos hkpos, hscale]
  · have h2 := congrFun hw 2
    simp only [Rz_app, Pi.sub_apply, Pi.smul_apply, Matrix.cons_val, smul_eq_mul] at h2
    rw [Spec.apexDepth, Spec.apexDepth, ← hscale]
    linear_combination (-sgn p.coneAngle * (p.numTeeth / 2 / sin (|p.coneAngle| / 2))) * h2

/-- Points outside the cone of the hub stay outside in every slice. -/
theorem inSlice_cone (p : GearInput) (h : BevelOk p) (make : GearInput → WGear)
    (hmake : make = involuteGear ∨ make = cycloidGear) (z : ℝ) (hz : 0 < sliceDist p z) (q : V3)
    (hq : Spec.apexDist (apexHeight p) q = p.numTeeth / 2 / sin (|p.coneAngle| / 2)) :
    Spec.InCone (sgn p.coneAngle) (apexHeight p) c ((make p).inSlice z q) ↔
      Spec.InCone (sgn p.coneAngle) (apexHeight p) c q := by
  obtain ⟨h1, h2⟩ := inSlice_facts p h make hmake z hz q hq
  have hR := h.dist_pos
  rw [Spec.InCone, Spec.InCone, h1, hq]
  constructor
  · intro h3
    have := mul_le_mul_of_nonneg_right h3 hR.le
    rw [h2, mul_comm c, mul_assoc] at this
    have := le_of_mul_le_mul_left this hz
    linarith
  · intro h3
    have := mul_le_mul_of_nonneg_left h3 hz.le
    rw [← h2] at this
    refine le_of_mul_le_mul_right (a := p.numTeeth / 2 / sin (|p.coneAngle| / 2)) ?_ hR
    linarith

/-- **C132, blank of a bevel gear with outer teeth.** Inside the cone of the hub it lies between two planes, elsewhere
between the spheres about the apex through the lowest and the highest slice. -/
theorem c132_blank (p : GearInput) (h : BevelOk p) (hpos : 0 < p.coneAngle) (hi : p.insideTeeth = false)
    (make : GearInput → WGear) (hmake : make = involuteGear ∨ make = cycloidGear) (P0 P1 : RefProfile α)
    (hP0 : RingOf o asEuler (make p).core P0) (hP1 : RingOf o asEuler (make p).core P1) (parts : List (Set V3)) :
    ∃ d, (make p).core.blankData P0 P1 = some d ∧
      d.refSolid (make p).core.tooth.insideTeeth parts = some (Spec.hubBlank 1 (apexHeight p) (cos (ringAngle p))
        (sliceDist p (p.zVals.headD 0)) (sliceDist p (p.zVals.getLastD 0))) := by
  obtain ⟨t1, t2⟩ := ringAngle_outer h hi
  have hn : 0 < p.numTeeth := by linarith [h.teeth]
  have hs : 0 < sin (ringAngle p) := sin_pos_of_pos_of_lt_pi t1 (by linarith [h.half.2, pi_pos])
  have hc : 0 < cos (ringAngle p) := cos_pos_of_mem_Ioo ⟨by linarith [pi_pos], by linarith [h.half.2]⟩
  have hσ : sgn p.coneAngle = 1 := by rw [sgn, if_neg (by linarith), if_neg h.cone]
  have hlt : sliceDist p (p.zVals.getLastD 0) < sliceDist p (p.zVals.headD 0) := by
    rw [sliceDist, sliceDist, hσ]; linarith [h.heights]
  have hin : (make p).core.tooth.insideTeeth = false := by
    rcases hmake with rfl | rfl
    · rw [involuteGear, normalise_pos hn, make_pos hn]; exact hi
    · rw [cycloidGear, GearInput.calcCycloid, make_pos hn]; exact hi
  refine ⟨_, blank_data p hn make hmake h.cone h.cone' hs P0 P1 hP0 hP1 h.bottom h.top, ?_⟩
  rw [BlankData.refSolid, hin, if_neg (by simp), ← hub_eq hc hs (by rw [add_comm]; exact sin_sq_add_cos_sq _) h.top hlt]
  simp only [BlankData.shell, BlankData.ringHeight, hσ, Matrix.cons_val]
  rw [cut_balls h.top hlt]

/-- **C132, teeth in the blank.** Of the flanks, which lie outside the cone of the hub, exactly the slices from the lowest
to the highest one are in the blank. -/
theorem c132_teeth (p : GearInput) (h : BevelOk p) (hpos : 0 < p.coneAngle) (make : GearInput → WGear)
    (hmake : make = involuteGear ∨ make = cycloidGear) (z : ℝ) (hz : 0 < sliceDist p z) (q : V3)
    (hq : Spec.apexDist (apexHeight p) q = p.numTeeth / 2 / sin (|p.coneAngle| / 2))
    (hout : ¬Spec.InCone 1 (apexHeight p) (cos (ringAngle p)) q) :
    (make p).inSlice z q ∈ Spec.hubBlank 1 (apexHeight p) (cos (ringAngle p))
        (sliceDist p (p.zVals.headD 0)) (sliceDist p (p.zVals.getLastD 0)) ↔
      p.zVals.headD 0 ≤ z ∧ z ≤ p.zVals.getLastD 0 := by
  have hσ : sgn p.coneAngle = 1 := by rw [sgn, if_neg (by linarith), if_neg h.cone]
  have h1 := inSlice_cone (c := cos (ringAngle p)) p h make hmake z hz q hq
  have h2 := (inSlice_facts p h make hmake z hz q hq).1
  rw [hσ] at h1
  rw [Spec.hubBlank, mem_ofPred_eq, h1, h2]
  simp only [hout, false_and, false_or, not_false_iff, true_and, sliceDist, hσ]
  constructor <;> rintro ⟨h3, h4⟩ <;> constructor <;> linarith

/-- **C132, choice of the part.** When the side surfaces cut the blank of a gear with outer teeth in two, the part with
the bottom of the hub is kept, and the rest, which has the far pole of the sphere, is thrown away. -/
theorem c132_pick (hc : 0 < c) (B O : Set V3) (hB : IsClosed B)
    (hBS : B ⊆ Spec.hubBlank 1 a c R0 R1) (hOS : O ⊆ Spec.hubBlank 1 a c R0 R1) (b : V3) (hb : b ∈ B)
    (hb2 : b 2 = a - R0 * c) (ho : ![0, 0, a + R0] ∈ O) (hBO : ![0, 0, a + R0] ∉ B) (parts : List (Set V3))
    (hp : parts = [B, O] ∨ parts = [O, B]) : pickPart false parts = some B := by
  rw [pickPart_pair (x := B) (y := O) ?_ hp]; · simp
  refine boxCentre_lower (S := Spec.hubBlank 1 a c R0 R1) (lo := a - R0 * c) (hi := a + R0) ?_
    (isCompact_of_dist hB fun q hq => hubBlank_dist hc (hBS hq)) hBS hOS hb hb2 ho (by simp) ?_
  · intro q hq
    have h1 := hubBlank_dist hc hq
    have h2 := abs_le.1 ((apexDepth_le (σ := 1) (a := a) (by norm_num) q).trans h1)
    rw [Spec.apexDepth] at h2
    refine ⟨?_, by linarith⟩
    rcases hq with ⟨-, -, h3⟩ | ⟨h3, -, -⟩
    · rw [Spec.apexDepth] at h3; linarith
    · rw [Spec.InCone, Spec.apexDepth] at h3; nlinarith [apexDist_nonneg a q]
  · intro q hq he
    exact hBO (pole_unique q (hubBlank_dist hc (hBS hq)) rfl he ▸ hq)

/-- The shell of a gear with the apex on either side. -/
theorem shell_minmax (h0 : 0 < R0) (h1 : 0 < R1) (hne : R0 ≠ R1) :
    cutSolid (ballSolid ![0, 0, a] R0 ∪ ballSolid ![0, 0, a] R1) (ballSolid ![0, 0, a] R0 ∩ ballSolid ![0, 0, a] R1) =
      shellSet a (max R0 R1) (min R0 R1) := by
  rcases lt_or_gt_of_ne hne with h | h
  · rw [union_comm, inter_comm, max_eq_right h.le, min_eq_left h.le, cut_balls h0 h]
  · rw [max_eq_left h.le, min_eq_right h.le, cut_balls h1 h]

/-- **C132, blank of a bevel ring gear.** The shell between the two spheres is cut along the cone of the outside ring,
and the part within this cone is the blank. -/
theorem c132_ring_blank (p : GearInput) (h : BevelOk p) (hi : p.insideTeeth = true) (hθ : ringAngle p < π / 2)
    (make : GearInput → WGear) (hmake : make = involuteGear ∨ make = cycloidGear) (P0 P1 : RefProfile α)
    (hP0 : RingOf o asEuler (make p).core P0) (hP1 : RingOf o asEuler (make p).core P1) :
    ∃ d, (make p).core.blankData P0 P1 = some d ∧ (∃ parts, IsSplit d.shell d.ringFace parts) ∧
      ∀ parts, IsSplit d.shell d.ringFace parts → d.refSolid (make p).core.tooth.insideTeeth parts =
        some (Spec.ringBlank (sgn p.coneAngle) (apexHeight p) (cos (ringAngle p))
          (min (sliceDist p (p.zVals.headD 0)) (sliceDist p (p.zVals.getLastD 0)))
          (max (sliceDist p (p.zVals.headD 0)) (sliceDist p (p.zVals.getLastD 0)))) := by
  have hn : 0 < p.numTeeth := by linarith [h.teeth]
  have t1 : 0 < ringAngle p := by
    rw [ringAngle_inner h hi]
    have := div_pos two_pos h.dist_pos
    linarith [h.half.1]
  have hs : 0 < sin (ringAngle p) := sin_pos_of_pos_of_lt_pi t1 (by linarith [pi_pos])
  have hc : 0 < cos (ringAngle p) := cos_pos_of_mem_Ioo ⟨by linarith [pi_pos], hθ⟩
  have hσ2 : sgn p.coneAngle * sgn p.coneAngle = 1 := sgn_mul_self h.cone
  have hne : sliceDist p (p.zVals.headD 0) ≠ sliceDist p (p.zVals.getLastD 0) := by
    intro e
    rw [sliceDist, sliceDist] at e
    have e2 : sgn p.coneAngle * p.zVals.headD 0 = sgn p.coneAngle * p.zVals.getLastD 0 := by linarith
    have := mul_left_cancel₀ (left_ne_zero_of_mul_eq_one hσ2) e2
    linarith [h.heights]
  have hin : (make p).core.tooth.insideTeeth = true := by
    rcases hmake with rfl | rfl
    · rw [involuteGear, normalise_pos hn, make_pos hn]; exact hi
    · rw [cycloidGear, GearInput.calcCycloid, make_pos hn]; exact hi
  refine ⟨_, blank_data p hn make hmake h.cone h.cone' hs P0 P1 hP0 hP1 h.bottom h.top, ?_⟩
  simp only [BlankData.shell, BlankData.ringFace, BlankData.ringHeight, Matrix.cons_val]
  rw [shell_minmax h.bottom h.top hne]
  obtain ⟨A, hA⟩ : ∃ A, A = sliceDist p (p.zVals.headD 0) := ⟨_, rfl⟩
  obtain ⟨B, hB⟩ : ∃ B, B = sliceDist p (p.zVals.getLastD 0) := ⟨_, rfl⟩
  have hA0 := h.bottom
  have hB0 := h.top
  rw [← hA, ← hB] at hne ⊢
  rw [← hA] at hA0
  rw [← hB] at hB0
  have hm0 : 0 < min A B := lt_min hA0 hB0
  have hmm : min A B < max A B := min_lt_max.2 hne
  have key := split_shell (a := apexHeight p) hσ2 hm0 hmm t1 (by linarith [pi_pos]) _ (mem_frustumSide hσ2 hc hs
    (by rw [add_comm]; exact sin_sq_add_cos_sq _) hA0 hB0 hne)
  have hv := volume_lt (a := apexHeight p) hσ2 hm0 hmm hc
  have hxy : Spec.ringBlank (sgn p.coneAngle) (apexHeight p) (cos (ringAngle p)) (min A B) (max A B) ≠
      outerPart (sgn p.coneAngle) (apexHeight p) (cos (ringAngle p)) (max A B) (min A B) := fun e => by
    rw [e] at hv; exact lt_irrefl _ hv
  refine ⟨⟨[Spec.ringBlank (sgn p.coneAngle) (apexHeight p) (cos (ringAngle p)) (min A B) (max A B),
    outerPart (sgn p.coneAngle) (apexHeight p) (cos (ringAngle p)) (max A B) (min A B)],
    ⟨?_, fun P => Iff.trans ?_ (key P).symm⟩⟩, fun parts hp => ?_⟩
  · simp [hxy]
  · simp
  · rw [BlankData.refSolid, hin, if_pos rfl, sortOn_pair (fun S => volume S) hv
      (split_pair hp.nodup (fun P => (hp.mem P).trans (key P)) hxy)]
    rfl

/-- **C132, choice of the part of a ring gear.** With the apex above the gear the part with the upper rim is kept, and the
plug inside the teeth, which has the pole of the sphere, is thrown away. -/
theorem c132_ring_pick (hc : 0 < c) (B O : Set V3) (hB : IsClosed B)
    (hBS : B ⊆ Spec.ringBlank 1 a c R1 R0) (hOS : O ⊆ Spec.ringBlank 1 a c R1 R0) (b : V3) (hb : b ∈ B)
    (hb2 : b 2 = a - R1 * c) (ho : ![0, 0, a - R0] ∈ O) (hBO : ![0, 0, a - R0] ∉ B) (parts : List (Set V3))
    (hp : parts = [B, O] ∨ parts = [O, B]) : pickPart true parts = some B := by
  rw [pickPart_pair (x := O) (y := B) ?_ hp.symm]; · simp
  refine boxCentre_upper (S := Spec.ringBlank 1 a c R1 R0) (lo := a - R0) (hi := a - R1 * c) ?_
    (isCompact_of_dist hB fun q hq => (hBS hq).2.2) hBS hOS hb hb2 ho (by simp) ?_
  · rintro q ⟨h2, h3, h4⟩
    have h5 := abs_le.1 ((apexDepth_le (σ := 1) (a := a) (by norm_num) q).trans h4)
    rw [Spec.InCone] at h2
    rw [Spec.apexDepth] at h2 h5
    exact ⟨by linarith, by nlinarith⟩
  · intro q hq he
    rw [sub_eq_add_neg] at he hBO
    exact hBO (pole_unique q (hBS hq).2.2 (neg_sq _) he ▸ hq)

/-- With the apex below the gear the two parts change places: the plug is kept and the ring with the teeth is thrown
away. -/
theorem c132_ring_pick_violated (hc : 0 < c) (B O : Set V3) (hB : IsClosed B)
    (hBS : B ⊆ Spec.ringBlank (-1) a c R1 R0) (hOS : O ⊆ Spec.ringBlank (-1) a c R1 R0) (b : V3) (hb : b ∈ B)
    (hb2 : b 2 = a + R1 * c) (ho : ![0, 0, a + R0] ∈ O) (hBO : ![0, 0, a + R0] ∉ B) (parts : List (Set V3))
    (hp : parts = [B, O] ∨ parts = [O, B]) : pickPart true parts = some O := by
  rw [pickPart_pair (x := B) (y := O) ?_ hp]; · simp
  refine boxCentre_lower (S := Spec.ringBlank (-1) a c R1 R0) (lo := a + R1 * c) (hi := a + R0) ?_
    (isCompact_of_dist hB fun q hq => (hBS hq).2.2) hBS hOS hb hb2 ho (by simp) ?_
  · rintro q ⟨h2, h3, h4⟩
    have h5 := abs_le.1 ((apexDepth_le (σ := -1) (a := a) (by norm_num) q).trans h4)
    rw [Spec.InCone] at h2
    rw [Spec.apexDepth] at h2 h5
    exact ⟨by nlinarith, by linarith⟩
  · intro q hq he
    exact hBO (pole_unique q (hBS hq).2.2 rfl he ▸ hq)

/-- With a negative cone angle the blank is cut off below the plane of the outside ring of the lowest slice, although the
flanks of the lowest slices are below this plane: they are missing from every part of the blank, and so from the gear. -/
theorem c132_blank_violated (p : GearInput) (h : BevelOk p) (hneg : p.coneAngle < 0) (hi : p.insideTeeth = false)
    (make : GearInput → WGear) (hmake : make = involuteGear ∨ make = cycloidGear) (P0 P1 : RefProfile α)
    (hP0 : RingOf o asEuler (make p).core P0) (hP1 : RingOf o asEuler (make p).core P1) (parts : List (Set V3)) :
    ∃ d S, (make p).core.blankData P0 P1 = some d ∧ d.refSolid (make p).core.tooth.insideTeeth parts = some S ∧
      ∀ z q, 0 < sliceDist p z →
        Spec.apexDist (apexHeight p) q = p.numTeeth / 2 / sin (|p.coneAngle| / 2) →
        Spec.apexDepth (-1) (apexHeight p) q * sliceDist p z <
          cos (ringAngle p) * sliceDist p (p.zVals.headD 0) * (p.numTeeth / 2 / sin (|p.coneAngle| / 2)) →
        (make p).inSlice z q ∉ S ∧
          ∀ pieces K, (∀ P ∈ pieces, P ⊆ S) → pickPart (make p).core.tooth.insideTeeth pieces = some K →
            (make p).inSlice z q ∉ K := by
  obtain ⟨t1, t2⟩ := ringAngle_outer h hi
  have hn : 0 < p.numTeeth := by linarith [h.teeth]
  have hs : 0 < sin (ringAngle p) := sin_pos_of_pos_of_lt_pi t1 (by linarith [h.half.2, pi_pos])
  have hσ : sgn p.coneAngle = -1 := by rw [sgn, if_pos hneg]
  have hin : (make p).core.tooth.insideTeeth = false := by
    rcases hmake with rfl | rfl
    · rw [involuteGear, normalise_pos hn, make_pos hn]; exact hi
    · rw [cycloidGear, GearInput.calcCycloid, make_pos hn]; exact hi
  refine ⟨_, _, blank_data p hn make hmake h.cone h.cone' hs P0 P1 hP0 hP1 h.bottom h.top,
    by rw [BlankData.refSolid, hin, if_neg (by simp)], ?_⟩
  intro z q hz hq hlow
  have hR := h.dist_pos
  obtain ⟨-, h2⟩ := inSlice_facts p h make hmake z hz q hq
  have hno : (make p).inSlice z q 2 < apexHeight p + sliceDist p (p.zVals.headD 0) * cos (ringAngle p) := by
    rw [hσ] at h2
    have h3 : Spec.apexDepth (-1) (apexHeight p) ((make p).inSlice z q) <
        cos (ringAngle p) * sliceDist p (p.zVals.headD 0) := by
      refine lt_of_mul_lt_mul_right (a := p.numTeeth / 2 / sin (|p.coneAngle| / 2)) ?_ hR.le
      rw [h2]; linarith
    rw [Spec.apexDepth] at h3
    linarith
  have hnot : (make p).inSlice z q ∉ {r : V3 | apexHeight p - sgn p.coneAngle * (sliceDist p (p.zVals.headD 0) *
      cos (ringAngle p)) ≤ r 2} := by
    rw [mem_ofPred_eq, hσ]; linarith
  refine ⟨fun hm => hnot (by simpa using hm.2), fun pieces K hK hk hm => ?_⟩
  have hmem : K ∈ pieces := by
    rw [pickPart] at hk
    split at hk
    · cases hk
    · exact (List.perm_insertionSort _ _).mem_iff.1 (List.mem_of_getElem? hk)
  exact hnot (by simpa using (hK K hmem hm).2)

/-- A profile with this outside ring exists. -/
theorem ring_exists (hE : EulerOk asEuler) (p : GearInput) (h : BevelOk p)
    (ha : sin (|p.coneAngle| / 2 + p.addendum / (p.numTeeth / 2 / sin (|p.coneAngle| / 2))) ≠ 0)
    (hd : sin (|p.coneAngle| / 2 - p.dedendum / (p.numTeeth / 2 / sin (|p.coneAngle| / 2))) ≠ 0)
    (ho : sin (ringAngle p) ≠ 0) : ∃ P, RingOf curveOps asEuler (cycloidGear p).core P := by
  have hr : 0 < p.numTeeth / 2 := by linarith [h.teeth]
  obtain ⟨C, hC, -⟩ := c54_conical hE _ _ _ _ _ hr h.cone h.cone' ha hd ho
  obtain ⟨c1, c2⟩ := ring_circle hr h.cone h.cone' hC
  obtain ⟨P, hP, -⟩ := close_facts hE exampleFlank_ok 3 2 |p.numTeeth / 2 / sin (|p.coneAngle| / 2) * sin (ringAngle p)|
    ![0, 0, sgn p.coneAngle * (p.numTeeth / 2 / tan (|p.coneAngle| / 2) - p.numTeeth / 2 / sin (|p.coneAngle| / 2) *
        cos (ringAngle p))]
  exact ⟨P, C, _, 3, 2, _, _, _, hC, c1, c2, hP⟩

theorem sqrt2_facts : (√2 : ℝ) * √2 = 2 ∧ (14 / 10 : ℝ) < √2 ∧ (√2 : ℝ) < 142 / 100 := by
  have h : (√2 : ℝ) * √2 = 2 := mul_self_sqrt (by norm_num)
  have := sqrt_nonneg (2 : ℝ)
  exact ⟨h, by nlinarith, by nlinarith⟩

/-- A crown of twenty teeth with a cone angle of a right angle, one module high. -/
noncomputable def blankExample (s : ℝ) (inside : Bool) : GearInput :=
  { exampleInput with numTeeth := 20, coneAngle := s * (π / 2), height := 1, module_ := 1, zAnchor := 0,
                      addendum := 1, dedendum := 1, insideTeeth := inside }

theorem blankExample_facts {s : ℝ} (hs : s = 1 ∨ s = -1) (inside : Bool) :
    |(blankExample s inside).coneAngle| / 2 = π / 4 ∧ sgn (blankExample s inside).coneAngle = s ∧
      (blankExample s inside).numTeeth / 2 / sin (|(blankExample s inside).coneAngle| / 2) = 10 * √2 ∧
      BevelOk (blankExample s inside) := by
  have hpi := pi_pos
  obtain ⟨w1, w2, w3⟩ := sqrt2_facts
  have e1 : |(blankExample s inside).coneAngle| / 2 = π / 4 := by
    rcases hs with rfl | rfl
    · simp only [blankExample, one_mul]; rw [abs_of_pos (by linarith)]; ring
    · simp only [blankExample]; rw [abs_of_neg (by linarith)]; ring
  have e2 : sgn (blankExample s inside).coneAngle = s := by
    rcases hs with rfl | rfl
    · have : 0 < (blankExample 1 inside).coneAngle := by simp [blankExample, hpi]
      rw [sgn, if_neg (by linarith), if_neg (by linarith)]
    · have : (blankExample (-1) inside).coneAngle < 0 := by simp [blankExample, hpi]
      rw [sgn, if_pos this]
  have e3 : (blankExample s inside).numTeeth / 2 / sin (|(blankExample s inside).coneAngle| / 2) = 10 * √2 := by
    rw [e1, sin_pi_div_four]
    simp only [blankExample]
    field_simp
    nlinarith
  refine ⟨e1, e2, e3, ?_, ?_, ?_, ?_, ?_, ?_, ?_⟩
  · norm_num [blankExample]
  · rcases hs with rfl | rfl <;> simp [blankExample, hpi.ne']
  · linarith
  · norm_num [blankExample]
  · norm_num [blankExample]
  · rw [sliceDist, e3, e2]
    simp [blankExample, GearInput.zVals]
  · rw [sliceDist, e3, e2]
    simp only [blankExample, GearInput.zVals, List.getLastD_cons, List.getLastD_nil]
    rcases hs with rfl | rfl <;> linarith

theorem blankExample_ring {s : ℝ} (hs : s = 1 ∨ s = -1) :
    ringAngle (blankExample s true) < π / 2 ∧ ringAngle (blankExample s false) = π / 4 - √2 / 10 := by
  obtain ⟨w1, w2, w3⟩ := sqrt2_facts
  have w : 2 / (10 * √2) = √2 / 10 := by rw [div_eq_div_iff (by linarith) (by norm_num)]; linarith
  constructor
  · obtain ⟨e1, -, e3, h⟩ := blankExample_facts hs true
    rw [ringAngle_inner h rfl, e3, e1, w]
    linarith [pi_gt_three]
  · obtain ⟨e1, -, e3, h⟩ := blankExample_facts hs false
    rw [ringAngle, e3, e1, ← w]
    simp only [blankExample, Bool.false_eq_true, if_false]
    rw [min_eq_left (by norm_num [DELTA])]

theorem blankExample_profile (hE : EulerOk asEuler) {s : ℝ} (hs : s = 1 ∨ s = -1) (inside : Bool) :
    ∃ P, RingOf curveOps asEuler (cycloidGear (blankExample s inside)).core P := by
  obtain ⟨w1, w2, w3⟩ := sqrt2_facts
  obtain ⟨e1, -, e3, h⟩ := blankExample_facts hs inside
  obtain ⟨r1, r2⟩ := blankExample_ring hs
  have hpi := pi_gt_three
  have w : 1 / (10 * √2) = √2 / 20 := by rw [div_eq_div_iff (by linarith) (by norm_num)]; linarith
  refine ring_exists hE _ h ?_ ?_ ?_
  · rw [e3, e1]; simp only [blankExample]; rw [w]
    exact (sin_pos_of_pos_of_lt_pi (by linarith) (by linarith)).ne'
  · rw [e3, e1]; simp only [blankExample]; rw [w]
    exact (sin_pos_of_pos_of_lt_pi (by linarith) (by linarith)).ne'
  · cases inside
    · obtain ⟨k1, k2⟩ := ringAngle_outer h rfl
      exact (sin_pos_of_pos_of_lt_pi k1 (by rw [e1] at k2; linarith)).ne'
    · have : 0 < ringAngle (blankExample s true) := by
        rw [ringAngle_inner h rfl, e3, e1]
        have : (0 : ℝ) < 2 / (10 * √2) := by positivity
        linarith
      exact (sin_pos_of_pos_of_lt_pi this (by linarith)).ne'

/-- The hypotheses of `c132_blank` and `c132_teeth` can be met: the tip of the pitch circle is in every slice of the
crown. -/
example (hE : EulerOk asEuler) : ∃ (P : RefProfile Curve) (d : BlankData) (S : Set V3),
    RingOf curveOps asEuler (cycloidGear (blankExample 1 false)).core P ∧
      (cycloidGear (blankExample 1 false)).core.blankData P P = some d ∧ d.refSolid (cycloidGear (blankExample 1 false)).core.tooth.insideTeeth [] = some S ∧
      (cycloidGear (blankExample 1 false)).inSlice (1 / 2) ![10, 0, 0] ∈ S ∧
      (cycloidGear (blankExample 1 false)).inSlice 2 ![10, 0, 0] ∉ S := by
  obtain ⟨w1, w2, w3⟩ := sqrt2_facts
  obtain ⟨e1, e2, e3, h⟩ := blankExample_facts (.inl rfl) false
  obtain ⟨-, r⟩ := blankExample_ring (s := 1) (.inl rfl)
  obtain ⟨P, hP⟩ := blankExample_profile hE (s := 1) (.inl rfl) false
  obtain ⟨d, hd, hS⟩ := c132_blank (blankExample 1 false) h (by simp [blankExample, pi_pos]) rfl cycloidGear (.inr rfl)
    P P hP hP []
  have ha : apexHeight (blankExample 1 false) = 10 := by
    rw [apexHeight, e2, e1, tan_pi_div_four]; norm_num [blankExample]
  have hq : Spec.apexDist (apexHeight (blankExample 1 false)) ![10, 0, 0] =
      (blankExample 1 false).numTeeth / 2 / sin (|(blankExample 1 false).coneAngle| / 2) := by
    rw [ha, e3, Spec.apexDist, sqrt_eq_iff_eq_sq (by positivity) (by linarith)]
    simp
    nlinarith
  have hout : ¬Spec.InCone 1 (apexHeight (blankExample 1 false)) (cos (ringAngle (blankExample 1 false))) ![10, 0, 0] := by
    rw [Spec.InCone, hq, e3, ha, r]
    have : cos (π / 4) < cos (π / 4 - √2 / 10) :=
      cos_lt_cos_of_nonneg_of_le_pi (by linarith [pi_gt_three]) (by linarith [pi_pos]) (by linarith)
    rw [cos_pi_div_four] at this
    simp [Spec.apexDepth]
    nlinarith
  have hsl : ∀ z, sliceDist (blankExample 1 false) z = 10 * √2 - z := by
    intro z; rw [sliceDist, e3, e2, one_mul]
  refine ⟨P, d, _, hP, hd, hS, ?_, ?_⟩
  · rw [c132_teeth _ h (by simp [blankExample, pi_pos]) cycloidGear (.inr rfl) _ (by rw [hsl]; linarith) _ hq hout]
    norm_num [blankExample, GearInput.zVals]
  · rw [c132_teeth _ h (by simp [blankExample, pi_pos]) cycloidGear (.inr rfl) _ (by rw [hsl]; linarith) _ hq hout]
    norm_num [blankExample, GearInput.zVals]

/-- The crown with the cone angle negated: no point of the pitch circle of any slice is in the solid. -/
theorem c132_crown_violated (hE : EulerOk asEuler) : ∃ (P : RefProfile Curve) (d : BlankData) (S : Set V3),
    RingOf curveOps asEuler (cycloidGear (blankExample (-1) false)).core P ∧
      (cycloidGear (blankExample (-1) false)).core.blankData P P = some d ∧
      d.refSolid (cycloidGear (blankExample (-1) false)).core.tooth.insideTeeth [] = some S ∧
      ∀ z φ, 0 ≤ z → z ≤ 1 →
        (cycloidGear (blankExample (-1) false)).inSlice z ![10 * cos φ, 10 * sin φ, 0] ∉ S := by
  obtain ⟨w1, w2, w3⟩ := sqrt2_facts
  obtain ⟨e1, e2, e3, h⟩ := blankExample_facts (.inr rfl) false
  obtain ⟨-, r⟩ := blankExample_ring (s := -1) (.inr rfl)
  obtain ⟨P, hP⟩ := blankExample_profile hE (s := -1) (.inr rfl) false
  obtain ⟨d, S, hd, hS, hall⟩ := c132_blank_violated (blankExample (-1) false) h (by simp [blankExample, pi_pos]) rfl
    cycloidGear (.inr rfl) P P hP hP []
  have ha : apexHeight (blankExample (-1) false) = -10 := by
    rw [apexHeight, e2, e1, tan_pi_div_four]; norm_num [blankExample]
  have hsl : ∀ z, sliceDist (blankExample (-1) false) z = 10 * √2 + z := by
    intro z; rw [sliceDist, e3, e2]; ring
  have hcos : 79 / 100 < cos (π / 4 - √2 / 10) := by
    have x0 : (0 : ℝ) < √2 / 10 := by linarith
    have k1 := one_sub_sq_div_two_le_cos (x := √2 / 10)
    have k2 := sin_gt_sub_cube x0
    rw [cos_sub, cos_pi_div_four, sin_pi_div_four]
    have k3 : √2 / 2 * (1 - (√2 / 10) ^ 2 / 2) + √2 / 2 * (√2 / 10 - (√2 / 10) ^ 3 / 6) ≤
        √2 / 2 * cos (√2 / 10) + √2 / 2 * sin (√2 / 10) := by
      have : (0 : ℝ) ≤ √2 / 2 := by linarith
      exact add_le_add (mul_le_mul_of_nonneg_left k1 this) (mul_le_mul_of_nonneg_left k2.le this)
    have s2 : √2 ^ 2 = (2 : ℝ) := by rw [sq]; exact w1
    have s4 : √2 ^ 4 = (4 : ℝ) := by rw [show √2 ^ 4 = (√2 ^ 2) ^ 2 by ring, s2]; norm_num
    nlinarith
  refine ⟨P, d, S, hP, hd, hS, fun z φ hz0 hz1 => (hall z _ ?_ ?_ ?_).1⟩
  · rw [hsl]; linarith
  · rw [ha, e3, Spec.apexDist, sqrt_eq_iff_eq_sq (by positivity) (by linarith)]
    simp
    nlinarith [sin_sq_add_cos_sq φ]
  · rw [hsl, hsl, e3, ha, r]
    simp only [Spec.apexDepth, blankExample, GearInput.zVals, List.headD_cons, Matrix.cons_val]
    nlinarith

/-- The hypotheses of `c132_ring_blank` can be met. -/
example (hE : EulerOk asEuler) : ∃ (P : RefProfile Curve) (d : BlankData),
    RingOf curveOps asEuler (cycloidGear (blankExample 1 true)).core P ∧
      (cycloidGear (blankExample 1 true)).core.blankData P P = some d ∧
      ∃ parts, IsSplit d.shell d.ringFace parts := by
  obtain ⟨-, -, -, h⟩ := blankExample_facts (.inl rfl) true
  obtain ⟨P, hP⟩ := blankExample_profile hE (s := 1) (.inl rfl) true
  obtain ⟨d, hd, hs, -⟩ := c132_ring_blank (blankExample 1 true) h rfl (blankExample_ring (.inl rfl)).1 cycloidGear
    (.inr rfl) P P hP hP
  exact ⟨P, d, hP, hd, hs⟩

/-- The hypotheses of `c132_pick`, `c132_ring_pick` and `c132_ring_pick_violated` can be met; the second pick shows that
the choice is wrong for a ring gear whose apex is below. -/
example : pickPart false [{![0, 0, -8]}, {![0, 0, 10]}] = some {(![0, 0, -8] : V3)} ∧
    pickPart true [{![3, 0, -4]}, {![0, 0, -10]}] = some {(![3, 0, -4] : V3)} ∧
    pickPart true [{![3, 0, 4]}, {![0, 0, 10]}] = some {(![0, 0, 10] : V3)} := by
  have s100 : √(100 : ℝ) = 10 := by rw [show (100 : ℝ) = 10 ^ 2 by norm_num, sqrt_sq (by norm_num)]
  have s64 : √(64 : ℝ) = 8 := by rw [show (64 : ℝ) = 8 ^ 2 by norm_num, sqrt_sq (by norm_num)]
  have s25 : √(25 : ℝ) = 5 := by rw [show (25 : ℝ) = 5 ^ 2 by norm_num, sqrt_sq (by norm_num)]
  have n1 : ∀ x y z u v w : ℝ, z ≠ w → (![x, y, z] : V3) ∉ ({![u, v, w]} : Set V3) := by
    intro x y z u v w hne he
    exact hne (by simpa using congrFun (mem_singleton_iff.1 he) 2)
  refine ⟨c132_pick (a := 0) (c := 8 / 10) (R0 := 10) (R1 := 5) (by norm_num) _ _ isClosed_singleton ?_ ?_
      ![0, 0, -8] rfl (by simp only [Matrix.cons_val]; norm_num) (by simp) (n1 _ _ _ _ _ _ (by norm_num)) _ (.inl rfl),
    c132_ring_pick (a := 0) (c := 8 / 10) (R0 := 10) (R1 := 5) (by norm_num) _ _
      isClosed_singleton ?_ ?_ ![3, 0, -4] rfl (by simp only [Matrix.cons_val]; norm_num) (by norm_num) (n1 _ _ _ _ _ _ (by norm_num)) _ (.inl rfl),
    c132_ring_pick_violated (a := 0) (c := 8 / 10) (R0 := 10) (R1 := 5) (by norm_num) _ _
      isClosed_singleton ?_ ?_ ![3, 0, 4] rfl (by simp only [Matrix.cons_val]; norm_num) (by simp) (n1 _ _ _ _ _ _ (by norm_num)) _ (.inl rfl)⟩
  · rw [singleton_subset_iff]
    refine .inl ?_
    simp only [Spec.InCone, Spec.apexDist, Spec.apexDepth, mem_ofPred_eq, Matrix.cons_val]
    norm_num [s64]
  · rw [singleton_subset_iff]
    refine .inr ?_
    simp only [Spec.InCone, Spec.apexDist, Spec.apexDepth, mem_ofPred_eq, Matrix.cons_val]
    norm_num [s100]
  · rw [singleton_subset_iff]
    simp only [Spec.ringBlank, Spec.InCone, Spec.apexDist, Spec.apexDepth, mem_ofPred_eq, Matrix.cons_val]
    norm_num [s25]
  · rw [singleton_subset_iff]
    simp only [Spec.ringBlank, Spec.InCone, Spec.apexDist, Spec.apexDepth, mem_ofPred_eq, Matrix.cons_val]
    norm_num [s100]
  · rw [singleton_subset_iff]
    simp only [Spec.ringBlank, Spec.InCone, Spec.apexDist, Spec.apexDepth, mem_ofPred_eq, Matrix.cons_val]
    norm_num [s25]
  · rw [singleton_subset_iff]
    simp only [Spec.ringBlank, Spec.InCone, Spec.apexDist, Spec.apexDepth, mem_ofPred_eq, Matrix.cons_val]
    norm_num [s100]

end gear

end C132

end Verif
