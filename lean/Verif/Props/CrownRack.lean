import Verif.Model.CrownRack
import Verif.Spec.CrownRack
import Verif.Props.Undercut
import Verif.Props.LowerLimit
import Mathlib.Analysis.Convex.SpecificFunctions.Deriv
import Mathlib.Analysis.Real.Pi.Bounds

/-! # Property C134 -/

namespace Verif

open Real Spec

section C134
variable {rp pia alpha coneAngle : ℝ} {l : ToothLimitParam}

/-- The angle along the flank at parameter `s`, counted from the pitch plane. -/
noncomputable def rackArc (R alpha : ℝ) (l : ToothLimitParam) (s : ℝ) : ℝ := (s * (l.hA + l.hD) - l.hD) / R / cos alpha

/-- The point of the flat flank at this angle. -/
noncomputable def flankPoint (R alpha a φ : ℝ) : V3 := app (Rz (-a)) ![R * cos φ, R * sin φ * sin alpha, R * sin φ * cos alpha]

theorem polarR (coneAngle rp : ℝ) : (gearPolarData coneAngle rp).R = |rp / sin (coneAngle / 2)| := by
  simp [ConicData.R, gearPolarData, ConicData.gamma, TransformData.default]

theorem R_facts (hrp : 0 < rp) (hg0 : coneAngle ≠ 0) (hg1 : -π < coneAngle) (hg2 : coneAngle < π) :
    0 < sin |coneAngle / 2| ∧ |sin (coneAngle / 2)| = sin |coneAngle / 2| ∧
      |rp / sin (coneAngle / 2)| = rp / sin |coneAngle / 2| ∧ 0 < rp / sin |coneAngle / 2| := by
  have hg : coneAngle / 2 ≠ 0 := by intro h; apply hg0; linarith
  have hb : 0 < |coneAngle / 2| := abs_pos.2 hg
  have hb2 : |coneAngle / 2| < π / 2 := by rw [abs_lt]; constructor <;> linarith
  have hs : 0 < sin |coneAngle / 2| := sin_pos_of_pos_of_lt_pi hb (by linarith [pi_pos])
  have e : |sin (coneAngle / 2)| = sin |coneAngle / 2| := by
    rcases abs_cases (coneAngle / 2) with ⟨h1, -⟩ | ⟨h1, -⟩
    · rw [h1] at hs ⊢; exact abs_of_pos hs
    · rw [h1] at hs ⊢; rw [sin_neg] at hs ⊢; exact abs_of_neg (by linarith)
  exact ⟨hs, e, by rw [abs_div, abs_of_pos hrp, e], by positivity⟩

theorem flatRack_eval (hrp : 0 < rp) (hg0 : coneAngle ≠ 0) (hg1 : -π < coneAngle) (hg2 : coneAngle < π) (s : ℝ) :
    (flatRackCurve rp pia l alpha coneAngle).eval s =
      some (flankPoint (rp / sin |coneAngle / 2|) alpha (pia * sin |coneAngle / 2|)
        (rackArc (rp / sin |coneAngle / 2|) alpha l s)) := by
  obtain ⟨h1, h2, h3, h4⟩ := R_facts hrp hg0 hg1 hg2
  obtain ⟨R, hR⟩ : ∃ R, R = rp / sin |coneAngle / 2| := ⟨_, rfl⟩
  have e : flatRackCurve rp pia l alpha coneAngle = Curve.make (.arc R ((l.hA + l.hD) / R / cos alpha) ORIGIN
      (Rz (-pia * rp / R) * Rx (π / 2 - alpha) * eulerZYX (-l.hD / R / cos alpha) 0 0)) true 0 1 := by
    rw [flatRackCurve]
    simp only [polarR, h3, ← hR]
    rfl
  have ha : -pia * rp / R = -(pia * sin |coneAngle / 2|) := by rw [hR]; field_simp
  rw [e, make_eval _ (by intro f n h; cases h), ← hR, ha]
  congr 1
  have hφ : rackArc R alpha l s = -l.hD / R / cos alpha + (l.hA + l.hD) / R / cos alpha * s := by
    rw [rackArc]; ring
  obtain ⟨u, hu⟩ : ∃ u, u = -l.hD / R / cos alpha := ⟨_, rfl⟩
  obtain ⟨w, hw⟩ : ∃ w, w = (l.hA + l.hD) / R / cos alpha := ⟨_, rfl⟩
  rw [flankPoint, hφ, cos_add, sin_add, ← hu, ← hw]
  simp only [CurveKind.fn, app_mul, eulerZYX, ORIGIN]
  apply V3.ext3 <;> simp [cos_pi_div_two_sub, sin_pi_div_two_sub, RIGHT] <;> ring

theorem flankPoint_eq (R alpha a φ : ℝ) : flankPoint R alpha a φ =
    ![R * (cos a * cos φ + sin a * (sin φ * sin alpha)), R * (cos a * (sin φ * sin alpha) - sin a * cos φ),
      R * sin φ * cos alpha] := by
  rw [flankPoint]
  apply V3.ext3 <;> simp <;> ring

theorem flankPoint_norm {R : ℝ} (hR : 0 < R) (alpha a φ : ℝ) : norm3 (flankPoint R alpha a φ) = R := by
  apply norm3_eq_of_dot hR.le
  rw [flankPoint_eq]
  simp [dot]
  linear_combination R ^ 2 * (cos φ ^ 2 + sin φ ^ 2 * sin alpha ^ 2) * sin_sq_add_cos_sq a
    + R ^ 2 * sin φ ^ 2 * sin_sq_add_cos_sq alpha + R ^ 2 * sin_sq_add_cos_sq φ

theorem flankPoint_elevation {R : ℝ} (hR : 0 < R) (alpha a φ : ℝ) :
    Spec.elevation (flankPoint R alpha a φ) = arcsin (cos alpha * sin φ) := by
  rw [Spec.elevation, flankPoint_norm hR, flankPoint_eq]
  congr 1
  simp
  field_simp

theorem sin_lt_flat {x c : ℝ} (hx : 0 < x) (hc0 : 0 < c) (hc1 : c < 1) (h : x / c ≤ π / 2) :
    c * sin (x / c) < sin x := by
  have h1 : 0 < x / c := by positivity
  have := strictConcaveOn_sin_Icc.2 (⟨le_refl _, pi_pos.le⟩ : (0 : ℝ) ∈ Set.Icc 0 π)
    (⟨h1.le, by linarith [pi_pos]⟩ : x / c ∈ Set.Icc 0 π) h1.ne (by linarith : 0 < 1 - c) hc0 (by ring)
  simp only [sin_zero, smul_eq_mul, mul_zero, zero_add] at this
  rwa [mul_div_cancel₀ _ hc0.ne'] at this

theorem flat_depth {x c : ℝ} (hx : 0 < x) (hc0 : 0 < c) (hc1 : c < 1) (h : x / c ≤ π / 2) :
    arcsin (c * sin (x / c)) < x ∧ x - x ^ 3 / (6 * c ^ 2) < arcsin (c * sin (x / c)) := by
  have h1 : 0 < x / c := by positivity
  have h3 := pi_gt_three
  have hs := sin_lt_flat hx hc0 hc1 (by linarith)
  have hxc : x < x / c := by rw [lt_div_iff₀ hc0]; nlinarith
  have hs0 : 0 < sin (x / c) := sin_pos_of_pos_of_lt_pi h1 (by linarith)
  have hle : c * sin (x / c) ≤ 1 := by nlinarith [sin_le_one (x / c)]
  constructor
  · rw [arcsin_lt_iff_lt_sin' ⟨by linarith, by linarith⟩]; exact hs
  · have e1 := sin_gt_sub_cube h1
    have e2 : c * (x / c - (x / c) ^ 3 / 6) = x - x ^ 3 / (6 * c ^ 2) := by field_simp
    have e3 : c * (x / c - (x / c) ^ 3 / 6) < c * sin (x / c) := mul_lt_mul_of_pos_left e1 hc0
    have e4 : c * sin (x / c) ≤ arcsin (c * sin (x / c)) := by
      have h0 : 0 ≤ arcsin (c * sin (x / c)) := arcsin_nonneg.2 (by positivity)
      calc c * sin (x / c) = sin (arcsin (c * sin (x / c))) := (sin_arcsin (by nlinarith) hle).symm
        _ ≤ _ := sin_le h0
    linarith

theorem angle_to_axis {k alpha : ℝ} (a : ℝ) (hk : 0 < k) (ha0 : 0 < alpha) (ha1 : alpha < π / 2) :
    angleBetween OUT (k • ![sin alpha * sin a, sin alpha * cos a, cos alpha]) = alpha := by
  have hsa : 0 < sin alpha := sin_pos_of_pos_of_lt_pi ha0 (by linarith [pi_pos])
  have hd : dot OUT (k • ![sin alpha * sin a, sin alpha * cos a, cos alpha]) = k * cos alpha := by
    simp [dot, OUT]
  have hc : norm3 (cross OUT (k • ![sin alpha * sin a, sin alpha * cos a, cos alpha])) = k * sin alpha := by
    apply norm3_eq_of_dot (by positivity)
    simp [dot, OUT]
    linear_combination k ^ 2 * sin alpha ^ 2 * sin_sq_add_cos_sq a
  rw [angleBetween, hc, hd]
  exact arctan2_polar hk (by linarith [pi_pos]) (by linarith [pi_pos])

/-- **C134, flank.** The flank of the crown rack of a bevel gear lies in a plane through the middle of the sphere of radius
`R = rp / sin γ`, on which the pitch cone of the gear rolls along the equator. It crosses the equator at the arc
distance `rp * pitch_intersect_angle`, the half tooth of the gear, and under the pressure angle. -/
theorem c134_flank (hrp : 0 < rp) (hg0 : coneAngle ≠ 0) (hg1 : -π < coneAngle) (hg2 : coneAngle < π) (ha0 : 0 < alpha)
    (ha1 : alpha < π / 2) (hA : 0 < l.hA) (hD : 0 < l.hD) :
    ∃ f : ℝ → V3, (∀ s, (flatRackCurve rp pia l alpha coneAngle).eval s = some (f s)) ∧ ∃ R a : ℝ,
      R * sin |coneAngle / 2| = rp ∧ R * a = rp * pia ∧ (∀ s, norm3 (f s) = R) ∧
      (∃ n, norm3 n = 1 ∧ ∀ s, dot n (f s) = 0) ∧ f (l.hD / (l.hA + l.hD)) = circlePoint R (-a) 0 ∧
      ∃ v, HasDerivAt f v (l.hD / (l.hA + l.hD)) ∧ angleBetween OUT v = alpha := by
  obtain ⟨h1, -, -, h4⟩ := R_facts hrp hg0 hg1 hg2
  obtain ⟨R, hR⟩ : ∃ R, R = rp / sin |coneAngle / 2| := ⟨_, rfl⟩
  obtain ⟨a, ha⟩ : ∃ a, a = pia * sin |coneAngle / 2| := ⟨_, rfl⟩
  have hca : 0 < cos alpha := cos_pos_of_mem_Ioo ⟨by linarith, ha1⟩
  refine ⟨_, fun s => flatRack_eval hrp hg0 hg1 hg2 s, R, a, by rw [hR]; field_simp, by rw [hR, ha]; field_simp, ?_⟩
  rw [← hR, ← ha]
  have hRp : 0 < R := hR ▸ h4
  have h0 : rackArc R alpha l (l.hD / (l.hA + l.hD)) = 0 := by
    rw [rackArc, div_mul_cancel₀ _ (by linarith)]; simp
  refine ⟨fun s => flankPoint_norm hRp alpha a _, ⟨![sin a * cos alpha, cos a * cos alpha, -sin alpha], ?_, ?_⟩, ?_, ?_⟩
  · apply norm3_eq_of_dot zero_le_one
    simp [dot]
    linear_combination cos alpha ^ 2 * sin_sq_add_cos_sq a + sin_sq_add_cos_sq alpha
  · intro s
    rw [flankPoint_eq]
    simp [dot]
    linear_combination R * cos alpha * sin (rackArc R alpha l s) * sin alpha * sin_sq_add_cos_sq a
  · rw [h0, flankPoint_eq]
    apply V3.ext3 <;> simp [circlePoint]
  · obtain ⟨k, hk⟩ : ∃ k, k = (l.hA + l.hD) / R / cos alpha := ⟨_, rfl⟩
    have hkp : 0 < k := by rw [hk]; positivity
    refine ⟨(R * k) • ![sin alpha * sin a, sin alpha * cos a, cos alpha], ?_, angle_to_axis a (by positivity) ha0 ha1⟩
    have hφ : HasDerivAt (rackArc R alpha l) k (l.hD / (l.hA + l.hD)) := by
      have := ((((hasDerivAt_id (l.hD / (l.hA + l.hD))).mul_const (l.hA + l.hD)).sub_const l.hD).div_const R).div_const
        (cos alpha)
      rw [hk, ← one_mul (l.hA + l.hD)]
      simp only [one_mul] at this ⊢
      exact this
    have hc := hφ.cos
    have hs := hφ.sin
    rw [h0] at hc hs
    apply hasDerivAt_v3
    · refine (((hc.const_mul (cos a)).add ((hs.mul_const (sin alpha)).const_mul (sin a))).const_mul R).congr_deriv ?_
        |>.congr_of_eventuallyEq (Filter.Eventually.of_forall fun s => ?_)
      · simp; ring
      · simp [flankPoint_eq]
    · refine ((((hs.mul_const (sin alpha)).const_mul (cos a)).sub (hc.const_mul (sin a))).const_mul R).congr_deriv ?_
        |>.congr_of_eventuallyEq (Filter.Eventually.of_forall fun s => ?_)
      · simp; ring
      · simp [flankPoint_eq]
    · refine ((hs.const_mul R).mul_const (cos alpha)).congr_deriv ?_
        |>.congr_of_eventuallyEq (Filter.Eventually.of_forall fun s => ?_)
      · simp
      · simp [flankPoint_eq]

/-- **C134, height of the flat flank.** The corner of the rack is less deep than the dedendum `h_d`, measured on the
sphere, and its tip less high than `h_a`; both by less than a term of third order. -/
theorem c134_height_partial (hrp : 0 < rp) (hg0 : coneAngle ≠ 0) (hg1 : -π < coneAngle) (hg2 : coneAngle < π)
    (ha0 : 0 < alpha) (ha1 : alpha < π / 2) (hA : 0 < l.hA) (hD : 0 < l.hD) (R : ℝ) (hR : R * sin |coneAngle / 2| = rp)
    (hA2 : l.hA / R / cos alpha ≤ π / 2) (hD2 : l.hD / R / cos alpha ≤ π / 2) :
    ∃ p0 p1, (flatRackCurve rp pia l alpha coneAngle).eval 0 = some p0 ∧
      (flatRackCurve rp pia l alpha coneAngle).eval 1 = some p1 ∧
      (-(l.hD / R) < elevation p0 ∧ elevation p0 < -(l.hD / R) + (l.hD / R) ^ 3 / (6 * cos alpha ^ 2)) ∧
      (elevation p1 < l.hA / R ∧ l.hA / R - (l.hA / R) ^ 3 / (6 * cos alpha ^ 2) < elevation p1) := by
  obtain ⟨h1, -, -, h4⟩ := R_facts hrp hg0 hg1 hg2
  have hR' : rp / sin |coneAngle / 2| = R := by rw [← hR]; field_simp
  have hRp : 0 < R := hR' ▸ h4
  have hca : 0 < cos alpha := cos_pos_of_mem_Ioo ⟨by linarith, ha1⟩
  have hc1 : cos alpha < 1 := by
    rw [← cos_zero]; exact cos_lt_cos_of_nonneg_of_le_pi_div_two (le_refl _) ha1.le ha0
  have hd := flat_depth (by positivity : 0 < l.hD / R) hca hc1 hD2
  have ha := flat_depth (by positivity : 0 < l.hA / R) hca hc1 hA2
  refine ⟨_, _, flatRack_eval hrp hg0 hg1 hg2 0, flatRack_eval hrp hg0 hg1 hg2 1, ?_, ?_⟩
  · rw [hR', flankPoint_elevation hRp, show rackArc R alpha l 0 = -(l.hD / R / cos alpha) by rw [rackArc]; ring, sin_neg,
      mul_neg, arcsin_neg]
    constructor <;> linarith [hd.1, hd.2]
  · rw [hR', flankPoint_elevation hRp, show rackArc R alpha l 1 = l.hA / R / cos alpha by rw [rackArc]; ring]
    exact ha

/-- **C134, corner.** If the solver finds the crossing of the flank with the middle of the gap, the undercut starts from
the corner of the rack tooth, or, if the two flanks of a rack tooth meet before their full depth, from the meeting
point. It lies on the flank, below the pitch plane, not deeper than the corner, and not beyond the middle of the gap. -/
theorem c134_corner (S : ScalarSolvers) (pitchAngle : ℝ) (hrp : 0 < rp) (hg0 : coneAngle ≠ 0) (hg1 : -π < coneAngle)
    (hg2 : coneAngle < π) (ha0 : 0 < alpha) (ha1 : alpha < π / 2) (hA : 0 < l.hA) (hD : 0 < l.hD) (R : ℝ)
    (hR : R * sin |coneAngle / 2| = rp) (hD2 : l.hD / R / cos alpha < π / 2) (hpia : pia < pitchAngle / 2)
    (hpi2 : (pitchAngle / 2 - pia) * sin |coneAngle / 2| < π / 2) (x : ℝ)
    (hx : x = (S.root1 (planeResidual (flatRackCurve rp pia l alpha coneAngle).eval (gapPlaneNormal pitchAngle coneAngle)
      ORIGIN) 0).x)
    (hS : planeResidual (flatRackCurve rp pia l alpha coneAngle).eval (gapPlaneNormal pitchAngle coneAngle) ORIGIN x =
      some 0)
    (hS2 : |x * (l.hA + l.hD) - l.hD| / R / cos alpha < π / 2) :
    ∃ p0 p : V3, ∃ n : V3, (flatRackCurve rp pia l alpha coneAngle).eval 0 = some p0 ∧
      crownRefPoint S (flatRackCurve rp pia l alpha coneAngle) pitchAngle coneAngle = some p ∧
      n = ![sin (pitchAngle / 2 * sin |coneAngle / 2|), cos (pitchAngle / 2 * sin |coneAngle / 2|), 0] ∧
      (∃ s, (flatRackCurve rp pia l alpha coneAngle).eval s = some p) ∧ norm3 p = R ∧ elevation p0 ≤ elevation p ∧
      elevation p < 0 ∧ 0 ≤ dot p n ∧ (0 ≤ dot p0 n → p = p0) ∧ (dot p0 n ≤ 0 → dot p n = 0) := by
  obtain ⟨h1, h2, -, h4⟩ := R_facts hrp hg0 hg1 hg2
  have hR' : rp / sin |coneAngle / 2| = R := by rw [← hR]; field_simp
  have hRp : 0 < R := hR' ▸ h4
  have hca : 0 < cos alpha := cos_pos_of_mem_Ioo ⟨by linarith, ha1⟩
  have hsa : 0 < sin alpha := sin_pos_of_pos_of_lt_pi ha0 (by linarith [pi_pos])
  obtain ⟨a, ha⟩ : ∃ a, a = pia * sin |coneAngle / 2| := ⟨_, rfl⟩
  obtain ⟨q, hq⟩ : ∃ q, q = pitchAngle / 2 * sin |coneAngle / 2| := ⟨_, rfl⟩
  have hqa : 0 < q - a := by rw [hq, ha, ← sub_mul]; exact mul_pos (by linarith) h1
  have hqa2 : q - a < π / 2 := by rw [hq, ha, ← sub_mul]; exact hpi2
  have hev := fun s => flatRack_eval (pia := pia) (alpha := alpha) (l := l) hrp hg0 hg1 hg2 s
  rw [hR', ← ha] at hev
  have hn : gapPlaneNormal pitchAngle coneAngle = ![sin q, cos q, 0] := by
    rw [gapPlaneNormal, h2, show -pitchAngle / 2 * sin |coneAngle / 2| = -q by rw [hq]; ring]
    apply V3.ext3 <;> simp [UP]
  have hdot : ∀ φ, dot (flankPoint R alpha a φ) ![sin q, cos q, 0] =
      R * (cos φ * sin (q - a) + sin φ * sin alpha * cos (q - a)) := by
    intro φ
    rw [flankPoint_eq, sin_sub, cos_sub]
    simp [dot]; ring
  have hA0 : 0 < sin (q - a) := sin_pos_of_pos_of_lt_pi hqa (by linarith [pi_pos])
  have hB0 : 0 < sin alpha * cos (q - a) := mul_pos hsa (cos_pos_of_mem_Ioo ⟨by linarith, hqa2⟩)
  rw [planeResidual, hev] at hS
  simp only [Option.map_some, Option.some.injEq, hn] at hS
  rw [show flankPoint R alpha a (rackArc R alpha l x) - ORIGIN = flankPoint R alpha a (rackArc R alpha l x) by
    apply V3.ext3 <;> simp [ORIGIN], hdot] at hS
  have hroot : cos (rackArc R alpha l x) * sin (q - a) = -(sin (rackArc R alpha l x) * (sin alpha * cos (q - a))) := by
    rcases mul_eq_zero.1 hS with h | h
    · exact absurd h hRp.ne'
    · linarith
  have harc : |rackArc R alpha l x| < π / 2 := by
    rw [rackArc, abs_div, abs_div, abs_of_pos hRp, abs_of_pos hca]; exact hS2
  have hφ0 : rackArc R alpha l 0 = -(l.hD / R / cos alpha) := by rw [rackArc]; ring
  have hd0 : 0 < l.hD / R / cos alpha := by positivity
  have hlin : rackArc R alpha l x - rackArc R alpha l 0 = x * ((l.hA + l.hD) / R / cos alpha) := by
    rw [rackArc, rackArc]; ring
  have hk : 0 < (l.hA + l.hD) / R / cos alpha := by positivity
  obtain ⟨φ, hφ⟩ : ∃ φ, φ = rackArc R alpha l x := ⟨_, rfl⟩
  obtain ⟨φ0, hφ0'⟩ : ∃ φ, φ = rackArc R alpha l 0 := ⟨_, rfl⟩
  rw [← hφ] at hroot harc hlin
  rw [← hφ0'] at hlin hφ0
  obtain ⟨b1, b2⟩ := abs_lt.1 harc
  have hcφ : 0 < cos φ := cos_pos_of_mem_Ioo ⟨b1, b2⟩
  have hsφ : sin φ < 0 := by
    by_contra h
    push Not at h
    have := mul_pos hcφ hA0
    have := mul_nonneg h hB0.le
    linarith
  have hφneg : φ < 0 := by
    by_contra h
    push Not at h
    linarith [sin_nonneg_of_nonneg_of_le_pi h (by linarith [pi_pos])]
  have hkey : (cos φ0 * sin (q - a) + sin φ0 * sin alpha * cos (q - a)) * cos φ =
      sin alpha * cos (q - a) * sin (φ0 - φ) := by
    rw [sin_sub φ0 φ]; linear_combination cos φ0 * hroot
  have hmono : ∀ ψ, -(π / 2) < ψ → ψ < 0 → arcsin (cos alpha * sin ψ) < 0 := by
    intro ψ e1 e2
    rw [arcsin_lt_zero]
    have := sin_neg_of_neg_of_neg_pi_lt e2 (by linarith [pi_pos])
    nlinarith
  rw [crownRefPoint]
  simp only [← hx]
  by_cases hx0 : 0 < x
  · rw [if_pos hx0]
    have hlt : φ0 < φ := by have := mul_pos hx0 hk; linarith
    have hneg : sin (φ0 - φ) < 0 := sin_neg_of_neg_of_neg_pi_lt (by linarith) (by linarith [pi_pos])
    have hg : cos φ0 * sin (q - a) + sin φ0 * sin alpha * cos (q - a) < 0 := by
      by_contra h
      push Not at h
      have := mul_nonneg h hcφ.le
      have := mul_neg_of_pos_of_neg hB0 hneg
      linarith
    refine ⟨_, _, _, hev 0, hev x, rfl, ⟨x, hev x⟩, flankPoint_norm hRp _ _ _, ?_, ?_, ?_, ?_, ?_⟩
    · rw [flankPoint_elevation hRp, flankPoint_elevation hRp, ← hφ, ← hφ0']
      apply monotone_arcsin
      exact mul_le_mul_of_nonneg_left (strictMonoOn_sin.monotoneOn ⟨by linarith, by linarith⟩ ⟨b1.le, b2.le⟩ hlt.le) hca.le
    · rw [flankPoint_elevation hRp, ← hφ]; exact hmono φ b1 hφneg
    · rw [← hq, hdot, hS]
    · rw [← hq, hdot, ← hφ0']
      intro h
      have := mul_neg_of_pos_of_neg hRp hg
      linarith
    · intro _
      rw [← hq, hdot, hS]
  · rw [if_neg hx0]
    push Not at hx0
    have hle : φ ≤ φ0 := by have := mul_nonpos_of_nonpos_of_nonneg hx0 hk.le; linarith
    have hpos : 0 ≤ sin (φ0 - φ) := sin_nonneg_of_nonneg_of_le_pi (by linarith) (by linarith [pi_pos])
    have hg : 0 ≤ cos φ0 * sin (q - a) + sin φ0 * sin alpha * cos (q - a) := by
      by_contra h
      push Not at h
      have := mul_neg_of_neg_of_pos h hcφ
      have := mul_nonneg hB0.le hpos
      linarith
    refine ⟨_, _, _, hev 0, hev 0, rfl, ⟨0, hev 0⟩, flankPoint_norm hRp _ _ _, le_refl _, ?_, ?_, fun _ => rfl, ?_⟩
    · rw [flankPoint_elevation hRp, ← hφ0']; exact hmono φ0 (by linarith) (by linarith)
    · rw [← hq, hdot, ← hφ0']; positivity
    · rw [← hq, hdot, ← hφ0']
      intro h
      exact le_antisymm h (by positivity)

/-- The apex of the cones and the sphere with the teeth. -/
theorem cone_polar (s b X Y Z a : ℝ) (q : V3) (hs : s = 1 ∨ s = -1) (t : ℝ)
    (hq : q = app (Rz t) (app (Ry ((π / 2 - b) * s)) ![X, Y, s * Z]) + ![0, 0, a]) :
    s * (a - q 2) = cos b * X - sin b * Z ∧ dot (q - ![0, 0, a]) (q - ![0, 0, a]) = X ^ 2 + Y ^ 2 + Z ^ 2 := by
  subst hq
  have hb1 : cos ((π / 2 - b) * s) = sin b := by
    rcases hs with h | h <;> rw [h]
    · rw [mul_one, cos_pi_div_two_sub]
    · rw [mul_neg_one, cos_neg, cos_pi_div_two_sub]
  have hb2 : sin ((π / 2 - b) * s) = s * cos b := by
    rcases hs with h | h <;> rw [h]
    · rw [mul_one, sin_pi_div_two_sub, one_mul]
    · rw [mul_neg_one, sin_neg, sin_pi_div_two_sub, neg_one_mul]
  have hs2 : s * s = 1 := by rcases hs with h | h <;> rw [h] <;> norm_num
  constructor
  · simp [hb1, hb2]
    linear_combination (cos b * X - sin b * Z) * hs2
  · simp [dot, hb1, hb2]
    linear_combination ((sin b * X + s * cos b * (s * Z)) ^ 2 + Y ^ 2) * sin_sq_add_cos_sq t +
      (X ^ 2 + Z ^ 2 * s ^ 2) * sin_sq_add_cos_sq b + Z ^ 2 * hs2 + X ^ 2 * cos b ^ 2 * hs2 +
      Z ^ 2 * cos b ^ 2 * s ^ 2 * hs2

theorem undercut_cone_point (ref : V3) (t : ℝ) (hrp : 0 < rp) (hg0 : coneAngle ≠ 0) (hg1 : -π < coneAngle)
    (hg2 : coneAngle < π) (R : ℝ) (hR : R * sin |coneAngle / 2| = rp) (href : norm3 ref = R) :
    ∃ X Y, X ^ 2 + Y ^ 2 = (R * cos (elevation ref)) ^ 2 ∧
      X = cos (sin |coneAngle / 2| * t) * ref 0 + sin (sin |coneAngle / 2| * t) * ref 1 ∧
      ref 2 = R * sin (elevation ref) ∧
      norm3 (undercutCurveCone rp coneAngle ref t - ![0, 0, rp / tan (coneAngle / 2)]) = R ∧
      coneAngleOf (sgn (coneAngle / 2)) (rp / tan (coneAngle / 2)) (undercutCurveCone rp coneAngle ref t) =
        arccos ((cos |coneAngle / 2| * X - sin |coneAngle / 2| * ref 2) / R) := by
  obtain ⟨h1, -, -, h4⟩ := R_facts hrp hg0 hg1 hg2
  have hR' : rp / sin |coneAngle / 2| = R := by rw [← hR]; field_simp
  have hRp : 0 < R := hR' ▸ h4
  have hs : sgn (coneAngle / 2) = 1 ∨ sgn (coneAngle / 2) = -1 := sgn_cases (by intro h; apply hg0; linarith)
  obtain ⟨s, hsd⟩ : ∃ s, s = sgn (coneAngle / 2) := ⟨_, rfl⟩
  have hdd : ref 0 ^ 2 + ref 1 ^ 2 + ref 2 ^ 2 = R ^ 2 := by
    have := norm3_sq ref
    rw [href] at this
    simp only [dot] at this
    linarith
  have hz : ref 2 = R * sin (elevation ref) := by
    have e1 : |ref 2| ≤ R := abs_le_of_sq_le_sq (by nlinarith [sq_nonneg (ref 0), sq_nonneg (ref 1)]) hRp.le
    obtain ⟨e2, e3⟩ := abs_le.1 e1
    rw [elevation, href, sin_arcsin (by rw [le_div_iff₀ hRp]; linarith) (by rw [div_le_iff₀ hRp]; linarith)]
    field_simp
  obtain ⟨w, hw⟩ : ∃ w, w = sin |coneAngle / 2| * t := ⟨_, rfl⟩
  obtain ⟨X, hX⟩ : ∃ X, X = cos w * ref 0 + sin w * ref 1 := ⟨_, rfl⟩
  obtain ⟨Y, hY⟩ : ∃ Y, Y = cos w * ref 1 - sin w * ref 0 := ⟨_, rfl⟩
  have hXY : X ^ 2 + Y ^ 2 = ref 0 ^ 2 + ref 1 ^ 2 := by
    rw [hX, hY]; linear_combination (ref 0 ^ 2 + ref 1 ^ 2) * sin_sq_add_cos_sq w
  have hq := undercutCurveCone_eq rp coneAngle ref t hrp hg0 hg1 hg2
  simp only at hq
  have hin : app (Rz (-(sin |coneAngle / 2| * t))) (mulV ref ![1, 1, sgn (coneAngle / 2)]) = ![X, Y, s * ref 2] := by
    rw [← hw, ← hsd, hX, hY]
    apply V3.ext3 <;> simp [mulV] <;> ring
  have ho : (rp / tan (coneAngle / 2)) • OUT = ![0, 0, rp / tan (coneAngle / 2)] := by
    apply V3.ext3 <;> simp [OUT]
  rw [hin, ho, ← hsd] at hq
  obtain ⟨k1, k2⟩ := cone_polar s |coneAngle / 2| X Y (ref 2) (rp / tan (coneAngle / 2)) _ (hsd ▸ hs) t hq
  have hn : norm3 (undercutCurveCone rp coneAngle ref t - ![0, 0, rp / tan (coneAngle / 2)]) = R := by
    apply norm3_eq_of_dot hRp.le
    rw [k2, hXY, hdd]
  refine ⟨X, Y, ?_, by rw [hX, hw], hz, hn, ?_⟩
  · rw [hXY, mul_pow, cos_sq']
    rw [hz] at hdd
    linarith
  · rw [coneAngleOf, hn, ← hsd, k1]

theorem undercut_cone_above (ref : V3) (t : ℝ) (hrp : 0 < rp) (hg0 : coneAngle ≠ 0) (hg1 : -π < coneAngle)
    (hg2 : coneAngle < π) (R : ℝ) (hR : R * sin |coneAngle / 2| = rp) (href : norm3 ref = R) :
    let s := sgn (coneAngle / 2)
    let a := rp / tan (coneAngle / 2)
    let g := |coneAngle / 2|
    norm3 (undercutCurveCone rp coneAngle ref t - ![0, 0, a]) = R ∧
      g + elevation ref ≤ coneAngleOf s a (undercutCurveCone rp coneAngle ref t) := by
  intro s a g
  obtain ⟨h1, -, -, h4⟩ := R_facts hrp hg0 hg1 hg2
  have hR' : rp / sin |coneAngle / 2| = R := by rw [← hR]; field_simp
  have hRp : 0 < R := hR' ▸ h4
  have hg : 0 ≤ g := abs_nonneg _
  have hg' : g ≤ π / 2 := by simp only [g]; rw [abs_le]; constructor <;> linarith
  have hcg : 0 ≤ cos g := cos_nonneg_of_mem_Icc ⟨by linarith [pi_pos], hg'⟩
  have he1 : -(π / 2) ≤ elevation ref := neg_pi_div_two_le_arcsin _
  have he2 : elevation ref ≤ π / 2 := arcsin_le_pi_div_two _
  have hce : 0 ≤ cos (elevation ref) := cos_nonneg_of_mem_Icc ⟨he1, he2⟩
  obtain ⟨X, Y, e1, -, e3, e4, e5⟩ := undercut_cone_point ref t hrp hg0 hg1 hg2 R hR href
  refine ⟨e4, ?_⟩
  rw [e5]
  have hX : X ≤ R * cos (elevation ref) :=
    le_of_sq_le_sq (by nlinarith [sq_nonneg Y]) (by positivity)
  have hle : (cos g * X - sin g * ref 2) / R ≤ cos (g + elevation ref) := by
    rw [div_le_iff₀ hRp, cos_add, e3]
    nlinarith [mul_le_mul_of_nonneg_left hX hcg]
  by_cases hneg : 0 ≤ g + elevation ref
  · calc g + elevation ref = arccos (cos (g + elevation ref)) := (arccos_cos hneg (by linarith)).symm
      _ ≤ _ := antitone_arccos hle
  · push Not at hneg
    exact hneg.le.trans (arccos_nonneg _)

/-- The undercut curve belongs to the reference point, whatever the solver answers. -/
theorem generateUndercutCone_spec (S : ScalarSolvers) (rp coneAngle : ℝ) (ref : V3) (c : Curve)
    (h : generateUndercutCone S rp coneAngle ref = some c) :
    c.kind = .generic (undercutCurveCone rp coneAngle ref) 20 ∧ c.eval 0 = some (undercutCurveCone rp coneAngle ref 0) ∧
      c.active = true ∧ c.updateLengths = c := by
  obtain ⟨c0, hc0⟩ : ∃ c0, c0 = Curve.make (.generic (undercutCurveCone rp coneAngle ref) 20) true 0 (-1) := ⟨_, rfl⟩
  have h0 : c0.kind = .generic (undercutCurveCone rp coneAngle ref) 20 ∧ c0.EndsOk ∧
      c0.eval 0 = some (undercutCurveCone rp coneAngle ref 0) ∧ c0.active = true ∧ c0.updateLengths = c0 := by
    have hsam : (CurveKind.generic (undercutCurveCone rp coneAngle ref) 20).Sampled := by
      change 1 ≤ 20; norm_num
    rw [hc0, Curve.make, if_pos rfl]
    refine ⟨updateLengths_kind _, endsOk_updateLengths _ hsam, ?_, updateLengths_active _, updateLengths_idem _⟩
    rw [(endsOk_updateLengths _ hsam).1, updateLengths_kind, updateLengths_t0]
    rfl
  rw [generateUndercutCone] at h
  simp only [← hc0] at h
  split_ifs at h with hx
  · obtain ⟨h1, h2, h3, h5, h6⟩ := h0
    obtain ⟨x, hxx⟩ : ∃ x, c0.setEndOn x = some c := ⟨_, h⟩
    obtain ⟨q, hq⟩ : ∃ q, c0.eval x = some q := by
      rw [Curve.setEndOn, Option.map_eq_some_iff] at hxx
      obtain ⟨t, e, _⟩ := hxx
      exact ⟨_, by rw [Curve.eval, e]; rfl⟩
    have hg : c0.kind.Sampled := by rw [h1]; change 1 ≤ 20; norm_num
    obtain ⟨d, e1, -, e3, -, e5⟩ := c41_end _ hg h2 _ q hq
    obtain ⟨a', e6, ⟨-, e7⟩, e8, -, -⟩ := curve_lawful.fin _ _ q ⟨hg, h6⟩ hq
    obtain rfl : d = c := Option.some.inj (e1.symm.trans hxx)
    obtain rfl : a' = d := Option.some.inj (e6.symm.trans hxx)
    exact ⟨e5.trans h1, e3.trans h3, e8.trans h5, e7⟩
  · rw [← Option.some.inj h]; exact ⟨h0.1, h0.2.2⟩

/-- **C134, undercut.** Whatever the solver answers, the undercut curve starts at the reference point, placed on the pitch
cone, stays on the sphere of the gear, and stays outside the cone that lies below the pitch cone by the depth of the
reference point; the uncut trochoid touches that cone. -/
theorem c134_undercut (S : ScalarSolvers) (ref : V3) (c : Curve) (hrp : 0 < rp) (hg0 : coneAngle ≠ 0)
    (hg1 : -π < coneAngle) (hg2 : coneAngle < π) (R : ℝ) (hR : R * sin |coneAngle / 2| = rp) (href : norm3 ref = R)
    (h : generateUndercutCone S rp coneAngle ref = some c) :
    let s := sgn (coneAngle / 2)
    let a := rp / tan (coneAngle / 2)
    let g := |coneAngle / 2|
    c.eval 0 = some (app (Ry ((π / 2 - g) * s)) (mulV ref ![1, 1, s]) + ![0, 0, a]) ∧
      (∀ x q, c.eval x = some q → norm3 (q - ![0, 0, a]) = R ∧ g + elevation ref ≤ coneAngleOf s a q) ∧
      (0 ≤ g + elevation ref → ∃ t, coneAngleOf s a (undercutCurveCone rp coneAngle ref t) = g + elevation ref) := by
  intro s a g
  obtain ⟨k1, k2, -⟩ := generateUndercutCone_spec S rp coneAngle ref c h
  obtain ⟨h1, -, -, h4⟩ := R_facts hrp hg0 hg1 hg2
  have hR' : rp / sin |coneAngle / 2| = R := by rw [← hR]; field_simp
  have hRp : 0 < R := hR' ▸ h4
  have hg : 0 ≤ g := abs_nonneg _
  have hg' : g ≤ π / 2 := by simp only [g]; rw [abs_le]; constructor <;> linarith
  have hcg : 0 ≤ cos g := cos_nonneg_of_mem_Icc ⟨by linarith [pi_pos], hg'⟩
  have he1 : -(π / 2) ≤ elevation ref := neg_pi_div_two_le_arcsin _
  have he2 : elevation ref ≤ π / 2 := arcsin_le_pi_div_two _
  have hce : 0 ≤ cos (elevation ref) := cos_nonneg_of_mem_Icc ⟨he1, he2⟩
  have ho : a • OUT = ![0, 0, a] := by apply V3.ext3 <;> simp [OUT]
  refine ⟨?_, ?_, ?_⟩
  · rw [k2, (c81_bevel_rolling rp coneAngle ref 0 hrp hg0 hg1 hg2).1]
    rw [← ho]
  · intro x q hq
    obtain ⟨t, -, rfl⟩ := eval_some hq
    rw [k1]
    exact undercut_cone_above ref t hrp hg0 hg1 hg2 R hR href
  · intro hpos
    obtain ⟨θ, hθ⟩ : ∃ θ, θ = Complex.arg ⟨ref 0, ref 1⟩ := ⟨_, rfl⟩
    obtain ⟨ρ, hρ⟩ : ∃ ρ, ρ = ‖(⟨ref 0, ref 1⟩ : ℂ)‖ := ⟨_, rfl⟩
    have c1 : ρ * cos θ = ref 0 := by rw [hρ, hθ, Complex.norm_mul_cos_arg]
    have c2 : ρ * sin θ = ref 1 := by rw [hρ, hθ, Complex.norm_mul_sin_arg]
    refine ⟨θ / sin |coneAngle / 2|, ?_⟩
    obtain ⟨X, Y, e1, e2, e3, e4, e5⟩ := undercut_cone_point ref (θ / sin |coneAngle / 2|) hrp hg0 hg1 hg2 R hR href
    rw [e5]
    rw [mul_div_cancel₀ _ h1.ne'] at e2
    have hXρ : X = ρ := by rw [e2, ← c1, ← c2]; linear_combination ρ * sin_sq_add_cos_sq θ
    have hdd : ref 0 ^ 2 + ref 1 ^ 2 + ref 2 ^ 2 = R ^ 2 := by
      have := norm3_sq ref
      rw [href] at this
      simp only [dot] at this
      linarith
    have hX : X = R * cos (elevation ref) := by
      have hρ0 : 0 ≤ ρ := by rw [hρ]; exact norm_nonneg _
      have : X ^ 2 = (R * cos (elevation ref)) ^ 2 := by
        rw [mul_pow, cos_sq', hXρ]
        rw [e3, ← c1, ← c2] at hdd
        linear_combination hdd - ρ ^ 2 * sin_sq_add_cos_sq θ
      exact (pow_left_inj₀ (by rw [hXρ]; exact hρ0) (by positivity) two_ne_zero).1 this
    rw [hX, e3, show (cos |coneAngle / 2| * (R * cos (elevation ref)) - sin |coneAngle / 2| * (R * sin (elevation ref))) / R
      = cos (g + elevation ref) by rw [cos_add]; simp only [g]; field_simp, arccos_cos hpos (by linarith)]

/-- The crossing that `c134_corner` wants from the solver exists on the flank of every gear. -/
theorem c134_corner_solvable (pitchAngle : ℝ) (hrp : 0 < rp) (hg0 : coneAngle ≠ 0) (hg1 : -π < coneAngle)
    (hg2 : coneAngle < π) (ha0 : 0 < alpha) (ha1 : alpha < π / 2) (hA : 0 < l.hA) (hD : 0 < l.hD) (R : ℝ)
    (hR : R * sin |coneAngle / 2| = rp) (hpia : pia < pitchAngle / 2)
    (hpi2 : (pitchAngle / 2 - pia) * sin |coneAngle / 2| < π / 2) :
    ∃ x, planeResidual (flatRackCurve rp pia l alpha coneAngle).eval (gapPlaneNormal pitchAngle coneAngle) ORIGIN x =
      some 0 ∧ |x * (l.hA + l.hD) - l.hD| / R / cos alpha < π / 2 := by
  obtain ⟨h1, h2, -, h4⟩ := R_facts hrp hg0 hg1 hg2
  have hR' : rp / sin |coneAngle / 2| = R := by rw [← hR]; field_simp
  have hRp : 0 < R := hR' ▸ h4
  have hca : 0 < cos alpha := cos_pos_of_mem_Ioo ⟨by linarith, ha1⟩
  have hsa : 0 < sin alpha := sin_pos_of_pos_of_lt_pi ha0 (by linarith [pi_pos])
  obtain ⟨a, ha⟩ : ∃ a, a = pia * sin |coneAngle / 2| := ⟨_, rfl⟩
  obtain ⟨q, hq⟩ : ∃ q, q = pitchAngle / 2 * sin |coneAngle / 2| := ⟨_, rfl⟩
  have hqa : 0 < q - a := by rw [hq, ha, ← sub_mul]; exact mul_pos (by linarith) h1
  have hqa2 : q - a < π / 2 := by rw [hq, ha, ← sub_mul]; exact hpi2
  have hcq : 0 < cos (q - a) := cos_pos_of_mem_Ioo ⟨by linarith, hqa2⟩
  obtain ⟨φ, hφ⟩ : ∃ φ, φ = -arctan (tan (q - a) / sin alpha) := ⟨_, rfl⟩
  obtain ⟨x, hx⟩ : ∃ x, x = (φ * cos alpha * R + l.hD) / (l.hA + l.hD) := ⟨_, rfl⟩
  have hxx : x * (l.hA + l.hD) - l.hD = φ * cos alpha * R := by rw [hx]; field_simp; ring
  have harc : rackArc R alpha l x = φ := by rw [rackArc, hxx]; field_simp
  refine ⟨x, ?_, ?_⟩
  · have hn : gapPlaneNormal pitchAngle coneAngle = ![sin q, cos q, 0] := by
      rw [gapPlaneNormal, h2, show -pitchAngle / 2 * sin |coneAngle / 2| = -q by rw [hq]; ring]
      apply V3.ext3 <;> simp [UP]
    rw [planeResidual, flatRack_eval hrp hg0 hg1 hg2, hR', ← ha, harc, hn, flankPoint_eq]
    simp only [Option.map_some, Option.some.injEq]
    have hc : cos φ * tan (q - a) = -(sin φ * sin alpha) := by
      have e1 : 0 < cos φ := by rw [hφ, cos_neg]; exact cos_arctan_pos _
      have e2 : tan φ = -(tan (q - a) / sin alpha) := by rw [hφ, tan_neg, tan_arctan]
      rw [tan_eq_sin_div_cos, div_eq_iff e1.ne'] at e2
      rw [e2]; field_simp
    have hc2 : cos φ * sin (q - a) = -(sin φ * sin alpha) * cos (q - a) := by
      rw [← hc, tan_eq_sin_div_cos]; field_simp
    rw [sin_sub, cos_sub] at hc2
    simp [dot, ORIGIN]
    linear_combination R * hc2
  · rw [hxx, abs_mul, abs_mul, abs_of_pos hRp, abs_of_pos hca, hφ, abs_neg]
    rw [show |arctan (tan (q - a) / sin alpha)| * cos alpha * R / R / cos alpha = |arctan (tan (q - a) / sin alpha)| by
      field_simp, abs_lt]
    exact ⟨neg_pi_div_two_lt_arctan _, arctan_lt_pi_div_two _⟩

/-- **C134, bevel gears.** The undercut curve of a bevel gear stays on the sphere of the gear and outside the root cone,
`h_d` below the pitch cone on the sphere. The full property wants it to reach the root cone if the flanks of the rack do
not meet before. -/
theorem c134_octoid_partial (S : ScalarSolvers) (pitchAngle : ℝ) (hrp : 0 < rp) (hg0 : coneAngle ≠ 0)
    (hg1 : -π < coneAngle) (hg2 : coneAngle < π) (ha0 : 0 < alpha) (ha1 : alpha < π / 2) (hA : 0 < l.hA) (hD : 0 < l.hD)
    (R : ℝ) (hR : R * sin |coneAngle / 2| = rp) (hA2 : l.hA / R / cos alpha ≤ π / 2)
    (hD2 : l.hD / R / cos alpha < π / 2) (hpia : pia < pitchAngle / 2)
    (hpi2 : (pitchAngle / 2 - pia) * sin |coneAngle / 2| < π / 2) (x : ℝ)
    (hx : x = (S.root1 (planeResidual (flatRackCurve rp pia l alpha coneAngle).eval (gapPlaneNormal pitchAngle coneAngle)
      ORIGIN) 0).x)
    (hS : planeResidual (flatRackCurve rp pia l alpha coneAngle).eval (gapPlaneNormal pitchAngle coneAngle) ORIGIN x =
      some 0)
    (hS2 : |x * (l.hA + l.hD) - l.hD| / R / cos alpha < π / 2) (c : Curve)
    (hc : octoidUndercutCurve S rp pia pitchAngle l alpha coneAngle = some c) :
    let σ := sgn (coneAngle / 2)
    let a := rp / tan (coneAngle / 2)
    let g := |coneAngle / 2|
    ∃ p, crownRefPoint S (flatRackCurve rp pia l alpha coneAngle) pitchAngle coneAngle = some p ∧
      c.eval 0 = some (app (Ry ((π / 2 - g) * σ)) (mulV p ![1, 1, σ]) + ![0, 0, a]) ∧
      c.kind.fn = undercutCurveCone rp coneAngle p ∧
      ∀ t, norm3 (c.kind.fn t - ![0, 0, a]) = R ∧ g - l.hD / R < coneAngleOf σ a (c.kind.fn t) := by
  intro σ a g
  obtain ⟨p0, p, n, e1, e2, -, -, e5, e6, -⟩ := c134_corner S pitchAngle hrp hg0 hg1 hg2 ha0 ha1 hA hD R hR hD2 hpia
    hpi2 x hx hS hS2
  obtain ⟨p0', p1, f1, -, ⟨f3, -⟩, -⟩ := c134_height_partial (pia := pia) hrp hg0 hg1 hg2 ha0 ha1 hA hD R hR hA2 hD2.le
  obtain rfl : p0 = p0' := Option.some.inj (e1.symm.trans f1)
  rw [octoidUndercutCurve, e2, Option.bind_some] at hc
  obtain ⟨k1, -⟩ := generateUndercutCone_spec S rp coneAngle p c hc
  obtain ⟨g1, g2, -⟩ := c134_undercut S p c hrp hg0 hg1 hg2 R hR e5 hc
  have hfn : c.kind.fn = undercutCurveCone rp coneAngle p := by rw [k1]; rfl
  refine ⟨p, e2, g1, hfn, ?_⟩
  intro t
  rw [hfn]
  obtain ⟨m1, m2⟩ := undercut_cone_above p t hrp hg0 hg1 hg2 R hR e5
  exact ⟨m1, by linarith [m2]⟩

/-- **C134, depth, violated.** Property C134 wants the undercut to reach the root cone when the rack has its full depth.
For every bevel gear with a pressure angle the trochoid of the flat rack stays above the root cone, even where the solid
is cut by its extension. -/
theorem c134_depth_violated (S : ScalarSolvers) (pitchAngle : ℝ) (hrp : 0 < rp) (hg0 : coneAngle ≠ 0)
    (hg1 : -π < coneAngle) (hg2 : coneAngle < π) (ha0 : 0 < alpha) (ha1 : alpha < π / 2) (hA : 0 < l.hA) (hD : 0 < l.hD)
    (R : ℝ) (hR : R * sin |coneAngle / 2| = rp) (hA2 : l.hA / R / cos alpha ≤ π / 2)
    (hD2 : l.hD / R / cos alpha < π / 2) (hpia : pia < pitchAngle / 2)
    (hpi2 : (pitchAngle / 2 - pia) * sin |coneAngle / 2| < π / 2) (x : ℝ)
    (hx : x = (S.root1 (planeResidual (flatRackCurve rp pia l alpha coneAngle).eval (gapPlaneNormal pitchAngle coneAngle)
      ORIGIN) 0).x)
    (hS : planeResidual (flatRackCurve rp pia l alpha coneAngle).eval (gapPlaneNormal pitchAngle coneAngle) ORIGIN x =
      some 0)
    (hS2 : |x * (l.hA + l.hD) - l.hD| / R / cos alpha < π / 2) (c : Curve)
    (hc : octoidUndercutCurve S rp pia pitchAngle l alpha coneAngle = some c) :
    ¬∃ t, coneAngleOf (sgn (coneAngle / 2)) (rp / tan (coneAngle / 2)) (c.kind.fn t) = |coneAngle / 2| - l.hD / R := by
  rintro ⟨t, ht⟩
  obtain ⟨p, -, -, -, h⟩ := c134_octoid_partial S pitchAngle hrp hg0 hg1 hg2 ha0 ha1 hA hD R hR hA2 hD2 hpia hpi2 x hx hS
    hS2 c hc
  have := (h t).2
  linarith

/-- Concrete case for the theorems about the flat rack: a gear with pitch radius 10 and 60° pitch cone. The sample tooth
curve stands for the octoid in `c134_joint_partial`. -/
theorem c134_case : ∃ S c, octoidUndercutCurve S 10 (1 / 10) (1 / 2) { hA := 1, hD := 1 } (π / 6) (π / 3) = some c ∧
    (∃ r, octoidUndercutTooth S sampleTooth 10 (1 / 10) (1 / 2) { hA := 1, hD := 1 } (π / 6) (π / 3) = some r) ∧
    ∃ p, crownRefPoint S (flatRackCurve 10 (1 / 10) { hA := 1, hD := 1 } (π / 6) (π / 3)) (1 / 2) (π / 3) = some p ∧
      norm3 p = 20 ∧ -(1 / 20) < elevation p ∧ elevation p < 0 ∧
      ∀ t, π / 6 - 1 / 20 < coneAngleOf 1 (10 / tan (π / 6)) (c.kind.fn t) := by
  have h3 := pi_gt_three
  have h32 := pi_le_four
  have e1 : π / 3 / 2 = π / 6 := by ring
  have habs : |π / 3 / 2| = π / 6 := by rw [e1]; exact abs_of_pos (by positivity)
  have hR : (20 : ℝ) * sin |π / 3 / 2| = 10 := by rw [habs, sin_pi_div_six]; norm_num
  have hcos : 1 / 2 < cos (π / 6) := by
    rw [cos_pi_div_six]
    have : (1 : ℝ) < √3 := by rw [lt_sqrt (by norm_num)]; norm_num
    linarith
  have hsm : (1 : ℝ) / 20 / cos (π / 6) < π / 2 := by
    rw [div_lt_iff₀ (by linarith)]; nlinarith
  have hpi2 : ((1 : ℝ) / 2 / 2 - 1 / 10) * sin |π / 3 / 2| < π / 2 := by
    rw [habs, sin_pi_div_six]; linarith
  obtain ⟨x, x1, x2⟩ := c134_corner_solvable (rp := 10) (pia := 1 / 10) (alpha := π / 6) (coneAngle := π / 3)
    (l := { hA := 1, hD := 1 }) (1 / 2) (by norm_num) (by positivity) (by linarith) (by linarith) (by linarith)
    (by linarith) (by norm_num) (by norm_num) 20 hR (by norm_num) hpi2
  let S : ScalarSolvers := { sampleScalar with root1 := fun _ g => ⟨true, if g = 0 then x else 0⟩ }
  have hx : x = (S.root1 (planeResidual (flatRackCurve 10 (1 / 10) { hA := 1, hD := 1 } (π / 6) (π / 3)).eval
      (gapPlaneNormal (1 / 2) (π / 3)) ORIGIN) 0).x := by simp [S]
  obtain ⟨p0, p, n, f1, f2, -, -, f5, f6, f7, -⟩ := c134_corner S (rp := 10) (pia := 1 / 10) (alpha := π / 6)
    (coneAngle := π / 3) (l := { hA := 1, hD := 1 }) (1 / 2) (by norm_num) (by positivity) (by linarith) (by linarith)
    (by linarith) (by linarith) (by norm_num) (by norm_num) 20 hR hsm (by norm_num) hpi2 x hx x1 x2
  obtain ⟨p0', p1, g1, -, ⟨g3, -⟩, -⟩ := c134_height_partial (rp := 10) (pia := 1 / 10) (alpha := π / 6)
    (coneAngle := π / 3) (l := { hA := 1, hD := 1 }) (by norm_num) (by positivity) (by linarith) (by linarith)
    (by linarith) (by linarith) (by norm_num) (by norm_num) 20 hR hsm.le hsm.le
  obtain rfl : p0 = p0' := Option.some.inj (f1.symm.trans g1)
  have hc : octoidUndercutCurve S 10 (1 / 10) (1 / 2) { hA := 1, hD := 1 } (π / 6) (π / 3) =
      some (Curve.make (.generic (undercutCurveCone 10 (π / 3) p) 20) true 0 (-1)) := by
    rw [octoidUndercutCurve, f2, Option.bind_some, generateUndercutCone]
    simp [S]
  refine ⟨S, _, hc, ?_, p, f2, f5, by linarith, f7, ?_⟩
  · obtain ⟨c, hcc⟩ : ∃ c, c = Curve.make (.generic (undercutCurveCone 10 (π / 3) p) 20) true 0 (-1) := ⟨_, rfl⟩
    have hc2 := hc
    rw [octoidUndercutCurve, f2, Option.bind_some] at hc2
    obtain ⟨k1, -, k2, k3⟩ := generateUndercutCone_spec _ _ _ _ _ hc2
    rw [← hcc] at k1 k2 k3 hc
    have hsam : c.kind.Sampled := by rw [k1]; change 1 ≤ 20; norm_num
    have he : c.EndsOk := by rw [← k3]; exact endsOk_updateLengths _ hsam
    have hans : undercutAnswer S.toSolvers sampleTooth c (1, 1) = (3 / 4, 1) := by
      rw [undercutAnswer]
      simp only [S, findCurveIntersect, sampleScalar, sampleRoot, sampleTooth_len.2.2.1]
      norm_num
    obtain ⟨hall, htot, -, hidx⟩ := sampleTooth_len
    have hg : ∀ a ∈ sampleTooth, a.active = true → a.kind.Sampled ∧ a.updateLengths = a := by
      intro a ha _
      rcases List.mem_cons.1 ha with rfl | ha
      · exact lineC_fresh _ _
      · rw [List.mem_singleton.1 ha]; exact lineC_fresh _ _
    have hp : chainEval curveOps sampleTooth (3 / 4) =
        some ((1 - 1 / 2 : ℝ) • ![1, 0, 0] + (1 / 2 : ℝ) • ![2, 0, 0]) := by
      rw [chainEval, hidx]
      exact lineC_eval ![1, 0, 0] ![2, 0, 0] (1 / 2)
    obtain ⟨u, d, -, k4, -⟩ := trimInvoluteUndercut_spec S.toSolvers sampleTooth c (1, 1) _ _
      hall.nonNeg (by rw [htot]; norm_num) hg ⟨hsam, k3⟩ k2 (by rw [hans]; norm_num) (by rw [hans]; norm_num)
      (by rw [hans]; exact hp) (by rw [hans]; exact he.2)
    exact ⟨_, by rw [octoidUndercutTooth, hc, Option.bind_some]; exact k4⟩
  intro t
  obtain ⟨p', -, -, -, h⟩ := c134_octoid_partial S (rp := 10) (pia := 1 / 10) (alpha := π / 6)
    (coneAngle := π / 3) (l := { hA := 1, hD := 1 }) (1 / 2) (by norm_num) (by positivity) (by linarith) (by linarith)
    (by linarith) (by linarith) (by norm_num) (by norm_num) 20 hR hsm.le hsm (by norm_num) hpi2 x hx x1 x2 _ hc
  have := (h t).2
  rw [habs, e1, sgn, if_neg (by linarith), if_neg (by linarith)] at this
  exact this

/-- **C134, joint.** The undercut tooth of a bevel gear starts at the corner of the rack, its first part lies on the sphere
of the gear and outside the root cone, and it is continued by the octoid, which it meets if and only if the answer used
for the trimming is an intersection. -/
theorem c134_joint_partial (S : ScalarSolvers) (tooth : List Curve) (pitchAngle : ℝ) (hrp : 0 < rp) (hg0 : coneAngle ≠ 0)
    (hg1 : -π < coneAngle) (hg2 : coneAngle < π) (ha0 : 0 < alpha) (ha1 : alpha < π / 2) (hA : 0 < l.hA) (hD : 0 < l.hD)
    (R : ℝ) (hR : R * sin |coneAngle / 2| = rp) (hA2 : l.hA / R / cos alpha ≤ π / 2)
    (hD2 : l.hD / R / cos alpha < π / 2) (hpia : pia < pitchAngle / 2)
    (hpi2 : (pitchAngle / 2 - pia) * sin |coneAngle / 2| < π / 2) (x : ℝ)
    (hx : x = (S.root1 (planeResidual (flatRackCurve rp pia l alpha coneAngle).eval (gapPlaneNormal pitchAngle coneAngle)
      ORIGIN) 0).x)
    (hS : planeResidual (flatRackCurve rp pia l alpha coneAngle).eval (gapPlaneNormal pitchAngle coneAngle) ORIGIN x =
      some 0)
    (hS2 : |x * (l.hA + l.hD) - l.hD| / R / cos alpha < π / 2)
    (hn : NonNeg curveOps tooth) (hL : 0 < chainLen curveOps tooth)
    (hg : ∀ a ∈ tooth, a.active = true → a.kind.Sampled ∧ a.updateLengths = a)
    (r : List (Curve ⊕ Chain Curve)) (hr : octoidUndercutTooth S tooth rp pia pitchAngle l alpha coneAngle = some r) :
    let σ := sgn (coneAngle / 2)
    let a := rp / tan (coneAngle / 2)
    let g := |coneAngle / 2|
    ∃ (ref : V3) (under u : Curve) (d : List Curve),
      crownRefPoint S (flatRackCurve rp pia l alpha coneAngle) pitchAngle coneAngle = some ref ∧
      octoidUndercutCurve S rp pia pitchAngle l alpha coneAngle = some under ∧ r = [.inl u, .inr ⟨d, true⟩] ∧
      u.eval 0 = some (app (Ry ((π / 2 - g) * σ)) (mulV ref ![1, 1, σ]) + ![0, 0, a]) ∧
      (∀ s q, u.eval s = some q → norm3 (q - ![0, 0, a]) = R ∧ g - l.hD / R < coneAngleOf σ a q) ∧
      (∀ y, y = undercutAnswer S.toSolvers tooth under (1, 1) → 0 ≤ y.1 → y.1 ≤ 1 →
        (chainEval curveOps tooth y.1).isSome → ProperChain d →
        chainEval curveOps d 1 = chainEval curveOps tooth 1 ∧
        (Meets (sumOps curveOps (chainOps curveOps)) r ↔ chainEval curveOps tooth y.1 = under.eval y.2)) := by
  intro σ a g
  obtain ⟨c, hc, hr⟩ := Option.bind_eq_some_iff.1 hr
  obtain ⟨ref, h1, h2, h3, h4⟩ := c134_octoid_partial S pitchAngle hrp hg0 hg1 hg2 ha0 ha1 hA hD R hR hA2 hD2 hpia hpi2 x
    hx hS hS2 c hc
  have hc' := hc
  rw [octoidUndercutCurve, h1, Option.bind_some] at hc'
  obtain ⟨k1, -, k2, k3⟩ := generateUndercutCone_spec S rp coneAngle ref c hc'
  obtain ⟨u, d, rfl, hu⟩ := trimInvoluteUndercut_some _ _ _ _ _ hr
  obtain ⟨q, hq⟩ : ∃ q, c.eval (undercutAnswer S.toSolvers tooth c (1, 1)).2 = some q := by
    have hu' := hu
    rw [Curve.setEndOn, Option.map_eq_some_iff] at hu'
    obtain ⟨t, e, _⟩ := hu'
    exact ⟨_, by rw [Curve.eval, e]; rfl⟩
  have hsam : c.kind.Sampled := by rw [k1]; change 1 ≤ 20; norm_num
  obtain ⟨u', e1, -, -, e2, e3⟩ := curve_lawful.fin c _ q ⟨hsam, k3⟩ hq
  obtain rfl : u' = u := Option.some.inj (e1.symm.trans hu)
  have hkind : u'.kind = c.kind := by
    rw [Curve.setEndOn, Option.map_eq_some_iff] at hu
    obtain ⟨t, _, rfl⟩ := hu
    exact updateLengths_kind _
  refine ⟨ref, c, u', d, h1, hc, rfl, e3.trans h2, ?_, ?_⟩
  · intro s q' hq'
    obtain ⟨t, -, rfl⟩ := eval_some hq'
    rw [hkind]
    exact h4 t
  · rintro y rfl y0 y1 hs hpr
    obtain ⟨p, hp⟩ := Option.isSome_iff_exists.1 hs
    obtain ⟨u2, d2, -, f1, -, -, -, f5⟩ := trimInvoluteUndercut_spec S.toSolvers tooth c (1, 1) p q hn hL hg
      ⟨hsam, k3⟩ k2 y0 y1 hp hq
    have e5 := Option.some.inj (f1.symm.trans hr)
    simp only [List.cons.injEq, Sum.inl.injEq, Sum.inr.injEq, Chain.mk.injEq, and_true] at e5
    obtain ⟨rfl, rfl⟩ := e5
    obtain ⟨g1, g2, g3, -⟩ := f5 hpr
    refine ⟨g2, g3.trans ?_⟩
    rw [hp, hq, Option.some.injEq]

/-! ### The involute rack -/

theorem rackFlankFunc_eq (R alpha a t : ℝ) : rackFlankFunc R alpha a t =
    app (Rz (t + a)) ![R * cos (t * cos alpha), -(R * cos alpha * sin (t * cos alpha)),
      R * sin alpha * sin (t * cos alpha)] := by
  rw [rackFlankFunc]
  congr 1
  apply V3.ext3 <;> simp [rodrigues, RIGHT, OUT, dot, Matrix.vecHead, Matrix.vecTail] <;> ring

theorem rackFlankFunc_norm {R : ℝ} (hR : 0 < R) (alpha a t : ℝ) : norm3 (rackFlankFunc R alpha a t) = R := by
  apply norm3_eq_of_dot hR.le
  rw [rackFlankFunc_eq]
  simp [dot]
  linear_combination R ^ 2 * (cos (t * cos alpha) ^ 2 + cos alpha ^ 2 * sin (t * cos alpha) ^ 2) *
    sin_sq_add_cos_sq (t + a) + R ^ 2 * sin (t * cos alpha) ^ 2 * sin_sq_add_cos_sq alpha +
    R ^ 2 * sin_sq_add_cos_sq (t * cos alpha)

theorem rackFlankFunc_elevation {R : ℝ} (hR : 0 < R) (alpha a t : ℝ) :
    elevation (rackFlankFunc R alpha a t) = arcsin (sin alpha * sin (t * cos alpha)) := by
  rw [elevation, rackFlankFunc_norm hR, rackFlankFunc_eq]
  congr 1
  simp
  field_simp

/-- The flank before its ends are set. -/
noncomputable def crownFlank (R alpha a : ℝ) : Curve := Curve.make (.generic (rackFlankFunc R alpha (-a)) 20) true (-1) 1

theorem involuteCrown_eq (S : ScalarSolvers) (hrp : 0 < rp) (hg0 : coneAngle ≠ 0) (hg1 : -π < coneAngle)
    (hg2 : coneAngle < π) (R : ℝ) (hR : R * sin |coneAngle / 2| = rp) :
    involuteCrownCurve S rp pia l alpha coneAngle =
      (crownFlank R alpha (pia * sin |coneAngle / 2|)).setStartAndEndOn
        (S.root1 (rackDepthResidual (crownFlank R alpha (pia * sin |coneAngle / 2|)).eval R l.hD) 0).x
        (S.root1 (rackDepthResidual (crownFlank R alpha (pia * sin |coneAngle / 2|)).eval R (-l.hA)) 0).x := by
  obtain ⟨h1, -, h3, h4⟩ := R_facts hrp hg0 hg1 hg2
  have hR' : rp / sin |coneAngle / 2| = R := by rw [← hR]; field_simp
  have hRp : 0 < R := hR' ▸ h4
  have ha : rp / R * pia = pia * sin |coneAngle / 2| := by rw [← hR]; field_simp
  rw [involuteCrownCurve]
  have hb : (gearPolarData coneAngle rp).baseRadius = rp := rfl
  simp only [polarR, h3, hR', hb, ha]
  rfl

theorem setBoth_kind {c d : Curve} {s0 s1 : ℝ} (h : c.setStartAndEndOn s0 s1 = some d) : d.kind = c.kind := by
  rw [Curve.setStartAndEndOn] at h
  split at h
  · rw [← Option.some.inj h, updateLengths_kind]
  · cases h

theorem crownFlank_kind (R alpha a : ℝ) : (crownFlank R alpha a).kind = .generic (rackFlankFunc R alpha (-a)) 20 := by
  rw [crownFlank, Curve.make, if_pos rfl, updateLengths_kind]

/-- **C134, involute rack.** The rack flank of an involute bevel gear lies on the sphere of the gear, crosses the equator
at the half tooth and under the pressure angle, and, if the solver finds the two heights, reaches exactly from `h_d`
below to `h_a` above the equator, measured on the sphere. -/
theorem c134_involute (S : ScalarSolvers) (hrp : 0 < rp) (hg0 : coneAngle ≠ 0) (hg1 : -π < coneAngle)
    (hg2 : coneAngle < π) (ha0 : 0 < alpha) (ha1 : alpha < π / 2) (R a : ℝ) (hR : R * sin |coneAngle / 2| = rp)
    (ha : R * a = rp * pia) (x0 x1 : ℝ)
    (hx0 : x0 = (S.root1 (rackDepthResidual (crownFlank R alpha a).eval R l.hD) 0).x)
    (hx1 : x1 = (S.root1 (rackDepthResidual (crownFlank R alpha a).eval R (-l.hA)) 0).x)
    (hS0 : rackDepthResidual (crownFlank R alpha a).eval R l.hD x0 = some 0)
    (hS1 : rackDepthResidual (crownFlank R alpha a).eval R (-l.hA) x1 = some 0) :
    ∃ d p0 p1, involuteCrownCurve S rp pia l alpha coneAngle = some d ∧ d.eval 0 = some p0 ∧ d.eval 1 = some p1 ∧
      elevation p0 = -(l.hD / R) ∧ elevation p1 = l.hA / R ∧ (∀ t, norm3 (d.kind.fn t) = R) ∧
      d.kind.fn 0 = circlePoint R (-a) 0 ∧ ∃ v, HasDerivAt d.kind.fn v 0 ∧ angleBetween OUT v = alpha := by
  obtain ⟨h1, -, h3, h4⟩ := R_facts hrp hg0 hg1 hg2
  have hR' : rp / sin |coneAngle / 2| = R := by rw [← hR]; field_simp
  have hRp : 0 < R := hR' ▸ h4
  have ha' : pia * sin |coneAngle / 2| = a := by
    have : R * (pia * sin |coneAngle / 2|) = R * a := by rw [ha, ← hR]; ring
    exact mul_left_cancel₀ hRp.ne' this
  have hsa : 0 < sin alpha := sin_pos_of_pos_of_lt_pi ha0 (by linarith [pi_pos])
  rw [involuteCrown_eq S hrp hg0 hg1 hg2 R hR, ha', ← hx0, ← hx1]
  have hk := crownFlank_kind R alpha a
  obtain ⟨p0, q1, q2⟩ := Option.map_eq_some_iff.1 hS0
  obtain ⟨p1, r1, r2⟩ := Option.map_eq_some_iff.1 hS1
  have hsam : (crownFlank R alpha a).kind.Sampled := by rw [hk]; change 1 ≤ 20; norm_num
  obtain ⟨d, e1, e2, e3⟩ := c41_both _ hsam x0 x1 p0 p1 q1 r1
  have hfn : d.kind.fn = rackFlankFunc R alpha (-a) := by rw [setBoth_kind e1, hk]; rfl
  have hel : ∀ {x p}, (crownFlank R alpha a).eval x = some p → norm3 p = R := by
    intro x p h
    obtain ⟨t, -, rfl⟩ := eval_some h
    rw [hk]; exact rackFlankFunc_norm hRp _ _ _
  refine ⟨d, p0, p1, e1, e2, e3, ?_, ?_, ?_, ?_, (R * sin alpha) • ![sin alpha * sin a, sin alpha * cos a, cos alpha], ?_,
    angle_to_axis a (by positivity) ha0 ha1⟩
  · rw [elevation, hel q1]; linarith
  · rw [elevation, hel r1]; rw [neg_div] at r2; linarith
  · intro t; rw [hfn]; exact rackFlankFunc_norm hRp _ _ _
  · rw [hfn, rackFlankFunc_eq]
    apply V3.ext3 <;> simp [circlePoint, mul_comm]
  · rw [hfn]
    have c1 := hasDerivAt_cos_lin (cos alpha) 0 0
    have s1 := hasDerivAt_sin_lin (cos alpha) 0 0
    have c2 := hasDerivAt_cos_lin 1 (-a) 0
    have s2 := hasDerivAt_sin_lin 1 (-a) 0
    have hqa := sin_sq_add_cos_sq alpha
    apply hasDerivAt_v3
    · refine ((c2.mul (c1.const_mul R)).add (s2.mul (s1.const_mul (R * cos alpha)))).congr_deriv ?_
        |>.congr_of_eventuallyEq (Filter.Eventually.of_forall fun s => ?_)
      · simp; linear_combination -R * sin a * hqa
      · simp [rackFlankFunc_eq, mul_comm]
    · refine ((s2.mul (c1.const_mul R)).sub (c2.mul (s1.const_mul (R * cos alpha)))).congr_deriv ?_
        |>.congr_of_eventuallyEq (Filter.Eventually.of_forall fun s => ?_)
      · simp; linear_combination -R * cos a * hqa
      · simp [rackFlankFunc_eq, mul_comm]; ring
    · refine (s1.const_mul (R * sin alpha)).congr_deriv ?_
        |>.congr_of_eventuallyEq (Filter.Eventually.of_forall fun s => ?_)
      · simp
      · simp [rackFlankFunc_eq, mul_comm]

/-- **C134, involute rack, violated.** The flank turns back at the height `alpha` on both sides. If the dedendum is larger,
no answer of the solver gives a rack of the requested depth. -/
theorem c134_involute_violated (S : ScalarSolvers) (hrp : 0 < rp) (hg0 : coneAngle ≠ 0) (hg1 : -π < coneAngle)
    (hg2 : coneAngle < π) (ha0 : 0 < alpha) (ha1 : alpha < π / 2) (R : ℝ) (hR : R * sin |coneAngle / 2| = rp)
    (hdeep : alpha < l.hD / R) (d : Curve) (hd : involuteCrownCurve S rp pia l alpha coneAngle = some d) :
    ∀ s p, d.eval s = some p → elevation p ≠ -(l.hD / R) := by
  obtain ⟨h1, -, h3, h4⟩ := R_facts hrp hg0 hg1 hg2
  have hR' : rp / sin |coneAngle / 2| = R := by rw [← hR]; field_simp
  have hRp : 0 < R := hR' ▸ h4
  have hsa : 0 < sin alpha := sin_pos_of_pos_of_lt_pi ha0 (by linarith [pi_pos])
  rw [involuteCrown_eq S hrp hg0 hg1 hg2 R hR] at hd
  intro s p hp he
  obtain ⟨t, -, rfl⟩ := eval_some hp
  rw [setBoth_kind hd, crownFlank_kind] at he
  change elevation (rackFlankFunc R alpha _ t) = _ at he
  rw [rackFlankFunc_elevation hRp] at he
  have h5 : arcsin (-sin alpha) ≤ arcsin (sin alpha * sin (t * cos alpha)) := by
    apply monotone_arcsin
    nlinarith [neg_one_le_sin (t * cos alpha)]
  rw [arcsin_neg, arcsin_sin (by linarith) ha1.le] at h5
  linarith

/-- Concrete case for `c134_involute`: the solver answers the two ends of the flank before it is trimmed. -/
theorem c134_involute_case : ∃ S h, 0 < h ∧ ∃ d p0 p1,
    involuteCrownCurve S 10 (1 / 10) { hA := h, hD := h } (π / 6) (π / 3) = some d ∧ d.eval 0 = some p0 ∧
      d.eval 1 = some p1 ∧ elevation p0 = -(h / 20) ∧ elevation p1 = h / 20 := by
  have h3 := pi_gt_three
  have habs : |π / 3 / 2| = π / 6 := by rw [show π / 3 / 2 = π / 6 by ring]; exact abs_of_pos (by positivity)
  have hR : (20 : ℝ) * sin |π / 3 / 2| = 10 := by rw [habs, sin_pi_div_six]; norm_num
  obtain ⟨e, he⟩ : ∃ e, e = arcsin (sin (π / 6) * sin (cos (π / 6))) := ⟨_, rfl⟩
  have hc0 : 0 < cos (π / 6) := cos_pos_of_mem_Ioo ⟨by linarith, by linarith⟩
  have hpos : 0 < e := by
    rw [he, arcsin_pos]
    have := sin_pos_of_pos_of_lt_pi hc0 (by linarith [cos_le_one (π / 6)])
    rw [sin_pi_div_six]; positivity
  obtain ⟨c, hc⟩ : ∃ c, c = crownFlank 20 (π / 6) (1 / 20) := ⟨_, rfl⟩
  have hsam : (CurveKind.generic (rackFlankFunc 20 (π / 6) (-(1 / 20))) 20).Sampled := by change 1 ≤ 20; norm_num
  have hends : c.EndsOk := by
    rw [hc, crownFlank, Curve.make, if_pos rfl]
    exact endsOk_updateLengths _ hsam
  have ht : c.t0 = -1 ∧ c.t1 = 1 := by
    rw [hc, crownFlank, Curve.make, if_pos rfl]
    exact ⟨updateLengths_t0 _, updateLengths_t1 _⟩
  have hk : c.kind.fn = rackFlankFunc 20 (π / 6) (-(1 / 20)) := by rw [hc, crownFlank_kind]; rfl
  have hres : ∀ x t d, c.eval x = some (c.kind.fn t) → rackDepthResidual c.eval 20 d x =
      some (arcsin (sin (π / 6) * sin (t * cos (π / 6))) + d / 20) := by
    intro x t d hx
    rw [rackDepthResidual, hx, hk]
    have := rackFlankFunc_elevation (R := 20) (by norm_num) (π / 6) (-(1 / 20)) t
    rw [elevation, rackFlankFunc_norm (by norm_num)] at this
    rw [Option.map_some, this]
  have r0 := hres 0 (-1) (20 * e) (by rw [hends.1, ht.1])
  have r1 := hres 1 1 (-(20 * e)) (by rw [hends.2, ht.2])
  rw [neg_one_mul, sin_neg, mul_neg, arcsin_neg, ← he, show -e + 20 * e / 20 = 0 by ring] at r0
  rw [one_mul, ← he, show e + -(20 * e) / 20 = 0 by ring] at r1
  classical
  let S : ScalarSolvers :=
    { sampleScalar with root1 := fun f _ => ⟨true, if f 0 = some 0 then 0 else 1⟩ }
  have q1 : rackDepthResidual c.eval 20 (-(20 * e)) 0 ≠ some 0 := by
    rw [hres 0 (-1) (-(20 * e)) (by rw [hends.1, ht.1]), neg_one_mul, sin_neg, mul_neg, arcsin_neg, ← he]
    intro h
    have := Option.some.inj h
    linarith
  have x0 : (0 : ℝ) = (S.root1 (rackDepthResidual c.eval 20 (20 * e)) 0).x := by simp [S, r0]
  have x1 : (1 : ℝ) = (S.root1 (rackDepthResidual c.eval 20 (-(20 * e))) 0).x := by simp [S, q1]
  obtain ⟨d, p0, p1, k1, k2, k3, k4, k5, -⟩ := c134_involute S (rp := 10) (pia := 1 / 10) (alpha := π / 6)
    (coneAngle := π / 3) (l := { hA := 20 * e, hD := 20 * e }) (by norm_num) (by positivity) (by linarith) (by linarith)
    (by linarith) (by linarith) 20 (1 / 20) hR (by norm_num) 0 1 (hc ▸ x0) (hc ▸ x1) (hc ▸ r0) (hc ▸ r1)
  exact ⟨S, 20 * e, by positivity, d, p0, p1, k1, k2, k3, k4, k5⟩

/-- Concrete case for `c134_involute_violated`: a gear of five teeth and module one. -/
example : π / 9 < 1.25 / (2.5 / sin (π / 4)) := by
  have h1 : π < 3.15 := pi_lt_d2
  have h2 : (1.4 : ℝ) < √2 := by rw [lt_sqrt (by norm_num)]; norm_num
  rw [sin_pi_div_four, lt_div_iff₀ (by positivity), ← mul_div_assoc, div_lt_iff₀ (by positivity)]
  nlinarith

/-- **C134, when.** For positive cones the undercut is made if and only if the root cone lies inside the base cone, whose
angle `b` to the axis has `sin b = sin γ * cos alpha`. -/
theorem c134_enable_partial {hD : ℝ} (hrp : 0 < rp) (hg0 : 0 < coneAngle) (hg2 : coneAngle < π) (R b : ℝ)
    (hR : R * sin (coneAngle / 2) = rp) (hb0 : 0 ≤ b) (hb1 : b ≤ π / 2) (hb : sin b = sin (coneAngle / 2) * cos alpha) :
    octoidUndercutOn rp coneAngle alpha hD ↔ coneAngle / 2 - hD / R < b := by
  have hs : 0 < sin (coneAngle / 2) := sin_pos_of_pos_of_lt_pi (by linarith) (by linarith [pi_pos])
  have hR' : (gearPolarData coneAngle rp).R = R := by
    rw [polarR, abs_of_pos (by positivity), ← hR]; field_simp
  rw [octoidUndercutOn, gt_iff_lt]
  simp only [hR']
  rw [← hb, arcsin_sin (by linarith [pi_pos]) hb1]
  constructor <;> intro h <;> linarith

/-- **C134, when, violated.** For negative cones the undercut is made for every dedendum, also if the root cone is far
outside the base cone. -/
theorem c134_enable_violated {hD : ℝ} (hrp : 0 < rp) (hg0 : coneAngle < 0) (hg1 : -π < coneAngle) (ha0 : 0 ≤ alpha)
    (ha1 : alpha ≤ π / 2) (hD0 : 0 < hD) : octoidUndercutOn rp coneAngle alpha hD := by
  have hs : sin (coneAngle / 2) < 0 := sin_neg_of_neg_of_neg_pi_lt (by linarith) (by linarith [pi_pos])
  have hRp : 0 < (gearPolarData coneAngle rp).R := by
    rw [polarR]; exact abs_pos.2 (div_ne_zero hrp.ne' hs.ne)
  have hca := cos_nonneg_of_mem_Icc (⟨by linarith, ha1⟩ : alpha ∈ Set.Icc (-(π / 2)) (π / 2))
  have h1 : arcsin (sin (coneAngle / 2)) ≤ arcsin (sin (coneAngle / 2) * cos alpha) := by
    apply monotone_arcsin
    nlinarith [cos_le_one alpha]
  rw [arcsin_sin (by linarith) (by linarith [pi_pos])] at h1
  have : 0 < hD / (gearPolarData coneAngle rp).R := by positivity
  rw [octoidUndercutOn, gt_iff_lt]
  linarith

/-- Concrete case for `c134_enable_partial` and `c134_enable_violated`: a pitch radius of 100 and a dedendum of 1 need no
undercut with a cone of 90° and 30° pressure angle, but the gear with a cone of -90° gets one. -/
theorem c134_enable_case : ¬octoidUndercutOn 100 (π / 2) (π / 6) 1 ∧ octoidUndercutOn 100 (-(π / 2)) (π / 6) 1 := by
  have h3 := pi_gt_three
  constructor
  · have hb : arcsin (sin (π / 2 / 2) * cos (π / 6)) < π / 4 - 1 / 50 := by
      rw [arcsin_lt_iff_lt_sin' ⟨by linarith, by linarith⟩, show π / 2 / 2 = π / 4 by ring, sin_sub, sin_pi_div_four,
        cos_pi_div_four, cos_pi_div_six]
      have e1 := one_sub_sq_div_two_le_cos (x := 1 / 50)
      have e2 := sin_le (show (0 : ℝ) ≤ 1 / 50 by norm_num)
      have e3 : √3 < 1.8 := by rw [sqrt_lt' (by norm_num)]; norm_num
      have e4 : 0 < √2 := by positivity
      nlinarith
    have hs : 0 < sin (π / 2 / 2) := sin_pos_of_pos_of_lt_pi (by linarith) (by linarith)
    rw [octoidUndercutOn, gt_iff_lt]
    simp only [polarR]
    rw [abs_of_pos (by positivity), not_lt, div_div_eq_mul_div, div_le_iff₀ (by norm_num)]
    nlinarith [sin_le_one (π / 2 / 2)]
  · exact c134_enable_violated (by norm_num) (by linarith) (by linarith) (by linarith) (by linarith) (by norm_num)

end C134

end Verif
