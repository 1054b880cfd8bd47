import Verif.Model.ArcFunc
import Verif.Props.Arc

/-! # The arc functions: C143 -/

namespace Verif

open Real

/-- An arc about `center` that starts at `p0` and turns about the unit vector `n` by `total` between the
parameters 0 and 1: specification. -/
def Spec.TurnsAbout (f : ℝ → Option V3) (center n p0 : V3) (total : ℝ) : Prop :=
  dot n n = 1 ∧ ∀ t, f t = some (center + rodrigues n (t * total) (p0 - center))

/-- What is common to all axes and curvatures. -/
theorem arcFrom2Point_run {p0 p1 axis : V3} {curvature : ℝ} (hp : p0 ≠ p1) (hc : curvature ≠ 0)
    (hax : cross axis (p1 - p0) ≠ 0) (ρ : ℝ) :
    ∃ (d h θ : ℝ) (u a C : V3), d = norm3 (p1 - p0) ∧ 0 < d ∧ p1 - p0 = d • u ∧ dot u u = 1 ∧
      dot a a = 1 ∧ dot a u = 0 ∧ 0 < dot a axis ∧ dot a (cross axis (p1 - p0)) = 0 ∧
      h ^ 2 = max (1 / |curvature|) (d / 2) ^ 2 - (d / 2) ^ 2 ∧ 0 ≤ h * curvature ∧
      p0 - C = h • cross u a - (d / 2) • u ∧ p1 - C = h • cross u a + (d / 2) • u ∧
      0 ≤ θ ∧ θ ≤ π ∧ (h ^ 2 + (d / 2) ^ 2) * cos θ = h ^ 2 - (d / 2) ^ 2 ∧
      (h ^ 2 + (d / 2) ^ 2) * sin θ = |h| * d ∧
      ∀ t, arcFrom2Point t p0 p1 curvature axis ρ =
        some (C + rodrigues a (t * (θ + ρ * π * 2)) (p0 - C)) := by
  have hD : p1 - p0 ≠ 0 := sub_ne_zero.2 hp.symm
  have hd := norm3_pos hD
  obtain ⟨d, hdd⟩ : ∃ d, d = norm3 (p1 - p0) := ⟨_, rfl⟩
  obtain ⟨u, hu⟩ : ∃ u, u = (norm3 (p1 - p0))⁻¹ • (p1 - p0) := ⟨_, rfl⟩
  have hDu : p1 - p0 = d • u := by rw [hu, hdd, norm3_smul_inv hD]
  have huu : dot u u = 1 := by rw [hu]; exact dot_inv_smul hD
  obtain ⟨q, hq⟩ : ∃ q, q = axis - dot axis u • u := ⟨_, rfl⟩
  have hqu : dot q u = 0 := by rw [hq, dot_sub_left, dot_smul_left, huu]; ring
  have hq0 : q ≠ 0 := by
    intro e
    rw [hq, sub_eq_zero] at e
    apply hax
    rw [e, hDu, cross_smul_left, cross_smul_right, cross_self]; simp
  have hqa : dot q axis = norm3 q ^ 2 := by
    rw [norm3_sq]
    conv_rhs => rw [hq]
    rw [dot_sub_left, dot_smul_left, ← hq, dot_comm u q, hqu, dot_comm q axis]; ring
  obtain ⟨a, hadef⟩ : ∃ a, a = (norm3 q)⁻¹ • q := ⟨_, rfl⟩
  have haa : dot a a = 1 := by rw [hadef]; exact dot_inv_smul hq0
  have hau : dot a u = 0 := by rw [hadef, dot_smul_left, hqu]; ring
  have haax : 0 < dot a axis := by
    rw [hadef, dot_smul_left, hqa]; have := norm3_pos hq0; positivity
  have hapl : dot a (cross axis (p1 - p0)) = 0 := by
    have hqx : cross axis u = norm3 q • cross a u := by
      rw [hadef, cross_smul_left, smul_smul, mul_inv_cancel₀ (norm3_pos hq0).ne', one_smul, hq,
        cross_sub_left, cross_smul_left, cross_self]; simp
    rw [hDu, cross_smul_right, dot_smul_right, hqx, dot_smul_right, dot_cross_left]; ring
  rw [← hdd] at hd
  obtain ⟨r, hrd⟩ : ∃ r, r = 1 / curvature := ⟨_, rfl⟩
  have hr0 : r ≠ 0 := by rw [hrd]; positivity
  have hrabs : |r| = 1 / |curvature| := by rw [hrd, abs_div, abs_one]
  obtain ⟨s1, s2, s3⟩ := npSign_mul_abs hr0
  obtain ⟨r', hr'⟩ : ∃ r', r' = if |r| < d / 2 then d / 2 * npSign r else r := ⟨_, rfl⟩
  have hr2 : r' ^ 2 = max (1 / |curvature|) (d / 2) ^ 2 ∧ npSign r' = npSign r := by
    rw [← hrabs, hr']
    split_ifs with hlt
    · rw [max_eq_right hlt.le, mul_pow, pow_two (npSign r), s2, mul_one]
      refine ⟨rfl, ?_⟩
      unfold npSign
      rcases lt_or_gt_of_ne hr0 with h1 | h1
      · rw [if_pos h1, if_pos (by linarith)]
      · simp only [if_neg h1.le.not_gt, if_neg hr0]
        rw [if_neg (by linarith), if_neg (by linarith)]
    · rw [max_eq_left (not_lt.1 hlt), sq_abs]; exact ⟨rfl, rfl⟩
  have hge : 0 ≤ r' ^ 2 - (d / 2) ^ 2 := by
    have hm := le_max_right (1 / |curvature|) (d / 2)
    rw [hr2.1]; nlinarith
  obtain ⟨h, hh⟩ : ∃ h, h = √(r' ^ 2 - (d / 2) ^ 2) * npSign r' := ⟨_, rfl⟩
  have hh2 : h ^ 2 = max (1 / |curvature|) (d / 2) ^ 2 - (d / 2) ^ 2 := by
    rw [hh, mul_pow, Real.sq_sqrt hge, hr2.2, pow_two (npSign r), s2, mul_one, hr2.1]
  have hhc : 0 ≤ h * curvature := by
    have e : h * curvature = √(r' ^ 2 - (d / 2) ^ 2) * (npSign r * r) * curvature ^ 2 := by
      rw [hh, hr2.2, hrd]; field_simp
    rw [e]; have := Real.sqrt_nonneg (r' ^ 2 - (d / 2) ^ 2); positivity
  obtain ⟨C, hC⟩ : ∃ C, C = (1 / 2 : ℝ) • (p0 + p1) - h • cross u a := ⟨_, rfl⟩
  have hp0 : p0 - C = h • cross u a - (d / 2) • u := by
    have : p0 - C = (-(1 / 2 : ℝ)) • (p1 - p0) + h • cross u a := by rw [hC]; module
    rw [this, hDu]; module
  have hp1 : p1 - C = h • cross u a + (d / 2) • u := by
    have : p1 - C = (1 / 2 : ℝ) • (p1 - p0) + h • cross u a := by rw [hC]; module
    rw [this, hDu]; module
  have hmu : dot u (cross u a) = 0 := dot_cross_left u a
  have hmm : dot (cross u a) (cross u a) = 1 := by
    rw [dot_cross_self, huu, haa, dot_comm, hau]; ring
  have hx1 : cross u (cross u a) = -a := by
    rw [cross_cross_right, huu, dot_comm, hau]; module
  have hcross : cross (p0 - C) (p1 - C) = (d * h) • a := by
    rw [hp0, hp1]
    simp only [cross_add_right, cross_sub_left, cross_smul_left, cross_smul_right, cross_self,
      cross_anticomm (cross u a) u, hx1]
    module
  have hN : norm3 (cross (p0 - C) (p1 - C)) = |h| * d := by
    apply norm3_eq_of_dot (by positivity)
    rw [hcross, dot_smul_left, dot_smul_right, haa, mul_pow, sq_abs]; ring
  have hdot : dot (p1 - C) (p0 - C) = h ^ 2 - (d / 2) ^ 2 := by
    rw [hp0, hp1]
    simp only [dot_add_left, dot_sub_right, dot_smul_left, dot_smul_right, huu, hmu, hmm,
      dot_comm (cross u a) u]
    ring
  have hS : √((h ^ 2 - (d / 2) ^ 2) ^ 2 + (|h| * d) ^ 2) = h ^ 2 + (d / 2) ^ 2 := by
    rw [← Real.sqrt_sq (show 0 ≤ h ^ 2 + (d / 2) ^ 2 by positivity)]
    congr 1
    rw [mul_pow, sq_abs]; ring
  refine ⟨d, h, arctan2 (|h| * d) (h ^ 2 - (d / 2) ^ 2), u, a, C, hdd, hd, hDu, huu, haa, hau, haax,
    hapl, hh2, hhc, hp0, hp1, arctan2_nonneg (by positivity), (arctan2_mem _ _).2, ?_, ?_, ?_⟩
  · rw [← hS]; exact polar_cos _ _
  · rw [← hS]; exact polar_sin _ _
  · intro t
    rw [arcFrom2Point, if_neg hc, normalizeVector_some hD, ← hu]
    simp only
    rw [← hq, normalizeVector_some hq0, ← hadef]
    simp only
    rw [← hdd, ← hrd, ← hr', ← hh, ← hC, hN, hdot, fromRotvec_smul haa, app_rotMat]

theorem rodrigues_chord {u a : V3} (haa : dot a a = 1) (hau : dot a u = 0)
    (h d φ : ℝ) : rodrigues a φ (h • cross u a - (d / 2) • u) =
      (h * cos φ + d / 2 * sin φ) • cross u a + (h * sin φ - d / 2 * cos φ) • u := by
  have e1 : cross a (cross u a) = u := by
    rw [cross_cross_right, haa, hau]; module
  have e2 : cross a u = -cross u a := cross_anticomm a u
  have e3 : dot a (cross u a) = 0 := dot_cross_right u a
  rw [rodrigues, dot_sub_right, dot_smul_right, dot_smul_right, e3, hau, cross_sub_right,
    cross_smul_right, cross_smul_right, e1, e2]
  module

theorem cos_turns (θ : ℝ) (k : ℤ) : cos (θ + k * π * 2) = cos θ ∧ sin (θ + k * π * 2) = sin θ := by
  rw [show (k : ℝ) * π * 2 = k * (2 * π) by ring]
  exact ⟨Real.cos_add_int_mul_two_pi θ k, Real.sin_add_int_mul_two_pi θ k⟩

/-- **C143, two points and a positive curvature (partial).** For distinct points and an axis that is not
along the chord the function gives, at every parameter, a point of a circular arc from `p0` to `p1`. Its
radius is the requested one, or half the chord if the request is smaller. The arc turns about the
perpendicular of the chord on the side of the axis, counter-clockwise, by at most half a turn plus the
given full turns. Missing: negative curvatures. -/
theorem c143_chord_partial (p0 p1 axis : V3) (curvature : ℝ) (k : ℤ) (hp : p0 ≠ p1)
    (hc : 0 < curvature) (hax : cross axis (p1 - p0) ≠ 0) :
    ∃ center n θ, Spec.TurnsAbout (fun t => arcFrom2Point t p0 p1 curvature axis k) center n p0
        (θ + k * π * 2) ∧
      arcFrom2Point 0 p0 p1 curvature axis k = some p0 ∧
      arcFrom2Point 1 p0 p1 curvature axis k = some p1 ∧
      dot n (p1 - p0) = 0 ∧ dot n (cross axis (p1 - p0)) = 0 ∧ 0 < dot n axis ∧
      dot n (p0 - center) = 0 ∧ 0 < θ ∧ θ ≤ π ∧
      norm3 (p0 - center) = max (1 / curvature) (norm3 (p1 - p0) / 2) := by
  obtain ⟨d, h, θ, u, a, C, hdd, hd, hDu, huu, haa, hau, haax, hapl, hh2, hhc, hp0, hp1, t0, t1, hcs,
    hsn, hev⟩ := arcFrom2Point_run hp hc.ne' hax k
  have hh : 0 ≤ h := by
    by_contra hn
    nlinarith [mul_pos_of_neg_of_neg (not_le.1 hn) (neg_lt_zero.2 hc)]
  rw [abs_of_nonneg hh] at hsn
  have hne : h ^ 2 + (d / 2) ^ 2 ≠ 0 := by positivity
  have hmu : dot u (cross u a) = 0 := dot_cross_left u a
  have hmm : dot (cross u a) (cross u a) = 1 := by
    rw [dot_cross_self, huu, haa, dot_comm, hau]; ring
  refine ⟨C, a, θ, ⟨haa, hev⟩, ?_, ?_, ?_, hapl, haax, ?_, ?_, t1, ?_⟩
  · rw [hev 0, zero_mul]; simp [rodrigues]
  · rw [hev 1, one_mul, hp0, rodrigues_chord haa hau, (cos_turns θ k).1, (cos_turns θ k).2]
    have e1 : h * cos θ + d / 2 * sin θ = h := by
      apply mul_left_cancel₀ hne; linear_combination h * hcs + d / 2 * hsn
    have e2 : h * sin θ - d / 2 * cos θ = d / 2 := by
      apply mul_left_cancel₀ hne; linear_combination h * hsn - d / 2 * hcs
    rw [e1, e2, ← hp1]; simp
  · rw [hDu, dot_smul_right, hau]; ring
  · rw [hp0, dot_sub_right, dot_smul_right, dot_smul_right, hau, dot_cross_right]; ring
  · rcases t0.lt_or_eq with ht | ht
    · exact ht
    · rw [← ht, cos_zero] at hcs
      nlinarith
  · rw [← hdd, abs_of_pos hc] at *
    apply norm3_eq_of_dot (le_max_of_le_right (by positivity))
    rw [hp0]
    simp only [dot_sub_left, dot_sub_right, dot_smul_left, dot_smul_right, huu, hmu, hmm,
      dot_comm (cross u a) u]
    linarith

/-- **C143, curvature zero.** The points of the segment. -/
theorem c143_straight (t : ℝ) (p0 p1 axis : V3) (ρ : ℝ) :
    ∃ p, arcFrom2Point t p0 p1 0 axis ρ = some p ∧ p = (1 - t) • p0 + t • p1 :=
  ⟨_, by rw [arcFrom2Point, if_pos rfl], by module⟩

/-- **C143 is false for every negative curvature with a radius above half the chord.** The centre is put
on the other side of the chord, but the rotation still runs counter-clockwise by the smaller of the two
angles: the curve leaves `p0` on the wrong side and never ends at `p1`. -/
theorem c143_violated (p0 p1 axis : V3) (curvature : ℝ) (k : ℤ) (hp : p0 ≠ p1)
    (hc : curvature < 0) (hr : norm3 (p1 - p0) / 2 < 1 / |curvature|)
    (hax : cross axis (p1 - p0) ≠ 0) :
    ∃ q, arcFrom2Point 1 p0 p1 curvature axis k = some q ∧ q ≠ p1 := by
  obtain ⟨d, h, θ, u, a, C, hdd, hd, hDu, huu, haa, hau, haax, hapl, hh2, hhc, hp0, hp1, t0, t1, hcs,
    hsn, hev⟩ := arcFrom2Point_run hp hc.ne hax k
  rw [← hdd] at hr
  rw [max_eq_left hr.le] at hh2
  have h2 : 0 < h ^ 2 := by rw [hh2]; nlinarith
  have hne0 : h ≠ 0 := by rintro rfl; simp at h2
  have hh : h < 0 := by
    rcases lt_or_gt_of_ne hne0 with h1 | h1
    · exact h1
    · nlinarith [mul_neg_of_pos_of_neg h1 hc]
  rw [abs_of_neg hh] at hsn
  have hmu : dot u (cross u a) = 0 := dot_cross_left u a
  refine ⟨_, hev 1, ?_⟩
  intro e
  rw [one_mul] at e
  have e' : rodrigues a (θ + k * π * 2) (p0 - C) = p1 - C := by rw [← e]; simp
  rw [hp0, rodrigues_chord haa hau, (cos_turns θ k).1, (cos_turns θ k).2, hp1] at e'
  have e2 := congrArg (dot u) e'
  simp only [dot_add_right, dot_smul_right, huu, hmu] at e2
  have e3 : (h ^ 2 + (d / 2) ^ 2) * (h * sin θ - d / 2 * cos θ) = (h ^ 2 + (d / 2) ^ 2) * (d / 2) := by
    congr 1; linarith
  have e4 : h * (-h * d) - d / 2 * (h ^ 2 - (d / 2) ^ 2) = (h ^ 2 + (d / 2) ^ 2) * (d / 2) := by
    linear_combination e3 - h * hsn + d / 2 * hcs
  nlinarith [mul_pos h2 hd]

/-- **C143 is false for equal points** with a curvature: the function raises. -/
theorem c143_closed_violated (t : ℝ) (p axis : V3) (curvature ρ : ℝ) (hc : curvature ≠ 0) :
    arcFrom2Point t p p curvature axis ρ = none := by
  rw [arcFrom2Point, if_neg hc, sub_self, normalizeVector, if_pos (norm3_eq_zero.2 rfl)]

/-- **C143, two points and a centre.** For points at the same distance from the centre and not on a line
with it, the function runs from `p0` to `p1` on the circle about the centre, in the plane of the three
points, the short way round plus the given full turns. -/
theorem c143_center (p0 p1 center : V3) (k : ℤ) (hl : norm3 (p0 - center) = norm3 (p1 - center))
    (hw : cross (p0 - center) (p1 - center) ≠ 0) :
    ∃ n θ, Spec.TurnsAbout (fun t => arcFrom2PointCenterFn t p0 p1 center k) center n p0
        (θ + k * π * 2) ∧
      arcFrom2PointCenterFn 0 p0 p1 center k = some p0 ∧
      arcFrom2PointCenterFn 1 p0 p1 center k = some p1 ∧
      norm3 (cross (p0 - center) (p1 - center)) • n = cross (p0 - center) (p1 - center) ∧
      0 < θ ∧ θ < π := by
  obtain ⟨hrot, hp, hpi⟩ := rodrigues_angleBetween hl hw k
  have hn := dot_inv_smul hw
  have hev : ∀ t, arcFrom2PointCenterFn t p0 p1 center k = some (center + rodrigues
      ((norm3 (cross (p0 - center) (p1 - center)))⁻¹ • cross (p0 - center) (p1 - center))
      (t * (angleBetween (p0 - center) (p1 - center) + k * π * 2)) (p0 - center)) := by
    intro t
    rw [arcFrom2PointCenterFn, normalizeVector_some hw]
    simp only
    rw [fromRotvec_smul hn, app_rotMat, angleBetween, dot_comm (p1 - center)]
  refine ⟨_, _, ⟨hn, hev⟩, ?_, ?_, norm3_smul_inv hw, hp, hpi⟩
  · rw [hev 0, zero_mul]; simp [rodrigues]
  · rw [hev 1, one_mul, hrot]; simp

/-- **C143, points on a line with the centre.** No answer: half a turn has no plane. -/
theorem c143_center_opposite (t : ℝ) (p0 p1 center : V3) (ρ : ℝ)
    (hw : cross (p0 - center) (p1 - center) = 0) : arcFrom2PointCenterFn t p0 p1 center ρ = none := by
  rw [arcFrom2PointCenterFn, hw, normalizeVector, if_pos (norm3_eq_zero.2 rfl)]

/-- The hypotheses can be met: a chord of length 2 along x with the curvatures 1/2, 2 and −1/2, and a
quarter circle about the origin. -/
theorem c143_case : (![-1, 0, 0] : V3) ≠ ![1, 0, 0] ∧
    cross OUT ((![1, 0, 0] : V3) - ![-1, 0, 0]) ≠ 0 ∧
    norm3 ((![1, 0, 0] : V3) - ![-1, 0, 0]) / 2 < 1 / |(-(1 / 2) : ℝ)| ∧
    norm3 ((![1, 0, 0] : V3) - 0) = norm3 ((![0, 1, 0] : V3) - 0) ∧
    cross ((![1, 0, 0] : V3) - 0) (![0, 1, 0] - 0) ≠ 0 := by
  have h : norm3 ((![1, 0, 0] : V3) - ![-1, 0, 0]) = 2 :=
    norm3_eq_of_dot (by norm_num) (by simp [dot, Matrix.cons_val]; norm_num)
  refine ⟨?_, ?_, ?_, ?_, ?_⟩
  · intro e; have := congrFun e 0; norm_num at this
  · intro e; have := congrFun e 1; simp [OUT] at this
  · rw [h, abs_neg, abs_of_pos (by norm_num)]; norm_num
  · simp [norm3, dot, Matrix.cons_val]
  · intro e; have := congrFun e 2; simp at this

end Verif
