import Verif.Props.Flank
import Mathlib.Analysis.SpecialFunctions.Sqrt
import Mathlib.Analysis.SpecialFunctions.Trigonometric.Bounds

/-! # Properties C22–C25, C80–C83 -/

namespace Verif

open Real
open Spec (circlePoint)

/-! ### C22 -/

theorem cycloidCircle_eq (t rb rc angle z : ℝ) : cycloidCircle t rb rc angle 0 z =
    ![(rb + rc) * cos (t + angle) - rc * cos ((1 + rb / rc) * t + angle),
      (rb + rc) * sin (t + angle) - rc * sin ((1 + rb / rc) * t + angle), z] := by
  have e : (1 + rb / rc) * t + angle = (t + angle) + t * rb / rc := by ring
  rw [e]
  apply V3.ext3 <;> simp [cycloidCircle, RIGHT, LEFT, OUT, cos_add, sin_add] <;> ring

/-- **C22, rolling circle.** The tracing point is on the rolling circle, whose centre is at
distance `rb + rc` from the axis, and the curve starts on the base circle. -/
theorem c22_rolling (t rb rc angle z : ℝ) :
    norm3 (cycloidCircle t rb rc angle 0 z - circlePoint (rb + rc) (t + angle) z) = |rc| ∧
      cycloidCircle 0 rb rc angle 0 z = circlePoint rb angle z := by
  constructor
  · apply norm3_eq_of_dot (abs_nonneg _)
    rw [sq_abs, cycloidCircle_eq]
    simp [dot, circlePoint]
    linear_combination rc ^ 2 * sin_sq_add_cos_sq ((1 + rb / rc) * t + angle)
  · rw [cycloidCircle_eq]
    apply V3.ext3 <;> simp [circlePoint] <;> ring

/-- **C22, rolling without slip.** The velocity is that of a rotation with angular speed
`1 + rb/rc` about the instantaneous contact point of the two circles, which therefore is at rest;
in particular the velocity is perpendicular to the segment from the contact point. -/
theorem c22_no_slip (t rb rc angle z : ℝ) (hrc : rc ≠ 0) :
    let K := circlePoint rb (t + angle) z
    let P := cycloidCircle t rb rc angle 0 z
    HasDerivAt (fun s => cycloidCircle s rb rc angle 0 z)
        ((1 + rb / rc) • cross OUT (P - K)) t ∧
      dot ((1 + rb / rc) • cross OUT (P - K)) (P - K) = 0 := by
  intro K P
  have hc1 := hasDerivAt_cos_lin 1 angle t
  have hs1 := hasDerivAt_sin_lin 1 angle t
  have hc2 := hasDerivAt_cos_lin (1 + rb / rc) angle t
  have hs2 := hasDerivAt_sin_lin (1 + rb / rc) angle t
  simp only [one_mul] at hc1 hs1
  have hk : rc * (1 + rb / rc) = rb + rc := by field_simp; ring
  have hP : P = _ := cycloidCircle_eq t rb rc angle z
  constructor
  · simp only [cycloidCircle_eq]
    apply hasDerivAt_v3
    · refine HasDerivAt.congr_deriv (f := fun s => (rb + rc) * cos (s + angle) -
        rc * cos ((1 + rb / rc) * s + angle)) ((hc1.const_mul _).sub (hc2.const_mul _)) ?_
      rw [hP]; simp [K, circlePoint, OUT]
      linear_combination (sin (t + angle)) * hk
    · refine HasDerivAt.congr_deriv (f := fun s => (rb + rc) * sin (s + angle) -
        rc * sin ((1 + rb / rc) * s + angle)) ((hs1.const_mul _).sub (hs2.const_mul _)) ?_
      rw [hP]; simp [K, circlePoint, OUT]
      linear_combination (-(cos (t + angle))) * hk
    · simpa [OUT] using hasDerivAt_const t z
  · rw [dot_smul_left, dot_comm, dot_cross_right, mul_zero]

/-- Concrete case for C22: the cusp-free point at `t = π/2` of the cycloid with equal radii 1 is
at `(1, 2, 0)`. -/
example : cycloidCircle (π / 2) 1 1 0 0 0 = ![1, 2, 0] := by
  rw [cycloidCircle_eq]
  apply V3.ext3
  · rw [show ((1 : ℝ) + 1 / 1) * (π / 2) + 0 = π by ring]; simp
  · rw [show ((1 : ℝ) + 1 / 1) * (π / 2) + 0 = π by ring]; simp; norm_num
  · simp

/-! ### C23 -/

/-- **C23, what holds.** The cylindrical generators and the conical branch of the spherical
involute translate by `z_offs`, and turn the point offset rigidly. -/
theorem c23_offsets_partial (t r rc C angle z : ℝ) (v : V3) :
    involuteCircle t r angle v z = involuteCircle t r angle v 0 + z • OUT ∧
      cycloidCircle t r rc angle v z = cycloidCircle t r rc angle v 0 + z • OUT ∧
      (C ≠ 0 → involuteSphere t r C angle v z = involuteSphere t r C angle v 0 + z • OUT) ∧
      norm3 (involuteCircle t r angle v z - involuteCircle t r angle 0 z) = norm3 v ∧
      norm3 (cycloidCircle t r rc angle v z - cycloidCircle t r rc angle 0 z) = norm3 v ∧
      norm3 (involuteSphere t r C angle v z - involuteSphere t r C angle 0 z) = norm3 v := by
  have hi : norm3 (involuteCircle t r angle v z - involuteCircle t r angle 0 z) = norm3 v := by
    rw [involuteCircle, involuteCircle, add_sub_add_right_eq_sub, ← app_sub, (IsRot.Rz _).norm_app]
    congr 1; module
  have hi0 : norm3 (involuteCircle t r angle v 0 - involuteCircle t r angle 0 0) = norm3 v := by
    rw [involuteCircle, involuteCircle, add_sub_add_right_eq_sub, ← app_sub, (IsRot.Rz _).norm_app]
    congr 1; module
  refine ⟨by simp [involuteCircle], by simp [cycloidCircle], ?_, hi, ?_, ?_⟩
  · intro hC
    simp only [involuteSphere, if_neg hC, involuteSphereCone]; module
  · rw [cycloidCircle, cycloidCircle]
    rw [add_sub_add_right_eq_sub, ← app_sub, (IsRot.Rz _).norm_app,
      add_sub_add_left_eq_sub, ← app_sub, (IsRot.Rz _).norm_app]
    congr 1; module
  · by_cases hC : C = 0
    · simp only [involuteSphere, if_pos hC]; exact hi0
    · simp only [involuteSphere, if_neg hC, involuteSphereCone]
      rw [add_sub_add_right_eq_sub, add_sub_add_right_eq_sub, ← app_sub,
        (((IsRot.Rz _).mul (IsRot.Ry _)).mul (IsRot.Rz _)).norm_app, add_sub_add_right_eq_sub,
        ← app_sub, (IsRot.Ry _).norm_app, sub_zero]

/-- **C23 is violated** by the spherical involute at curvature 0: `z_offs` has no effect. -/
theorem c23_violated_involute_sphere : ¬ ∀ (t r C angle z : ℝ) (v : V3),
    involuteSphere t r C angle v z = involuteSphere t r C angle v 0 + z • OUT := by
  intro h
  have := congrFun (h 0 1 0 0 1 0) 2
  simp [involuteSphere, OUT] at this

/-- **C23 is violated** by the conical cycloid at curvature 0: it raises for all arguments. -/
theorem c23_violated_cycloid_cone (t rb rc angle z : ℝ) (v : V3) :
    cycloidCone t rb rc 0 angle v z = none := by simp [cycloidCone]

/-- **C23 is violated** by the octoid: both offsets are ignored, so a requested shift is lost. -/
theorem c23_violated_octoid : (∀ (t rb R alpha angle z : ℝ) (v : V3),
      octoid t rb R alpha angle v z = octoid t rb R alpha angle 0 0) ∧
    ¬ ∀ (t rb R alpha angle z : ℝ) (v : V3),
      octoid t rb R alpha angle v z = octoid t rb R alpha angle v 0 + z • OUT := by
  refine ⟨fun _ _ _ _ _ _ _ => rfl, fun h => ?_⟩
  have h1 := h 0 1 2 1 0 1 0
  have h2 : octoid 0 1 2 1 0 0 1 = octoid 0 1 2 1 0 0 0 := rfl
  rw [h2] at h1
  have := congrFun h1 2
  simp [OUT] at this

/-! ### C24 -/

theorem angleBetween_circlePoints {a b x y : ℝ} (ha : 0 < a) (hb : 0 < b) (h0 : 0 ≤ y - x)
    (h1 : y - x ≤ π) : angleBetween (circlePoint a x 0) (circlePoint b y 0) = y - x ∧
      angleBetween (circlePoint b y 0) (circlePoint a x 0) = y - x := by
  have hs : 0 ≤ sin (y - x) := sin_nonneg_of_nonneg_of_le_pi h0 h1
  have hc : norm3 (cross (circlePoint a x 0) (circlePoint b y 0)) = a * b * sin (y - x) := by
    apply norm3_eq_of_dot (by positivity)
    simp [dot, circlePoint, sin_sub]; ring
  have hc' : norm3 (cross (circlePoint b y 0) (circlePoint a x 0)) = a * b * sin (y - x) := by
    rw [cross_anticomm, norm3_neg, hc]
  have hd : dot (circlePoint a x 0) (circlePoint b y 0) = a * b * cos (y - x) := by
    simp [dot, circlePoint, cos_sub]; ring
  constructor
  · rw [angleBetween, hc, hd]
    exact arctan2_polar (mul_pos ha hb) (by linarith [pi_pos]) h1
  · rw [angleBetween, hc', dot_comm, hd]
    exact arctan2_polar (mul_pos ha hb) (by linarith [pi_pos]) h1

/-- A point of the involute at radius `rb / cos α`, on the forward side, has parameter `tan α`. -/
theorem involute_crossing {rp alpha t : ℝ} (hrp : 0 < rp) (ha0 : 0 < alpha) (ha1 : alpha < π / 2)
    (ht : 0 ≤ t) (h : norm3 (involuteCircle t (rp * cos alpha) 0 0 0) = rp) : t = tan alpha := by
  have hc : 0 < cos alpha := cos_pos_of_mem_Ioo ⟨by linarith, ha1⟩
  have h1 := (c20_string t (rp * cos alpha) 0 0).1
  have h2 := (c20_string t (rp * cos alpha) 0 0).2.1
  have h3 := norm3_sq (involuteCircle t (rp * cos alpha) 0 0 0)
  rw [h, dot] at h3
  have h4 : (1 + t ^ 2) * cos alpha ^ 2 = 1 := by
    have : rp ^ 2 * ((1 + t ^ 2) * cos alpha ^ 2) = rp ^ 2 * 1 := by
      rw [h2] at h3; linear_combination -h1 - h3
    exact mul_left_cancel₀ (by positivity) this
  have h5 : (t * cos alpha) ^ 2 = sin alpha ^ 2 := by
    have := sin_sq_add_cos_sq alpha; linear_combination h4 - this
  have hs : 0 ≤ sin alpha := sin_nonneg_of_nonneg_of_le_pi ha0.le (by linarith [pi_pos])
  have h6 : t * cos alpha = sin alpha := by
    rwa [sq_eq_sq₀ (by positivity) hs] at h5
  rw [tan_eq_sin_div_cos, eq_div_iff hc.ne', h6]

theorem involute_at_tan {rp alpha angle z : ℝ} (hc : 0 < cos alpha) :
    involuteCircle (tan alpha) (rp * cos alpha) angle 0 z =
      circlePoint rp (tan alpha - alpha + angle) z := by
  have ht : tan alpha * cos alpha = sin alpha := by rw [tan_eq_sin_div_cos]; field_simp
  have e : tan alpha - alpha + angle = (tan alpha + angle) - alpha := by ring
  rw [involuteCircle_eq, circlePoint, e, cos_sub, sin_sub]
  apply V3.ext3
  · simp; linear_combination rp * sin (tan alpha + angle) * ht
  · simp; linear_combination (-(rp * cos (tan alpha + angle))) * ht
  · simp

/-- **C24.** If the root search returns a crossing of the involute with the pitch circle on the
forward side, then the generated spur flank passes through the pitch circle at polar angle
`−pitch_intersect_angle`, its base radius is `rp cos α`, and its tangent there makes the pressure
angle with the radius. -/
theorem c24_pitch_crossing (pia rp alpha tSol : ℝ) (hrp : 0 < rp) (ha0 : 0 < alpha)
    (ha1 : alpha < π / 2) (hinv : tan alpha - alpha ≤ π) (ht : 0 ≤ tSol)
    (hsol : norm3 (involuteCircle tSol (rp * cos alpha) 0 0 0) = rp) :
    let flank := spurInvolute pia rp alpha tSol
    flank = (rp * cos alpha, -(pia + (tan alpha - alpha))) ∧
      involuteCircle tSol flank.1 flank.2 0 0 = circlePoint rp (-pia) 0 ∧
      ∃ v, HasDerivAt (fun s => involuteCircle s flank.1 flank.2 0 0) v tSol ∧
        angleBetween (circlePoint rp (-pia) 0) v = alpha := by
  have hc : 0 < cos alpha := cos_pos_of_mem_Ioo ⟨by linarith, ha1⟩
  have htan := involute_crossing hrp ha0 ha1 ht hsol
  have hlt : alpha < tan alpha := Real.lt_tan ha0 ha1
  have hR : RIGHT = circlePoint 1 0 0 := by
    apply V3.ext3 <;> simp [RIGHT, circlePoint]
  have h1 : spurInvolute pia rp alpha tSol = (rp * cos alpha, -(pia + (tan alpha - alpha))) := by
    rw [spurInvolute]
    simp only [ORIGIN_eq]
    rw [htan, involute_at_tan hc, hR,
      (angleBetween_circlePoints one_pos hrp (by linarith) (by linarith)).1]
    congr 2; ring
  intro flank
  have hf : flank = _ := h1
  refine ⟨h1, ?_, ?_⟩
  · rw [hf, htan, involute_at_tan hc]
    congr 1; ring
  · refine ⟨_, c20_velocity _ _ _ _, ?_⟩
    rw [hf, htan]
    have e : tan alpha • circlePoint (rp * cos alpha) (tan alpha + -(pia + (tan alpha - alpha))) 0 =
        circlePoint (rp * sin alpha) (alpha - pia) 0 := by
      have ht : tan alpha * cos alpha = sin alpha := by rw [tan_eq_sin_div_cos]; field_simp
      rw [show tan alpha + -(pia + (tan alpha - alpha)) = alpha - pia by ring]
      apply V3.ext3
      · simp [circlePoint]; linear_combination rp * cos (alpha - pia) * ht
      · simp [circlePoint]; linear_combination rp * sin (alpha - pia) * ht
      · simp [circlePoint]
    simp only
    rw [e, (angleBetween_circlePoints hrp (mul_pos hrp (sin_pos_of_pos_of_lt_pi ha0
      (by linarith [pi_pos]))) (by linarith) (by linarith [pi_pos])).1]
    ring

/-- The crossing assumed in C24 exists: it is at parameter `tan α`. -/
theorem c24_crossing_exists (rp alpha : ℝ) (hrp : 0 < rp) (ha0 : 0 < alpha) (ha1 : alpha < π / 2) :
    0 ≤ tan alpha ∧ norm3 (involuteCircle (tan alpha) (rp * cos alpha) 0 0 0) = rp := by
  have hc : 0 < cos alpha := cos_pos_of_mem_Ioo ⟨by linarith, ha1⟩
  refine ⟨(tan_pos_of_pos_of_lt_pi_div_two ha0 ha1).le, ?_⟩
  rw [involute_at_tan hc]
  apply norm3_eq_of_dot hrp.le
  simp [dot, circlePoint]
  linear_combination rp ^ 2 * sin_sq_add_cos_sq (tan alpha - alpha)

/-- Concrete case for C24: 45° pressure angle satisfies `inv α ≤ π`. -/
example : tan (π / 4) - π / 4 ≤ π := by rw [tan_pi_div_four]; linarith [Real.two_le_pi]

/-! ### C25 -/

/-- **C25, what holds.** The involute and octoid generators fall back to addendum 1, dedendum
1.2 (and ring 2); all four keep limits that are passed in. With limits the involute is left without
undercut exactly if the base circle lies inside the root circle of these limits. -/
theorem c25_defaults_partial (l : ToothLimitParam) :
    involuteToothLimits none = some ⟨1, 1.2, 2⟩ ∧ octoidToothLimits none = some ⟨1, 1.2, 2⟩ ∧
      involuteToothLimits (some l) = some l ∧ octoidToothLimits (some l) = some l ∧
      involuteUndercutToothLimits (some l) = some l ∧
      octoidUndercutToothLimits (some l) = some l ∧
      ∀ rb rp, 0 ≤ rb → ∃ plain, undercutTest rb rp (involuteUndercutToothLimits (some l)) = some plain ∧
        (plain ↔ ∀ p : V3, norm3 p = rb → norm3 p < rp - l.hD) := by
  refine ⟨rfl, rfl, rfl, rfl, rfl, rfl, fun rb rp hb => ⟨_, rfl, fun h p hp => hp ▸ h, fun h => ?_⟩⟩
  have e : norm3 (rb • RIGHT) = rb := norm3_eq_of_dot hb (by simp [dot, RIGHT]; ring)
  have := h _ e
  rwa [e] at this

/-- **C25 is violated** by both undercut generators: omitted limits stay `None`, and generating
the tooth then fails whatever the radii are. -/
theorem c25_violated : involuteUndercutToothLimits none = none ∧
    octoidUndercutToothLimits none = none ∧
    ∀ rb rp, undercutTest rb rp (involuteUndercutToothLimits none) = none := ⟨rfl, rfl, fun _ _ => rfl⟩

/-! ### C83: spherical involute as taut great circle -/

/-- **C83.** The tracing point `P` and the contact point `K` of the base circle lie on one great
circle (normal `n`), that circle is tangent to the base circle at `K`, the angle from `K` to `P`
is the unwound base arc over the sphere radius, and the velocity is perpendicular to the circle. -/
theorem c83_great_circle (t r C angle z : ℝ) (hC : C ≠ 0) (hr : |r| ≤ 1 / |C|) :
    let R := 1 / |C|
    let M := (√(R ^ 2 - r ^ 2) * sgn C + z) • OUT
    let P := involuteSphere t r C angle 0 z
    let K := circlePoint r (t + angle) z
    let b := arcsin (r / R)
    let n : V3 := ![sgn C * cos b * cos (t + angle), sgn C * cos b * sin (t + angle), sin b]
    norm3 n = 1 ∧ dot (P - M) n = 0 ∧ dot (K - M) n = 0 ∧
      dot ![-sin (t + angle), cos (t + angle), 0] n = 0 ∧
      norm3 (K - M) = R ∧ dot (P - M) (K - M) = R ^ 2 * cos (r * t / R) ∧
      HasDerivAt (fun s => involuteSphere s r C angle 0 z)
        ((R * sin (r * t / R) * cos b * sgn C) • n) t := by
  intro R M P K b n
  have hR : 0 < R := abs_inv_pos hC
  have hCp : 0 < |C| := abs_pos.2 hC
  obtain ⟨h1, h2⟩ := arcsin_div hR hr
  have hsg := sgn_sq hC
  have q := sin_sq_add_cos_sq (t + angle)
  have qb := sin_sq_add_cos_sq b
  have e1 : r * |C| = sin b := by rw [h1]; simp [R]
  have hr' : r = R * sin b := by rw [h1]; field_simp
  have e2 : r * t / R = sin b * t := by rw [h1]; field_simp
  have hz : √(R ^ 2 - r ^ 2) = R * cos b := h2.symm
  have hab : arcsin (sin b) = b := by rw [h1]
  have hP : ∀ s, involuteSphere s r C angle 0 z =
      R • (![cos (s + angle) * sin b * cos (sin b * s) + sin (s + angle) * sin (sin b * s),
        sin (s + angle) * sin b * cos (sin b * s) - cos (s + angle) * sin (sin b * s),
        -(sgn C * cos b * cos (sin b * s))] : V3) + (R * cos b * sgn C) • OUT + z • OUT := by
    intro s
    rw [involuteSphere, if_neg hC, involuteSphereCone_eq _ _ _ _ _ hC hr, e1, hab]
    change R • _ + (√(R ^ 2 - r ^ 2) * sgn C) • OUT + z • OUT = _
    rw [hz]
  have hPM : P - M = R • (![cos (t + angle) * sin b * cos (sin b * t) +
        sin (t + angle) * sin (sin b * t),
        sin (t + angle) * sin b * cos (sin b * t) - cos (t + angle) * sin (sin b * t),
        -(sgn C * cos b * cos (sin b * t))] : V3) := by
    simp only [P, M]
    rw [hP, hz]; module
  have hKM : K - M = R • (![sin b * cos (t + angle), sin b * sin (t + angle),
      -(sgn C * cos b)] : V3) := by
    simp only [K, M]
    rw [hz]
    apply V3.ext3
    · simp [circlePoint, OUT]; linear_combination cos (t + angle) * hr'
    · simp [circlePoint, OUT]; linear_combination sin (t + angle) * hr'
    · simp [circlePoint, OUT]; ring
  refine ⟨?_, ?_, ?_, ?_, ?_, ?_, ?_⟩
  · apply norm3_eq_of_dot zero_le_one
    simp [n, dot]
    linear_combination (sgn C ^ 2 * cos b ^ 2) * q + cos b ^ 2 * hsg + qb
  · rw [hPM, dot_smul_left]
    simp only [dot, n, Matrix.cons_val_zero, Matrix.cons_val_one, Matrix.cons_val]
    linear_combination R * (sgn C * cos b * sin b * cos (sin b * t)) * q
  · rw [hKM, dot_smul_left]
    simp only [dot, n, Matrix.cons_val_zero, Matrix.cons_val_one, Matrix.cons_val]
    linear_combination R * (sgn C * cos b * sin b) * q
  · simp [dot, n]; ring
  · apply norm3_eq_of_dot hR.le
    rw [hKM, dot_smul_left, dot_smul_right]
    simp only [dot, Matrix.cons_val_zero, Matrix.cons_val_one, Matrix.cons_val]
    linear_combination R ^ 2 * (sin b ^ 2 * q + cos b ^ 2 * hsg + qb)
  · rw [hPM, hKM, dot_smul_left, dot_smul_right, e2]
    simp only [dot, Matrix.cons_val_zero, Matrix.cons_val_one, Matrix.cons_val]
    linear_combination R ^ 2 * cos (sin b * t) * (sin b ^ 2 * q + cos b ^ 2 * hsg + qb)
  · simp only [hP, e2]
    have hc := hasDerivAt_cos_lin 1 angle t
    have hs := hasDerivAt_sin_lin 1 angle t
    have hc2 := hasDerivAt_cos_lin (sin b) 0 t
    have hs2 := hasDerivAt_sin_lin (sin b) 0 t
    simp only [one_mul, add_zero] at hc hs hc2 hs2
    apply hasDerivAt_v3
    · refine HasDerivAt.congr_deriv (f := fun s => R * (cos (s + angle) * sin b * cos (sin b * s) +
        sin (s + angle) * sin (sin b * s)) + 0 + 0)
        (((((hc.mul_const (sin b)).mul hc2).add (hs.mul hs2)).const_mul R).add_const 0
          |>.add_const 0) ?_ |>.congr_of_eventuallyEq (Filter.Eventually.of_forall fun s => ?_)
      · simp [n]
        linear_combination (-(R * cos (t + angle) * sin (sin b * t))) * qb -
          (R * cos (t + angle) * sin (sin b * t) * cos b ^ 2) * hsg
      · simp [OUT]
    · refine HasDerivAt.congr_deriv (f := fun s => R * (sin (s + angle) * sin b * cos (sin b * s) -
        cos (s + angle) * sin (sin b * s)) + 0 + 0)
        (((((hs.mul_const (sin b)).mul hc2).sub (hc.mul hs2)).const_mul R).add_const 0
          |>.add_const 0) ?_ |>.congr_of_eventuallyEq (Filter.Eventually.of_forall fun s => ?_)
      · simp [n]
        linear_combination (-(R * sin (t + angle) * sin (sin b * t))) * qb -
          (R * sin (t + angle) * sin (sin b * t) * cos b ^ 2) * hsg
      · simp [OUT]
    · refine HasDerivAt.congr_deriv (f := fun s => R * (-(sgn C * cos b * cos (sin b * s))) +
        R * cos b * sgn C + z)
        ((((hc2.const_mul (sgn C * cos b)).neg.const_mul R).add_const (R * cos b * sgn C)).add_const
          z) ?_ |>.congr_of_eventuallyEq (Filter.Eventually.of_forall fun s => ?_)
      · simp [n]; ring
      · simp [OUT]

/-- Concrete case for C83 and C21: base radius 1 on a sphere of radius 2, cone opening downwards. -/
example : (-1 / 2 : ℝ) ≠ 0 ∧ |(1 : ℝ)| ≤ 1 / |(-1 / 2 : ℝ)| := by
  constructor
  · norm_num
  · rw [abs_one, show (-1 / 2 : ℝ) = -(1 / 2) by ring, abs_neg, abs_of_pos] <;> norm_num

/-! ### C80: bevel flanks -/

/-- Turning, mirroring and shifting a spherical involute through its parameters. -/
theorem involuteSphere_place (t r C s angle z : ℝ) (hC : 0 < C) (hs : s = 1 ∨ s = -1)
    (hr : |r| ≤ 1 / C) :
    involuteSphere t r (C * s) angle 0 z =
      app (Rz angle) (mulV (involuteSphere t r C 0 0 0) ![1, 1, s]) + z • OUT := by
  have hs0 : s ≠ 0 := by rcases hs with h | h <;> rw [h] <;> norm_num
  have hCs : C * s ≠ 0 := mul_ne_zero hC.ne' hs0
  have habs : |C * s| = C := by
    rcases hs with h | h <;> rw [h] <;> simp [abs_of_pos hC]
  have hsg : sgn (C * s) = s := by
    rcases hs with h | h <;> rw [h] <;> unfold sgn
    · rw [if_neg (by linarith), if_neg (by linarith)]
    · rw [if_pos (by linarith)]
  have hsg1 : sgn C = 1 := by unfold sgn; rw [if_neg (by linarith), if_neg hC.ne']
  rw [involuteSphere, if_neg hCs, involuteSphere, if_neg hC.ne',
    involuteSphereCone_eq _ _ _ _ _ hCs (by rw [habs]; exact hr),
    involuteSphereCone_eq _ _ _ _ _ hC.ne' (by rw [abs_of_pos hC]; exact hr), habs, hsg, hsg1,
    abs_of_pos hC]
  apply V3.ext3 <;> simp [OUT, mulV, cos_add, sin_add] <;> ring

/-- **C80, involute bevel tooth.** Whatever root the search returns, provided it satisfies the
radius equation on the forward side, the flank passes through the pitch circle (radius `rp`,
plane z = 0) at polar angle `−pitch_intersect_angle`, for cones opening either way. -/
theorem c80_bevel_involute (pia rp coneAngle : ℝ) (x : ℝ × ℝ) (hrp : 0 < rp)
    (hg : sin (coneAngle / 2) ≠ 0) (hg2 : coneAngle ≠ 0)
    (hx : |x.2| ≤ |rp / sin (coneAngle / 2)|)
    (hfwd : 0 ≤ involuteSphere x.1 x.2 (1 / |rp / sin (coneAngle / 2)|) 0 ORIGIN 0 1)
    (hroot : bevelRadDiff rp coneAngle x = 0) :
    let f := bevelInvolute pia rp coneAngle x
    involuteSphere x.1 f.1 f.2.1 f.2.2.1 ORIGIN f.2.2.2 = circlePoint rp (-pia) 0 := by
  intro f
  have hR : 0 < |rp / sin (coneAngle / 2)| := abs_pos.2 (div_ne_zero hrp.ne' hg)
  have hsig : sgn (coneAngle / 2) = 1 ∨ sgn (coneAngle / 2) = -1 :=
    sgn_cases (by intro h; apply hg2; linarith)
  simp only [bevelRadDiff] at hroot
  simp only [f, bevelInvolute]
  rw [ORIGIN_eq] at *
  set Cs := 1 / |rp / sin (coneAngle / 2)| with hCs
  have hCpos : 0 < Cs := by positivity
  rw [involuteSphere_place _ _ _ _ _ _ hCpos hsig (by rw [hCs]; simpa using hx)]
  set p := involuteSphere x.1 x.2 Cs 0 0 0 with hp
  have hang : angleBetween (mulV p ![1, 1, 0]) RIGHT = arctan2 (p 1) (p 0) := by
    have h1 : norm3 (cross (mulV p ![1, 1, 0]) RIGHT) = p 1 := by
      apply norm3_eq_of_dot hfwd
      simp [dot, mulV, RIGHT]; ring
    rw [angleBetween, h1]
    congr 1
    simp [dot, mulV, RIGHT]
  rw [hang]
  have hrad : √(p 0 ^ 2 + p 1 ^ 2) = rp := by
    rw [show p 0 ^ 2 + p 1 ^ 2 = rp ^ 2 by linarith, Real.sqrt_sq hrp.le]
  have hc := polar_cos (p 0) (p 1)
  have hs := polar_sin (p 0) (p 1)
  rw [hrad] at hc hs
  set a := arctan2 (p 1) (p 0)
  have q := sin_sq_add_cos_sq a
  have e1 : cos (-(pia + a)) = cos pia * cos a - sin pia * sin a := by rw [cos_neg, cos_add]
  have e2 : sin (-(pia + a)) = -(sin pia * cos a + cos pia * sin a) := by rw [sin_neg, sin_add]
  apply V3.ext3
  · simp only [Rz_app, mulV, OUT, circlePoint, Pi.add_apply, Pi.smul_apply, smul_eq_mul,
      Matrix.cons_val_zero, Matrix.cons_val_one, Matrix.cons_val, e1, e2, cos_neg, ← hc, ← hs]
    linear_combination rp * cos pia * q
  · simp only [Rz_app, mulV, OUT, circlePoint, Pi.add_apply, Pi.smul_apply, smul_eq_mul,
      Matrix.cons_val_zero, Matrix.cons_val_one, Matrix.cons_val, e1, e2, sin_neg, ← hc, ← hs]
    linear_combination (-(rp * sin pia)) * q
  · simp only [Rz_app, mulV, OUT, circlePoint, Pi.add_apply, Pi.smul_apply, smul_eq_mul,
      Matrix.cons_val_zero, Matrix.cons_val_one, Matrix.cons_val]
    ring

/-- The hypotheses of `c80_bevel_involute` can be met: a crown gear (cone angle π) of radius 1,
root `t = π`, base radius 1/2. -/
example : sin (π / 2) ≠ 0 ∧ |((π, 1 / 2) : ℝ × ℝ).2| ≤ |1 / sin (π / 2)| ∧
    0 ≤ involuteSphere π (1 / 2) (1 / |1 / sin (π / 2)|) 0 ORIGIN 0 1 ∧
    bevelRadDiff 1 π (π, 1 / 2) = 0 := by
  have h1 : |(1 / 2 : ℝ)| ≤ 1 / |(1 : ℝ)| := by rw [abs_of_pos (by norm_num)]; norm_num
  have e : (1 / 2 : ℝ) * π = π / 2 := by ring
  refine ⟨by simp, ?_, ?_, ?_⟩
  · simp; norm_num
  · simp only [sin_pi_div_two, div_one, abs_one, ORIGIN_eq]
    rw [involuteSphere, if_neg one_ne_zero, involuteSphereCone_eq _ _ _ _ _ one_ne_zero h1]
    simp [OUT, show (2 : ℝ)⁻¹ * π = π / 2 by ring]
  · simp only [bevelRadDiff, sin_pi_div_two, div_one, abs_one, ORIGIN_eq]
    rw [involuteSphere, if_neg one_ne_zero, involuteSphereCone_eq _ _ _ _ _ one_ne_zero h1]
    simp [OUT, show (2 : ℝ)⁻¹ * π = π / 2 by ring]


/-- The octoid starts on the base circle of the requested angle in the plane z = 0, and its
derivative there. `β` is the half opening angle of the pitch cone seen from the sphere centre. -/
theorem octoid_start (rb R alpha angle : ℝ) (hR : 0 < R) (hr : |rb| ≤ R) :
    octoid 0 rb R alpha angle ORIGIN 0 = circlePoint rb angle 0 ∧
    HasDerivAt (fun t => octoid t rb R alpha angle ORIGIN 0)
      ((rb * sin alpha) • (cos alpha •
          (![cos (arcsin (rb / R)) * cos angle, cos (arcsin (rb / R)) * sin angle, rb / R] : V3) +
        sin alpha • (![-sin angle, cos angle, 0] : V3))) 0 := by
  obtain ⟨h1, h2⟩ := arcsin_div hR hr
  obtain ⟨b, hb⟩ : ∃ b, b = arcsin (rb / R) := ⟨_, rfl⟩
  rw [← hb] at h1 h2 ⊢
  have qb := sin_sq_add_cos_sq b
  have qa := sin_sq_add_cos_sq alpha
  have hr' : rb = R * sin b := by rw [h1]; field_simp
  have ec : cos (π / 2 + angle) = -sin angle := by rw [add_comm, cos_add_pi_div_two]
  have es : sin (π / 2 + angle) = cos angle := by rw [add_comm, sin_add_pi_div_two]
  constructor
  · apply V3.ext3
    · simp [octoid, ← hb, ec, es, circlePoint, OUT, app_mul]
      linear_combination (-(cos angle)) * hr'
    · simp [octoid, ← hb, es, ec, circlePoint, OUT, app_mul]
      linear_combination (-(sin angle)) * hr'
    · simp [octoid, ← hb, circlePoint, OUT, app_mul]
      rw [← h2]; ring
  · have hS := hasDerivAt_sin_lin (sin b) 0 0
    have hC := hasDerivAt_cos_lin (sin b) 0 0
    have hs := hasDerivAt_sin_lin 1 0 0
    have hc := hasDerivAt_cos_lin 1 0 0
    simp only [mul_zero, add_zero, one_mul, sin_zero, cos_zero, mul_one, neg_zero]
      at hS hC hs hc
    have hQ : HasDerivAt (fun t => sin alpha ^ 2 * sin (sin b * t) ^ 2 + cos (sin b * t) ^ 2) 0 0 :=
      (((hS.pow 2).const_mul (sin alpha ^ 2)).add (hC.pow 2)).congr_deriv (by simp)
    have hroot : HasDerivAt (fun t => √(sin alpha ^ 2 * sin (sin b * t) ^ 2 + cos (sin b * t) ^ 2))
        0 0 := (hQ.sqrt (by simp)).congr_deriv (by simp)
    have hRd : HasDerivAt (fun t => -R / √(sin alpha ^ 2 * sin (sin b * t) ^ 2 +
        cos (sin b * t) ^ 2)) 0 0 :=
      ((hasDerivAt_const (0 : ℝ) (-R)).fun_div hroot (by simp)).congr_deriv (by simp)
    have hv0 : HasDerivAt (fun t => -(cos alpha ^ 2) * cos t * sin (sin b * t) * cos (sin b * t)
        + sin b * sin alpha ^ 2 * sin t * sin (sin b * t) ^ 2
        + cos b * sin alpha * cos alpha * sin t * sin (sin b * t)
        + sin b * sin t * cos (sin b * t) ^ 2) (sin b * sin alpha ^ 2) 0 :=
      ((((((hc.const_mul (-(cos alpha ^ 2))).mul hS).mul hC).add
        ((hs.const_mul (sin b * sin alpha ^ 2)).mul (hS.pow 2))).add
        ((hs.const_mul (cos b * sin alpha * cos alpha)).mul hS)).add
        ((hs.const_mul (sin b)).mul (hC.pow 2))).congr_deriv (by
          simp; linear_combination (-sin b) * qa)
    have hv1 : HasDerivAt (fun t => cos alpha ^ 2 * sin t * sin (sin b * t) * cos (sin b * t)
        + sin b * sin alpha ^ 2 * cos t * sin (sin b * t) ^ 2
        + cos b * sin alpha * cos alpha * cos t * sin (sin b * t)
        + sin b * cos t * cos (sin b * t) ^ 2) (cos b * sin alpha * cos alpha * sin b) 0 :=
      ((((((hs.const_mul (cos alpha ^ 2)).mul hS).mul hC).add
        ((hc.const_mul (sin b * sin alpha ^ 2)).mul (hS.pow 2))).add
        ((hc.const_mul (cos b * sin alpha * cos alpha)).mul hS)).add
        ((hc.const_mul (sin b)).mul (hC.pow 2))).congr_deriv (by simp)
    have hv2 : HasDerivAt (fun t => -(cos b) * sin alpha ^ 2 * sin (sin b * t) ^ 2
        + sin b * sin alpha * cos alpha * sin (sin b * t)
        - cos b * cos (sin b * t) ^ 2) (sin b * sin alpha * cos alpha * sin b) 0 :=
      ((((hS.pow 2).const_mul (-(cos b) * sin alpha ^ 2)).add
        (hS.const_mul (sin b * sin alpha * cos alpha))).sub
        ((hC.pow 2).const_mul (cos b))).congr_deriv (by simp)
    have w0 := hRd.mul hv0
    have w1 := hRd.mul hv1
    have w2 := hRd.mul hv2
    have hk : rb / R = sin b := h1.symm
    apply hasDerivAt_v3
    · refine ((w1.neg.const_mul (cos angle)).add (w0.const_mul (sin angle))).congr_deriv ?_
        |>.congr_of_eventuallyEq (Filter.Eventually.of_forall fun s => ?_)
      · simp [hk]
        linear_combination (-(sin alpha * cos alpha * cos b * cos angle - sin alpha ^ 2 * sin angle))
          * hr'
      · simp [octoid, ← hb, es, ec, OUT, app_mul, mul_comm s]; ring
    · refine ((w1.neg.const_mul (sin angle)).sub (w0.const_mul (cos angle))).congr_deriv ?_
        |>.congr_of_eventuallyEq (Filter.Eventually.of_forall fun s => ?_)
      · simp [hk]
        linear_combination (-(sin alpha * cos alpha * cos b * sin angle + sin alpha ^ 2 * cos angle))
          * hr'
      · simp [octoid, ← hb, es, ec, OUT, app_mul, mul_comm s]; ring
    · refine (w2.neg.add_const (√(R ^ 2 - rb ^ 2))).congr_deriv ?_
        |>.congr_of_eventuallyEq (Filter.Eventually.of_forall fun s => ?_)
      · simp [hk]
        linear_combination (-(sin alpha * cos alpha * sin b)) * hr'
      · simp [octoid, ← hb, OUT, app_mul, mul_comm s]

/-- **C80, octoid bevel tooth.** For a cone angle between 0 and π the flank passes through the
pitch circle at polar angle `−pitch_intersect_angle` in the plane z = 0, and its tangent there
makes the pressure angle with the direction `h` of the tooth height (the unit vector tangent to
the sphere, perpendicular to the cone generator, in the axial plane). -/
theorem c80_octoid (pia rp coneAngle alpha : ℝ) (hrp : 0 < rp) (hg0 : 0 < coneAngle)
    (hg1 : coneAngle < π) (ha0 : 0 < alpha) (ha1 : alpha < π / 2) :
    let g := coneAngle / 2
    let apex : V3 := (rp / tan g) • OUT
    let P := circlePoint rp (-pia) 0
    let h : V3 := ![cos g * cos (-pia), cos g * sin (-pia), sin g]
    octoidFlank pia rp coneAngle alpha 0 = P ∧
      norm3 h = 1 ∧ dot h (P - apex) = 0 ∧
      ∃ v, HasDerivAt (octoidFlank pia rp coneAngle alpha) v 0 ∧ dot v (P - apex) = 0 ∧
        angleBetween h v = alpha := by
  intro g apex P h
  have hg : 0 < g := by simp only [g]; linarith
  have hg' : g < π / 2 := by simp only [g]; linarith
  have hsg : 0 < sin g := sin_pos_of_pos_of_lt_pi hg (by linarith [pi_pos])
  have hcg : 0 < cos g := cos_pos_of_mem_Ioo ⟨by linarith, hg'⟩
  have hR : |rp / sin g| = rp / sin g := abs_of_pos (by positivity)
  have hRpos : 0 < rp / sin g := by positivity
  have hle : |rp| ≤ rp / sin g := by
    rw [abs_of_pos hrp, le_div_iff₀ hsg]
    exact mul_le_of_le_one_right hrp.le (sin_le_one _)
  have hdiv : rp / (rp / sin g) = sin g := by field_simp
  have has : arcsin (sin g) = g := arcsin_sin (by linarith) hg'.le
  have hsa : 0 < sin alpha := sin_pos_of_pos_of_lt_pi ha0 (by linarith [pi_pos])
  have hf : ∀ t, octoidFlank pia rp coneAngle alpha t =
      octoid t rp (rp / sin g) alpha (-pia) ORIGIN 0 := by
    intro t
    simp only [octoidFlank]
    change octoid t rp (1 / (1 / |rp / sin g|)) alpha (-pia) ORIGIN 0 = _
    rw [one_div_one_div, hR]
  obtain ⟨o1, o2⟩ := octoid_start rp (rp / sin g) alpha (-pia) hRpos hle
  rw [hdiv, has] at o2
  have q := sin_sq_add_cos_sq pia
  have qg := sin_sq_add_cos_sq g
  have qa := sin_sq_add_cos_sq alpha
  have htan : rp / tan g = rp * cos g / sin g := by rw [tan_eq_sin_div_cos]; field_simp
  have hperp : dot h (P - apex) = 0 := by
    simp [h, P, apex, dot, circlePoint, OUT, htan]
    field_simp
    linear_combination cos g * rp * q
  have htp : dot (![-sin (-pia), cos (-pia), 0] : V3) (P - apex) = 0 := by
    simp [P, apex, dot, circlePoint, OUT]; ring
  have hh : dot h h = 1 := by
    simp [h, dot]; linear_combination cos g ^ 2 * q + qg
  have hht : dot h (![-sin (-pia), cos (-pia), 0] : V3) = 0 := by
    simp [h, dot]; ring
  refine ⟨by rw [hf, o1], norm3_eq_of_dot zero_le_one (by rw [hh]; norm_num), hperp, ?_⟩
  refine ⟨(rp * sin alpha) • (cos alpha • h + sin alpha • (![-sin (-pia), cos (-pia), 0] : V3)),
    ?_, ?_, ?_⟩
  · exact o2.congr_of_eventuallyEq (Filter.Eventually.of_forall hf)
  · rw [dot_smul_left, dot_add_left, dot_smul_left, dot_smul_left, hperp, htp]; ring
  · have hd : dot h ((rp * sin alpha) • (cos alpha • h +
        sin alpha • (![-sin (-pia), cos (-pia), 0] : V3))) = rp * sin alpha * cos alpha := by
      rw [dot_smul_right, dot_add_right, dot_smul_right, dot_smul_right, hh, hht]; ring
    have hc : norm3 (cross h ((rp * sin alpha) • (cos alpha • h +
        sin alpha • (![-sin (-pia), cos (-pia), 0] : V3)))) = rp * sin alpha * sin alpha := by
      apply norm3_eq_of_dot (by positivity)
      simp [h, dot]
      linear_combination (rp ^ 2 * sin alpha ^ 4) * ((cos g ^ 2 * (sin pia ^ 2 + cos pia ^ 2 + 1)
        + sin g ^ 2) * q + qg)
    rw [angleBetween, hc, hd]
    exact arctan2_polar (by positivity) (by linarith [pi_pos]) (by linarith [pi_pos])

/-- Concrete case for `c80_octoid`: a 45° bevel gear with 30° pressure angle. -/
example : 0 < π / 2 ∧ π / 2 < π ∧ 0 < π / 6 ∧ π / 6 < π / 2 := by
  have := pi_pos
  refine ⟨?_, ?_, ?_, ?_⟩ <;> linarith

/-! ### C81: undercut curve -/

theorem undercutCurve_eq (rp : ℝ) (ref : V3) (t : ℝ) : undercutCurve rp ref t =
    ![cos t * ref 0 - sin t * (ref 1 - rp * t), sin t * ref 0 + cos t * (ref 1 - rp * t),
      ref 2] := by
  apply V3.ext3 <;> simp [undercutCurve, involuteCircle, RIGHT, DOWN, OUT, Matrix.vecHead,
    Matrix.vecTail] <;> (try left) <;> ring

/-- **C81, spur.** The undercut curve starts at the reference point (the rack corner) and its
velocity is that of the rack rolling on the pitch circle: rotation with unit angular speed about
the pitch point `K` on the pitch circle. -/
theorem c81_trochoid (rp : ℝ) (ref : V3) (t : ℝ) :
    undercutCurve rp ref 0 = ref ∧
      HasDerivAt (undercutCurve rp ref)
        (cross OUT (undercutCurve rp ref t - circlePoint rp t 0)) t := by
  constructor
  · rw [undercutCurve_eq]; apply V3.ext3 <;> simp
  · have hc := hasDerivAt_cos_lin 1 0 t
    have hs := hasDerivAt_sin_lin 1 0 t
    simp only [one_mul, add_zero] at hc hs
    have hq := (((hasDerivAt_id t).const_mul rp).const_sub (ref 1))
    apply hasDerivAt_v3
    · refine ((hc.mul_const (ref 0)).sub (hs.mul hq)).congr_deriv ?_
        |>.congr_of_eventuallyEq (Filter.Eventually.of_forall fun s => ?_)
      · rw [undercutCurve_eq]; simp [OUT, circlePoint]; ring
      · simp [undercutCurve_eq]
    · refine ((hs.mul_const (ref 0)).add (hc.mul hq)).congr_deriv ?_
        |>.congr_of_eventuallyEq (Filter.Eventually.of_forall fun s => ?_)
      · rw [undercutCurve_eq]; simp [OUT, circlePoint]; ring
      · simp [undercutCurve_eq]
    · refine (hasDerivAt_const t (ref 2)).congr_deriv ?_
        |>.congr_of_eventuallyEq (Filter.Eventually.of_forall fun s => ?_)
      · simp [OUT]
      · simp [undercutCurve_eq]

theorem sgn_mul_abs (x : ℝ) : sgn x * |x| = x := by
  rcases lt_trichotomy x 0 with h | h | h
  · rw [sgn, if_pos h, abs_of_neg h]; ring
  · rw [h]; simp
  · rw [sgn, if_neg (not_lt.2 h.le), if_neg h.ne', abs_of_pos h]; ring

theorem undercutCurveCone_eq (rp coneAngle : ℝ) (ref : V3) (t : ℝ) (hrp : 0 < rp)
    (hg0 : coneAngle ≠ 0) (hg1 : -π < coneAngle) (hg2 : coneAngle < π) :
    let s := sgn (coneAngle / 2)
    let b := |coneAngle / 2|
    undercutCurveCone rp coneAngle ref t =
      app (Rz t) (app (Ry ((π / 2 - b) * s)) (app (Rz (-(sin b * t))) (mulV ref ![1, 1, s]))) +
        (rp / tan (coneAngle / 2)) • OUT := by
  intro s b
  have hg : coneAngle / 2 ≠ 0 := by intro h; apply hg0; linarith
  have hs : s = 1 ∨ s = -1 := sgn_cases hg
  have hb : 0 < b := abs_pos.2 hg
  have hb2 : b < π / 2 := by simp only [b]; rw [abs_lt]; constructor <;> linarith
  have hsb : 0 < sin b := sin_pos_of_pos_of_lt_pi hb (by linarith [pi_pos])
  have hcb : 0 < cos b := cos_pos_of_mem_Ioo ⟨by linarith, hb2⟩
  have hgs : coneAngle / 2 = s * b := (sgn_mul_abs _).symm
  have hsdef : sgn (coneAngle / 2) = s := rfl
  have hR : |rp / sin (coneAngle / 2)| = rp / sin b := by
    rw [hgs]
    rcases hs with h | h <;> rw [h]
    · rw [one_mul, abs_of_pos (by positivity)]
    · rw [neg_one_mul, sin_neg, div_neg, abs_neg, abs_of_pos (by positivity)]
  have htan : rp / tan (coneAngle / 2) = rp * cos b / sin b * s := by
    rw [hgs, tan_eq_sin_div_cos]
    rcases hs with h | h <;> rw [h]
    · rw [one_mul]; field_simp
    · rw [neg_one_mul, sin_neg, cos_neg]; field_simp
  have hC : 1 / (rp / sin b) * s ≠ 0 := by
    rcases hs with h | h <;> rw [h] <;> simp [hrp.ne', hsb.ne']
  have hCabs : |1 / (rp / sin b) * s| = 1 / (rp / sin b) := by
    rw [abs_mul, abs_of_pos (by positivity : 0 < 1 / (rp / sin b))]
    rcases hs with h | h <;> rw [h] <;> simp
  have hCsg : sgn (1 / (rp / sin b) * s) = s := by
    have : 0 < 1 / (rp / sin b) := by positivity
    rcases hs with h | h <;> rw [h] <;> unfold sgn
    · rw [if_neg (by linarith), if_neg (by linarith)]
    · rw [if_pos (by linarith)]
  have hdiv : rp / (rp / sin b) = sin b := by field_simp
  have hasin : arcsin (sin b) = b := arcsin_sin (by linarith) hb2.le
  have hsqrt : √((rp / sin b) ^ 2 - rp ^ 2) = rp * cos b / sin b := by
    rw [show (rp / sin b) ^ 2 - rp ^ 2 = (rp * cos b / sin b) ^ 2 by
      have := sin_sq_add_cos_sq b
      field_simp
      linear_combination -this]
    exact Real.sqrt_sq (by positivity)
  simp only [undercutCurveCone, hR, hsdef]
  rw [involuteSphere, if_neg hC, involuteSphereCone]
  simp only [hCabs, hCsg, one_div_one_div, hdiv, hasin, hsqrt, app_mul, zero_smul, add_zero]
  rw [htan]
  congr 4
  rcases hs with h | h <;> rw [h] <;>
    apply V3.ext3 <;>
    simp [mulV, RIGHT, show -π / 2 = -(π / 2) by ring, Matrix.vecHead, Matrix.vecTail]

/-- **C81, bevel.** With `s` the sign of the cone, the curve starts at the reference point of the
crown rack, tilted onto the pitch cone, and moves by rolling: the velocity is that of a rotation
about the contact generator from the apex `M` to the pitch point `K`. -/
theorem c81_bevel_rolling (rp coneAngle : ℝ) (ref : V3) (t : ℝ) (hrp : 0 < rp)
    (hg0 : coneAngle ≠ 0) (hg1 : -π < coneAngle) (hg2 : coneAngle < π) :
    let s := sgn (coneAngle / 2)
    let g := |coneAngle / 2|
    let M := (rp / tan (coneAngle / 2)) • OUT
    let K := circlePoint rp t 0
    undercutCurveCone rp coneAngle ref 0 =
        app (Ry ((π / 2 - g) * s)) (mulV ref ![1, 1, s]) + M ∧
      HasDerivAt (undercutCurveCone rp coneAngle ref)
        ((-(s * cos g * sin g / rp)) • cross (K - M) (undercutCurveCone rp coneAngle ref t - M)) t := by
  intro s g M K
  have hg : coneAngle / 2 ≠ 0 := by intro h; apply hg0; linarith
  have hs : s = 1 ∨ s = -1 := sgn_cases hg
  have hs2 : s ^ 2 = 1 := by rcases hs with h | h <;> rw [h] <;> norm_num
  have hb : 0 < g := abs_pos.2 hg
  have hb2 : g < π / 2 := by simp only [g]; rw [abs_lt]; constructor <;> linarith
  have hsb : 0 < sin g := sin_pos_of_pos_of_lt_pi hb (by linarith [pi_pos])
  have hcb : 0 < cos g := cos_pos_of_mem_Ioo ⟨by linarith, hb2⟩
  have q := sin_sq_add_cos_sq g
  have htan : rp / tan (coneAngle / 2) = rp * cos g / sin g * s := by
    have hgs : coneAngle / 2 = s * g := (sgn_mul_abs _).symm
    rw [hgs, tan_eq_sin_div_cos]
    rcases hs with h | h <;> rw [h]
    · rw [one_mul]; field_simp
    · rw [neg_one_mul, sin_neg, cos_neg]; field_simp
  have hst : sin ((π / 2 - g) * s) = s * cos g := by
    rcases hs with h | h <;> rw [h]
    · rw [mul_one, sin_pi_div_two_sub, one_mul]
    · rw [mul_neg_one, sin_neg, sin_pi_div_two_sub, neg_one_mul]
  have hct : cos ((π / 2 - g) * s) = sin g := by
    rcases hs with h | h <;> rw [h]
    · rw [mul_one, cos_pi_div_two_sub]
    · rw [mul_neg_one, cos_neg, cos_pi_div_two_sub]
  have heq := fun u => undercutCurveCone_eq rp coneAngle ref u hrp hg0 hg1 hg2
  simp only at heq
  change ∀ u, undercutCurveCone rp coneAngle ref u =
    app (Rz u) (app (Ry ((π / 2 - g) * s)) (app (Rz (-(sin g * u))) (mulV ref ![1, 1, s]))) + M
    at heq
  constructor
  · rw [heq]; simp [Rz_zero, app_one]
  · obtain ⟨w, hw⟩ : ∃ w, w = mulV ref ![1, 1, s] := ⟨_, rfl⟩
    rw [← hw] at heq
    have hcf := hasDerivAt_cos_lin (sin g) 0 t
    have hsf := hasDerivAt_sin_lin (sin g) 0 t
    have hc := hasDerivAt_cos_lin 1 0 t
    have hsn := hasDerivAt_sin_lin 1 0 t
    simp only [one_mul, add_zero] at hc hsn hcf hsf
    have w0 := (hcf.mul_const (w 0)).add (hsf.mul_const (w 1))
    have w1 := (hcf.mul_const (w 1)).sub (hsf.mul_const (w 0))
    have u0 := (w0.const_mul (sin g)).add_const (s * cos g * w 2)
    have u2 := ((w0.const_mul (-(s * cos g))).add_const (sin g * w 2)).add_const
      (rp * cos g / sin g * s)
    have hPM : undercutCurveCone rp coneAngle ref t - M = app (Rz t) (app (Ry ((π / 2 - g) * s))
      (app (Rz (-(sin g * t))) w)) := by rw [heq]; simp
    have hom : (-(s * cos g * sin g / rp)) • cross (K - M) (undercutCurveCone rp coneAngle ref t - M)
        = cross ![-(s * cos g * sin g * cos t), -(s * cos g * sin g * sin t), s ^ 2 * cos g ^ 2]
          (app (Rz t) (app (Ry ((π / 2 - g) * s)) (app (Rz (-(sin g * t))) w))) := by
      rw [hPM]
      obtain ⟨X, hX⟩ : ∃ X, X = app (Rz t) (app (Ry ((π / 2 - g) * s))
        (app (Rz (-(sin g * t))) w)) := ⟨_, rfl⟩
      rw [← hX]
      simp only [M, htan, K, circlePoint, OUT]
      apply V3.ext3 <;> simp <;> field_simp <;> ring
    rw [hom]
    simp only [M, htan] at heq
    have Q : sin g ^ 2 + s ^ 2 * cos g ^ 2 - 1 = 0 := by
      linear_combination q + cos g ^ 2 * hs2
    have qt := sin_sq_add_cos_sq t
    apply hasDerivAt_v3
    · refine ((hc.mul u0).sub (hsn.mul w1)).congr_deriv ?_
        |>.congr_of_eventuallyEq (Filter.Eventually.of_forall fun x => ?_)
      · simp [hst, hct]
        linear_combination (s * cos g * sin t * w 2 + cos t * (cos (sin g * t) * w 1 - sin (sin g * t) * w 0)) * Q
      · simp [heq, hst, hct, OUT] <;> (try left) <;> ring
    · refine ((hsn.mul u0).add (hc.mul w1)).congr_deriv ?_
        |>.congr_of_eventuallyEq (Filter.Eventually.of_forall fun x => ?_)
      · simp [hst, hct]
        linear_combination (sin t * (cos (sin g * t) * w 1 - sin (sin g * t) * w 0) - s * cos g * cos t * w 2) * Q
      · simp [heq, hst, hct, OUT] <;> (try left) <;> ring
    · refine u2.congr_deriv ?_
        |>.congr_of_eventuallyEq (Filter.Eventually.of_forall fun x => ?_)
      · simp [hst, hct]
        linear_combination s * cos g * sin g * (cos (sin g * t) * w 1 - sin (sin g * t) * w 0) * qt
      · simp [heq, hst, hct, OUT]

/-- Concrete case for C81 on a cone: a gear opening the other way. -/
example : (-(π / 2) : ℝ) ≠ 0 ∧ -π < -(π / 2) ∧ -(π / 2) < π := by
  have := pi_pos
  refine ⟨by linarith, by linarith, by linarith⟩

/-! ### C82: rack flank -/

/-- **C82.** The rack flank runs from radius `rp − h_d` to `rp + h_a`, passes through the pitch
line at height `−rp·pitch_intersect_angle`, and is inclined by the pressure angle. -/
theorem c82_rack_flank (rp pia : ℝ) (l : ToothLimitParam) (alpha : ℝ)
    (ha0 : -(π / 2) < alpha) (ha1 : alpha < π / 2) :
    let f := rackFlank rp pia l alpha
    f.1 0 = rp - l.hD ∧ f.2 0 = rp + l.hA ∧ f.1 2 = 0 ∧ f.2 2 = 0 ∧
      f.1 1 = -(rp * pia) - l.hD * tan alpha ∧ f.2 1 = -(rp * pia) + l.hA * tan alpha ∧
      (l.hA + l.hD ≠ 0 →
        f.1 + (l.hD / (l.hA + l.hD)) • (f.2 - f.1) = ![rp, -(rp * pia), 0]) := by
  have hc : cos alpha ≠ 0 := (cos_pos_of_mem_Ioo ⟨by linarith, ha1⟩).ne'
  intro f
  have e1 : f.1 = ![rp - l.hD, -(rp * pia) - l.hD * tan alpha, 0] := by
    apply V3.ext3 <;> simp [f, rackFlank, RIGHT, DOWN, tan_eq_sin_div_cos] <;> field_simp
  have e2 : f.2 = ![rp + l.hA, -(rp * pia) + l.hA * tan alpha, 0] := by
    apply V3.ext3 <;> simp [f, rackFlank, RIGHT, DOWN, tan_eq_sin_div_cos] <;> field_simp
  rw [e1, e2]
  refine ⟨rfl, rfl, rfl, rfl, rfl, rfl, fun h => ?_⟩
  apply V3.ext3 <;> simp <;> field_simp <;> ring

/-- Concrete case for C82: default limits. -/
example : (1 : ℝ) + 1.2 ≠ 0 := by norm_num

end Verif
