import Verif.Model.Flank
import Verif.Props.Coord
import Verif.Lemmas.Deriv
import Verif.Base.Angle

/-! # Properties C20–C25, C80–C83: tooth flanks -/

namespace Verif

open Real

/-- Point of the circle of radius `r` about the z axis at polar angle `phi` and height `z`. -/
noncomputable def Spec.circlePoint (r phi z : ℝ) : V3 := ![r * cos phi, r * sin phi, z]

open Spec (circlePoint)

/-! ### C20 -/

theorem involuteCircle_eq (t r angle z : ℝ) : involuteCircle t r angle 0 z =
    ![r * (cos (t + angle) + t * sin (t + angle)), r * (sin (t + angle) - t * cos (t + angle)), z] := by
  apply V3.ext3 <;> simp [involuteCircle, RIGHT, DOWN, OUT] <;> ring

/-- **C20, taut string.** The free end is at squared axis distance `r²(1+t²)`; the segment from
the base circle point at polar angle `t+angle` is tangent to the base circle there, and has the
length of the unwound arc. -/
theorem c20_string (t r angle z : ℝ) :
    let P := involuteCircle t r angle 0 z
    let B := circlePoint r (t + angle) z
    P 0 ^ 2 + P 1 ^ 2 = r ^ 2 * (1 + t ^ 2) ∧ P 2 = z ∧
      dot (P - B) (circlePoint r (t + angle) 0) = 0 ∧ norm3 (P - B) = |r * t| := by
  intro P B
  have hs := sin_sq_add_cos_sq (t + angle)
  have hP : P = _ := involuteCircle_eq t r angle z
  refine ⟨?_, ?_, ?_, ?_⟩
  · rw [hP]; simp; linear_combination r ^ 2 * (1 + t ^ 2) * hs
  · rw [hP]; simp
  · rw [hP]; simp [B, circlePoint, dot]; ring
  · apply norm3_eq_of_dot (abs_nonneg _)
    rw [sq_abs, hP]; simp [B, circlePoint, dot]; linear_combination r ^ 2 * t ^ 2 * hs

/-- **C20, velocity.** The velocity is along the radius of the contact point, of size `r t`. -/
theorem c20_velocity (t r angle z : ℝ) :
    HasDerivAt (fun s => involuteCircle s r angle 0 z) ((t : ℝ) • circlePoint r (t + angle) 0) t := by
  have hc := hasDerivAt_cos_lin 1 angle t
  have hs := hasDerivAt_sin_lin 1 angle t
  simp only [one_mul] at hc hs
  have hid := hasDerivAt_id' t
  simp only [involuteCircle_eq]
  apply hasDerivAt_v3
  · refine HasDerivAt.congr_deriv (f := fun s => r * (cos (s + angle) + s * sin (s + angle)))
      ((hc.add (hid.mul hs)).const_mul r) ?_
    simp [circlePoint]; ring
  · refine HasDerivAt.congr_deriv (f := fun s => r * (sin (s + angle) - s * cos (s + angle)))
      ((hs.sub (hid.mul hc)).const_mul r) ?_
    simp [circlePoint]; ring
  · simpa [circlePoint] using hasDerivAt_const t z

/-- Concrete case for C20: base radius 2 at `t = 1`, squared distance 8. -/
example : let P := involuteCircle 1 2 0 0 0
    P 0 ^ 2 + P 1 ^ 2 = 8 := by
  intro P
  rw [(c20_string 1 2 0 0).1]; norm_num

/-! ### C21 -/

theorem sgn_sq {C : ℝ} (h : C ≠ 0) : sgn C ^ 2 = 1 := by rw [sq]; exact sgn_mul_self h

theorem sgn_cases {C : ℝ} (h : C ≠ 0) : sgn C = 1 ∨ sgn C = -1 := by
  have := sgn_mul_self h
  rcases mul_self_eq_one_iff.1 this with h | h
  · exact Or.inl h
  · exact Or.inr h

theorem abs_inv_pos {C : ℝ} (h : C ≠ 0) : 0 < 1 / |C| := by positivity

theorem arcsin_div {r R : ℝ} (hR : 0 < R) (h : |r| ≤ R) :
    sin (arcsin (r / R)) = r / R ∧ R * cos (arcsin (r / R)) = √(R ^ 2 - r ^ 2) := by
  have ha := abs_le.1 h
  constructor
  · exact Real.sin_arcsin (by rw [le_div_iff₀ hR]; linarith) (by rw [div_le_one hR]; linarith)
  · rw [Real.cos_arcsin]
    have : R ^ 2 - r ^ 2 = R ^ 2 * (1 - (r / R) ^ 2) := by field_simp
    rw [this, Real.sqrt_mul (by positivity), Real.sqrt_sq hR.le]

/-- Explicit form of the spherical involute without point offset. -/
theorem involuteSphereCone_eq (t r C angle z : ℝ) (hC : C ≠ 0) (hr : |r| ≤ 1 / |C|) :
    involuteSphereCone t r C angle 0 z =
      (1 / |C|) • (![
        cos (t + angle) * (r * |C|) * cos (r * |C| * t) + sin (t + angle) * sin (r * |C| * t),
        sin (t + angle) * (r * |C|) * cos (r * |C| * t) - cos (t + angle) * sin (r * |C| * t),
        -(sgn C * cos (arcsin (r * |C|)) * cos (r * |C| * t))] : V3)
      + (√((1 / |C|) ^ 2 - r ^ 2) * sgn C) • OUT + z • OUT := by
  have hCp : 0 < |C| := abs_pos.2 hC
  have e : r / (1 / |C|) = r * |C| := by field_simp
  obtain ⟨h1, -⟩ := arcsin_div (abs_inv_pos hC) hr
  rw [e] at h1
  have hcos : cos ((π / 2 - arcsin (r * |C|)) * sgn C) = r * |C| := by
    rcases sgn_cases hC with h | h <;> rw [h]
    · rw [mul_one, cos_pi_div_two_sub, h1]
    · rw [mul_neg_one, cos_neg, cos_pi_div_two_sub, h1]
  have hsin : sin ((π / 2 - arcsin (r * |C|)) * sgn C) = sgn C * cos (arcsin (r * |C|)) := by
    rcases sgn_cases hC with h | h <;> rw [h]
    · rw [mul_one, sin_pi_div_two_sub, one_mul]
    · rw [mul_neg_one, sin_neg, sin_pi_div_two_sub]; ring
  rw [involuteSphereCone]
  simp only [e, app_mul]
  congr 2
  rw [app_zero, zero_add, Rz_app, Ry_app, Rz_app]
  apply V3.ext3 <;> simp [RIGHT, hcos, hsin] <;> ring

/-- **C21, spherical involute.** Every point is at distance `R = 1/|C|` from the sphere centre
that `SphericalInvoluteCurve.center` reports, and the curve starts on the base circle. -/
theorem c21_involute_sphere (t r C angle z : ℝ) (hC : C ≠ 0) (hr : |r| ≤ 1 / |C|) :
    norm3 (involuteSphere t r C angle 0 z -
        (√((1 / |C|) ^ 2 - r ^ 2) * sgn C + z) • OUT) = 1 / |C| ∧
      involuteSphere 0 r C angle 0 z = circlePoint r angle z := by
  have hR := abs_inv_pos hC
  have hCp : 0 < |C| := abs_pos.2 hC
  have e : r / (1 / |C|) = r * |C| := by field_simp
  obtain ⟨h1, h2⟩ := arcsin_div hR hr
  rw [e] at h1 h2
  constructor
  · rw [involuteSphere, if_neg hC, involuteSphereCone]
    have : ∀ (v w : V3) (a b : ℝ), v + a • w + b • w - (a + b) • w = v := by intros; module
    rw [this, (((IsRot.Rz _).mul (IsRot.Ry _)).mul (IsRot.Rz _)).norm_app, app_zero, zero_add,
      norm3_smul]
    have : norm3 RIGHT = 1 := norm3_eq_of_dot zero_le_one (by simp [dot, RIGHT])
    rw [this, mul_one, abs_of_pos hR]
  · rw [involuteSphere, if_neg hC, involuteSphereCone_eq _ _ _ _ _ hC hr]
    apply V3.ext3
    · simp [circlePoint, OUT]; field_simp
    · simp [circlePoint, OUT]; field_simp
    · simp [circlePoint, OUT]
      have h2' : |C|⁻¹ * cos (arcsin (r * |C|)) = √((C ^ 2)⁻¹ - r ^ 2) := by
        simpa [one_div, sq_abs] using h2
      linear_combination (-(sgn C)) * h2'

/-- **C21, octoid.** Every point is on the sphere of radius `sphere_rad` about
`√(sphere_rad² − base_rad²)` on the axis. -/
theorem c21_octoid (t rb R alpha angle z : ℝ) (v : V3) (hR : 0 < R)
    (hQ : sin alpha ≠ 0) :
    norm3 (octoid t rb R alpha angle v z - √(R ^ 2 - rb ^ 2) • OUT) = R := by
  have hx := sin_sq_add_cos_sq (t * sin (arcsin (rb / R)))
  have ha := sin_sq_add_cos_sq alpha
  have hb := sin_sq_add_cos_sq (arcsin (rb / R))
  have ht := sin_sq_add_cos_sq t
  rw [octoid]
  rw [add_sub_cancel_right, ((IsRot.Rz _).mul (IsRot.Ry _)).norm_app, norm3_smul]
  set x := t * sin (arcsin (rb / R)) with hxd
  set Q := sin alpha ^ 2 * sin x ^ 2 + cos x ^ 2 with hQd
  have hQpos : 0 < Q := by
    have h1 : 0 < sin alpha ^ 2 := by positivity
    rcases eq_or_ne (cos x) 0 with h | h
    · have : sin x ^ 2 = 1 := by rw [h] at hx; linarith
      rw [hQd, this, h]; linarith
    · have : 0 < cos x ^ 2 := by positivity
      have : 0 ≤ sin alpha ^ 2 * sin x ^ 2 := by positivity
      rw [hQd]; linarith
  have hn : norm3 ![-(cos alpha ^ 2) * cos t * sin x * cos x
    + sin (arcsin (rb / R)) * sin alpha ^ 2 * sin t * sin x ^ 2
    + cos (arcsin (rb / R)) * sin alpha * cos alpha * sin t * sin x
    + sin (arcsin (rb / R)) * sin t * cos x ^ 2,
    cos alpha ^ 2 * sin t * sin x * cos x
    + sin (arcsin (rb / R)) * sin alpha ^ 2 * cos t * sin x ^ 2
    + cos (arcsin (rb / R)) * sin alpha * cos alpha * cos t * sin x
    + sin (arcsin (rb / R)) * cos t * cos x ^ 2,
    -(cos (arcsin (rb / R))) * sin alpha ^ 2 * sin x ^ 2
    + sin (arcsin (rb / R)) * sin alpha * cos alpha * sin x
    - cos (arcsin (rb / R)) * cos x ^ 2] = √Q := by
    apply norm3_eq_of_dot (Real.sqrt_nonneg _)
    rw [Real.sq_sqrt hQpos.le]
    simp only [dot, Matrix.cons_val_zero, Matrix.cons_val_one, Matrix.cons_val]
    generalize sin (arcsin (rb / R)) = sb at *
    generalize cos (arcsin (rb / R)) = cb at *
    have e1 : sin x ^ 2 = 1 - cos x ^ 2 := by linarith
    have e2 : cos alpha ^ 2 = 1 - sin alpha ^ 2 := by linarith
    have e3 : cb ^ 2 = 1 - sb ^ 2 := by linarith
    have step : (-(cos alpha ^ 2) * cos t * sin x * cos x + sb * sin alpha ^ 2 * sin t * sin x ^ 2
        + cb * sin alpha * cos alpha * sin t * sin x + sb * sin t * cos x ^ 2) ^ 2 +
        (cos alpha ^ 2 * sin t * sin x * cos x + sb * sin alpha ^ 2 * cos t * sin x ^ 2
        + cb * sin alpha * cos alpha * cos t * sin x + sb * cos t * cos x ^ 2) ^ 2 +
        (-cb * sin alpha ^ 2 * sin x ^ 2 + sb * sin alpha * cos alpha * sin x - cb * cos x ^ 2) ^ 2
        = (cos alpha ^ 2 * sin x * cos x) ^ 2 + Q ^ 2 + (sin alpha * cos alpha * sin x) ^ 2 := by
      linear_combination ((cos alpha ^ 2 * sin x * cos x) ^ 2 +
        (sb * Q + cb * sin alpha * cos alpha * sin x) ^ 2) * ht +
        (Q ^ 2 + (sin alpha * cos alpha * sin x) ^ 2) * hb
    have fin : (cos alpha ^ 2 * sin x * cos x) ^ 2 + Q ^ 2 + (sin alpha * cos alpha * sin x) ^ 2 =
        Q := by
      rw [hQd]
      have : (cos alpha ^ 2 * sin x * cos x) ^ 2 = (cos alpha ^ 2) ^ 2 * sin x ^ 2 * cos x ^ 2 := by ring
      rw [this]
      have : (sin alpha * cos alpha * sin x) ^ 2 = sin alpha ^ 2 * cos alpha ^ 2 * sin x ^ 2 := by ring
      rw [this, e1, e2]; ring
    linear_combination step + fin
  rw [hn, abs_div, abs_neg, abs_of_pos hR, abs_of_pos (Real.sqrt_pos.2 hQpos)]
  field_simp

/-- **C21, conical cycloid.** Every point is on the sphere of radius `R = 1/|C|` about
`√(R² − rb²)·sign C` on the axis. -/
theorem c21_cycloid_cone (t rb rc C angle z : ℝ) (hC : C ≠ 0) (hb : |rb| ≤ 1 / |C|)
    (hc : |rc| ≤ 1 / |C|) :
    ∃ P, cycloidCone t rb rc C angle 0 z = some P ∧
      norm3 (P - (√((1 / |C|) ^ 2 - rb ^ 2) * sgn C + z) • OUT) = 1 / |C| := by
  have hR := abs_inv_pos hC
  obtain ⟨s1, c1⟩ := arcsin_div hR hb
  obtain ⟨s2, c2⟩ := arcsin_div hR hc
  refine ⟨_, by rw [cycloidCone, if_neg hC], ?_⟩
  set R := 1 / |C| with hRd
  set g1 := arcsin (rb / R)
  set g2 := arcsin (rc / R)
  have hb' : rb = R * sin g1 := by rw [s1]; field_simp
  have hc' : rc = R * sin g2 := by rw [s2]; field_simp
  rw [← c1]
  set G := Ry (-sgn C * (g1 + g2)) with hG
  have hGr : IsRot G := IsRot.Ry _
  -- position relative to the sphere centre, in the frame of the rolling circle
  have key : app (Rz (t + angle)) (rb • RIGHT + app G (rc • RIGHT) +
        app G (app (Rz (t * rb / rc)) (rc • LEFT + 0))) + z • OUT -
      (R * cos g1 * sgn C + z) • OUT =
      app (Rz (t + angle)) (app G ![-(rc * cos (t * rb / rc)), -(rc * sin (t * rb / rc)),
        -(sgn C * (R * cos g2))]) := by
    have hzc : (R * cos g1 * sgn C) • OUT = app (Rz (t + angle)) ((R * cos g1 * sgn C) • OUT) := by
      rw [app_smul, Rz_app_OUT]
    rw [add_smul, hzc]
    have : ∀ a b c d : V3, a + b - (c + b) = a - c := by intros; abel
    rw [this _ _ _ 0, ← app_sub]
    congr 1
    have hGi : rb • RIGHT - (R * cos g1 * sgn C) • OUT = app G ![-rc, 0, -(sgn C * (R * cos g2))] := by
      have hcc := cos_add g1 g2
      have hss := sin_add g1 g2
      have q1 := sin_sq_add_cos_sq g1
      have q2 := sin_sq_add_cos_sq g2
      rw [hG, Ry_app]
      rcases sgn_cases hC with h | h <;> rw [h] <;> apply V3.ext3 <;>
        simp [RIGHT, OUT, hb', hc', cos_add, sin_add]
      · linear_combination (-(R * sin g1)) * q2
      · linear_combination (R * cos g1) * q2
      · linear_combination (-(R * sin g1)) * q2
      · linear_combination (-(R * cos g1)) * q2
    have : rb • RIGHT + app G (rc • RIGHT) + app G (app (Rz (t * rb / rc)) (rc • LEFT + 0)) -
        (R * cos g1 * sgn C) • OUT = (rb • RIGHT - (R * cos g1 * sgn C) • OUT) +
        app G (rc • RIGHT + app (Rz (t * rb / rc)) (rc • LEFT)) := by
      rw [add_zero, app_add]; abel
    rw [this, hGi, ← app_add]
    congr 1
    apply V3.ext3 <;> simp [RIGHT, LEFT] <;> ring
  rw [key, (IsRot.Rz _).norm_app, hGr.norm_app]
  apply norm3_eq_of_dot hR.le
  simp [dot]
  have q := sin_sq_add_cos_sq (t * rb / rc)
  have q2 := sin_sq_add_cos_sq g2
  have hsg := sgn_sq hC
  linear_combination rc ^ 2 * q + (R * cos g2) ^ 2 * hsg + R ^ 2 * q2 + (rc + R * sin g2) * hc'

end Verif
