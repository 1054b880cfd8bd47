import Verif.Model.Coord
import Verif.Base.Angle

/-! # Properties C13 and C14: coordinate conversions -/

namespace Verif

open Real

/-! ### C13 -/

/-- **C13, cylindrical there and back.** -/
theorem c13_cylindrical (v c : V3) : cylindricalToXyz (xyzToCylindrical v c) c = v := by
  have h1 := polar_cos ((v - c) 0) ((v - c) 1)
  have h2 := polar_sin ((v - c) 0) ((v - c) 1)
  rw [sq, sq] at h1 h2
  apply V3.ext3
  · simp only [cylindricalToXyz, xyzToCylindrical, Matrix.cons_val_zero, Matrix.cons_val_one]
    rw [h1]; simp
  · simp only [cylindricalToXyz, xyzToCylindrical, Matrix.cons_val_zero, Matrix.cons_val_one]
    rw [h2]; simp
  · simp [cylindricalToXyz, xyzToCylindrical]

/-- **C13, cylindrical back and there**, on the canonical range. -/
theorem c13_cylindrical' (r phi z : ℝ) (c : V3) (hr : 0 < r) (h1 : -π < phi) (h2 : phi ≤ π) :
    xyzToCylindrical (cylindricalToXyz ![r, phi, z] c) c = ![r, phi, z] := by
  apply V3.ext3
  · simp [cylindricalToXyz, xyzToCylindrical]
    rw [show r * cos phi * (r * cos phi) + r * sin phi * (r * sin phi) = r ^ 2 by
      linear_combination r ^ 2 * sin_sq_add_cos_sq phi, Real.sqrt_sq hr.le]
  · simp [cylindricalToXyz, xyzToCylindrical]
    exact arctan2_polar hr h1 h2
  · simp [cylindricalToXyz, xyzToCylindrical]

theorem spherical_parts {d : V3} (h : norm3 d ≠ 0) :
    norm3 d * cos (arccos (d 2 / norm3 d)) = d 2 ∧
      norm3 d * sin (arccos (d 2 / norm3 d)) = √(d 0 ^ 2 + d 1 ^ 2) := by
  have hn : 0 < norm3 d := lt_of_le_of_ne (norm3_nonneg d) (Ne.symm h)
  have hsq := norm3_sq d
  simp only [dot] at hsq
  have habs : |d 2| ≤ norm3 d := by
    apply abs_le_of_sq_le_sq _ hn.le
    nlinarith [sq_nonneg (d 0), sq_nonneg (d 1)]
  have ha := abs_le.1 habs
  constructor
  · rw [Real.cos_arccos (by rw [le_div_iff₀ hn]; linarith) (by rw [div_le_one hn]; linarith)]
    field_simp
  · rw [Real.sin_arccos]
    have : d 0 ^ 2 + d 1 ^ 2 = norm3 d ^ 2 * (1 - (d 2 / norm3 d) ^ 2) := by
      field_simp; linarith
    rw [this, Real.sqrt_mul (by positivity), Real.sqrt_sq hn.le]

/-- **C13, spherical there and back**, for every point other than the centre. -/
theorem c13_spherical (v c : V3) (h : v ≠ c) :
    ∃ s, xyzToSpherical v c = some s ∧ sphericalToXyz s c = v := by
  have hn : norm3 (v - c) ≠ 0 := fun e => h (sub_eq_zero.1 (norm3_eq_zero.1 e))
  obtain ⟨h1, h2⟩ := spherical_parts hn
  have h3 := polar_cos ((v - c) 0) ((v - c) 1)
  have h4 := polar_sin ((v - c) 0) ((v - c) 1)
  refine ⟨_, by rw [xyzToSpherical]; simp only [if_neg hn]; rfl, ?_⟩
  apply V3.ext3
  · simp only [sphericalToXyz, Matrix.cons_val_zero, Matrix.cons_val_one, Matrix.cons_val]
    rw [h2, h3]; simp
  · simp only [sphericalToXyz, Matrix.cons_val_zero, Matrix.cons_val_one, Matrix.cons_val]
    rw [h2, h4]; simp
  · simp only [sphericalToXyz, Matrix.cons_val_zero, Matrix.cons_val_one, Matrix.cons_val]
    rw [h1]; simp

/-- At the centre itself the conversion gives NaN. -/
theorem c13_spherical_centre (c : V3) : xyzToSpherical c c = none := by
  have : norm3 (0 : V3) = 0 := norm3_eq_zero.2 rfl
  simp [xyzToSpherical, this]

/-- **C13, spherical back and there**, on the canonical range. -/
theorem c13_spherical' (r phi theta : ℝ) (c : V3) (hr : 0 < r) (h1 : -π < phi) (h2 : phi ≤ π)
    (h3 : 0 < theta) (h4 : theta < π) :
    xyzToSpherical (sphericalToXyz ![r, phi, theta] c) c = some ![r, phi, theta] := by
  have hd : sphericalToXyz ![r, phi, theta] c - c =
      ![r * sin theta * cos phi, r * sin theta * sin phi, r * cos theta] := by
    apply V3.ext3 <;> simp [sphericalToXyz]
  have hn : norm3 ![r * sin theta * cos phi, r * sin theta * sin phi, r * cos theta] = r := by
    apply norm3_eq_of_dot hr.le
    simp [dot]
    linear_combination r ^ 2 * sin theta ^ 2 * sin_sq_add_cos_sq phi +
      r ^ 2 * sin_sq_add_cos_sq theta
  have hs := sin_pos_of_pos_of_lt_pi h3 h4
  rw [xyzToSpherical, hd, hn]
  simp only [if_neg hr.ne', Matrix.cons_val_zero, Matrix.cons_val_one, Matrix.cons_val]
  rw [arctan2_polar (mul_pos hr hs) h1 h2, mul_div_cancel_left₀ _ hr.ne',
    Real.arccos_cos h3.le h4.le]

/-- Concrete case for C13: a point off both axes and its centre. -/
example : (![1, 2, 3] : V3) ≠ ![1, 1, 1] := by
  intro h; have := congrFun h 1; norm_num at this

/-! ### C14 -/

theorem mulV_sign_sign {s : ℝ} (hs : s * s = 1) (v : V3) : mulV (mulV v ![1, 1, s]) ![1, 1, s] = v := by
  apply V3.ext3 <;> simp [mulV, mul_assoc, hs]

theorem sgn_mul_self {x : ℝ} (h : x ≠ 0) : sgn x * sgn x = 1 := by
  unfold sgn; split_ifs <;> simp_all

/-- **C14, cylindrical gears.** -/
theorem c14_cylindrical (r : ℝ) (p : V3) :
    ∃ q, polarTransform 0 r p = some q ∧ inversePolarTransform 0 r q = p := by
  refine ⟨_, by simp only [polarTransform, if_true]; rfl, ?_⟩
  simp only [inversePolarTransform, if_true]
  exact c13_cylindrical p _

theorem conic_R_pos {coneAngle r : ℝ} (hr : 0 < r) (hs : sin (coneAngle / 2) ≠ 0) :
    0 < (gearPolarData coneAngle r).R := by
  simp only [ConicData.R, gearPolarData, TransformData.default, ConicData.gamma, mul_one]
  exact abs_pos.2 (div_ne_zero hr.ne' hs)

/-- **C14, conical gears.** At every point other than the cone's apex the inverse undoes the
polar transform. The cone angle may be negative. -/
theorem c14_conical (coneAngle r : ℝ) (hr : 0 < r) (hc : coneAngle ≠ 0)
    (hs : sin (coneAngle / 2) ≠ 0) (p : V3) (hp : p ≠ (gearPolarData coneAngle r).center) :
    ∃ q, polarTransform coneAngle r p = some q ∧ inversePolarTransform coneAngle r q = p := by
  have hR := conic_R_pos hr hs
  have hsg := sgn_mul_self hc
  have hne : mulV p ![1, 1, sgn coneAngle] ≠
      mulV (gearPolarData coneAngle r).center ![1, 1, sgn coneAngle] := by
    intro e
    apply hp
    have := congrArg (fun v => mulV v ![1, 1, sgn coneAngle]) e
    simpa only [mulV_sign_sign hsg] using this
  obtain ⟨s, hs1, hs2⟩ := c13_spherical _ _ hne
  refine ⟨_, by simp only [polarTransform, if_neg hc, hs1]; rfl, ?_⟩
  simp only [inversePolarTransform, if_neg hc, Matrix.cons_val_zero, Matrix.cons_val_one,
    Matrix.cons_val]
  have e : (![(gearPolarData coneAngle r).R - ((gearPolarData coneAngle r).R - s 0), s 1,
      π / 2 - (π / 2 - s 2) * (gearPolarData coneAngle r).R / (gearPolarData coneAngle r).R] : V3) =
      s := by
    apply V3.ext3
    · simp
    · simp
    · simp only [Matrix.cons_val]; field_simp; ring
  rw [e, hs2, mulV_sign_sign hsg]

/-- **C14, apex.** At the apex the transform is not a number, and only there. -/
theorem c14_apex (coneAngle r : ℝ) (hr : 0 < r) (hc : coneAngle ≠ 0)
    (hs : sin (coneAngle / 2) ≠ 0) (p : V3) :
    polarTransform coneAngle r p = none ↔ p = (gearPolarData coneAngle r).center := by
  constructor
  · intro h
    by_contra hp
    obtain ⟨q, hq, -⟩ := c14_conical coneAngle r hr hc hs p hp
    rw [h] at hq; cases hq
  · rintro rfl
    simp only [polarTransform, if_neg hc, c13_spherical_centre]

/-- **C14, the pitch circle.** Points of the pitch circle get height 0 and one common "out"
coordinate `(π/2 − γ)·R` (for positive half cone angle `γ`), at their own polar angle. -/
theorem c14_pitch_circle (coneAngle r phi : ℝ) (hr : 0 < r) (h0 : 0 < coneAngle)
    (h1 : coneAngle < π) (hp1 : -π < phi) (hp2 : phi ≤ π) :
    polarTransform coneAngle r ![r * cos phi, r * sin phi, 0] =
      some ![(coneAngle / 2 - π / 2) * (r / sin (coneAngle / 2)), phi, 0] := by
  set g := coneAngle / 2 with hg
  have hsin : 0 < sin g := sin_pos_of_pos_of_lt_pi (by linarith) (by linarith)
  have hcos : 0 < cos g := cos_pos_of_mem_Ioo ⟨by linarith, by linarith⟩
  have hR : (gearPolarData coneAngle r).R = r / sin g := by
    simp only [ConicData.R, gearPolarData, TransformData.default, ConicData.gamma, mul_one, ← hg]
    exact abs_of_pos (div_pos hr hsin)
  have hsg : sgn coneAngle = 1 := by
    unfold sgn; rw [if_neg (by linarith), if_neg h0.ne']
  have hcen : (gearPolarData coneAngle r).center = ![0, 0, r * cos g / sin g] := by
    simp only [ConicData.center, gearPolarData, TransformData.default, ConicData.gamma, ← hg,
      applyTransform]
    apply V3.ext3 <;> simp [OUT, tan_eq_sin_div_cos]
    field_simp
  have hpt : (![r * cos phi, r * sin phi, 0] : V3) =
      mulV (sphericalToXyz ![r / sin g, phi, π - g] ![0, 0, r * cos g / sin g]) ![1, 1, 1] := by
    apply V3.ext3 <;> simp [mulV, sphericalToXyz] <;> field_simp <;> simp
  have hm : ∀ v : V3, mulV v ![1, 1, 1] = v := by
    intro v; apply V3.ext3 <;> simp [mulV]
  simp only [polarTransform, if_neg h0.ne', hsg, hcen, hm, hR]
  rw [hpt, hm, c13_spherical' _ _ _ _ (div_pos hr hsin) hp1 hp2 (by linarith) (by linarith)]
  simp only [Matrix.cons_val_zero, Matrix.cons_val_one, Matrix.cons_val, sub_self]
  congr 2
  ring

/-- Concrete case for C14: a 90° bevel cone and a point of its base circle. -/
example : sin (π / 2 / 2) ≠ 0 ∧ (![1, 0, 0] : V3) ≠ (gearPolarData (π / 2) 1).center := by
  constructor
  · rw [show π / 2 / 2 = π / 4 by ring, sin_pi_div_four]; positivity
  · intro h
    have := congrFun h 0
    simp [ConicData.center, gearPolarData, TransformData.default, applyTransform, OUT] at this

end Verif
