import Verif.Model.Transform
import Verif.Base.Angle
import Verif.Props.Bezier1

/-! # Properties C15–C19 and the transform instance of C03 -/

namespace Verif

open Matrix Real

theorem applyTransform_eq (p : V3) (d : TransformData) :
    applyTransform p d = d.scale • app d.orientation p + d.center := by
  rw [applyTransform, vecMul_eq, transpose_transpose]

theorem applyGearTransform_eq (p : V3) (d : GearTransform) :
    applyGearTransform p d = d.scale • app d.orientation (app (Rz d.angle) p) + d.center := by
  rw [applyGearTransform, vecMul_eq, vecMul_eq, transpose_transpose, transpose_transpose]

theorem app_def (M : M3) (v : V3) : M *ᵥ v = app M v := rfl

/-- Two affine maps that agree everywhere have equal linear parts. -/
theorem linear_part_eq {M N : M3} {c d : V3} (h : ∀ p, app M p + c = app N p + d) :
    M = N ∧ c = d := by
  have h0 := h 0
  rw [app_zero, app_zero, zero_add, zero_add] at h0
  refine ⟨M3.ext_app fun v => ?_, h0⟩
  have := h v
  rw [h0] at this
  exact add_right_cancel this

theorem smul_mat_cancel {k : ℝ} (hk : k ≠ 0) {M N : M3} (h : k • M = k • N) : M = N := by
  have := congrArg (fun X => k⁻¹ • X) h
  simpa [smul_smul, inv_mul_cancel₀ hk] using this

theorem app_smul_mat (k : ℝ) (M : M3) (v : V3) : app (k • M) v = k • app M v := by
  simp [app, Matrix.smul_mulVec]

theorem app_neg_mat (M : M3) (v : V3) : app (-M) v = -app M v := by
  simp [app, Matrix.neg_mulVec]

/-! ### C15 -/

/-- **C15.** The product of transforms acts as the composition of their actions. -/
theorem c15_mul_acts (A B : TransformData) (p : V3) :
    applyTransform p (A.mul B) = applyTransform (applyTransform p B) A := by
  simp only [applyTransform_eq, TransformData.mul, app_mul, app_add, app_smul, app_def]
  module

theorem c15_assoc (A B C : TransformData) : (A.mul B).mul C = A.mul (B.mul C) := by
  ext1
  · simp only [TransformData.mul, app_def, app_mul, app_add, app_smul]; module
  · simp only [TransformData.mul, Matrix.mul_assoc]
  · simp only [TransformData.mul, mul_assoc]

theorem c15_neutral (A : TransformData) :
    TransformData.default.mul A = A ∧ A.mul TransformData.default = A ∧
      ∀ p, applyTransform p TransformData.default = p := by
  refine ⟨?_, ?_, ?_⟩
  · ext1 <;> simp [TransformData.mul, TransformData.default]
  · ext1 <;> simp [TransformData.mul, TransformData.default]
  · intro p; simp [applyTransform_eq, TransformData.default]

/-- Concrete case for C15: two transforms that do not commute. -/
example : applyTransform RIGHT
    ((⟨RIGHT, Rz (π / 2), 2⟩ : TransformData).mul ⟨UP, 1, 3⟩) = ![-1, 6, 0] := by
  rw [c15_mul_acts]
  apply V3.ext3 <;> simp [applyTransform_eq, RIGHT, UP] <;> norm_num

/-! ### C16 -/

/-- Exact condition under which `invert` undoes a transform. -/
theorem c16_exact (T : TransformData) (hO : IsRot T.orientation) (hs : T.scale ≠ 0) :
    (∀ p, applyTransform (applyTransform p T) T.invert = p) ↔
      T.scale ^ 2 = 1 ∨ T.center = 0 := by
  have key : ∀ p, applyTransform (applyTransform p T) T.invert =
      p + (1 / T.scale - T.scale) • app T.orientationᵀ T.center := by
    intro p
    simp only [applyTransform_eq, TransformData.invert, app_def, app_neg_mat, app_add, app_smul,
      hO.app_T_app]
    rw [smul_add, smul_smul, one_div_mul_cancel hs, one_smul]
    module
  constructor
  · intro h
    have h0 := h 0
    rw [key, zero_add] at h0
    rcases smul_eq_zero.1 h0 with h1 | h1
    · left
      field_simp at h1
      linarith
    · right
      have := congrArg (app T.orientation) h1
      rwa [hO.app_app_T, app_zero] at this
  · intro h p
    rw [key]
    rcases h with h | h
    · have : 1 / T.scale - T.scale = 0 := by field_simp; linarith
      rw [this, zero_smul, add_zero]
    · rw [h, app_zero, smul_zero, add_zero]

/-- **C16, what holds.** For unit scale (rigid motions) and for transforms that fix the origin,
`invert` undoes the transform, from both sides. -/
theorem c16_inverse_partial (T : TransformData) (hO : IsRot T.orientation) (hs : T.scale ≠ 0)
    (h : T.scale = 1 ∨ T.scale = -1 ∨ T.center = 0) (p : V3) :
    applyTransform (applyTransform p T) T.invert = p ∧
      applyTransform (applyTransform p T.invert) T = p := by
  have h' : T.scale ^ 2 = 1 ∨ T.center = 0 := by
    rcases h with h | h | h
    · left; rw [h]; norm_num
    · left; rw [h]; norm_num
    · right; exact h
  refine ⟨(c16_exact T hO hs).2 h' p, ?_⟩
  simp only [applyTransform_eq, TransformData.invert, app_def, app_neg_mat, app_add, app_smul,
    hO.app_app_T, app_neg]
  rw [smul_add, smul_smul, mul_one_div_cancel hs, one_smul, smul_smul]
  rcases h' with h | h
  · rw [← sq, h]; module
  · rw [h]; simp

/-- **C16 is violated** for a scaled transform: with scale 2 and centre (1,0,0) the round trip
moves every point by (−3/2, 0, 0). -/
theorem c16_violated : ¬ ∀ T : TransformData, IsRot T.orientation → T.scale ≠ 0 →
    ∀ p, applyTransform (applyTransform p T) T.invert = p := by
  intro h
  have := (c16_exact ⟨RIGHT, 1, 2⟩ IsRot.one (by norm_num)).1 (h _ IsRot.one (by norm_num))
  rcases this with h1 | h1
  · norm_num at h1
  · have := congrFun h1 0
    simp [RIGHT] at this

/-! ### C17 -/

theorem gear_comp (A B : GearTransform) (p : V3) :
    applyGearTransform (applyGearTransform p B) A =
      app ((A.scale * B.scale) • (A.orientation * (Rz A.angle * (B.orientation * Rz B.angle)))) p +
        (A.center + A.scale • app A.orientation (app (Rz A.angle) B.center)) := by
  simp only [applyGearTransform_eq, app_smul_mat, app_mul, app_add, app_smul]
  module

theorem IsRot.mul_left_cancel {M : M3} (hM : IsRot M) {X Y : M3} (h : M * X = M * Y) : X = Y := by
  have := congrArg (fun Z => Mᵀ * Z) h
  simpa [← Matrix.mul_assoc, hM.orth] using this

theorem IsRot.mul_right_cancel {M : M3} (hM : IsRot M) {X Y : M3} (h : X * M = Y * M) : X = Y := by
  have := congrArg (fun Z => Z * Mᵀ) h
  simpa [Matrix.mul_assoc, hM.orth'] using this

/-- Exact condition for `GearTransform.__mul__`: the right operand's orientation commutes with
the left operand's spin. -/
theorem c17_mul_exact (A B : GearTransform) (hA : IsRot A.orientation)
    (hsA : A.scale ≠ 0) (hsB : B.scale ≠ 0) :
    (∀ p, applyGearTransform p (A.mul B) = applyGearTransform (applyGearTransform p B) A) ↔
      B.orientation * Rz A.angle = Rz A.angle * B.orientation := by
  have e : ∀ p, applyGearTransform p (A.mul B) =
      app ((A.scale * B.scale) • (A.orientation * (B.orientation * (Rz A.angle * Rz B.angle)))) p +
        (A.center + A.scale • app A.orientation (app (Rz A.angle) B.center)) := by
    intro p
    simp only [applyGearTransform_eq, GearTransform.mul, app_smul_mat, app_mul, app_def, Rz_add]
  simp only [e, gear_comp]
  constructor
  · intro h
    have h1 := (linear_part_eq h).1
    have h2 := hA.mul_left_cancel (smul_mat_cancel (mul_ne_zero hsA hsB) h1)
    rw [← Matrix.mul_assoc, ← Matrix.mul_assoc (Rz A.angle)] at h2
    exact (IsRot.Rz B.angle).mul_right_cancel h2
  · intro h p
    rw [← Matrix.mul_assoc B.orientation, h, Matrix.mul_assoc]

/-- Exact condition for `GearTransform.invert`: orientation and spin commute. -/
theorem c17_invert_exact (T : GearTransform) (hO : IsRot T.orientation) (hs : T.scale ≠ 0) :
    (∀ p, applyGearTransform (applyGearTransform p T) T.invert = p) ↔
      T.orientation * Rz T.angle = Rz T.angle * T.orientation := by
  have hR := IsRot.Rz T.angle
  have e : ∀ p, applyGearTransform (applyGearTransform p T) T.invert =
      app (T.orientationᵀ * ((Rz T.angle)ᵀ * (T.orientation * Rz T.angle))) p +
        (1 / T.scale) • (app T.orientationᵀ (app (Rz T.angle)ᵀ T.center) -
          app (Rz T.angle)ᵀ (app T.orientationᵀ T.center)) := by
    intro p
    simp only [applyGearTransform_eq, GearTransform.invert, app_mul, app_add, app_smul, vecMul_eq,
      app_neg, Rz_transpose]
    rw [smul_add, smul_smul, one_div_mul_cancel hs, one_smul]
    module
  simp only [e]
  constructor
  · intro h
    have h1 : ∀ p, app (T.orientationᵀ * ((Rz T.angle)ᵀ * (T.orientation * Rz T.angle))) p +
        (1 / T.scale) • (app T.orientationᵀ (app (Rz T.angle)ᵀ T.center) -
          app (Rz T.angle)ᵀ (app T.orientationᵀ T.center)) = app 1 p + 0 := by
      intro p; rw [h p]; simp
    have h2 := (linear_part_eq h1).1
    have h3 := congrArg (fun X => Rz T.angle * (T.orientation * X)) h2
    simp only [← Matrix.mul_assoc, Matrix.mul_one] at h3
    rw [Matrix.mul_assoc (Rz T.angle) T.orientation, hO.orth', Matrix.mul_one, hR.orth',
      Matrix.one_mul] at h3
    exact h3
  · intro h p
    have h' : (Rz T.angle)ᵀ * T.orientationᵀ = T.orientationᵀ * (Rz T.angle)ᵀ := by
      rw [← Matrix.transpose_mul, ← Matrix.transpose_mul, h]
    rw [h, ← Matrix.mul_assoc (Rz T.angle)ᵀ, hR.orth, Matrix.one_mul, hO.orth, app_one,
      ← app_mul, ← app_mul, h', sub_self, smul_zero, add_zero]

/-- Exact condition for `GearTransformData.__mul__`, whose centre also ignores the angle. -/
theorem c17_data_mul_exact (A B : GearTransform) (hA : IsRot A.orientation)
    (hsA : A.scale ≠ 0) (hsB : B.scale ≠ 0) :
    (∀ p, applyGearTransform p (A.dataMul B) = applyGearTransform (applyGearTransform p B) A) ↔
      B.orientation * Rz A.angle = Rz A.angle * B.orientation ∧
        app (Rz A.angle) B.center = B.center := by
  have e : ∀ p, applyGearTransform p (A.dataMul B) =
      app ((A.scale * B.scale) • (A.orientation * (B.orientation * (Rz A.angle * Rz B.angle)))) p +
        (A.center + A.scale • app A.orientation B.center) := by
    intro p
    simp only [applyGearTransform_eq, GearTransform.dataMul, app_smul_mat, app_mul, app_def, Rz_add]
  simp only [e, gear_comp]
  constructor
  · intro h
    obtain ⟨h1, h3⟩ := linear_part_eq h
    have h2 := hA.mul_left_cancel (smul_mat_cancel (mul_ne_zero hsA hsB) h1)
    rw [← Matrix.mul_assoc, ← Matrix.mul_assoc (Rz A.angle)] at h2
    refine ⟨(IsRot.Rz B.angle).mul_right_cancel h2, ?_⟩
    have h4 := smul_right_injective V3 hsA (add_left_cancel h3)
    have := congrArg (app A.orientationᵀ) h4
    rw [hA.app_T_app, hA.app_T_app] at this
    exact this.symm
  · rintro ⟨h, h2⟩ p
    rw [← Matrix.mul_assoc B.orientation, h, Matrix.mul_assoc, h2]

/-- Exact condition for `GearTransformData.invert`. -/
theorem c17_data_invert_exact (T : GearTransform) (hO : IsRot T.orientation) (hs : T.scale ≠ 0) :
    (∀ p, applyGearTransform (applyGearTransform p T) T.dataInvert = p) ↔
      T.orientation * Rz T.angle = Rz T.angle * T.orientation ∧
        (T.scale ^ 2 = 1 ∨ T.center = 0) := by
  have hR := IsRot.Rz T.angle
  have e : ∀ p, applyGearTransform (applyGearTransform p T) T.dataInvert =
      app (T.orientationᵀ * ((Rz T.angle)ᵀ * (T.orientation * Rz T.angle))) p +
        (1 / T.scale - T.scale) • app T.orientationᵀ (app (Rz T.angle)ᵀ T.center) := by
    intro p
    simp only [applyGearTransform_eq, GearTransform.dataInvert, app_mul, app_add, app_smul, app_def,
      app_neg_mat, Matrix.neg_mul, Rz_transpose]
    rw [smul_add, smul_smul, one_div_mul_cancel hs, one_smul]
    module
  simp only [e]
  constructor
  · intro h
    have h1 : ∀ p, app (T.orientationᵀ * ((Rz T.angle)ᵀ * (T.orientation * Rz T.angle))) p +
        (1 / T.scale - T.scale) • app T.orientationᵀ (app (Rz T.angle)ᵀ T.center) =
          app 1 p + 0 := by
      intro p; rw [h p]; simp
    obtain ⟨h2, h4⟩ := linear_part_eq h1
    have h3 := congrArg (fun X => Rz T.angle * (T.orientation * X)) h2
    simp only [← Matrix.mul_assoc, Matrix.mul_one] at h3
    rw [Matrix.mul_assoc (Rz T.angle) T.orientation, hO.orth', Matrix.mul_one, hR.orth',
      Matrix.one_mul] at h3
    refine ⟨h3, ?_⟩
    rcases smul_eq_zero.1 h4 with h5 | h5
    · left; field_simp at h5; linarith
    · right
      have := congrArg (fun v => app (Rz T.angle) (app T.orientation v)) h5
      simpa only [hO.app_app_T, hR.app_app_T, app_zero] using this
  · rintro ⟨h, h2⟩ p
    rw [h, ← Matrix.mul_assoc (Rz T.angle)ᵀ, hR.orth, Matrix.one_mul, hO.orth, app_one]
    rcases h2 with h2 | h2
    · have : 1 / T.scale - T.scale = 0 := by field_simp; linarith
      rw [this, zero_smul, add_zero]
    · rw [h2]; simp [app_zero]

/-- **C17, what holds.** In planar gear trains (every orientation a rotation about z)
`GearTransform` products compose and inverses undo. -/
theorem c17_planar_partial (A B : GearTransform) (a b : ℝ) (hA : A.orientation = Rz a)
    (hB : B.orientation = Rz b) (hsA : A.scale ≠ 0) (hsB : B.scale ≠ 0) (p : V3) :
    applyGearTransform p (A.mul B) = applyGearTransform (applyGearTransform p B) A ∧
      applyGearTransform (applyGearTransform p A) A.invert = p := by
  constructor
  · exact (c17_mul_exact A B (by rw [hA]; exact IsRot.Rz a) hsA hsB).2
      (by rw [hB]; exact Rz_comm _ _) p
  · exact (c17_invert_exact A (by rw [hA]; exact IsRot.Rz a) hsA).2
      (by rw [hA]; exact Rz_comm _ _) p

/-- Products compose also whenever the left factor has no spin, or the right factor is upright. -/
theorem c17_no_spin_partial (A B : GearTransform) (hA : IsRot A.orientation) (h : A.angle = 0)
    (hsA : A.scale ≠ 0) (hsB : B.scale ≠ 0) (p : V3) :
    applyGearTransform p (A.mul B) = applyGearTransform (applyGearTransform p B) A :=
  (c17_mul_exact A B hA hsA hsB).2 (by rw [h, Rz_zero]; simp) p

theorem Rx_Rz_ne : Rx (π / 2) * Rz (π / 2) ≠ Rz (π / 2) * Rx (π / 2) := by
  intro h
  have := congrFun (congrFun h 2) 0
  simp [Rx, Rz, Matrix.mul_apply, Fin.sum_univ_three] at this

/-- **C17 is violated** off the plane: spinning the left factor by 90° while the right factor is
tilted by 90° about x. -/
theorem c17_violated :
    (¬ ∀ A B : GearTransform, IsRot A.orientation → IsRot B.orientation → A.scale ≠ 0 →
      B.scale ≠ 0 → ∀ p, applyGearTransform p (A.mul B) =
        applyGearTransform (applyGearTransform p B) A) ∧
    (¬ ∀ T : GearTransform, IsRot T.orientation → T.scale ≠ 0 →
      ∀ p, applyGearTransform (applyGearTransform p T) T.invert = p) := by
  constructor
  · intro h
    exact Rx_Rz_ne ((c17_mul_exact ⟨⟨0, 1, 1⟩, π / 2⟩ ⟨⟨0, Rx (π / 2), 1⟩, 0⟩ IsRot.one one_ne_zero
      one_ne_zero).1 (h _ _ IsRot.one (IsRot.Rx _) one_ne_zero one_ne_zero))
  · intro h
    exact Rx_Rz_ne ((c17_invert_exact ⟨⟨0, Rx (π / 2), 1⟩, π / 2⟩ (IsRot.Rx _) one_ne_zero).1
      (h _ (IsRot.Rx _) one_ne_zero))

/-- Even in the plane `GearTransformData` (the base class) does not compose, because its centre
ignores the angle, and does not invert for scale ≠ 1. -/
theorem c17_data_violated :
    (¬ ∀ A B : GearTransform, A.orientation = 1 → B.orientation = 1 → A.scale = 1 → B.scale = 1 →
      ∀ p, applyGearTransform p (A.dataMul B) =
        applyGearTransform (applyGearTransform p B) A) ∧
    (¬ ∀ T : GearTransform, T.orientation = 1 → T.scale ≠ 0 →
      ∀ p, applyGearTransform (applyGearTransform p T) T.dataInvert = p) := by
  constructor
  · intro h
    have := ((c17_data_mul_exact ⟨⟨0, 1, 1⟩, π / 2⟩ ⟨⟨RIGHT, 1, 1⟩, 0⟩ IsRot.one one_ne_zero
      one_ne_zero).1 (h _ _ rfl rfl rfl rfl)).2
    have := congrFun this 0
    simp [RIGHT] at this
  · intro h
    have := ((c17_data_invert_exact ⟨⟨RIGHT, 1, 2⟩, 0⟩ IsRot.one two_ne_zero).1
      (h _ rfl two_ne_zero)).2
    rcases this with h1 | h1
    · norm_num at h1
    · have := congrFun h1 0
      simp [RIGHT] at this

/-! ### C18 -/

theorem gear_diff (T : GearTransform) (p q : V3) :
    applyGearTransform p T - applyGearTransform q T =
      T.scale • app (T.orientation * Rz T.angle) (p - q) := by
  simp only [applyGearTransform_eq, app_mul, app_sub]; module

theorem transform_diff (T : TransformData) (p q : V3) :
    applyTransform p T - applyTransform q T = T.scale • app T.orientation (p - q) := by
  simp only [applyTransform_eq, app_sub]; module

/-- **C18.** Distances are multiplied by `|scale|`, scalar products of differences by `scale²`
and triple products by `scale³` (no reflection for positive scale). -/
theorem c18_similarity (T : GearTransform) (hO : IsRot T.orientation) (p q r s : V3) :
    norm3 (applyGearTransform p T - applyGearTransform q T) = |T.scale| * norm3 (p - q) ∧
      dot (applyGearTransform p T - applyGearTransform q T)
        (applyGearTransform r T - applyGearTransform s T) = T.scale ^ 2 * dot (p - q) (r - s) ∧
      dot (cross (applyGearTransform p T - applyGearTransform s T)
          (applyGearTransform q T - applyGearTransform s T))
        (applyGearTransform r T - applyGearTransform s T) =
        T.scale ^ 3 * dot (cross (p - s) (q - s)) (r - s) := by
  have hR := hO.mul (IsRot.Rz T.angle)
  simp only [gear_diff]
  refine ⟨by rw [norm3_smul, hR.norm_app], ?_, ?_⟩
  · rw [dot_smul_left, dot_smul_right, hR.dot_app]; ring
  · rw [cross_smul_left, cross_smul_right, hR.cross_app, dot_smul_left, dot_smul_left,
      dot_smul_right, hR.dot_app]; ring

theorem c18_similarity_plain (T : TransformData) (hO : IsRot T.orientation) (p q r s : V3) :
    norm3 (applyTransform p T - applyTransform q T) = |T.scale| * norm3 (p - q) ∧
      dot (applyTransform p T - applyTransform q T)
        (applyTransform r T - applyTransform s T) = T.scale ^ 2 * dot (p - q) (r - s) := by
  simp only [transform_diff]
  refine ⟨by rw [norm3_smul, hO.norm_app], ?_⟩
  rw [dot_smul_left, dot_smul_right, hO.dot_app]; ring

/-- Concrete case for C16–C18: a tilted, scaled, spun gear placement. -/
example : IsRot (⟨⟨RIGHT, Rx (π / 3), 2⟩, π / 5⟩ : GearTransform).orientation := IsRot.Rx _

/-! ### C03 for gear transforms -/

/-- **C03 for the code's own transform.** Placing the control points of a rational Bezier curve
and evaluating is the same as evaluating and placing. -/
theorem c03_gear_transform (T : GearTransform) (t : ℝ) (pts : List V3) (ws : List ℝ) :
    nurbezier t (pts.map fun p => applyGearTransform p T) ws =
      (nurbezier t pts ws).map fun p => applyGearTransform p T := by
  let f : V3 →ᵃ[ℝ] V3 := (Matrix.toLin' (T.scale • (T.orientation * Rz T.angle))).toAffineMap +
    AffineMap.const ℝ V3 T.center
  have e : (fun p => applyGearTransform p T) = f := by
    funext p
    simp [f, applyGearTransform_eq, Matrix.toLin'_apply, app_def]
  rw [e]; exact c03_affine_invariance f t pts ws

/-! ### C19 -/

/-- **C19.** If the Euler triple rebuilds the orientation, the CAD location moves every point as
the gear transform without scale does, and the scaled and located part is the transformed part. -/
theorem c19_location (T : GearTransform) (d : Fin 3 → ℝ)
    (hd : eulerZYX (d 0 * π / 180) (d 1 * π / 180) (d 2 * π / 180) = T.orientation) (p : V3) :
    transform2Location d T p =
        applyGearTransform p ⟨⟨T.center, T.orientation, 1⟩, T.angle⟩ ∧
      applyTransformPart d T p = applyGearTransform p T := by
  have hpi := Real.pi_ne_zero
  have e : (d 0 + T.angle * 180 / π) * π / 180 = d 0 * π / 180 + T.angle := by field_simp
  have key : ∀ q, transform2Location d T q = app T.orientation (app (Rz T.angle) q) + T.center := by
    intro q
    rw [transform2Location, bdLocation, e, ← app_mul, ← hd, eulerZYX, eulerZYX, Rz_add]
    simp only [Matrix.mul_assoc]
  constructor
  · rw [key, applyGearTransform_eq, one_smul]
  · rw [applyTransformPart, key, applyGearTransform_eq, app_smul, app_smul]

/-- Rotations fixing the x axis are rotations about it. -/
theorem IsRot.eq_Rx {M : M3} (h : IsRot M) (h0 : M 0 0 = 1) (h1 : M 0 1 = 0) (h2 : M 0 2 = 0) :
    ∃ c, M = Verif.Rx c := by
  have o := h.orth
  have o' := fun i j => congrFun (congrFun o i) j
  have o00 := o' 0 0
  have o11 := o' 1 1
  have o12 := o' 1 2
  have o22 := o' 2 2
  simp [Matrix.mul_apply, Fin.sum_univ_three, h0, h1, h2] at o00 o11 o12 o22
  have d := h.det
  rw [Matrix.det_fin_three] at d
  simp [h0, h1, h2] at d
  have e1 : M 1 0 = 0 := by nlinarith [sq_nonneg (M 1 0), sq_nonneg (M 2 0)]
  have e2 : M 2 0 = 0 := by nlinarith [sq_nonneg (M 1 0), sq_nonneg (M 2 0)]
  have e3 : M 2 2 = M 1 1 := by linear_combination (M 1 1) * d - M 2 2 * o11 + M 2 1 * o12
  have e4 : M 1 2 = -M 2 1 := by linear_combination M 1 1 * o12 - M 2 1 * d - M 1 2 * o11
  have hs : M 1 1 ^ 2 + M 2 1 ^ 2 = 1 := by linear_combination o11
  refine ⟨arctan2 (M 2 1) (M 1 1), ?_⟩
  have hc := cos_arctan2 (x := M 1 1) (y := M 2 1) (by rw [hs]; exact one_ne_zero)
  have hsn := sin_arctan2 (M 1 1) (M 2 1)
  rw [hs, Real.sqrt_one, div_one] at hc hsn
  ext i j
  fin_cases i <;> fin_cases j <;> simp [Verif.Rx, hc, hsn, h0, h1, h2, e1, e2, e3, e4]

/-- Every rotation has a zyx Euler triple in degrees, so the hypothesis of `c19_location` can be
met for every gear placement. -/
theorem c19_euler_exists {M : M3} (h : IsRot M) :
    ∃ d : Fin 3 → ℝ, eulerZYX (d 0 * π / 180) (d 1 * π / 180) (d 2 * π / 180) = M := by
  have hpi := Real.pi_ne_zero
  suffices H : ∃ a b c, eulerZYX a b c = M by
    obtain ⟨a, b, c, e⟩ := H
    refine ⟨![a * 180 / π, b * 180 / π, c * 180 / π], ?_⟩
    simp only [Matrix.cons_val_zero, Matrix.cons_val_one, Matrix.cons_val]
    rw [show a * 180 / π * π / 180 = a by field_simp, show b * 180 / π * π / 180 = b by field_simp,
      show c * 180 / π * π / 180 = c by field_simp, e]
  have u := congrFun (congrFun h.orth' 0) 0
  simp [Matrix.mul_apply, Fin.sum_univ_three] at u
  set r := √((M 0 0) ^ 2 + (-M 0 1) ^ 2) with hr
  set a := arctan2 (-M 0 1) (M 0 0) with ha
  set b := arctan2 (M 0 2) r with hb
  have hr2 : r ^ 2 = M 0 0 ^ 2 + M 0 1 ^ 2 := by rw [hr, Real.sq_sqrt (by positivity)]; ring
  have hs : √(r ^ 2 + M 0 2 ^ 2) = 1 := by rw [hr2, Real.sqrt_eq_one]; linarith
  have cb : cos b = r := by have := polar_cos r (M 0 2); rwa [hs, one_mul] at this
  have sb : sin b = M 0 2 := by have := polar_sin r (M 0 2); rwa [hs, one_mul] at this
  have ca : r * cos a = M 0 0 := polar_cos (M 0 0) (-M 0 1)
  have sa : r * sin a = -M 0 1 := polar_sin (M 0 0) (-M 0 1)
  have hN := (IsRot.Ry b).mul (IsRot.Rz a)
  have e0 : (M * (Ry b * Rz a)ᵀ) 0 0 = 1 := by
    simp [Matrix.mul_apply, Fin.sum_univ_three, Ry, Rz, cb, sb]
    linear_combination u + M 0 0 * ca - M 0 1 * sa
  have hQ := h.mul hN.transpose
  have o := fun i j => congrFun (congrFun hQ.orth' i) j
  have o00 := o 0 0
  simp only [Matrix.mul_apply (M := M * (Ry b * Rz a)ᵀ), Fin.sum_univ_three, Matrix.transpose_apply,
    e0, Matrix.one_apply_eq] at o00
  have e1 : (M * (Ry b * Rz a)ᵀ) 0 1 = 0 := by nlinarith [sq_nonneg ((M * (Ry b * Rz a)ᵀ) 0 1), sq_nonneg ((M * (Ry b * Rz a)ᵀ) 0 2)]
  have e2 : (M * (Ry b * Rz a)ᵀ) 0 2 = 0 := by nlinarith [sq_nonneg ((M * (Ry b * Rz a)ᵀ) 0 1), sq_nonneg ((M * (Ry b * Rz a)ᵀ) 0 2)]
  obtain ⟨c, hc⟩ := hQ.eq_Rx e0 e1 e2
  refine ⟨a, b, c, ?_⟩
  rw [eulerZYX, Matrix.mul_assoc, ← hc, Matrix.mul_assoc, hN.orth, Matrix.mul_one]

/-! ### C78 -/

/-- Homogeneous coordinates of a point. -/
def homog (p : V3) : Fin 3 ⊕ Unit → ℝ := Sum.elim p fun _ => 1

/-- **C78.** The exported 4×4 matrix of a transform maps homogeneous points as the transform maps
points. -/
theorem c78_affine_matrix (T : TransformData) (p : V3) :
    T.affineMatrix *ᵥ homog p = homog (applyTransform p T) := by
  rw [TransformData.affineMatrix, homog, Matrix.fromBlocks_mulVec, applyTransform_eq]
  funext i
  rcases i with i | i
  · simp [homog, Matrix.smul_mulVec, app, Matrix.mulVec, dotProduct]
  · simp [homog]

/-- **C78.** The same for gear transforms, angle included. -/
theorem c78_gear_affine_matrix (T : GearTransform) (p : V3) :
    T.affineMatrix *ᵥ homog p = homog (applyGearTransform p T) := by
  rw [GearTransform.affineMatrix, homog, Matrix.fromBlocks_mulVec, applyGearTransform_eq, ← app_mul]
  funext i
  rcases i with i | i
  · simp [homog, Matrix.smul_mulVec, app, Matrix.mulVec, dotProduct]
  · simp [homog]

/-- **C78.** Matrices of products are products of matrices. -/
theorem c78_affine_matrix_mul (A B : TransformData) :
    (A.mul B).affineMatrix = A.affineMatrix * B.affineMatrix := by
  rw [TransformData.affineMatrix, TransformData.affineMatrix, TransformData.affineMatrix,
    Matrix.fromBlocks_multiply]
  simp only [TransformData.mul]
  congr 1
  · simp [smul_smul, mul_comm]
  · ext i j
    simp [Matrix.mul_apply, Matrix.mulVec, dotProduct, Finset.mul_sum, mul_assoc, add_comm]
  · simp
  · simp

/-! ### C79 -/

/-- **C79 is violated.** Multiplying a plain transform with a gear transform loses the spin. The
result acts as the composition exactly when the gear's spin is trivial. -/
theorem c79_mixed_exact (A : TransformData) (B : GearTransform) (hA : IsRot A.orientation)
    (hB : IsRot B.orientation) (hsA : A.scale ≠ 0) (hsB : B.scale ≠ 0) :
    (∀ p, applyTransform p (A.mulGear B) = applyTransform (applyGearTransform p B) A) ↔
      Rz B.angle = 1 := by
  have e1 : ∀ p, applyTransform p (A.mulGear B) =
      app ((A.scale * B.scale) • (A.orientation * (B.orientation * 1))) p +
        (A.center + A.scale • app A.orientation B.center) := by
    intro p
    simp only [applyTransform_eq, TransformData.mulGear, TransformData.mul, app_smul_mat, app_mul,
      app_def, Matrix.mul_one]
  have e2 : ∀ p, applyTransform (applyGearTransform p B) A =
      app ((A.scale * B.scale) • (A.orientation * (B.orientation * Rz B.angle))) p +
        (A.center + A.scale • app A.orientation B.center) := by
    intro p
    simp only [applyTransform_eq, applyGearTransform_eq, app_smul_mat, app_mul, app_add, app_smul]
    module
  simp only [e1, e2]
  constructor
  · intro h
    have h1 := (linear_part_eq h).1
    exact (hB.mul_left_cancel (hA.mul_left_cancel
      (smul_mat_cancel (mul_ne_zero hsA hsB) h1))).symm
  · intro h p; rw [h]

/-- **C79, what holds.** Without spin the mixed product composes. -/
theorem c79_mixed_partial (A : TransformData) (B : GearTransform) (hA : IsRot A.orientation)
    (hB : IsRot B.orientation) (hsA : A.scale ≠ 0) (hsB : B.scale ≠ 0) (h : B.angle = 0) (p : V3) :
    applyTransform p (A.mulGear B) = applyTransform (applyGearTransform p B) A :=
  (c79_mixed_exact A B hA hB hsA hsB).2 (by rw [h, Rz_zero]) p

theorem c79_violated : ¬ ∀ (A : TransformData) (B : GearTransform), IsRot A.orientation →
    IsRot B.orientation → A.scale ≠ 0 → B.scale ≠ 0 →
    ∀ p, applyTransform p (A.mulGear B) = applyTransform (applyGearTransform p B) A := by
  intro h
  have := (c79_mixed_exact ⟨0, 1, 1⟩ ⟨⟨0, 1, 1⟩, π / 2⟩ IsRot.one IsRot.one one_ne_zero
    one_ne_zero).1 (h _ _ IsRot.one IsRot.one one_ne_zero one_ne_zero)
  have := congrFun (congrFun this 0) 0
  simp [Rz] at this

end Verif
