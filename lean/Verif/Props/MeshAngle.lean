import Verif.Model.Mesh
import Verif.Spec.Mesh
import Verif.Base.Angle

/-! # Properties C30, C31: the mesh angle -/

namespace Verif

open Real

theorem vecMul_apply (v : V3) (M : M3) (j : Fin 3) :
    Matrix.vecMul v M j = v 0 * M 0 j + v 1 * M 1 j + v 2 * M 2 j := by
  simp [Matrix.vecMul, dotProduct, Fin.sum_univ_three]

theorem SeenAt.smul {M : M3} {v : V3} {δ k : ℝ} (hk : 0 < k) (h : SeenAt M v δ) :
    SeenAt M (k • v) δ := by
  obtain ⟨ρ, hρ, h1, h2⟩ := h
  refine ⟨k * ρ, by positivity, ?_, ?_⟩
  · simp only [Pi.smul_apply, smul_eq_mul]; linear_combination k * h1
  · simp only [Pi.smul_apply, smul_eq_mul]; linear_combination k * h2

theorem SeenAt.angle {M : M3} {v : V3} {δ : ℝ} (h : SeenAt M v δ) (h1 : -π < δ) (h2 : δ ≤ π) :
    angleOfVectorInXY (Matrix.vecMul v M) = δ := by
  obtain ⟨ρ, hρ, e0, e1⟩ := h
  rw [angleOfVectorInXY, vecMul_apply, vecMul_apply, e0, e1, arctan2_polar hρ h1 h2]

theorem SeenAt.angle_mod {M : M3} {v : V3} {δ : ℝ} (h : SeenAt M v δ) :
    ∃ k : ℤ, angleOfVectorInXY (Matrix.vecMul v M) = δ + k * (2 * π) := by
  obtain ⟨ρ, hρ, e0, e1⟩ := h
  rw [angleOfVectorInXY, vecMul_apply, vecMul_apply, e0, e1]
  exact arctan2_polar_mod hρ δ

theorem centerDiffDir_eq {g1 g2 : GearTransform} (h : 1 / 10 ^ 12 ≤ norm3 (g2.center - g1.center)) :
    centerDiffDir g1 g2 = (norm3 (g2.center - g1.center))⁻¹ • (g2.center - g1.center) := by
  rw [centerDiffDir, if_neg (not_lt.2 h)]

theorem inv_norm_pos {v : V3} (h : 1 / 10 ^ 12 ≤ norm3 v) : 0 < (norm3 v)⁻¹ := by
  have : (0 : ℝ) < 1 / 10 ^ 12 := by norm_num
  exact inv_pos.2 (this.trans_le h)

/-- Phase arithmetic shared by all cases. -/
theorem mesh_phase (sg off x target p1 : ℝ) (hp : p1 ≠ 0) (hs : sg = 1 ∨ sg = -1) :
    CongrOne ((target + Int.fract (sg * Int.fract x + off) * p1 - target) / p1) (sg * x + off) := by
  have e : (target + Int.fract (sg * Int.fract x + off) * p1 - target) / p1 =
      Int.fract (sg * Int.fract x + off) := by field_simp; ring
  rw [e]
  rcases hs with rfl | rfl
  · refine ⟨-⌊x⌋ - ⌊1 * Int.fract x + off⌋, ?_⟩
    rw [Int.fract, Int.fract]; push_cast; ring
  · refine ⟨⌊x⌋ - ⌊-1 * Int.fract x + off⌋, ?_⟩
    rw [Int.fract, Int.fract]; push_cast; ring

/-- **C30, external.** A pair of external gears: `δ1` is the polar angle at which gear 1 sees gear
2 and `δ2` the one at which gear 2 sees gear 1. After setting the mesh angle the tooth phases at
these directions add up to 1/2 modulo 1: where one gear has a tooth the other has a gap. -/
theorem c30_external (g1 g2 : GearTransform) (p1 p2 δ1 δ2 : ℝ) (hp1 : p1 ≠ 0)
    (hd : 1 / 10 ^ 12 ≤ norm3 (g2.center - g1.center))
    (h1 : SeenAt g1.orientation (g2.center - g1.center) δ1)
    (h2 : SeenAt g2.orientation (g1.center - g2.center) δ2)
    (m1 : -π < δ1 ∧ δ1 ≤ π) (m2 : -π < δ2 ∧ δ2 ≤ π) :
    CongrOne ((calcMeshAngle g1 g2 p1 p2 false false - δ1) / p1 + (g2.angle - δ2) / p2) (1 / 2) := by
  have e1 := (h1.smul (inv_norm_pos hd)).angle m1.1 m1.2
  have e2 := (h2.smul (inv_norm_pos hd)).angle m2.1 m2.2
  have hneg : -((norm3 (g2.center - g1.center))⁻¹ • (g2.center - g1.center)) =
      (norm3 (g2.center - g1.center))⁻¹ • (g1.center - g2.center) := by module
  simp only [calcMeshAngle, contactData, centerDiffDir_eq hd, Bool.false_eq_true, if_false, hneg,
    e1, e2]
  obtain ⟨n, hn⟩ := mesh_phase (-1) (1 / 2) ((g2.angle - δ2) / p2) δ1 p1 hp1 (Or.inr rfl)
  exact ⟨n, by rw [hn]; ring⟩

/-- **C30, gear 2 is the ring.** Both gears look in the direction from the ring to the pinion;
the phases agree modulo 1: a tooth of the pinion lies in a gap of the ring, whose profile is the
same tooth shape. -/
theorem c30_ring2 (g1 g2 : GearTransform) (p1 p2 δ1 δ2 : ℝ) (hp1 : p1 ≠ 0)
    (hd : 1 / 10 ^ 12 ≤ norm3 (g2.center - g1.center))
    (h1 : SeenAt g1.orientation (g1.center - g2.center) δ1)
    (h2 : SeenAt g2.orientation (g1.center - g2.center) δ2)
    (m1 : -π < δ1 ∧ δ1 ≤ π) (m2 : -π < δ2 ∧ δ2 ≤ π) :
    CongrOne ((calcMeshAngle g1 g2 p1 p2 false true - δ1) / p1) ((g2.angle - δ2) / p2) := by
  have e1 := (h1.smul (inv_norm_pos hd)).angle m1.1 m1.2
  have e2 := (h2.smul (inv_norm_pos hd)).angle m2.1 m2.2
  have hneg : -((norm3 (g2.center - g1.center))⁻¹ • (g2.center - g1.center)) =
      (norm3 (g2.center - g1.center))⁻¹ • (g1.center - g2.center) := by module
  simp only [calcMeshAngle, contactData, centerDiffDir_eq hd, Bool.false_eq_true, if_false, if_true,
    hneg, e1, e2]
  obtain ⟨n, hn⟩ := mesh_phase 1 0 ((g2.angle - δ2) / p2) δ1 p1 hp1 (Or.inl rfl)
  exact ⟨n, by rw [hn]; ring⟩

/-- **C30, gear 1 is the ring.** -/
theorem c30_ring1 (g1 g2 : GearTransform) (p1 p2 δ1 δ2 : ℝ) (ring2 : Bool) (hp1 : p1 ≠ 0)
    (hd : 1 / 10 ^ 12 ≤ norm3 (g2.center - g1.center))
    (h1 : SeenAt g1.orientation (g2.center - g1.center) δ1)
    (h2 : SeenAt g2.orientation (g2.center - g1.center) δ2)
    (m1 : -π < δ1 ∧ δ1 ≤ π) (m2 : -π < δ2 ∧ δ2 ≤ π) :
    CongrOne ((calcMeshAngle g1 g2 p1 p2 true ring2 - δ1) / p1) ((g2.angle - δ2) / p2) := by
  have e1 := (h1.smul (inv_norm_pos hd)).angle m1.1 m1.2
  have e2 := (h2.smul (inv_norm_pos hd)).angle m2.1 m2.2
  simp only [calcMeshAngle, contactData, centerDiffDir_eq hd, if_true, e1, e2]
  obtain ⟨n, hn⟩ := mesh_phase 1 0 ((g2.angle - δ2) / p2) δ1 p1 hp1 (Or.inl rfl)
  exact ⟨n, by rw [hn]; ring⟩

/-- A whole number of teeth: turning the reference direction by whole turns changes the phase by
whole numbers. -/
theorem phase_turn {N : ℕ} (hN : 0 < N) (x δ : ℝ) (k : ℤ) :
    (x - (δ + k * (2 * π))) / (2 * π / N) = (x - δ) / (2 * π / N) + ((-(k * N) : ℤ) : ℝ) := by
  have : (N : ℝ) ≠ 0 := by exact_mod_cast hN.ne'
  have := pi_pos
  push_cast
  field_simp
  ring

/-- **C30 with whole tooth counts.** The polar angles may be given up to whole turns. -/
theorem c30_external_whole (g1 g2 : GearTransform) (N1 N2 : ℕ) (hN1 : 0 < N1) (hN2 : 0 < N2)
    (δ1 δ2 : ℝ) (hd : 1 / 10 ^ 12 ≤ norm3 (g2.center - g1.center))
    (h1 : SeenAt g1.orientation (g2.center - g1.center) δ1)
    (h2 : SeenAt g2.orientation (g1.center - g2.center) δ2) :
    CongrOne ((calcMeshAngle g1 g2 (2 * π / N1) (2 * π / N2) false false - δ1) / (2 * π / N1) +
      (g2.angle - δ2) / (2 * π / N2)) (1 / 2) := by
  obtain ⟨k1, e1⟩ := (h1.smul (inv_norm_pos hd)).angle_mod
  obtain ⟨k2, e2⟩ := (h2.smul (inv_norm_pos hd)).angle_mod
  have hneg : -((norm3 (g2.center - g1.center))⁻¹ • (g2.center - g1.center)) =
      (norm3 (g2.center - g1.center))⁻¹ • (g1.center - g2.center) := by module
  simp only [calcMeshAngle, contactData, centerDiffDir_eq hd, Bool.false_eq_true, if_false, hneg,
    e1, e2]
  have hp1 : 2 * π / (N1 : ℝ) ≠ 0 := by have := pi_pos; positivity
  obtain ⟨n, hn⟩ := mesh_phase (-1) (1 / 2) ((g2.angle - (δ2 + k2 * (2 * π))) / (2 * π / N2))
    (δ1 + k1 * (2 * π)) (2 * π / N1) hp1 (Or.inr rfl)
  rw [phase_turn hN1, phase_turn hN2] at hn
  refine ⟨n + k1 * N1 + k2 * N2, ?_⟩
  rw [phase_turn hN2]
  push_cast at hn ⊢
  linarith

/-- **C30 with whole tooth counts, gear 2 the ring.** -/
theorem c30_ring2_whole (g1 g2 : GearTransform) (N1 N2 : ℕ) (hN1 : 0 < N1) (hN2 : 0 < N2)
    (δ1 δ2 : ℝ) (hd : 1 / 10 ^ 12 ≤ norm3 (g2.center - g1.center))
    (h1 : SeenAt g1.orientation (g1.center - g2.center) δ1)
    (h2 : SeenAt g2.orientation (g1.center - g2.center) δ2) :
    CongrOne ((calcMeshAngle g1 g2 (2 * π / N1) (2 * π / N2) false true - δ1) / (2 * π / N1))
      ((g2.angle - δ2) / (2 * π / N2)) := by
  obtain ⟨k1, e1⟩ := (h1.smul (inv_norm_pos hd)).angle_mod
  obtain ⟨k2, e2⟩ := (h2.smul (inv_norm_pos hd)).angle_mod
  have hneg : -((norm3 (g2.center - g1.center))⁻¹ • (g2.center - g1.center)) =
      (norm3 (g2.center - g1.center))⁻¹ • (g1.center - g2.center) := by module
  simp only [calcMeshAngle, contactData, centerDiffDir_eq hd, Bool.false_eq_true, if_false, if_true,
    hneg, e1, e2]
  have hp1 : 2 * π / (N1 : ℝ) ≠ 0 := by have := pi_pos; positivity
  obtain ⟨n, hn⟩ := mesh_phase 1 0 ((g2.angle - (δ2 + k2 * (2 * π))) / (2 * π / N2))
    (δ1 + k1 * (2 * π)) (2 * π / N1) hp1 (Or.inl rfl)
  rw [phase_turn hN1, phase_turn hN2] at hn
  refine ⟨n + k1 * N1 - k2 * N2, ?_⟩
  rw [phase_turn hN2]
  push_cast at hn ⊢
  linarith

/-- Concrete case: gear 1 at distance 2 to the right of gear 2, both with the standard
orientation. Gear 1 sees gear 2 at π, gear 2 sees gear 1 at 0. -/
example : let g1 : GearTransform := ⟨⟨![2, 0, 0], 1, 1⟩, 0⟩
    let g2 : GearTransform := ⟨⟨0, 1, 1⟩, 1⟩
    1 / 10 ^ 12 ≤ norm3 (g2.center - g1.center) ∧
      SeenAt g1.orientation (g2.center - g1.center) π ∧
      SeenAt g2.orientation (g1.center - g2.center) 0 := by
  intro g1 g2
  have hn : norm3 (g2.center - g1.center) = 2 :=
    norm3_eq_of_dot (by norm_num) (by simp [g1, g2, dot]; norm_num)
  refine ⟨by rw [hn]; norm_num, ⟨2, by norm_num, ?_, ?_⟩, ⟨2, by norm_num, ?_, ?_⟩⟩ <;>
    simp [g1, g2]

/-! ### C31 -/

/-- **C31, bound.** The mesh angle lies within one pitch from the polar angle at which gear 1
sees the contact. -/
theorem c31_bound (g1 g2 : GearTransform) (p1 p2 δ1 : ℝ) (hp1 : 0 < p1) (ring2 : Bool)
    (hd : 1 / 10 ^ 12 ≤ norm3 (g2.center - g1.center)) (m1 : -π < δ1 ∧ δ1 ≤ π)
    (ring1 : Bool)
    (h1 : SeenAt g1.orientation
      (if ring2 = true ∧ ring1 = false then g1.center - g2.center else g2.center - g1.center) δ1) :
    δ1 ≤ calcMeshAngle g1 g2 p1 p2 ring1 ring2 ∧ calcMeshAngle g1 g2 p1 p2 ring1 ring2 < δ1 + p1 := by
  have e1 := (h1.smul (inv_norm_pos hd)).angle m1.1 m1.2
  have hneg : -((norm3 (g2.center - g1.center))⁻¹ • (g2.center - g1.center)) =
      (norm3 (g2.center - g1.center))⁻¹ • (g1.center - g2.center) := by module
  have key : ∃ x, calcMeshAngle g1 g2 p1 p2 ring1 ring2 = δ1 + Int.fract x * p1 := by
    cases ring1 <;> cases ring2 <;>
      simp [calcMeshAngle, contactData, centerDiffDir_eq hd, hneg] at e1 ⊢ <;> rw [e1] <;>
      exact ⟨_, rfl⟩
  obtain ⟨x, hx⟩ := key
  rw [hx]
  have h0 := Int.fract_nonneg x
  have h1 := Int.fract_lt_one x
  constructor
  · have := mul_nonneg h0 hp1.le; linarith
  · have := mul_lt_mul_of_pos_right h1 hp1; linarith

/-- **C31, period.** Turning gear 2 by whole pitches does not change the mesh angle. -/
theorem c31_period (g1 g2 : GearTransform) (p1 p2 : ℝ) (hp2 : p2 ≠ 0) (ring1 ring2 : Bool) (k : ℤ) :
    calcMeshAngle g1 { g2 with angle := g2.angle + k * p2 } p1 p2 ring1 ring2 =
      calcMeshAngle g1 g2 p1 p2 ring1 ring2 := by
  have e : ∀ a, (g2.angle + k * p2 - a) / p2 = (g2.angle - a) / p2 + k := by
    intro a; field_simp; ring
  simp only [calcMeshAngle, centerDiffDir, contactData, TransformData.xAxis, e,
    Int.fract_add_intCast]

/-- **C31, transmission, external.** Turning gear 2 by `d` turns the mesh angle by
`−d·p1/p2` up to whole pitches of gear 1. -/
theorem c31_ratio_external (g1 g2 : GearTransform) (p1 p2 d : ℝ) (hp2 : p2 ≠ 0) :
    ∃ n : ℤ, calcMeshAngle g1 { g2 with angle := g2.angle + d } p1 p2 false false =
      calcMeshAngle g1 g2 p1 p2 false false - d * p1 / p2 + n * p1 := by
  have e : ∀ a, (g2.angle + d - a) / p2 = (g2.angle - a) / p2 + d / p2 := by
    intro a; ring
  simp only [calcMeshAngle, centerDiffDir, contactData, TransformData.xAxis, e,
    Bool.false_eq_true, if_false]
  generalize (g2.angle - angleOfVectorInXY _) / p2 = x
  refine ⟨⌊x + d / p2⌋ - ⌊x⌋ + ⌊-1 * Int.fract x + 1 / 2⌋ -
    ⌊-1 * Int.fract (x + d / p2) + 1 / 2⌋, ?_⟩
  have e1 : ∀ y : ℝ, Int.fract (-1 * Int.fract y + 1 / 2) =
      -1 * (y - ⌊y⌋) + 1 / 2 - ⌊-1 * Int.fract y + 1 / 2⌋ := by
    intro y; simp only [Int.fract]
  rw [e1, e1]
  push_cast
  ring

/-- **C31, transmission, ring.** Turning gear 2 by `d` turns the mesh angle by `d·p1/p2`. -/
theorem c31_ratio_ring (g1 g2 : GearTransform) (p1 p2 d : ℝ) (hp2 : p2 ≠ 0) (ring1 ring2 : Bool)
    (hr : ring1 = true ∨ ring2 = true) :
    ∃ n : ℤ, calcMeshAngle g1 { g2 with angle := g2.angle + d } p1 p2 ring1 ring2 =
      calcMeshAngle g1 g2 p1 p2 ring1 ring2 + d * p1 / p2 + n * p1 := by
  have e : ∀ a, (g2.angle + d - a) / p2 = (g2.angle - a) / p2 + d / p2 := by
    intro a; ring
  have e1 : ∀ y : ℝ, Int.fract (1 * Int.fract y + 0) = y - ⌊y⌋ := by
    intro y; rw [one_mul, add_zero, Int.fract_fract, Int.fract]
  rcases hr with rfl | rfl
  · simp only [calcMeshAngle, centerDiffDir, contactData, TransformData.xAxis, e, if_true]
    generalize (g2.angle - angleOfVectorInXY _) / p2 = x
    refine ⟨⌊x⌋ - ⌊x + d / p2⌋, ?_⟩
    rw [e1, e1]; push_cast; ring
  · cases ring1
    all_goals
      simp only [calcMeshAngle, centerDiffDir, contactData, TransformData.xAxis, e, if_true,
        Bool.false_eq_true, if_false]
      generalize (g2.angle - angleOfVectorInXY _) / p2 = x
      refine ⟨⌊x⌋ - ⌊x + d / p2⌋, ?_⟩
      rw [e1, e1]; push_cast; ring

end Verif
