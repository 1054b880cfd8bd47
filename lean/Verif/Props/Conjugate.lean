import Verif.Props.Mesh
import Verif.Props.Transform
import Verif.Props.Flank
import Verif.Lemmas.Deriv

/-! # Property C84: the flanks of meshed spur gears are conjugate -/

namespace Verif

open Real Spec

theorem HasDerivAt.v3 {f : ℝ → V3} {v : V3} {t : ℝ} (h : HasDerivAt f v t) (i : Fin 3) :
    HasDerivAt (fun s => f s i) (v i) t := hasDerivAt_pi.1 h i

theorem hasDerivAt_app {f : ℝ → V3} {v : V3} {t : ℝ} (M : M3) (h : HasDerivAt f v t) :
    HasDerivAt (fun s => app M (f s)) (app M v) t := by
  have h0 := HasDerivAt.v3 h 0
  have h1 := HasDerivAt.v3 h 1
  have h2 := HasDerivAt.v3 h 2
  apply hasDerivAt_v3
  · simp only [app_0]
    exact ((h0.const_mul _).add (h1.const_mul _)).add (h2.const_mul _)
  · simp only [app_1]
    exact ((h0.const_mul _).add (h1.const_mul _)).add (h2.const_mul _)
  · simp only [app_2]
    exact ((h0.const_mul _).add (h1.const_mul _)).add (h2.const_mul _)

theorem Rz_polarVec (a b : ℝ) : app (Rz a) (polarVec b) = polarVec (a + b) := by
  apply V3.ext3 <;> simp [polarVec, cos_add, sin_add]

theorem polarVec_shift (d a : ℝ) :
    polarVec d = cos a • polarVec (d + a) - sin a • polarVec (d + a + π / 2) := by
  have h := sin_sq_add_cos_sq a
  apply V3.ext3
  · simp only [polarVec, Pi.sub_apply, Pi.smul_apply, Matrix.cons_val_zero, smul_eq_mul]
    rw [cos_add_pi_div_two, cos_add, sin_add]
    linear_combination -cos d * h
  · simp only [polarVec, Pi.sub_apply, Pi.smul_apply, Matrix.cons_val_one, Matrix.cons_val_zero,
      smul_eq_mul]
    rw [sin_add_pi_div_two, cos_add, sin_add]
    linear_combination -sin d * h
  · simp [polarVec]

theorem polarVec_add_pi (a : ℝ) : polarVec (a + π) = -polarVec a := by
  apply V3.ext3 <;> simp [polarVec, cos_add_pi, sin_add_pi]

theorem polarVec_unit (a : ℝ) : dot (polarVec a) (polarVec a) = 1 := by
  simp only [polarVec, dot]; simp; nlinarith [sin_sq_add_cos_sq a]

theorem involuteCircle_polar (t r ang : ℝ) :
    involuteCircle t r ang 0 0 =
      r • polarVec (t + ang) - (r * t) • polarVec (t + ang + π / 2) := by
  apply V3.ext3
  · simp [involuteCircle, polarVec, RIGHT, DOWN, cos_add_pi_div_two]; ring
  · simp [involuteCircle, polarVec, RIGHT, DOWN, sin_add_pi_div_two]; ring
  · simp [involuteCircle, polarVec, RIGHT, DOWN]

/-- Position of a point of the lower flank. `ψ` is the polar angle of the tangent point on the base
circle. -/
theorem lowerFlank_eq (g : GearObj) (turn : ℝ) (k : ℤ) (t ψ : ℝ)
    (hψ : ψ = g.transform.angle + turn + k * g.pitchAngle + (t + g.baseAngle)) :
    g.lowerFlank turn k t = g.transform.center + g.rBase • app g.transform.orientation (polarVec ψ) -
      (g.rBase * t) • app g.transform.orientation (polarVec (ψ + π / 2)) := by
  rw [GearObj.lowerFlank, applyGearTransform_eq, involuteCircle_polar]
  simp only [app_sub, app_smul, app_mul, Rz_polarVec, GearObj.rBase]
  rw [hψ, add_assoc _ (t + g.baseAngle) (π / 2)]
  module

theorem mirror_polar (a : ℝ) : mulV (polarVec a) ![1, -1, 1] = polarVec (-a) := by
  apply V3.ext3 <;> simp [mulV, polarVec]

theorem upperFlank_eq (g : GearObj) (turn : ℝ) (k : ℤ) (t ψ : ℝ)
    (hψ : ψ = g.transform.angle + turn + k * g.pitchAngle - (t + g.baseAngle)) :
    g.upperFlank turn k t = g.transform.center + g.rBase • app g.transform.orientation (polarVec ψ) +
      (g.rBase * t) • app g.transform.orientation (polarVec (ψ + π / 2)) := by
  have h1 : ∀ u v : V3, mulV (u - v) ![1, -1, 1] = mulV u ![1, -1, 1] - mulV v ![1, -1, 1] := by
    intro u v; apply V3.ext3 <;> simp [mulV] <;> ring
  have h2 : ∀ (c : ℝ) (u : V3), mulV (c • u) ![1, -1, 1] = c • mulV u ![1, -1, 1] := by
    intro c u; apply V3.ext3 <;> simp [mulV]
  have h3 : polarVec (-(t + g.baseAngle + π / 2)) = -polarVec (-(t + g.baseAngle) + π / 2) := by
    rw [← polarVec_add_pi]
    apply V3.ext3
    · simp only [polarVec, Matrix.cons_val_zero]
      rw [show -(t + g.baseAngle) + π / 2 + π = -(t + g.baseAngle + π / 2) + 2 * π by ring,
        cos_add_two_pi]
    · simp only [polarVec, Matrix.cons_val_one, Matrix.cons_val_zero]
      rw [show -(t + g.baseAngle) + π / 2 + π = -(t + g.baseAngle + π / 2) + 2 * π by ring,
        sin_add_two_pi]
    · simp [polarVec]
  rw [GearObj.upperFlank, applyGearTransform_eq, involuteCircle_polar, h1, h2, h2, mirror_polar,
    mirror_polar, h3]
  simp only [app_sub, app_smul, app_mul, app_neg, Rz_polarVec, GearObj.rBase]
  rw [hψ, show g.transform.angle + turn + k * g.pitchAngle - (t + g.baseAngle) + π / 2 =
    g.transform.angle + turn + k * g.pitchAngle + (-(t + g.baseAngle) + π / 2) by ring,
    show g.transform.angle + turn + k * g.pitchAngle - (t + g.baseAngle) =
    g.transform.angle + turn + k * g.pitchAngle + -(t + g.baseAngle) by ring]
  module

/-- Tangent of the lower flank: along the radius to the tangent point. -/
theorem lowerFlank_deriv (g : GearObj) (turn : ℝ) (k : ℤ) (t ψ : ℝ)
    (hψ : ψ = g.transform.angle + turn + k * g.pitchAngle + (t + g.baseAngle)) :
    HasDerivAt (g.lowerFlank turn k)
      ((g.rBase * t) • app g.transform.orientation (polarVec ψ)) t := by
  have h := hasDerivAt_app (g.transform.orientation *
    Rz (g.transform.angle + turn + k * g.pitchAngle))
    (c20_velocity t g.baseRadius1 g.baseAngle 0)
  have h' := (h.const_smul g.transform.scale).add_const g.transform.center
  have e : (fun s => g.lowerFlank turn k s) = fun s => g.transform.scale •
      app (g.transform.orientation * Rz (g.transform.angle + turn + k * g.pitchAngle))
        (involuteCircle s g.baseRadius1 g.baseAngle 0 0) + g.transform.center := by
    funext s; simp only [GearObj.lowerFlank, applyGearTransform_eq, app_mul]
  change HasDerivAt (fun s => g.lowerFlank turn k s) _ t
  rw [e]
  refine h'.congr_deriv ?_
  have e2 : circlePoint g.baseRadius1 (t + g.baseAngle) 0 =
      g.baseRadius1 • polarVec (t + g.baseAngle) := by
    apply V3.ext3 <;> simp [circlePoint, polarVec]
  rw [e2, app_smul, app_smul, app_mul, Rz_polarVec, ← hψ, GearObj.rBase]
  module

theorem upperFlank_deriv (g : GearObj) (turn : ℝ) (k : ℤ) (t ψ : ℝ)
    (hψ : ψ = g.transform.angle + turn + k * g.pitchAngle - (t + g.baseAngle)) :
    HasDerivAt (g.upperFlank turn k)
      ((g.rBase * t) • app g.transform.orientation (polarVec ψ)) t := by
  have hm : HasDerivAt (fun s => mulV (involuteCircle s g.baseRadius1 g.baseAngle 0 0) ![1, -1, 1])
      (mulV (t • circlePoint g.baseRadius1 (t + g.baseAngle) 0) ![1, -1, 1]) t := by
    have h := c20_velocity t g.baseRadius1 g.baseAngle 0
    apply hasDerivAt_v3
    · simpa [mulV] using HasDerivAt.v3 h 0
    · simpa [mulV] using (HasDerivAt.v3 h 1).fun_neg
    · simpa [mulV] using HasDerivAt.v3 h 2
  have h := hasDerivAt_app (g.transform.orientation *
    Rz (g.transform.angle + turn + k * g.pitchAngle)) hm
  have h' := (h.const_smul g.transform.scale).add_const g.transform.center
  have e : (fun s => g.upperFlank turn k s) = fun s => g.transform.scale •
      app (g.transform.orientation * Rz (g.transform.angle + turn + k * g.pitchAngle))
        (mulV (involuteCircle s g.baseRadius1 g.baseAngle 0 0) ![1, -1, 1]) +
        g.transform.center := by
    funext s; simp only [GearObj.upperFlank, applyGearTransform_eq, app_mul]
  change HasDerivAt (fun s => g.upperFlank turn k s) _ t
  rw [e]
  refine h'.congr_deriv ?_
  have e2 : mulV (t • circlePoint g.baseRadius1 (t + g.baseAngle) 0) ![1, -1, 1] =
      (t * g.baseRadius1) • polarVec (-(t + g.baseAngle)) := by
    rw [← mirror_polar]
    apply V3.ext3 <;> simp [circlePoint, polarVec, mulV] <;> ring
  rw [e2, app_smul, app_mul, Rz_polarVec, ← sub_eq_add_neg, ← hψ, GearObj.rBase]
  module

/-- A pair of spur gears set up for a meshing statement: cylindrical, whole tooth counts, equal base
pitch, partner in any rotated position, target direction at polar angle `δ` of the partner's
plane. -/
structure SpurPair (g h : GearObj) (dir : V3) (N1 N2 : ℕ) (ρ δ : ℝ) : Prop where
  kind : g.kind = .involute
  kind' : h.kind ≠ .cycloid
  cone : g.coneAngle = 0
  cone' : h.coneAngle = 0
  teeth : g.tooth.numTeeth = N1
  teeth' : h.tooth.numTeeth = N2
  posN : 0 < N1
  posN' : 0 < N2
  rot : IsRot h.transform.orientation
  base : 0 < g.rBase
  base' : 0 < h.rBase
  basePitch : g.rBase * g.pitchAngle = h.rBase * h.pitchAngle
  rho : 0 < ρ
  direction : dir = ρ • app h.transform.orientation (polarVec δ)

theorem app_polarVec_unit {M : M3} (h : IsRot M) (a : ℝ) : norm3 (app M (polarVec a)) = 1 := by
  rw [h.norm_app]; exact norm3_eq_of_dot zero_le_one (by rw [polarVec_unit]; norm_num)

theorem SpurPair.dir_ne {g h : GearObj} {dir : V3} {N1 N2 : ℕ} {ρ δ : ℝ}
    (P : SpurPair g h dir N1 N2 ρ δ) : dir ≠ 0 := by
  intro h0
  have h1 := app_polarVec_unit P.rot δ
  have h2 := P.direction
  rw [h0] at h2
  have h3 := congrArg norm3 h2
  rw [norm3_smul, h1, abs_of_pos P.rho, mul_one] at h3
  simp [norm3] at h3
  exact P.rho.ne h3

theorem SpurPair.dir_unit {g h : GearObj} {dir : V3} {N1 N2 : ℕ} {ρ δ : ℝ}
    (P : SpurPair g h dir N1 N2 ρ δ) :
    (norm3 dir)⁻¹ • dir = app h.transform.orientation (polarVec δ) := by
  have h1 := app_polarVec_unit P.rot δ
  rw [P.direction, norm3_smul, h1, abs_of_pos P.rho, mul_one, smul_smul,
    inv_mul_cancel₀ P.rho.ne', one_smul]

theorem SpurPair.meshTo_eq {g h : GearObj} {dir : V3} {N1 N2 : ℕ} {ρ δ : ℝ}
    (P : SpurPair g h dir N1 N2 ρ δ) (solve : (ℝ → ℝ) → ℝ) (b bias : ℝ) :
    g.meshTo solve h dir b bias = some (g.meshToAt h (app h.transform.orientation (polarVec δ))
      (g.meshDistance solve h b) (bias / 2 * b / g.rBase)) := by
  simp only [GearObj.meshTo, P.kind, GearObj.meshToInvolute, normalizeVector_eq P.dir_ne, P.cone,
    P.cone', ne_eq, not_true_eq_false, or_self, if_false, P.kind', P.dir_unit]

/-- In its own plane a gear sees `O·polarVec δ` at `δ`. -/
theorem seenAt_polar {M : M3} (h : IsRot M) {k : ℝ} (hk : 0 < k) (δ : ℝ) :
    SeenAt M (k • app M (polarVec δ)) δ := by
  have e : ∀ j : Fin 3, (k • app M (polarVec δ)) 0 * M 0 j + (k • app M (polarVec δ)) 1 * M 1 j +
      (k • app M (polarVec δ)) 2 * M 2 j = k * (app M.transpose (app M (polarVec δ))) j := by
    intro j
    rw [← vecMul_eq]
    rw [vecMul_apply]
    simp only [Pi.smul_apply, smul_eq_mul]; ring
  refine ⟨k, hk, ?_, ?_⟩
  · rw [e, h.app_T_app]; simp [polarVec]
  · rw [e, h.app_T_app]; simp [polarVec]

/-- `n` is normal to the curve `F` at parameter `t`. -/
def NormalAt (F : ℝ → V3) (t : ℝ) (n : V3) : Prop := ∃ v, HasDerivAt F v t ∧ dot v n = 0

theorem normal_polar {M : M3} (h : IsRot M) (c a : ℝ) :
    dot (c • app M (polarVec a)) (app M (polarVec (a + π / 2))) = 0 := by
  rw [dot_smul_left, h.dot_app]
  simp [polarVec, dot, cos_add_pi_div_two, sin_add_pi_div_two]
  right; ring

theorem normal_polar' {M : M3} (h : IsRot M) (c a b : ℝ) (hb : b = a + π) :
    dot (c • app M (polarVec b)) (app M (polarVec (a + π / 2))) = 0 := by
  rw [hb, polarVec_add_pi, app_neg, smul_neg, dot_neg_left, normal_polar h, neg_zero]

/-- **C84, external pair.** After `mesh_to` with prescribed backlash `b` and `angle_bias`, let gear
`h` turn by any angle `φ` and the meshed gear by `−φ·p1/p2`. For every tooth `k2` of `h` there is a
tooth `k1` of the other gear such that the two lower flanks have a common normal along the line of
action `n₁`, and the gap between them measured along this common normal is `b/2·(1 + bias)`,
whatever `φ` is. The same holds for the upper flanks with the gap `b/2·(1 − bias)` and the other
line of action. So the flanks are conjugate, and with `bias = ±1` they touch on one side and have the
full backlash `b` on the other. -/
theorem c84_external (solve : (ℝ → ℝ) → ℝ) (g h : GearObj) (dir : V3) (N1 N2 : ℕ) (ρ δ b bias a : ℝ)
    (P : SpurPair g h dir N1 N2 ρ δ) (hr : g.insideTeeth = false) (hr' : h.insideTeeth = false)
    (hbig : 1 / 10 ^ 12 ≤ g.rBase + h.rBase)
    (ha : a = solve (meshResidual g.rBase h.rBase (-g.angleBase) (-h.angleBase) h.pitchAngle false b))
    (hlo : -(π / 2) < a) (hhi : a < π / 2)
    (hroot : meshResidual g.rBase h.rBase (-g.angleBase) (-h.angleBase) h.pitchAngle false b a = 0) :
    ∃ g', g.meshTo solve h dir b bias = some g' ∧ ∀ (φ : ℝ) (k2 : ℤ),
      (∃ (k1 : ℤ) (t1 t2 : ℝ),
        let n := app h.transform.orientation (polarVec (δ + a + π / 2))
        t2 = δ + a - (h.transform.angle + φ + k2 * h.pitchAngle + h.angleBase) ∧
        t1 = δ + a + π - (g'.transform.angle + -(φ * g.pitchAngle / h.pitchAngle) + k1 * g.pitchAngle + g.angleBase) ∧
        g'.lowerFlank (-(φ * g.pitchAngle / h.pitchAngle)) k1 t1 - h.lowerFlank φ k2 t2 =
          (-(b / 2 * (1 + bias))) • n ∧
        NormalAt (g'.lowerFlank (-(φ * g.pitchAngle / h.pitchAngle)) k1) t1 n ∧
        NormalAt (h.lowerFlank φ k2) t2 n) ∧
      (∃ (k1 : ℤ) (t1 t2 : ℝ),
        let n := app h.transform.orientation (polarVec (δ - a + π / 2))
        t2 = h.transform.angle + φ + k2 * h.pitchAngle - h.angleBase - (δ - a) ∧
        t1 = g'.transform.angle + -(φ * g.pitchAngle / h.pitchAngle) + k1 * g.pitchAngle - g.angleBase - (δ - a + π) ∧
        g'.upperFlank (-(φ * g.pitchAngle / h.pitchAngle)) k1 t1 - h.upperFlank φ k2 t2 =
          (b / 2 * (1 - bias)) • n ∧
        NormalAt (g'.upperFlank (-(φ * g.pitchAngle / h.pitchAngle)) k1) t1 n ∧
        NormalAt (h.upperFlank φ k2) t2 n) := by
  have hpi := pi_pos
  have hca : 0 < cos a := cos_pos' hlo hhi
  have hb1 := P.base
  have hb2 := P.base'
  obtain ⟨D, hDdef⟩ : ∃ D, D = g.meshDistance solve h b := ⟨_, rfl⟩
  have hD : D = (g.rBase + h.rBase) / cos a := by
    rw [hDdef, GearObj.meshDistance, hr, hr', calcInvoluteMeshDistance]
    simp only [Bool.or_self, Bool.false_eq_true, if_false, ← ha]
  have hDpos : 0 < D := by rw [hD]; positivity
  have hDbig : 1 / 10 ^ 12 ≤ D := by
    rw [hD, le_div_iff₀ hca]
    have := cos_le_one a
    nlinarith
  obtain ⟨O, hOdef⟩ : ∃ O, O = h.transform.orientation := ⟨_, rfl⟩
  have hO : IsRot O := by rw [hOdef]; exact P.rot
  have hp2 : h.pitchAngle = 2 * π / N2 := by
    rw [GearObj.pitchAngle, GearToothParam.pitchAngle, P.teeth']
  have hp1 : g.pitchAngle = 2 * π / N1 := by
    rw [GearObj.pitchAngle, GearToothParam.pitchAngle, P.teeth]
  have hN1 : (0 : ℝ) < N1 := by exact_mod_cast P.posN
  have hN2 : (0 : ℝ) < N2 := by exact_mod_cast P.posN'
  have hp1pos : 0 < g.pitchAngle := by rw [hp1]; positivity
  have hp2pos : 0 < h.pitchAngle := by rw [hp2]; positivity
  rw [P.meshTo_eq solve b bias, ← hDdef]
  refine ⟨_, rfl, ?_⟩
  -- phase
  obtain ⟨n, hn⟩ := c30_external_whole
    { g.transform with center := D • app h.transform.orientation (polarVec δ) + h.transform.center,
                       orientation := h.transform.orientation }
    h.transform N1 N2 P.posN P.posN' (δ + π) δ
    (by
      change 1 / 10 ^ 12 ≤ norm3 (h.transform.center -
        (D • app h.transform.orientation (polarVec δ) + h.transform.center))
      rw [show h.transform.center - (D • app h.transform.orientation (polarVec δ) +
        h.transform.center) = (-D) • app h.transform.orientation (polarVec δ) by module, norm3_smul,
        app_polarVec_unit P.rot, abs_neg, abs_of_pos hDpos, mul_one]
      exact hDbig)
    (by
      change SeenAt h.transform.orientation (h.transform.center -
        (D • app h.transform.orientation (polarVec δ) + h.transform.center)) (δ + π)
      rw [show h.transform.center - (D • app h.transform.orientation (polarVec δ) +
        h.transform.center) = D • app h.transform.orientation (polarVec (δ + π)) by
          rw [polarVec_add_pi, app_neg]; module]
      exact seenAt_polar P.rot hDpos _)
    (by
      change SeenAt h.transform.orientation
        (D • app h.transform.orientation (polarVec δ) + h.transform.center - h.transform.center) δ
      rw [add_sub_cancel_right]
      exact seenAt_polar P.rot hDpos _)
  rw [← hp1, ← hp2] at hn
  obtain ⟨θ, hθ⟩ : ∃ θ, θ = calcMeshAngle { g.transform with
    center := D • app h.transform.orientation (polarVec δ) + h.transform.center,
    orientation := h.transform.orientation } h.transform g.pitchAngle h.pitchAngle false false :=
      ⟨_, rfl⟩
  rw [← hθ] at hn
  obtain ⟨g', hg'⟩ : ∃ g', g' = g.meshToAt h (app h.transform.orientation (polarVec δ)) D
    (bias / 2 * b / g.rBase) := ⟨_, rfl⟩
  have hgo : g'.transform.orientation = O := by rw [hg', hOdef]; rfl
  have hgc : g'.transform.center = D • app O (polarVec δ) + h.transform.center := by
    rw [hg', hOdef]; rfl
  have hga : g'.transform.angle = θ + bias / 2 * b / g.rBase := by
    rw [hg', hθ]; simp only [GearObj.meshToAt, hr, hr']
  have hgr : g'.rBase = g.rBase := by rw [hg']; rfl
  have hgp : g'.pitchAngle = g.pitchAngle := by rw [hg']; rfl
  have hgb : g'.baseAngle = g.angleBase := by rw [hg']; rfl
  rw [← hg']
  -- scalar relations
  simp only [meshResidual, Bool.false_eq_true, if_false] at hroot
  have hres : (g.rBase + h.rBase) * (tan a - a) = -(g.rBase * g.angleBase) -
      h.rBase * (h.pitchAngle / 2 + h.angleBase) + b / 2 := by
    have hsum : g.rBase + h.rBase ≠ 0 := by positivity
    field_simp at hroot
    linarith
  have hphase : g.rBase * (θ - (δ + π)) + h.rBase * (h.transform.angle - δ) =
      h.rBase * h.pitchAngle * (1 / 2 + n) := by
    have e1 : g.rBase * (θ - (δ + π)) = h.rBase * h.pitchAngle * ((θ - (δ + π)) / g.pitchAngle) := by
      rw [← P.basePitch]; field_simp
    have e2 : h.rBase * (h.transform.angle - δ) =
        h.rBase * h.pitchAngle * ((h.transform.angle - δ) / h.pitchAngle) := by field_simp
    rw [e1, e2, ← mul_add, hn]
  have hturn : ∀ φ, g.rBase * (φ * g.pitchAngle / h.pitchAngle) = h.rBase * φ := by
    intro φ
    rw [show g.rBase * (φ * g.pitchAngle / h.pitchAngle) =
      g.rBase * g.pitchAngle * φ / h.pitchAngle by ring, P.basePitch]
    field_simp
  have hbias : g.rBase * (bias / 2 * b / g.rBase) = bias / 2 * b := by field_simp
  have hDe : ∀ s : ℝ, cos s = cos a → D • polarVec δ = (g.rBase + h.rBase) • polarVec (δ + s) -
      ((g.rBase + h.rBase) * (sin s / cos a)) • polarVec (δ + s + π / 2) := by
    intro s hs
    rw [polarVec_shift δ s, hs, hD]
    rw [smul_sub, smul_smul, smul_smul, div_mul_cancel₀ _ hca.ne']
    congr 2
    ring
  intro φ k2
  constructor
  · obtain ⟨k1, hk1⟩ : ∃ k1 : ℤ, k1 = -n - k2 := ⟨_, rfl⟩
    obtain ⟨t2, ht2⟩ : ∃ t2, t2 = δ + a -
      (h.transform.angle + φ + k2 * h.pitchAngle + h.angleBase) := ⟨_, rfl⟩
    obtain ⟨t1, ht1⟩ : ∃ t1, t1 = δ + a + π - (g'.transform.angle +
      -(φ * g.pitchAngle / h.pitchAngle) + k1 * g.pitchAngle + g.angleBase) := ⟨_, rfl⟩
    have hψ2 : δ + a = h.transform.angle + φ + k2 * h.pitchAngle + (t2 + h.baseAngle) := by
      rw [ht2, GearObj.angleBase]; ring
    have hψ1 : δ + a + π = g'.transform.angle + -(φ * g.pitchAngle / h.pitchAngle) +
        k1 * g'.pitchAngle + (t1 + g'.baseAngle) := by
      rw [ht1, hgp, hgb]; ring
    refine ⟨k1, t1, t2, ht2, ht1, ?_, ?_, ?_⟩
    · have hgap : g.rBase * t1 + h.rBase * t2 - (g.rBase + h.rBase) * (sin a / cos a) =
          -(b / 2 * (1 + bias)) := by
        rw [← tan_eq_sin_div_cos, ht1, ht2, hga, hk1]
        push_cast
        have e3 := P.basePitch
        linear_combination -hres - hphase - hbias + hturn φ + (n + k2) * e3
      rw [lowerFlank_eq g' _ k1 t1 _ hψ1, lowerFlank_eq h φ k2 t2 _ hψ2, hgo, hgc, hgr, ← hOdef,
        ← app_smul _ D, hDe a rfl, polarVec_add_pi,
        show δ + a + π + π / 2 = δ + a + π / 2 + π by ring, polarVec_add_pi, ← hgap]
      simp only [app_sub, app_smul, app_neg]
      module
    · refine ⟨_, lowerFlank_deriv g' _ k1 t1 _ hψ1, ?_⟩
      rw [hgo, ← hOdef]
      exact normal_polar' hO _ _ _ rfl
    · refine ⟨_, lowerFlank_deriv h φ k2 t2 _ hψ2, ?_⟩
      rw [← hOdef]
      exact normal_polar hO _ _
  · obtain ⟨k1, hk1⟩ : ∃ k1 : ℤ, k1 = -n - 1 - k2 := ⟨_, rfl⟩
    obtain ⟨t2, ht2⟩ : ∃ t2, t2 = h.transform.angle + φ + k2 * h.pitchAngle - h.angleBase -
      (δ - a) := ⟨_, rfl⟩
    obtain ⟨t1, ht1⟩ : ∃ t1, t1 = g'.transform.angle + -(φ * g.pitchAngle / h.pitchAngle) +
      k1 * g.pitchAngle - g.angleBase - (δ - a + π) := ⟨_, rfl⟩
    have hψ2 : δ - a = h.transform.angle + φ + k2 * h.pitchAngle - (t2 + h.baseAngle) := by
      rw [ht2, GearObj.angleBase]; ring
    have hψ1 : δ - a + π = g'.transform.angle + -(φ * g.pitchAngle / h.pitchAngle) +
        k1 * g'.pitchAngle - (t1 + g'.baseAngle) := by
      rw [ht1, hgp, hgb]; ring
    refine ⟨k1, t1, t2, ht2, ht1, ?_, ?_, ?_⟩
    · have hgap : (g.rBase + h.rBase) * (sin a / cos a) - (g.rBase * t1 + h.rBase * t2) =
          b / 2 * (1 - bias) := by
        rw [← tan_eq_sin_div_cos, ht1, ht2, hga, hk1]
        push_cast
        have e3 := P.basePitch
        linear_combination hres - hphase - hbias + hturn φ + (n + 1 + k2) * e3
      have hneg := hDe (-a) (cos_neg a)
      rw [sin_neg, ← sub_eq_add_neg] at hneg
      rw [upperFlank_eq g' _ k1 t1 _ hψ1, upperFlank_eq h φ k2 t2 _ hψ2, hgo, hgc, hgr, ← hOdef,
        ← app_smul _ D, hneg, polarVec_add_pi,
        show δ - a + π + π / 2 = δ - a + π / 2 + π by ring, polarVec_add_pi, ← hgap]
      simp only [app_sub, app_smul, app_neg]
      module
    · refine ⟨_, upperFlank_deriv g' _ k1 t1 _ hψ1, ?_⟩
      rw [hgo, ← hOdef]
      exact normal_polar' hO _ _ _ rfl
    · refine ⟨_, upperFlank_deriv h φ k2 t2 _ hψ2, ?_⟩
      rw [← hOdef]
      exact normal_polar hO _ _

/-- **C84, pinion in a ring.** Gear `g` (outer teeth) is meshed to the ring gear `h`, both turning in
the same direction. The hypothesis `hd` says that the working pressure angle for zero backlash is
positive, `hl`, `hl'` that the tooth halves have non-negative width at the base circle. -/
theorem c84_ring (solve : (ℝ → ℝ) → ℝ) (g h : GearObj) (dir : V3) (N1 N2 : ℕ) (ρ δ b bias a : ℝ)
    (P : SpurPair g h dir N1 N2 ρ δ) (hr : g.insideTeeth = false) (hr' : h.insideTeeth = true)
    (hbig : 1 / 10 ^ 12 ≤ h.rBase - g.rBase) (hl : g.angleBase ≤ 0) (hl' : h.angleBase ≤ 0)
    (hd : g.rBase * -g.angleBase < h.rBase * -h.angleBase)
    (ha : a = solve (meshResidual g.rBase h.rBase (-g.angleBase) (-h.angleBase) h.pitchAngle true b))
    (hlo : -(π / 2) < a) (hhi : a < π / 2)
    (hroot : meshResidual g.rBase h.rBase (-g.angleBase) (-h.angleBase) h.pitchAngle true b a = 0) :
    ∃ g', g.meshTo solve h dir b bias = some g' ∧ ∀ (φ : ℝ) (k2 : ℤ),
      (∃ (k1 : ℤ) (t1 t2 : ℝ),
        let n := app h.transform.orientation (polarVec (δ - a + π / 2))
        t2 = δ - a - (h.transform.angle + φ + k2 * h.pitchAngle + h.angleBase) ∧
        t1 = δ - a - (g'.transform.angle + φ * g.pitchAngle / h.pitchAngle + k1 * g.pitchAngle + g.angleBase) ∧
        g'.lowerFlank (φ * g.pitchAngle / h.pitchAngle) k1 t1 - h.lowerFlank φ k2 t2 =
          (b / 2 * (1 + bias)) • n ∧
        NormalAt (g'.lowerFlank (φ * g.pitchAngle / h.pitchAngle) k1) t1 n ∧
        NormalAt (h.lowerFlank φ k2) t2 n) ∧
      (∃ (k1 : ℤ) (t1 t2 : ℝ),
        let n := app h.transform.orientation (polarVec (δ + a + π / 2))
        t2 = h.transform.angle + φ + k2 * h.pitchAngle - h.angleBase - (δ + a) ∧
        t1 = g'.transform.angle + φ * g.pitchAngle / h.pitchAngle + k1 * g.pitchAngle - g.angleBase - (δ + a) ∧
        g'.upperFlank (φ * g.pitchAngle / h.pitchAngle) k1 t1 - h.upperFlank φ k2 t2 =
          (-(b / 2 * (1 - bias))) • n ∧
        NormalAt (g'.upperFlank (φ * g.pitchAngle / h.pitchAngle) k1) t1 n ∧
        NormalAt (h.upperFlank φ k2) t2 n) := by
  have hpi := pi_pos
  have hca : 0 < cos a := cos_pos' hlo hhi
  have hb1 := P.base
  have hb2 := P.base'
  obtain ⟨D, hDdef⟩ : ∃ D, D = g.meshDistance solve h b := ⟨_, rfl⟩
  have hD : D = (h.rBase - g.rBase) / cos a := by
    rw [hDdef, GearObj.meshDistance, hr, hr', calcInvoluteMeshDistance]
    simp only [Bool.or_true, if_true, ← ha]
  have hDpos : 0 < D := by
    have : 0 < h.rBase - g.rBase := lt_of_lt_of_le (by norm_num) hbig
    rw [hD]; positivity
  have hDbig : 1 / 10 ^ 12 ≤ D := by
    rw [hD, le_div_iff₀ hca]
    have := cos_le_one a
    nlinarith
  obtain ⟨O, hOdef⟩ : ∃ O, O = h.transform.orientation := ⟨_, rfl⟩
  have hO : IsRot O := by rw [hOdef]; exact P.rot
  have hp2 : h.pitchAngle = 2 * π / N2 := by
    rw [GearObj.pitchAngle, GearToothParam.pitchAngle, P.teeth']
  have hp1 : g.pitchAngle = 2 * π / N1 := by
    rw [GearObj.pitchAngle, GearToothParam.pitchAngle, P.teeth]
  have hN1 : (0 : ℝ) < N1 := by exact_mod_cast P.posN
  have hN2 : (0 : ℝ) < N2 := by exact_mod_cast P.posN'
  have hp1pos : 0 < g.pitchAngle := by rw [hp1]; positivity
  have hp2pos : 0 < h.pitchAngle := by rw [hp2]; positivity
  rw [P.meshTo_eq solve b bias, ← hDdef]
  refine ⟨_, rfl, ?_⟩
  -- phase
  obtain ⟨n, hn⟩ := c30_ring2_whole
    { g.transform with center := D • app h.transform.orientation (polarVec δ) + h.transform.center,
                       orientation := h.transform.orientation }
    h.transform N1 N2 P.posN P.posN' δ δ
    (by
      change 1 / 10 ^ 12 ≤ norm3 (h.transform.center -
        (D • app h.transform.orientation (polarVec δ) + h.transform.center))
      rw [show h.transform.center - (D • app h.transform.orientation (polarVec δ) +
        h.transform.center) = (-D) • app h.transform.orientation (polarVec δ) by module, norm3_smul,
        app_polarVec_unit P.rot, abs_neg, abs_of_pos hDpos, mul_one]
      exact hDbig)
    (by
      change SeenAt h.transform.orientation
        (D • app h.transform.orientation (polarVec δ) + h.transform.center - h.transform.center) δ
      rw [add_sub_cancel_right]
      exact seenAt_polar P.rot hDpos _)
    (by
      change SeenAt h.transform.orientation
        (D • app h.transform.orientation (polarVec δ) + h.transform.center - h.transform.center) δ
      rw [add_sub_cancel_right]
      exact seenAt_polar P.rot hDpos _)
  rw [← hp1, ← hp2] at hn
  obtain ⟨θ, hθ⟩ : ∃ θ, θ = calcMeshAngle { g.transform with
    center := D • app h.transform.orientation (polarVec δ) + h.transform.center,
    orientation := h.transform.orientation } h.transform g.pitchAngle h.pitchAngle false true :=
      ⟨_, rfl⟩
  rw [← hθ] at hn
  obtain ⟨g', hg'⟩ : ∃ g', g' = g.meshToAt h (app h.transform.orientation (polarVec δ)) D
    (bias / 2 * b / g.rBase) := ⟨_, rfl⟩
  have hgo : g'.transform.orientation = O := by rw [hg', hOdef]; rfl
  have hgc : g'.transform.center = D • app O (polarVec δ) + h.transform.center := by
    rw [hg', hOdef]; rfl
  have hga : g'.transform.angle = θ + bias / 2 * b / g.rBase := by
    rw [hg', hθ]; simp only [GearObj.meshToAt, hr, hr']
  have hgr : g'.rBase = g.rBase := by rw [hg']; rfl
  have hgp : g'.pitchAngle = g.pitchAngle := by rw [hg']; rfl
  have hgb : g'.baseAngle = g.angleBase := by rw [hg']; rfl
  rw [← hg']
  -- scalar relations
  have hdiff : (0 : ℝ) < h.rBase - g.rBase := lt_of_lt_of_le (by norm_num) hbig
  have hsg : sgn (h.rBase * -h.angleBase - g.rBase * -g.angleBase) = 1 := by
    rw [sgn, if_neg (by linarith), if_neg (sub_pos.2 hd).ne']
  simp only [meshResidual, if_true, abs_of_nonneg (neg_nonneg.2 hl), abs_of_nonneg (neg_nonneg.2 hl'),
    hsg] at hroot
  have hres : (h.rBase - g.rBase) * (tan a - a) = h.rBase * h.angleBase - g.rBase * g.angleBase +
      b / 2 := by
    have hsum : h.rBase - g.rBase ≠ 0 := hdiff.ne'
    field_simp at hroot
    linarith
  have hphase : g.rBase * (θ - δ) = h.rBase * (h.transform.angle - δ) +
      h.rBase * h.pitchAngle * n := by
    have e1 : g.rBase * (θ - δ) = h.rBase * h.pitchAngle * ((θ - δ) / g.pitchAngle) := by
      rw [← P.basePitch]; field_simp
    have e2 : h.rBase * (h.transform.angle - δ) =
        h.rBase * h.pitchAngle * ((h.transform.angle - δ) / h.pitchAngle) := by field_simp
    rw [e1, e2, ← mul_add, hn]
  have hturn : ∀ φ, g.rBase * (φ * g.pitchAngle / h.pitchAngle) = h.rBase * φ := by
    intro φ
    rw [show g.rBase * (φ * g.pitchAngle / h.pitchAngle) =
      g.rBase * g.pitchAngle * φ / h.pitchAngle by ring, P.basePitch]
    field_simp
  have hbias : g.rBase * (bias / 2 * b / g.rBase) = bias / 2 * b := by field_simp
  have hDe : ∀ s : ℝ, cos s = cos a → D • polarVec δ = (h.rBase - g.rBase) • polarVec (δ + s) -
      ((h.rBase - g.rBase) * (sin s / cos a)) • polarVec (δ + s + π / 2) := by
    intro s hs
    rw [polarVec_shift δ s, hs, hD]
    rw [smul_sub, smul_smul, smul_smul, div_mul_cancel₀ _ hca.ne']
    congr 2
    ring
  intro φ k2
  constructor
  · obtain ⟨k1, hk1⟩ : ∃ k1 : ℤ, k1 = k2 - n := ⟨_, rfl⟩
    obtain ⟨t2, ht2⟩ : ∃ t2, t2 = δ - a -
      (h.transform.angle + φ + k2 * h.pitchAngle + h.angleBase) := ⟨_, rfl⟩
    obtain ⟨t1, ht1⟩ : ∃ t1, t1 = δ - a - (g'.transform.angle +
      φ * g.pitchAngle / h.pitchAngle + k1 * g.pitchAngle + g.angleBase) := ⟨_, rfl⟩
    have hψ2 : δ - a = h.transform.angle + φ + k2 * h.pitchAngle + (t2 + h.baseAngle) := by
      rw [ht2, GearObj.angleBase]; ring
    have hψ1 : δ - a = g'.transform.angle + φ * g.pitchAngle / h.pitchAngle +
        k1 * g'.pitchAngle + (t1 + g'.baseAngle) := by
      rw [ht1, hgp, hgb]; ring
    refine ⟨k1, t1, t2, ht2, ht1, ?_, ?_, ?_⟩
    · have hneg := hDe (-a) (cos_neg a)
      rw [sin_neg, ← sub_eq_add_neg] at hneg
      have hgap : -((h.rBase - g.rBase) * (-sin a / cos a) + (g.rBase * t1 - h.rBase * t2)) =
          b / 2 * (1 + bias) := by
        rw [neg_div, ← tan_eq_sin_div_cos, ht1, ht2, hga, hk1]
        push_cast
        have e3 := P.basePitch
        linear_combination hres + hphase + hbias + hturn φ + (k2 - n) * e3
      rw [lowerFlank_eq g' _ k1 t1 _ hψ1, lowerFlank_eq h φ k2 t2 _ hψ2, hgo, hgc, hgr, ← hOdef,
        ← app_smul _ D, hneg, ← hgap]
      simp only [app_sub, app_smul, app_neg]
      module
    · refine ⟨_, lowerFlank_deriv g' _ k1 t1 _ hψ1, ?_⟩
      rw [hgo, ← hOdef]
      exact normal_polar hO _ _
    · refine ⟨_, lowerFlank_deriv h φ k2 t2 _ hψ2, ?_⟩
      rw [← hOdef]
      exact normal_polar hO _ _
  · obtain ⟨k1, hk1⟩ : ∃ k1 : ℤ, k1 = k2 - n := ⟨_, rfl⟩
    obtain ⟨t2, ht2⟩ : ∃ t2, t2 = h.transform.angle + φ + k2 * h.pitchAngle - h.angleBase -
      (δ + a) := ⟨_, rfl⟩
    obtain ⟨t1, ht1⟩ : ∃ t1, t1 = g'.transform.angle + φ * g.pitchAngle / h.pitchAngle +
      k1 * g.pitchAngle - g.angleBase - (δ + a) := ⟨_, rfl⟩
    have hψ2 : δ + a = h.transform.angle + φ + k2 * h.pitchAngle - (t2 + h.baseAngle) := by
      rw [ht2, GearObj.angleBase]; ring
    have hψ1 : δ + a = g'.transform.angle + φ * g.pitchAngle / h.pitchAngle +
        k1 * g'.pitchAngle - (t1 + g'.baseAngle) := by
      rw [ht1, hgp, hgb]; ring
    refine ⟨k1, t1, t2, ht2, ht1, ?_, ?_, ?_⟩
    · have hgap : -((h.rBase - g.rBase) * (sin a / cos a)) + (g.rBase * t1 - h.rBase * t2) =
          -(b / 2 * (1 - bias)) := by
        rw [← tan_eq_sin_div_cos, ht1, ht2, hga, hk1]
        push_cast
        have e3 := P.basePitch
        linear_combination -hres + hphase + hbias + hturn φ + (k2 - n) * e3
      rw [upperFlank_eq g' _ k1 t1 _ hψ1, upperFlank_eq h φ k2 t2 _ hψ2, hgo, hgc, hgr, ← hOdef,
        ← app_smul _ D, hDe a rfl, ← hgap]
      simp only [app_sub, app_smul, app_neg]
      module
    · refine ⟨_, upperFlank_deriv g' _ k1 t1 _ hψ1, ?_⟩
      rw [hgo, ← hOdef]
      exact normal_polar hO _ _
    · refine ⟨_, upperFlank_deriv h φ k2 t2 _ hψ2, ?_⟩
      rw [← hOdef]
      exact normal_polar hO _ _


/-- Two constructed gears with equal module and pressure angle and whole tooth counts satisfy the
hypotheses of C84, wherever the partner was placed before (any centre, rotation and angle). -/
theorem c84_constructed (p q : InvParam) (t u : ℝ) (hp : p.Good t) (hq : q.Good u) (N1 N2 : ℕ)
    (h1 : p.numTeeth = N1) (h2 : q.numTeeth = N2) (hm : p.module_ = q.module_)
    (ha : p.pressureAngle = q.pressureAngle) (c : V3) (O : M3) (hO : IsRot O) (θ ρ δ : ℝ)
    (hρ : 0 < ρ) :
    SpurPair (p.construct .involute t)
      { q.construct .involute u with transform := ⟨⟨c, O, q.module_⟩, θ⟩ }
      (ρ • app O (polarVec δ)) N1 N2 ρ δ := by
  obtain ⟨g1, -, g3, -, -⟩ := construct_base (k := .involute) hp
  obtain ⟨k1, -, k3, -, -⟩ := construct_base (k := .involute) hq
  have hpN : ¬ p.numTeeth < 0 := not_lt.2 hp.teeth.le
  have hqN : ¬ q.numTeeth < 0 := not_lt.2 hq.teeth.le
  have hN1 := hp.teeth
  have hN2 := hq.teeth
  have hm1 := hp.modulePos
  have hm2 := hq.modulePos
  have hca : 0 < cos p.pressureAngle := cos_pos' (by linarith [hp.alphaPos, pi_pos]) hp.alphaLt
  have hr : GearObj.rBase { q.construct .involute u with transform := ⟨⟨c, O, q.module_⟩, θ⟩ } =
      q.numTeeth / 2 * q.module_ * cos q.pressureAngle := by
    rw [← k1]
    simp [GearObj.rBase, InvParam.construct, InvParam.normalise, if_neg hqN]
  constructor
  · rfl
  · simp [InvParam.construct]
  · simp only [InvParam.construct, InvParam.normalise, if_neg hpN, hp.noCone]
  · simp only [InvParam.construct, InvParam.normalise, if_neg hqN, hq.noCone]
  · simp only [InvParam.construct, InvParam.normalise, if_neg hpN, GearToothParam.make]; exact h1
  · simp only [InvParam.construct, InvParam.normalise, if_neg hqN, GearToothParam.make]; exact h2
  · rw [h1] at hN1; exact_mod_cast hN1
  · rw [h2] at hN2; exact_mod_cast hN2
  · exact hO
  · rw [g1]; positivity
  · rw [hr, ← ha]; positivity
  · rw [hr, g1, g3]
    change _ = _ * (q.construct .involute u).pitchAngle
    rw [k3, hm, ha]
    field_simp
  · exact hρ
  · rfl

/-- Concrete case of the solver hypotheses of C84 (external): base radii 1 and 2, a full tooth at the
base circle of the pinion, backlash 0, working angle 0. -/
example : meshResidual 1 2 (π / 4) 0 (π / 4) false 0 0 = 0 ∧
    SpurPair (sampleGear .involute 4 1 (-(π / 4)) false) (sampleGear .involute 8 2 0 false)
      ![3, 0, 0] 4 8 3 0 := by
  constructor
  · simp only [meshResidual]
    norm_num
    ring
  · constructor <;> (try rfl) <;> (try norm_num [sampleGear, GearObj.rBase, GearObj.pitchAngle,
      GearToothParam.pitchAngle, IsRot.one])
    · decide
    · ring
    · apply V3.ext3 <;> simp [polarVec]

/-- Concrete case for the ring: base radii 1 and 2, base arcs 0 and `2(1 − π/4) + …`; the working
angle is −π/4. -/
example : meshResidual 1 2 0 ((1 - π / 4) / 2) (π / 4) true 0 (-(π / 4)) = 0 := by
  have h : π ≤ 4 := pi_le_four
  simp [meshResidual]
  rw [abs_of_nonneg (by linarith)]
  ring

end Verif
