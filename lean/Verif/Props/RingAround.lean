import Verif.Props.Conjugate
import Verif.Props.Mesh2

/-! # C84: a ring gear meshed around a pinion -/

namespace Verif

open Real

/-- **C84, ring around a pinion.** The ring gear `g` is meshed to the pinion `h`, both turning in the same direction. The
hypotheses are as in `c84_ring` with exchanged roles. -/
theorem c84_around (solve : (ℝ → ℝ) → ℝ) (g h : GearObj) (dir : V3) (N1 N2 : ℕ) (ρ δ b bias a : ℝ)
    (P : SpurPair g h dir N1 N2 ρ δ) (hr : g.insideTeeth = true) (hr' : h.insideTeeth = false)
    (hbig : 1 / 10 ^ 12 ≤ g.rBase - h.rBase) (hl : g.angleBase ≤ 0) (hl' : h.angleBase ≤ 0)
    (hd : h.rBase * -h.angleBase < g.rBase * -g.angleBase)
    (ha : a = solve (meshResidual g.rBase h.rBase (-g.angleBase) (-h.angleBase) h.pitchAngle true b))
    (hlo : -(π / 2) < a) (hhi : a < π / 2)
    (hroot : meshResidual g.rBase h.rBase (-g.angleBase) (-h.angleBase) h.pitchAngle true b a = 0) :
    ∃ g', g.meshTo solve h dir b bias = some g' ∧ ∀ (φ : ℝ) (k2 : ℤ),
      (∃ (k1 : ℤ) (t1 t2 : ℝ),
        let n := app h.transform.orientation (polarVec (δ - a + π / 2))
        t2 = δ - a - (h.transform.angle + φ + k2 * h.pitchAngle + h.angleBase) ∧
        t1 = δ - a - (g'.transform.angle + φ * g.pitchAngle / h.pitchAngle + k1 * g.pitchAngle + g.angleBase) ∧
        g'.lowerFlank (φ * g.pitchAngle / h.pitchAngle) k1 t1 - h.lowerFlank φ k2 t2 =
          (-(b / 2 * (1 - bias))) • n ∧
        NormalAt (g'.lowerFlank (φ * g.pitchAngle / h.pitchAngle) k1) t1 n ∧
        NormalAt (h.lowerFlank φ k2) t2 n) ∧
      (∃ (k1 : ℤ) (t1 t2 : ℝ),
        let n := app h.transform.orientation (polarVec (δ + a + π / 2))
        t2 = h.transform.angle + φ + k2 * h.pitchAngle - h.angleBase - (δ + a) ∧
        t1 = g'.transform.angle + φ * g.pitchAngle / h.pitchAngle + k1 * g.pitchAngle - g.angleBase - (δ + a) ∧
        g'.upperFlank (φ * g.pitchAngle / h.pitchAngle) k1 t1 - h.upperFlank φ k2 t2 =
          (b / 2 * (1 + bias)) • n ∧
        NormalAt (g'.upperFlank (φ * g.pitchAngle / h.pitchAngle) k1) t1 n ∧
        NormalAt (h.upperFlank φ k2) t2 n) := by
  have hpi := pi_pos
  have hca : 0 < cos a := cos_pos' hlo hhi
  have hb1 := P.base
  have hb2 := P.base'
  obtain ⟨D, hDdef⟩ : ∃ D, D = g.meshDistance solve h b := ⟨_, rfl⟩
  have hD : D = (h.rBase - g.rBase) / cos a := by
    rw [hDdef, GearObj.meshDistance, hr, hr', calcInvoluteMeshDistance]
    simp only [Bool.or_false, if_true, ← ha]
  have hDbig : 1 / 10 ^ 12 ≤ -D := by
    rw [hD, ← neg_div, le_div_iff₀ hca]
    have := cos_le_one a
    nlinarith
  have hDpos : 0 < -D := lt_of_lt_of_le (by norm_num) hDbig
  obtain ⟨O, hOdef⟩ : ∃ O, O = h.transform.orientation := ⟨_, rfl⟩
  have hO : IsRot O := by rw [hOdef]; exact P.rot
  have hp2 : h.pitchAngle = 2 * π / N2 := by
    rw [GearObj.pitchAngle, GearToothParam.pitchAngle, P.teeth']
  have hp1 : g.pitchAngle = 2 * π / N1 := by
    rw [GearObj.pitchAngle, GearToothParam.pitchAngle, P.teeth]
  have hN1 : (0 : ℝ) < N1 := by exact_mod_cast P.posN
  have hN2 : (0 : ℝ) < N2 := by exact_mod_cast P.posN'
  have hp1pos : 0 < g.pitchAngle := by rw [hp1]; positivity
  have hp2pos : 0 < h.pitchAngle := by rw [hp2]; positivity
  rw [P.meshTo_eq solve b bias, ← hDdef]
  refine ⟨_, rfl, ?_⟩
  -- phase
  obtain ⟨n, hn⟩ := c30_ring1_whole
    { g.transform with center := D • app h.transform.orientation (polarVec δ) + h.transform.center,
                       orientation := h.transform.orientation }
    h.transform N1 N2 P.posN P.posN' false δ δ
    (by
      change 1 / 10 ^ 12 ≤ norm3 (h.transform.center -
        (D • app h.transform.orientation (polarVec δ) + h.transform.center))
      rw [show h.transform.center - (D • app h.transform.orientation (polarVec δ) +
        h.transform.center) = (-D) • app h.transform.orientation (polarVec δ) by module, norm3_smul,
        app_polarVec_unit P.rot, abs_of_pos hDpos, mul_one]
      exact hDbig)
    (by
      change SeenAt h.transform.orientation (h.transform.center -
        (D • app h.transform.orientation (polarVec δ) + h.transform.center)) δ
      rw [show h.transform.center - (D • app h.transform.orientation (polarVec δ) +
        h.transform.center) = (-D) • app h.transform.orientation (polarVec δ) by module]
      exact seenAt_polar P.rot hDpos _)
    (by
      change SeenAt h.transform.orientation (h.transform.center -
        (D • app h.transform.orientation (polarVec δ) + h.transform.center)) δ
      rw [show h.transform.center - (D • app h.transform.orientation (polarVec δ) +
        h.transform.center) = (-D) • app h.transform.orientation (polarVec δ) by module]
      exact seenAt_polar P.rot hDpos _)
  rw [← hp1, ← hp2] at hn
  obtain ⟨θ, hθ⟩ : ∃ θ, θ = calcMeshAngle { g.transform with
    center := D • app h.transform.orientation (polarVec δ) + h.transform.center,
    orientation := h.transform.orientation } h.transform g.pitchAngle h.pitchAngle true false :=
      ⟨_, rfl⟩
  rw [← hθ] at hn
  obtain ⟨g', hg'⟩ : ∃ g', g' = g.meshToAt h (app h.transform.orientation (polarVec δ)) D
    (bias / 2 * b / g.rBase) := ⟨_, rfl⟩
  have hgo : g'.transform.orientation = O := by rw [hg', hOdef]; rfl
  have hgc : g'.transform.center = D • app O (polarVec δ) + h.transform.center := by
    rw [hg', hOdef]; rfl
  have hga : g'.transform.angle = θ + bias / 2 * b / g.rBase := by
    rw [hg', hθ]; simp only [GearObj.meshToAt, hr, hr']
  have hgr : g'.rBase = g.rBase := by rw [hg']; rfl
  have hgp : g'.pitchAngle = g.pitchAngle := by rw [hg']; rfl
  have hgb : g'.baseAngle = g.angleBase := by rw [hg']; rfl
  rw [← hg']
  -- scalar relations
  have hdiff : (0 : ℝ) < g.rBase - h.rBase := lt_of_lt_of_le (by norm_num) hbig
  have hsg : sgn (h.rBase * -h.angleBase - g.rBase * -g.angleBase) = -1 := by
    rw [sgn, if_pos (by linarith)]
  simp only [meshResidual, if_true, abs_of_nonneg (neg_nonneg.2 hl), abs_of_nonneg (neg_nonneg.2 hl'),
    hsg] at hroot
  have hres : (g.rBase - h.rBase) * (tan a - a) = g.rBase * g.angleBase - h.rBase * h.angleBase +
      b / 2 := by
    have hsum : h.rBase - g.rBase ≠ 0 := by linarith
    field_simp at hroot
    linarith
  have hphase : g.rBase * (θ - δ) = h.rBase * (h.transform.angle - δ) +
      h.rBase * h.pitchAngle * n := by
    have e1 : g.rBase * (θ - δ) = h.rBase * h.pitchAngle * ((θ - δ) / g.pitchAngle) := by
      rw [← P.basePitch]; field_simp
    have e2 : h.rBase * (h.transform.angle - δ) =
        h.rBase * h.pitchAngle * ((h.transform.angle - δ) / h.pitchAngle) := by field_simp
    rw [e1, e2, ← mul_add, hn]
  have hturn : ∀ φ, g.rBase * (φ * g.pitchAngle / h.pitchAngle) = h.rBase * φ := by
    intro φ
    rw [show g.rBase * (φ * g.pitchAngle / h.pitchAngle) =
      g.rBase * g.pitchAngle * φ / h.pitchAngle by ring, P.basePitch]
    field_simp
  have hbias : g.rBase * (bias / 2 * b / g.rBase) = bias / 2 * b := by field_simp
  have hDe : ∀ s : ℝ, cos s = cos a → D • polarVec δ = (h.rBase - g.rBase) • polarVec (δ + s) -
      ((h.rBase - g.rBase) * (sin s / cos a)) • polarVec (δ + s + π / 2) := by
    intro s hs
    rw [polarVec_shift δ s, hs, hD]
    rw [smul_sub, smul_smul, smul_smul, div_mul_cancel₀ _ hca.ne']
    congr 2
    ring
  intro φ k2
  constructor
  · obtain ⟨k1, hk1⟩ : ∃ k1 : ℤ, k1 = k2 - n := ⟨_, rfl⟩
    obtain ⟨t2, ht2⟩ : ∃ t2, t2 = δ - a -
      (h.transform.angle + φ + k2 * h.pitchAngle + h.angleBase) := ⟨_, rfl⟩
    obtain ⟨t1, ht1⟩ : ∃ t1, t1 = δ - a - (g'.transform.angle +
      φ * g.pitchAngle / h.pitchAngle + k1 * g.pitchAngle + g.angleBase) := ⟨_, rfl⟩
    have hψ2 : δ - a = h.transform.angle + φ + k2 * h.pitchAngle + (t2 + h.baseAngle) := by
      rw [ht2, GearObj.angleBase]; ring
    have hψ1 : δ - a = g'.transform.angle + φ * g.pitchAngle / h.pitchAngle +
        k1 * g'.pitchAngle + (t1 + g'.baseAngle) := by
      rw [ht1, hgp, hgb]; ring
    refine ⟨k1, t1, t2, ht2, ht1, ?_, ?_, ?_⟩
    · have hneg := hDe (-a) (cos_neg a)
      rw [sin_neg, ← sub_eq_add_neg] at hneg
      have hgap : -((h.rBase - g.rBase) * (-sin a / cos a) + (g.rBase * t1 - h.rBase * t2)) =
          -(b / 2 * (1 - bias)) := by
        rw [neg_div, ← tan_eq_sin_div_cos, ht1, ht2, hga, hk1]
        push_cast
        have e3 := P.basePitch
        linear_combination -hres + hphase + hbias + hturn φ + (k2 - n) * e3
      rw [lowerFlank_eq g' _ k1 t1 _ hψ1, lowerFlank_eq h φ k2 t2 _ hψ2, hgo, hgc, hgr, ← hOdef,
        ← app_smul _ D, hneg, ← hgap]
      simp only [app_sub, app_smul, app_neg]
      module
    · refine ⟨_, lowerFlank_deriv g' _ k1 t1 _ hψ1, ?_⟩
      rw [hgo, ← hOdef]
      exact normal_polar hO _ _
    · refine ⟨_, lowerFlank_deriv h φ k2 t2 _ hψ2, ?_⟩
      rw [← hOdef]
      exact normal_polar hO _ _
  · obtain ⟨k1, hk1⟩ : ∃ k1 : ℤ, k1 = k2 - n := ⟨_, rfl⟩
    obtain ⟨t2, ht2⟩ : ∃ t2, t2 = h.transform.angle + φ + k2 * h.pitchAngle - h.angleBase -
      (δ + a) := ⟨_, rfl⟩
    obtain ⟨t1, ht1⟩ : ∃ t1, t1 = g'.transform.angle + φ * g.pitchAngle / h.pitchAngle +
      k1 * g.pitchAngle - g.angleBase - (δ + a) := ⟨_, rfl⟩
    have hψ2 : δ + a = h.transform.angle + φ + k2 * h.pitchAngle - (t2 + h.baseAngle) := by
      rw [ht2, GearObj.angleBase]; ring
    have hψ1 : δ + a = g'.transform.angle + φ * g.pitchAngle / h.pitchAngle +
        k1 * g'.pitchAngle - (t1 + g'.baseAngle) := by
      rw [ht1, hgp, hgb]; ring
    refine ⟨k1, t1, t2, ht2, ht1, ?_, ?_, ?_⟩
    · have hgap : -((h.rBase - g.rBase) * (sin a / cos a)) + (g.rBase * t1 - h.rBase * t2) =
          b / 2 * (1 + bias) := by
        rw [← tan_eq_sin_div_cos, ht1, ht2, hga, hk1]
        push_cast
        have e3 := P.basePitch
        linear_combination hres + hphase + hbias + hturn φ + (k2 - n) * e3
      rw [upperFlank_eq g' _ k1 t1 _ hψ1, upperFlank_eq h φ k2 t2 _ hψ2, hgo, hgc, hgr, ← hOdef,
        ← app_smul _ D, hDe a rfl, ← hgap]
      simp only [app_sub, app_smul, app_neg]
      module
    · refine ⟨_, upperFlank_deriv g' _ k1 t1 _ hψ1, ?_⟩
      rw [hgo, ← hOdef]
      exact normal_polar hO _ _
    · refine ⟨_, upperFlank_deriv h φ k2 t2 _ hψ2, ?_⟩
      rw [← hOdef]
      exact normal_polar hO _ _

end Verif
