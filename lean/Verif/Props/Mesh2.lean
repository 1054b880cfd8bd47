import Verif.Props.Bevel
import Verif.Props.MeshAngle
import Verif.Props.Conjugate

/-! # Properties C91, C92 and C93: tooth thickness and the placement of bevel gears -/

namespace Verif

open Real
open scoped Matrix

/-! ### C91 -/

/-- **C91.** On the pitch circle, the flanks of every tooth of a cylindrical gear without crowning are
`module·(π/2 + 2·shift·tan α − 2·backlash)` apart, half of it on either side of the middle of the tooth. -/
theorem c91_thickness (k : GearKind) (p : InvParam) (t : ℝ) (hp : p.Good t) (hc : p.crowning = 0) (i : ℤ) :
    ∃ θ, (p.construct k t).pitchRadius * (2 * θ) =
        p.module_ * (π / 2 + 2 * p.profileShift * tan p.pressureAngle - 2 * p.backlash) ∧
      (p.construct k t).lowerFlank 0 i t = p.center + (p.construct k t).pitchRadius •
        polarVec (p.angle + i * (2 * π / p.numTeeth) - θ) ∧
      (p.construct k t).upperFlank 0 i t = p.center + (p.construct k t).pitchRadius •
        polarVec (p.angle + i * (2 * π / p.numTeeth) + θ) := by
  have hN := hp.teeth
  have hnorm : p.normalise = p := by rw [InvParam.normalise, if_neg (not_lt.2 hN.le)]
  have htooth : (p.construct k t).tooth = ⟨p.numTeeth, 0, p.insideTeeth⟩ := by
    simp only [InvParam.construct, hnorm, GearToothParam.make]; rw [if_neg (not_lt.2 hN.le)]
  have hrp : (p.construct k t).pitchRadius = p.module_ * (p.numTeeth / 2) := by
    rw [GearObj.pitchRadius, htooth]; simp only [InvParam.construct, hnorm]; ring
  have hpa : (p.construct k t).pitchAngle = 2 * π / p.numTeeth := by
    rw [GearObj.pitchAngle, GearToothParam.pitchAngle, htooth]
  obtain ⟨h1, h2, -⟩ := c24_pitch_crossing (p.pitchIntersectAngle 0) (p.numTeeth / 2) p.pressureAngle t
    (by linarith) hp.alphaPos hp.alphaLt hp.invLe hp.solver.1 hp.solver.2
  have hpt : involuteCircle t (p.construct k t).baseRadius1 (p.construct k t).baseAngle 0 0 =
      (p.numTeeth / 2) • polarVec (-p.pitchIntersectAngle 0) := by
    simp only [InvParam.construct, hnorm]
    rw [h2]
    apply V3.ext3 <;> simp [Spec.circlePoint, polarVec]
  have hmir : mulV ((p.numTeeth / 2) • polarVec (-p.pitchIntersectAngle 0)) ![1, -1, 1] =
      (p.numTeeth / 2) • polarVec (p.pitchIntersectAngle 0) := by
    apply V3.ext3 <;> simp [mulV, polarVec]
  refine ⟨p.pitchIntersectAngle 0, ?_, ?_, ?_⟩
  · rw [hrp, InvParam.pitchIntersectAngle, hc]; field_simp; ring
  · rw [GearObj.lowerFlank, applyGearTransform_eq, hpt, hrp, hpa]
    simp only [InvParam.construct, hnorm, app_one, app_smul, Rz_polarVec]
    rw [add_zero, ← sub_eq_add_neg, smul_smul, add_comm]
  · rw [GearObj.upperFlank, applyGearTransform_eq, hpt, hmir, hrp, hpa]
    simp only [InvParam.construct, hnorm, app_one, app_smul, Rz_polarVec]
    rw [add_zero, smul_smul, add_comm]

/-! ### C92 -/

/-- **C30 for whole tooth numbers, gear 1 is the ring.** -/
theorem c30_ring1_whole (g1 g2 : GearTransform) (N1 N2 : ℕ) (hN1 : 0 < N1) (hN2 : 0 < N2) (ring2 : Bool)
    (δ1 δ2 : ℝ) (hd : 1 / 10 ^ 12 ≤ norm3 (g2.center - g1.center))
    (h1 : SeenAt g1.orientation (g2.center - g1.center) δ1)
    (h2 : SeenAt g2.orientation (g2.center - g1.center) δ2) :
    CongrOne ((calcMeshAngle g1 g2 (2 * π / N1) (2 * π / N2) true ring2 - δ1) / (2 * π / N1))
      ((g2.angle - δ2) / (2 * π / N2)) := by
  obtain ⟨k1, e1⟩ := (h1.smul (inv_norm_pos hd)).angle_mod
  obtain ⟨k2, e2⟩ := (h2.smul (inv_norm_pos hd)).angle_mod
  simp only [calcMeshAngle, contactData, centerDiffDir_eq hd, if_true, e1, e2]
  have hp1 : 2 * π / (N1 : ℝ) ≠ 0 := by have := pi_pos; positivity
  obtain ⟨n, hn⟩ := mesh_phase 1 0 ((g2.angle - (δ2 + k2 * (2 * π))) / (2 * π / N2))
    (δ1 + k1 * (2 * π)) (2 * π / N1) hp1 (Or.inl rfl)
  rw [phase_turn hN1, phase_turn hN2] at hn
  refine ⟨n + k1 * N1 - k2 * N2, ?_⟩
  rw [phase_turn hN2]
  push_cast at hn ⊢
  linarith

/-- Moving a direction along the axis does not change the angle at which it is seen. -/
theorem SeenAt.axial {M : M3} (hM : IsRot M) {v w : V3} {k j δ : ℝ} (hk : 0 < k)
    (h : v = k • w + j • app M OUT) (hw : SeenAt M w δ) : SeenAt M v δ := by
  obtain ⟨ρ, hρ, h1, h2⟩ := hw
  have horth := hM.orth
  have o0 : M 0 2 * M 0 0 + M 1 2 * M 1 0 + M 2 2 * M 2 0 = 0 := by
    have := congrFun (congrFun horth 2) 0
    simpa [Matrix.mul_apply, Fin.sum_univ_three] using this
  have o1 : M 0 2 * M 0 1 + M 1 2 * M 1 1 + M 2 2 * M 2 1 = 0 := by
    have := congrFun (congrFun horth 2) 1
    simpa [Matrix.mul_apply, Fin.sum_univ_three] using this
  refine ⟨k * ρ, by positivity, ?_, ?_⟩
  · rw [h, app_OUT]; simp only [Pi.add_apply, Pi.smul_apply, smul_eq_mul]
    linear_combination k * h1 + j * o0
  · rw [h, app_OUT]; simp only [Pi.add_apply, Pi.smul_apply, smul_eq_mul]
    linear_combination k * h2 + j * o1

/-- The common generator of two cones lies in the plane of the two axes. -/
theorem generator_coplanar {e z w : V3} {φ a b : ℝ} (hz : dot z z = 1) (hw : dot w w = 1)
    (hwz : dot w z = cos φ) (he : dot e e = 1) (hew : dot e w = -cos a) (hez : dot e z = -cos b)
    (hab : cos (b - φ) = cos a) : sin φ • e = sin (b - φ) • z - sin b • w := by
  apply sub_eq_zero.1
  apply dot_self_eq_zero.1
  have hzw : dot z w = cos φ := by rw [dot_comm, hwz]
  have h1 : cos a = cos b * cos φ + sin b * sin φ := by rw [← hab, cos_sub]
  have h2 := sin_sub b φ
  simp only [dot_sub_left, dot_sub_right, dot_smul_left, dot_smul_right, hz, hw, hwz, hzw, he, hew, hez,
    dot_comm w e, dot_comm z e, h1, h2]
  have s1 := sin_sq_add_cos_sq φ
  have s2 := sin_sq_add_cos_sq b
  linear_combination -sin b ^ 2 * s1 - sin φ ^ 2 * s2

/-- What meshing bevel gears does, in the form used below. -/
theorem meshTo_bevel {solve : (ℝ → ℝ) → ℝ} {g h g' : GearObj} {dir : V3} {b bias : ℝ}
    (hk : g.kind = .involute) (hg : g.BevelOk) (hm : g.meshTo solve h dir b bias = some g') :
    g'.tooth = g.tooth ∧ g'.coneAngle = g.coneAngle ∧ g'.module_ = g.module_ ∧
      g'.transform.scale = g.transform.scale ∧ g'.transform.angle = calcMeshAngle g'.transform h.transform g.pitchAngle h.pitchAngle
        g.insideTeeth h.insideTeeth := by
  have hcg : g.coneAngle ≠ 0 := by have := hg.gammaPos; intro h0; rw [h0] at this; simp at this
  simp only [GearObj.meshTo, hk, GearObj.meshToInvolute] at hm
  split at hm
  · cases hm
  · rw [if_pos (Or.inl hcg), GearObj.meshToBevel] at hm
    split at hm
    · cases hm
    · split at hm
      · cases hm
      · have := Option.some.inj hm
        rw [← this]
        exact ⟨rfl, rfl, rfl, rfl, rfl⟩

/-- Where the two gears see each other, in terms of the common generator. -/
theorem bevel_seen {g h : GearObj} {e : V3} {φ : ℝ} (hg : g.BevelOk) (hh : h.BevelOk)
    (hap : pitchApex g = pitchApex h) (hax : dot g.transform.zAxis h.transform.zAxis = cos φ)
    (hab : cos (h.coneAngle / 2 - φ) = cos (g.coneAngle / 2)) (he : IsGenerator g e) (he' : IsGenerator h e)
    {δ1 δ2 : ℝ} (s1 : SeenAt g.transform.orientation e δ1) (s2 : SeenAt h.transform.orientation e δ2) :
    (0 < sin φ → sin (h.coneAngle / 2 - φ) < 0 →
      SeenAt g.transform.orientation (h.transform.center - g.transform.center) δ1) ∧
    (0 < sin φ → 0 < sin (h.coneAngle / 2 - φ) →
      SeenAt g.transform.orientation (g.transform.center - h.transform.center) δ1) ∧
    (0 < sin φ → SeenAt h.transform.orientation (g.transform.center - h.transform.center) δ2) ∧
    (sin φ < 0 → 0 < sin (h.coneAngle / 2 - φ) →
      SeenAt g.transform.orientation (h.transform.center - g.transform.center) δ1) ∧
    (sin φ < 0 → SeenAt h.transform.orientation (h.transform.center - g.transform.center) δ2) := by
  obtain ⟨z, hz⟩ : ∃ z, z = h.transform.zAxis := ⟨_, rfl⟩
  obtain ⟨w, hw⟩ : ∃ w, w = g.transform.zAxis := ⟨_, rfl⟩
  obtain ⟨G, hG⟩ : ∃ G, G = g.pitchRadius / tan (g.coneAngle / 2) := ⟨_, rfl⟩
  obtain ⟨H, hH⟩ : ∃ H, H = h.pitchRadius / tan (h.coneAngle / 2) := ⟨_, rfl⟩
  have hGp : 0 < G := by
    rw [hG]; exact div_pos hg.radius_pos (tan_pos_of_pos_of_lt_pi_div_two hg.gammaPos hg.gammaLt)
  have hHp : 0 < H := by
    rw [hH]; exact div_pos hh.radius_pos (tan_pos_of_pos_of_lt_pi_div_two hh.gammaPos hh.gammaLt)
  have hd : h.transform.center - g.transform.center = G • w - H • z := by
    rw [pitchApex, pitchApex, ← hz, ← hw, ← hG, ← hH] at hap
    rw [sub_eq_sub_iff_add_eq_add, add_comm _ g.transform.center, hap]
  have hd' : g.transform.center - h.transform.center = H • z - G • w := by
    rw [← neg_sub, hd, neg_sub]
  have hzz : dot z z = 1 := by rw [hz]; exact zAxis_unit hh.sound.rot
  have hww : dot w w = 1 := by rw [hw]; exact zAxis_unit hg.sound.rot
  have hew : dot e w = -cos (g.coneAngle / 2) := by
    have := he.2; rw [dot_neg_right, ← hw] at this; linarith
  have hez : dot e z = -cos (h.coneAngle / 2) := by
    have := he'.2; rw [dot_neg_right, ← hz] at this; linarith
  rw [← hz, ← hw] at hax
  have hco := generator_coplanar hzz hww hax he.1 hew hez hab
  have hsb := hh.sin_pos
  obtain ⟨S, hS⟩ : ∃ S, S = sin (h.coneAngle / 2 - φ) := ⟨_, rfl⟩
  rw [← hS] at hco ⊢
  have hzS : S ≠ 0 → z = (sin φ / S) • e + (sin (h.coneAngle / 2) / S) • w := by
    intro h0
    rw [div_eq_inv_mul (sin φ), mul_smul, hco, div_eq_inv_mul (sin (h.coneAngle / 2)) S, mul_smul, ← smul_add,
      sub_add_cancel, smul_smul, inv_mul_cancel₀ h0, one_smul]
  have hwS : w = -(sin φ / sin (h.coneAngle / 2)) • e + (S / sin (h.coneAngle / 2)) • z := by
    have : sin (h.coneAngle / 2) • w = S • z - sin φ • e := by rw [hco]; abel
    have h2 := congrArg (fun v => (sin (h.coneAngle / 2))⁻¹ • v) this
    simp only [smul_smul, inv_mul_cancel₀ hsb.ne', one_smul] at h2
    rw [h2, smul_sub, smul_smul, smul_smul, div_eq_inv_mul (sin φ), div_eq_inv_mul S]
    module
  have hwO : w = app g.transform.orientation OUT := by rw [hw, zAxis_eq]
  have hzO : z = app h.transform.orientation OUT := by rw [hz, zAxis_eq]
  refine ⟨fun h1 h2 => ?_, fun h1 h2 => ?_, fun h1 => ?_, fun h1 h2 => ?_, fun h1 => ?_⟩
  · refine SeenAt.axial hg.sound.rot (k := H * (sin φ / -S)) (j := G - H * (sin (h.coneAngle / 2) / S))
      (mul_pos hHp (div_pos h1 (by linarith))) ?_ s1
    rw [hd, ← hwO]
    conv_lhs => rw [hzS h2.ne]
    rw [div_neg]
    module
  · refine SeenAt.axial hg.sound.rot (k := H * (sin φ / S)) (j := H * (sin (h.coneAngle / 2) / S) - G)
      (mul_pos hHp (div_pos h1 h2)) ?_ s1
    rw [hd', ← hwO]
    conv_lhs => rw [hzS h2.ne']
    module
  · refine SeenAt.axial hh.sound.rot (k := G * (sin φ / sin (h.coneAngle / 2)))
      (j := H - G * (S / sin (h.coneAngle / 2))) (mul_pos hGp (div_pos h1 hsb)) ?_ s2
    rw [hd', ← hzO]
    conv_lhs => rw [hwS]
    module
  · refine SeenAt.axial hg.sound.rot (k := H * (-sin φ / S)) (j := G - H * (sin (h.coneAngle / 2) / S))
      (mul_pos hHp (div_pos (by linarith) h2)) ?_ s1
    rw [hd, ← hwO]
    conv_lhs => rw [hzS h2.ne']
    rw [neg_div]
    module
  · refine SeenAt.axial hh.sound.rot (k := G * (-sin φ / sin (h.coneAngle / 2)))
      (j := G * (S / sin (h.coneAngle / 2)) - H) (mul_pos hGp (div_pos (by linarith) hsb)) ?_ s2
    rw [hd, ← hzO]
    conv_lhs => rw [hwS]
    rw [neg_div]
    module

theorem meshTo_bevelOk {solve : (ℝ → ℝ) → ℝ} {g h g' : GearObj} {dir : V3} {b bias : ℝ}
    (hk : g.kind = .involute) (hg : g.BevelOk) (hh : h.BevelOk) (hm : g.meshTo solve h dir b bias = some g') :
    g'.BevelOk := by
  obtain ⟨f1, f2, f3, f4, -⟩ := meshTo_bevel hk hg hm
  exact ⟨⟨meshTo_rot hh.sound.rot hm, by rw [f4, f3]; exact hg.sound.scale⟩, by rw [f3]; exact hg.modulePos,
    by rw [f1]; exact hg.teeth, by rw [f2]; exact hg.gammaPos, by rw [f2]; exact hg.gammaLt⟩

/-- **C92, external pair.** Two bevel gears with whole tooth counts: at the common generator of the pitch cones
a tooth of one gear faces a gap of the other one. The phase of a gear in a direction is the distance, in
pitches, from that direction to the middle of a tooth. -/
theorem c92_external (solve : (ℝ → ℝ) → ℝ) (g h g' : GearObj) (dir : V3) (b bias : ℝ) (N1 N2 : ℕ)
    (hk : g.kind = .involute) (hg : g.BevelOk) (hh : h.BevelOk)
    (hN1 : g.tooth.numTeeth = N1) (hN2 : h.tooth.numTeeth = N2)
    (hr : g.insideInput = false) (hr' : h.insideInput = false)
    (ht : g.insideTeeth = false) (ht' : h.insideTeeth = false) (hdir : dir ≠ 0)
    (hproj : norm3 dir / 10 ^ 12 ≤ norm3 (dir - dot dir h.transform.zAxis • h.transform.zAxis))
    (hm : g.meshTo solve h dir b bias = some g')
    (hdist : 1 / 10 ^ 12 ≤ norm3 (h.transform.center - g'.transform.center))
    (e : V3) (he : IsGenerator g' e) (he' : IsGenerator h e) (δ1 δ2 : ℝ)
    (s1 : SeenAt g'.transform.orientation e δ1) (s2 : SeenAt h.transform.orientation e δ2) :
    CongrOne ((g'.transform.angle - δ1) / (2 * π / N1) + (h.transform.angle - δ2) / (2 * π / N2)) (1 / 2) := by
  obtain ⟨g'', e1, e2, e3, -⟩ := c32_bevel solve g h dir b bias hk hg hh hr hr' hdir hproj
  rw [hm] at e1
  cases Option.some.inj e1
  obtain ⟨f1, f2, f3, -, f4⟩ := meshTo_bevel hk hg hm
  have hg' := meshTo_bevelOk hk hg hh hm
  have h1 := hg.gammaPos
  have h2 := hh.gammaPos
  have h3 := hg.gammaLt
  have h4 := hh.gammaLt
  rw [← f2] at e3
  obtain ⟨q1, -, q2, -⟩ := bevel_seen hg' hh e2 e3 (by rw [show h.coneAngle / 2 -
    (g'.coneAngle / 2 + h.coneAngle / 2) = -(g'.coneAngle / 2) by ring, cos_neg]) he he' s1 s2
  have hs : 0 < sin (g'.coneAngle / 2 + h.coneAngle / 2) :=
    sin_pos_of_pos_of_lt_pi (by rw [f2]; linarith) (by rw [f2]; linarith)
  have hpos1 : 0 < N1 := by have := hg.teeth; rw [hN1] at this; exact_mod_cast this
  have hpos2 : 0 < N2 := by have := hh.teeth; rw [hN2] at this; exact_mod_cast this
  have := c30_external_whole g'.transform h.transform N1 N2 hpos1 hpos2 δ1 δ2 hdist
    (q1 hs (by
      rw [show h.coneAngle / 2 - (g'.coneAngle / 2 + h.coneAngle / 2) = -(g'.coneAngle / 2) by ring, sin_neg]
      linarith [hg'.sin_pos])) (q2 hs)
  rw [f4, GearObj.pitchAngle, GearObj.pitchAngle, GearToothParam.pitchAngle, GearToothParam.pitchAngle, hN1, hN2,
    ht, ht']
  exact this

/-- Every generator is seen at some polar angle. -/
theorem IsGenerator.seen {g : GearObj} (hg : g.BevelOk) {e : V3} (he : IsGenerator g e) :
    ∃ δ, SeenAt g.transform.orientation e δ := by
  obtain ⟨M, hMM⟩ : ∃ M, M = g.transform.orientation := ⟨_, rfl⟩
  have hM : IsRot M := hMM ▸ hg.sound.rot
  obtain ⟨h1, h2⟩ := he
  have h3 := hg.sin_pos
  rw [zAxis_eq, ← hMM] at h2
  obtain ⟨v, hv⟩ : ∃ v, v = app Mᵀ e := ⟨_, rfl⟩
  have h4 : dot v v = 1 := by rw [hv, hM.transpose.dot_app, h1]
  have h5 : v 2 = -cos (g.coneAngle / 2) := by
    rw [← h2, hv]; simp [dot, app_0, app_1, app_2, OUT]; ring
  have h6 : v 0 ^ 2 + v 1 ^ 2 = sin (g.coneAngle / 2) ^ 2 := by
    have := sin_sq_add_cos_sq (g.coneAngle / 2)
    rw [dot, h5] at h4
    linarith
  have h7 : √(v 0 ^ 2 + v 1 ^ 2) = sin (g.coneAngle / 2) := by rw [h6, sqrt_sq h3.le]
  refine ⟨arctan2 (v 1) (v 0), sin (g.coneAngle / 2), h3, ?_, ?_⟩
  · rw [← hMM, ← h7, polar_cos, hv]; simp [app_0]; ring
  · rw [← hMM, ← h7, polar_sin, hv]; simp [app_1]; ring

/-- A concrete case: two equal bevel gears of 45 degrees with 20 teeth. -/
example : let g : GearObj := { sampleGear .involute 20 0 0 false with coneAngle := π / 2 }
    g.tooth.numTeeth = (20 : ℕ) ∧ g.insideTeeth = false ∧ ∃ g', g.meshTo (fun _ => 0) g RIGHT 0 0 = some g' ∧
      1 / 10 ^ 12 ≤ norm3 (g.transform.center - g'.transform.center) ∧
      ∃ e δ1 δ2, IsGenerator g' e ∧ IsGenerator g e ∧ SeenAt g'.transform.orientation e δ1 ∧
        SeenAt g.transform.orientation e δ2 := by
  intro g
  have hpi := pi_pos
  have hg : g.BevelOk := by
    refine ⟨⟨IsRot.one, rfl⟩, by norm_num [g, sampleGear], by norm_num [g, sampleGear], ?_, ?_⟩
    · change 0 < π / 2 / 2; positivity
    · change π / 2 / 2 < π / 2; linarith
  have h1 : dot RIGHT g.transform.zAxis = 0 := by
    simp [g, sampleGear, TransformData.zAxis, dot, RIGHT]
  have h2 : norm3 RIGHT = 1 := norm3_eq_of_dot (by norm_num) (by simp [dot, RIGHT])
  obtain ⟨g', e1, e2, e3, e, e4, e5, -⟩ := c32_bevel (fun _ => 0) g g RIGHT 0 0 rfl hg hg rfl rfl
    (by intro h; have := congrFun h 0; simp [RIGHT] at this) (by rw [h1, zero_smul, sub_zero, h2]; norm_num)
  have hg' := meshTo_bevelOk rfl hg hg e1
  obtain ⟨f1, f2, f3, -⟩ := meshTo_bevel rfl hg e1
  obtain ⟨δ1, d1⟩ := e4.seen hg'
  obtain ⟨δ2, d2⟩ := e5.seen hg
  refine ⟨by norm_num [g, sampleGear], rfl, g', e1, ?_, e, δ1, δ2, e4, e5, d1, d2⟩
  have hc : g.coneAngle / 2 = π / 4 := by change π / 2 / 2 = π / 4; ring
  have hr : g.pitchRadius = 10 := by norm_num [g, sampleGear, GearObj.pitchRadius]
  have hr' : g'.pitchRadius = 10 := by rw [← hr, GearObj.pitchRadius, GearObj.pitchRadius, f1, f3]
  rw [hc, show π / 4 + π / 4 = π / 2 by ring, cos_pi_div_two] at e3
  have e6 : g.transform.center - g'.transform.center = (10 : ℝ) • g'.transform.zAxis - (10 : ℝ) • g.transform.zAxis := by
    have := e2
    rw [pitchApex, pitchApex, f2, hc, hr, hr', tan_pi_div_four, div_one] at this
    rw [sub_eq_sub_iff_add_eq_add, ← this]; abel
  rw [e6, norm3_eq_of_dot (r := 10 * √2) (by positivity) (by
    simp only [dot_sub_left, dot_sub_right, dot_smul_left, dot_smul_right, zAxis_unit hg.sound.rot,
      zAxis_unit hg'.sound.rot, e3, dot_comm g.transform.zAxis]
    rw [mul_pow, sq_sqrt (by norm_num)]; norm_num)]
  have : 1 ≤ √(2 : ℝ) := by rw [Real.one_le_sqrt]; norm_num
  norm_num; linarith

/-- **C92, a pinion in a bevel ring.** The phases at the common generator agree: a tooth of the pinion lies in a
gap of the ring, whose outline has the same shape. -/
theorem c92_ring (solve : (ℝ → ℝ) → ℝ) (g h g' : GearObj) (dir : V3) (b bias : ℝ) (N1 N2 : ℕ)
    (hk : g.kind = .involute) (hg : g.BevelOk) (hh : h.BevelOk)
    (hN1 : g.tooth.numTeeth = N1) (hN2 : h.tooth.numTeeth = N2) (hr' : h.insideInput = true)
    (ht : g.insideTeeth = false) (ht' : h.insideTeeth = true) (hlt : g.coneAngle < h.coneAngle) (hdir : dir ≠ 0)
    (hproj : norm3 dir / 10 ^ 12 ≤ norm3 (dir - dot dir h.transform.zAxis • h.transform.zAxis))
    (hm : g.meshTo solve h dir b bias = some g')
    (hdist : 1 / 10 ^ 12 ≤ norm3 (h.transform.center - g'.transform.center))
    (e : V3) (he : IsGenerator g' e) (he' : IsGenerator h e) (δ1 δ2 : ℝ)
    (s1 : SeenAt g'.transform.orientation e δ1) (s2 : SeenAt h.transform.orientation e δ2) :
    CongrOne ((g'.transform.angle - δ1) / (2 * π / N1)) ((h.transform.angle - δ2) / (2 * π / N2)) := by
  obtain ⟨g'', e1, e2, e3, -⟩ := c32_bevel_ring solve g h dir b bias hk hg hh hr' hlt hdir hproj
  rw [hm] at e1
  cases Option.some.inj e1
  obtain ⟨f1, f2, f3, -, f4⟩ := meshTo_bevel hk hg hm
  have hg' := meshTo_bevelOk hk hg hh hm
  have h1 := hg.gammaPos
  have h4 := hh.gammaLt
  rw [← f2] at e3
  have hgam : h.coneAngle / 2 - (h.coneAngle / 2 - g'.coneAngle / 2) = g'.coneAngle / 2 := by ring
  obtain ⟨-, q1, q2, -⟩ := bevel_seen hg' hh e2 e3 (by rw [hgam]) he he' s1 s2
  have hs : 0 < sin (h.coneAngle / 2 - g'.coneAngle / 2) :=
    sin_pos_of_pos_of_lt_pi (by rw [f2]; linarith) (by rw [f2]; linarith)
  have hpos1 : 0 < N1 := by have := hg.teeth; rw [hN1] at this; exact_mod_cast this
  have hpos2 : 0 < N2 := by have := hh.teeth; rw [hN2] at this; exact_mod_cast this
  have := c30_ring2_whole g'.transform h.transform N1 N2 hpos1 hpos2 δ1 δ2 hdist
    (q1 hs (by rw [hgam]; exact hg'.sin_pos)) (q2 hs)
  rw [f4, GearObj.pitchAngle, GearObj.pitchAngle, GearToothParam.pitchAngle, GearToothParam.pitchAngle, hN1, hN2,
    ht, ht']
  exact this

/-- **C32, a bevel ring placed around a pinion**: common apex, axes at the difference of the cone angles and
exactly one common generator, on the side of the target direction. -/
theorem c32_bevel_around (solve : (ℝ → ℝ) → ℝ) (g h : GearObj) (dir : V3) (b bias : ℝ)
    (hk : g.kind = .involute) (hg : g.BevelOk) (hh : h.BevelOk)
    (hr : g.insideInput = true) (hr' : h.insideInput = false) (hlt : h.coneAngle < g.coneAngle) (hdir : dir ≠ 0)
    (hproj : norm3 dir / 10 ^ 12 ≤ norm3 (dir - dot dir h.transform.zAxis • h.transform.zAxis)) :
    ∃ g', g.meshTo solve h dir b bias = some g' ∧ pitchApex g' = pitchApex h ∧
      dot g'.transform.zAxis h.transform.zAxis = cos (h.coneAngle / 2 - g.coneAngle / 2) ∧
      ∃ e, IsGenerator g' e ∧ IsGenerator h e ∧
        0 < dot e (dir - dot dir h.transform.zAxis • h.transform.zAxis) ∧
        (∀ e', IsGenerator g' e' → IsGenerator h e' → e' = e) := by
  have hn := norm3_pos hdir
  have hproj' : 1 / 10 ^ 12 ≤ norm3 ((norm3 dir)⁻¹ • dir -
      dot ((norm3 dir)⁻¹ • dir) h.transform.zAxis • h.transform.zAxis) := by
    rw [dot_smul_left, mul_smul, ← smul_sub, norm3_smul, abs_of_pos (inv_pos.2 hn)]
    rw [← div_eq_inv_mul, le_div_iff₀ hn]
    linarith
  have h1 := hg.gammaPos
  have h2 := hh.gammaPos
  have h3 := hg.gammaLt
  have hcg : g.coneAngle ≠ 0 := by intro h0; rw [h0] at h1; simp at h1
  have hsneg : sin (h.coneAngle / 2 - g.coneAngle / 2) < 0 :=
    sin_neg_of_neg_of_neg_pi_lt (by linarith) (by linarith)
  obtain ⟨g', e1, e2, e3, e, e4, e5, e6, e7, -⟩ := bevel_core (φ := h.coneAngle / 2 - g.coneAngle / 2)
    hg hh hproj' (by intro R; simp [bevelAngleRef, hr, hr'])
    (by rw [show h.coneAngle / 2 - (h.coneAngle / 2 - g.coneAngle / 2) = g.coneAngle / 2 by ring]) hsneg.ne
  refine ⟨g', ?_, e2, e3, e, e4, e5, ?_, e7⟩
  · simp only [GearObj.meshTo, hk, GearObj.meshToInvolute, normalizeVector_eq hdir]
    rw [if_pos (Or.inl hcg), e1]
  · rw [dot_smul_right, dot_smul_left] at e6
    rw [dot_sub_right, dot_smul_right]
    have : 0 < norm3 dir * ((norm3 dir)⁻¹ * dot e dir - dot e h.transform.zAxis *
      ((norm3 dir)⁻¹ * dot dir h.transform.zAxis)) := mul_pos hn e6
    rw [show norm3 dir * ((norm3 dir)⁻¹ * dot e dir - dot e h.transform.zAxis *
      ((norm3 dir)⁻¹ * dot dir h.transform.zAxis)) = norm3 dir * (norm3 dir)⁻¹ * (dot e dir -
      dot dir h.transform.zAxis * dot e h.transform.zAxis) by ring, mul_inv_cancel₀ hn.ne', one_mul] at this
    exact this

/-- **C92, a bevel ring around a pinion**: the same with the ring as the gear that moves. -/
theorem c92_around (solve : (ℝ → ℝ) → ℝ) (g h g' : GearObj) (dir : V3) (b bias : ℝ) (N1 N2 : ℕ)
    (hk : g.kind = .involute) (hg : g.BevelOk) (hh : h.BevelOk)
    (hN1 : g.tooth.numTeeth = N1) (hN2 : h.tooth.numTeeth = N2) (hr : g.insideInput = true)
    (hr' : h.insideInput = false) (ht : g.insideTeeth = true)
    (hlt : h.coneAngle < g.coneAngle) (hdir : dir ≠ 0)
    (hproj : norm3 dir / 10 ^ 12 ≤ norm3 (dir - dot dir h.transform.zAxis • h.transform.zAxis))
    (hm : g.meshTo solve h dir b bias = some g')
    (hdist : 1 / 10 ^ 12 ≤ norm3 (h.transform.center - g'.transform.center))
    (e : V3) (he : IsGenerator g' e) (he' : IsGenerator h e) (δ1 δ2 : ℝ)
    (s1 : SeenAt g'.transform.orientation e δ1) (s2 : SeenAt h.transform.orientation e δ2) :
    CongrOne ((g'.transform.angle - δ1) / (2 * π / N1)) ((h.transform.angle - δ2) / (2 * π / N2)) := by
  obtain ⟨g'', e1, e2, e3, -⟩ := c32_bevel_around solve g h dir b bias hk hg hh hr hr' hlt hdir hproj
  rw [hm] at e1
  cases Option.some.inj e1
  have h1 := hg.gammaPos
  have h2 := hh.gammaPos
  have h3 := hg.gammaLt
  have hsneg : sin (h.coneAngle / 2 - g.coneAngle / 2) < 0 :=
    sin_neg_of_neg_of_neg_pi_lt (by linarith) (by linarith)
  obtain ⟨f1, f2, f3, -, f4⟩ := meshTo_bevel hk hg hm
  have hg' := meshTo_bevelOk hk hg hh hm
  have hgam : h.coneAngle / 2 - (h.coneAngle / 2 - g.coneAngle / 2) = g'.coneAngle / 2 := by rw [f2]; ring
  obtain ⟨-, -, -, q1, q2⟩ := bevel_seen hg' hh e2 e3 (by rw [hgam]) he he' s1 s2
  have hpos1 : 0 < N1 := by have := hg.teeth; rw [hN1] at this; exact_mod_cast this
  have hpos2 : 0 < N2 := by have := hh.teeth; rw [hN2] at this; exact_mod_cast this
  have := c30_ring1_whole g'.transform h.transform N1 N2 hpos1 hpos2 h.insideTeeth δ1 δ2 hdist
    (q1 hsneg (by rw [hgam]; exact hg'.sin_pos)) (q2 hsneg)
  rw [f4, GearObj.pitchAngle, GearObj.pitchAngle, GearToothParam.pitchAngle, GearToothParam.pitchAngle, hN1, hN2,
    ht]
  exact this

/-- Gears with a common apex are at least as far apart as the difference of their apex distances. -/
theorem apex_dist {g h : GearObj} (hg : g.BevelOk) (hh : h.BevelOk) (ha : pitchApex g = pitchApex h) :
    |g.pitchRadius / tan (g.coneAngle / 2) - h.pitchRadius / tan (h.coneAngle / 2)| ≤
      norm3 (h.transform.center - g.transform.center) := by
  have h1 := zAxis_unit hg.sound.rot
  have h2 := zAxis_unit hh.sound.rot
  rw [pitchApex, pitchApex] at ha
  have e : h.transform.center - g.transform.center = (g.pitchRadius / tan (g.coneAngle / 2)) • g.transform.zAxis -
      (h.pitchRadius / tan (h.coneAngle / 2)) • h.transform.zAxis := by
    rw [sub_eq_sub_iff_add_eq_add, ← ha]; abel
  have h3 : 0 < g.pitchRadius / tan (g.coneAngle / 2) := by
    rw [tan_eq_sin_div_cos]; exact div_pos hg.radius_pos (div_pos hg.sin_pos hg.cos_pos)
  have h4 : 0 < h.pitchRadius / tan (h.coneAngle / 2) := by
    rw [tan_eq_sin_div_cos]; exact div_pos hh.radius_pos (div_pos hh.sin_pos hh.cos_pos)
  have h5 : dot g.transform.zAxis h.transform.zAxis ≤ 1 := by
    have := dot_self_nonneg (g.transform.zAxis - h.transform.zAxis)
    simp only [dot_sub_left, dot_sub_right, h1, h2, dot_comm h.transform.zAxis] at this
    linarith
  rw [e, norm3]
  apply abs_le_sqrt
  simp only [dot_sub_left, dot_sub_right, dot_smul_left, dot_smul_right, h1, h2, dot_comm h.transform.zAxis]
  nlinarith [mul_pos h3 h4, mul_nonneg (mul_pos h3 h4).le (sub_nonneg.2 h5)]

/-- Concrete cases for a ring of 60 degrees with 20 teeth and a pinion of 30 degrees with 12 teeth, either of
which may be the one that moves. -/
example : let g : GearObj := { sampleGear .involute 12 0 0 false with coneAngle := π / 3 }
    let h : GearObj := { sampleGear .involute 20 0 0 true with coneAngle := 2 * π / 3 }
    g.BevelOk ∧ h.BevelOk ∧ g.coneAngle < h.coneAngle ∧
    (∃ g', g.meshTo (fun _ => 0) h RIGHT 0 0 = some g' ∧
      1 / 10 ^ 12 ≤ norm3 (h.transform.center - g'.transform.center) ∧
      ∃ e δ1 δ2, IsGenerator g' e ∧ IsGenerator h e ∧ SeenAt g'.transform.orientation e δ1 ∧
        SeenAt h.transform.orientation e δ2) ∧
    ∃ h', h.meshTo (fun _ => 0) g RIGHT 0 0 = some h' ∧
      1 / 10 ^ 12 ≤ norm3 (g.transform.center - h'.transform.center) ∧
      ∃ e δ1 δ2, IsGenerator h' e ∧ IsGenerator g e ∧ SeenAt h'.transform.orientation e δ1 ∧
        SeenAt g.transform.orientation e δ2 := by
  intro g h
  have hpi := pi_pos
  have hg : g.BevelOk := by
    refine ⟨⟨IsRot.one, rfl⟩, by norm_num [g, sampleGear], by norm_num [g, sampleGear], ?_, ?_⟩
    · change 0 < π / 3 / 2; positivity
    · change π / 3 / 2 < π / 2; linarith
  have hh : h.BevelOk := by
    refine ⟨⟨IsRot.one, rfl⟩, by norm_num [h, sampleGear], by norm_num [h, sampleGear], ?_, ?_⟩
    · change 0 < 2 * π / 3 / 2; positivity
    · change 2 * π / 3 / 2 < π / 2; linarith
  have hlt : g.coneAngle < h.coneAngle := by change π / 3 < 2 * π / 3; linarith
  have h1 : dot RIGHT g.transform.zAxis = 0 := by
    simp [g, sampleGear, TransformData.zAxis, dot, RIGHT]
  have h1' : dot RIGHT h.transform.zAxis = 0 := by
    simp [h, sampleGear, TransformData.zAxis, dot, RIGHT]
  have h2 : norm3 RIGHT = 1 := norm3_eq_of_dot (by norm_num) (by simp [dot, RIGHT])
  have h3 : (RIGHT : V3) ≠ 0 := by intro h; have := congrFun h 0; simp [RIGHT] at this
  have hc : g.coneAngle / 2 = π / 6 := by change π / 3 / 2 = π / 6; ring
  have hc' : h.coneAngle / 2 = π / 3 := by change 2 * π / 3 / 2 = π / 3; ring
  have hr : g.pitchRadius = 6 := by norm_num [g, sampleGear, GearObj.pitchRadius]
  have hr' : h.pitchRadius = 10 := by norm_num [h, sampleGear, GearObj.pitchRadius]
  have hs3 : (1 : ℝ) ≤ √3 := by rw [Real.one_le_sqrt]; norm_num
  have hsq : √(3 : ℝ) * √3 = 3 := mul_self_sqrt (by norm_num)
  have hd : (1 : ℝ) ≤ 6 / tan (π / 6) - 10 / tan (π / 3) := by
    rw [tan_pi_div_six, tan_pi_div_three, show (6 : ℝ) / (1 / √3) - 10 / √3 = (8 / 3) * √3 by
      field_simp; nlinarith]
    linarith
  refine ⟨hg, hh, hlt, ?_, ?_⟩
  · obtain ⟨g', e1, e2, e3, e, e4, e5, -⟩ := c32_bevel_ring (fun _ => 0) g h RIGHT 0 0 rfl hg hh rfl hlt h3
      (by rw [h1', zero_smul, sub_zero, h2]; norm_num)
    have hg' := meshTo_bevelOk rfl hg hh e1
    obtain ⟨f1, f2, f3, -⟩ := meshTo_bevel rfl hg e1
    obtain ⟨δ1, d1⟩ := e4.seen hg'
    obtain ⟨δ2, d2⟩ := e5.seen hh
    refine ⟨g', e1, le_trans ?_ (apex_dist hg' hh e2), e, δ1, δ2, e4, e5, d1, d2⟩
    rw [f2, hc, hc', hr', show g'.pitchRadius = 6 by rw [← hr, GearObj.pitchRadius, GearObj.pitchRadius, f1, f3]]
    exact le_trans (by norm_num) (le_trans hd (le_abs_self _))
  · obtain ⟨g', e1, e2, e3, e, e4, e5, -⟩ := c32_bevel_around (fun _ => 0) h g RIGHT 0 0 rfl hh hg rfl rfl hlt h3
      (by rw [h1, zero_smul, sub_zero, h2]; norm_num)
    have hg' := meshTo_bevelOk rfl hh hg e1
    obtain ⟨f1, f2, f3, -⟩ := meshTo_bevel rfl hh e1
    obtain ⟨δ1, d1⟩ := e4.seen hg'
    obtain ⟨δ2, d2⟩ := e5.seen hg
    refine ⟨g', e1, le_trans ?_ (apex_dist hg' hg e2), e, δ1, δ2, e4, e5, d1, d2⟩
    rw [f2, hc, hc', hr, show g'.pitchRadius = 10 by rw [← hr', GearObj.pitchRadius, GearObj.pitchRadius, f1, f3],
      abs_sub_comm]
    exact le_trans (by norm_num) (le_trans hd (le_abs_self _))

/-! ### C93 -/

/-- The tilt of an orientation: `M` is `O` turned about the common perpendicular `u × z` (which stays where it
is) so that the axis `z` leans away from `u` by `φ`. -/
structure Tilted (O M : M3) (u : V3) (φ : ℝ) : Prop where
  rot : IsRot M
  axis : app M OUT = cos φ • app O OUT - sin φ • u
  keep : ∀ v, app O v = cross u (app O OUT) → app M v = cross u (app O OUT)

/-- **C93.** `calc_mesh_orientation` returns the orientation of gear 2 for two cylindrical gears. Otherwise it
tilts it away from the target direction, projected into the plane of gear 2, by `γ1 + γ2 + offset/R` for
external gears, by `γ2 - γ1 + offset/R` if gear 2 is a ring and by `γ2 - γ1 - offset/R` if only gear 1 is. If
the target direction is along the axis, the x axis of gear 2 takes its place. -/
theorem c93_orientation (cone1 cone2 R offset : ℝ) (g2 : GearTransform) (hO : IsRot g2.orientation) (d : V3) :
    (∀ r1 r2, calcMeshOrientation 0 0 R g2 r1 r2 d offset = some g2.orientation) ∧
    (¬(cone1 = 0 ∧ cone2 = 0) → ∀ u : V3,
      ((1 / 10 ^ 12 ≤ norm3 (d - dot d (app g2.orientation OUT) • app g2.orientation OUT) ∧ dot u u = 1 ∧
          ∃ c : ℝ, 0 < c ∧ d - dot d (app g2.orientation OUT) • app g2.orientation OUT = c • u) ∨
        ((∃ c : ℝ, d = c • app g2.orientation OUT) ∧ u = app g2.orientation RIGHT)) →
      (∃ M, calcMeshOrientation cone1 cone2 R g2 false false d offset = some M ∧
        Tilted g2.orientation M u (cone1 / 2 + cone2 / 2 + offset / R)) ∧
      (∀ r1, ∃ M, calcMeshOrientation cone1 cone2 R g2 r1 true d offset = some M ∧
        Tilted g2.orientation M u (cone2 / 2 - cone1 / 2 + offset / R)) ∧
      ∃ M, calcMeshOrientation cone1 cone2 R g2 true false d offset = some M ∧
        Tilted g2.orientation M u (cone2 / 2 - cone1 / 2 - offset / R)) := by
  refine ⟨fun r1 r2 => by rw [calcMeshOrientation]; simp, fun hne u hu => ?_⟩
  obtain ⟨z, hz⟩ : ∃ z, z = app g2.orientation OUT := ⟨_, rfl⟩
  have hzx : g2.zAxis = z := by rw [hz, ← zAxis_eq]
  have hzz : dot z z = 1 := by rw [hz, hO.dot_app]; simp [dot, OUT]
  rw [← hz] at hu
  -- the direction the code uses
  have hdir : (if norm3 (d - dot d z • z) < 1 / 10 ^ 12 then g2.xAxis
      else (norm3 (d - dot d z • z))⁻¹ • (d - dot d z • z)) = u ∧ dot u u = 1 ∧ dot u z = 0 := by
    rcases hu with ⟨h1, h2, c, hc, h3⟩ | ⟨⟨c, h1⟩, h2⟩
    · have hn : norm3 (d - dot d z • z) = c := by
        rw [h3, norm3_smul, abs_of_pos hc, norm3_eq_of_dot zero_le_one (by rw [h2]; norm_num), mul_one]
      rw [if_neg (not_lt.2 h1), hn, h3, smul_smul, inv_mul_cancel₀ hc.ne', one_smul]
      refine ⟨rfl, h2, ?_⟩
      have : dot (c • u) z = 0 := by rw [← h3, dot_sub_left, dot_smul_left, hzz]; ring
      rw [dot_smul_left] at this
      exact (mul_eq_zero.1 this).resolve_left hc.ne'
    · have h0 : d - dot d z • z = 0 := by rw [h1, dot_smul_left, hzz, mul_one, sub_self]
      rw [h0, if_pos (by simp [norm3, dot]), h2]
      refine ⟨?_, by rw [hO.dot_app]; simp [dot, RIGHT], by rw [hz, hO.dot_app]; simp [dot, RIGHT, OUT]⟩
      apply V3.ext3 <;> simp [TransformData.xAxis, app_0, app_1, app_2, RIGHT]
  obtain ⟨hdir, huu, huz⟩ := hdir
  have haa : dot (cross u z) (cross u z) = 1 := by rw [dot_cross_self, huu, hzz, huz]; norm_num
  have key : ∀ r1 r2, ∃ M, calcMeshOrientation cone1 cone2 R g2 r1 r2 d offset = some M ∧
      Tilted g2.orientation M u (bevelAngleRef (cone1 / 2) (cone2 / 2) R offset r1 r2) := by
    intro r1 r2
    refine ⟨rotMat (cross u z) (bevelAngleRef (cone1 / 2) (cone2 / 2) R offset r1 r2) * g2.orientation, ?_, ?_, ?_, ?_⟩
    · simp only [calcMeshOrientation, hzx, hdir, if_neg hne, normalizeVector_unit haa, fromRotvec_smul haa]
    · exact (IsRot.rotMat haa _).mul hO
    · rw [app_mul, ← hz, app_rotMat, rodrigues_tilt hzz huz]
    · intro v hv
      rw [app_mul, hv, ← hz, app_rotMat, rodrigues, cross_self, haa]
      module
  refine ⟨?_, fun r1 => ?_, ?_⟩
  · have := key false false; simpa [bevelAngleRef] using this
  · have := key r1 true; simpa [bevelAngleRef] using this
  · have := key true false; simpa [bevelAngleRef] using this

/-- Concrete cases for `c93_orientation`: a target in the plane of gear 2 and one along its axis. -/
example : let g2 : GearTransform := ⟨⟨0, 1, 1⟩, 0⟩
    IsRot g2.orientation ∧ ¬((1 : ℝ) = 0 ∧ (1 : ℝ) = 0) ∧
      1 / 10 ^ 12 ≤ norm3 (UP - dot UP (app g2.orientation OUT) • app g2.orientation OUT) ∧ dot UP UP = 1 ∧
      UP - dot UP (app g2.orientation OUT) • app g2.orientation OUT = (1 : ℝ) • UP ∧
      (5 : ℝ) • OUT = (5 : ℝ) • app g2.orientation OUT := by
  intro g2
  have h0 : dot UP (app g2.orientation OUT) = 0 := by simp [g2, dot, UP, OUT]
  have h1 : dot UP UP = 1 := by simp [dot, UP]
  refine ⟨IsRot.one, by norm_num, ?_, h1, by rw [h0]; simp, by simp [g2]⟩
  rw [h0, zero_smul, sub_zero, norm3_eq_of_dot zero_le_one (by rw [h1]; norm_num)]
  norm_num

end Verif
