import Verif.Props.Mesh
import Verif.Props.Transform

/-! # Property C32: meshed bevel gears -/

namespace Verif

open Real

theorem app_OUT (M : M3) : app M OUT = fun i => M i 2 := by
  apply V3.ext3 <;> simp [app_0, app_1, app_2, OUT]

theorem zAxis_eq (t : TransformData) : t.zAxis = app t.orientation OUT := (app_OUT _).symm

theorem zAxis_unit {t : TransformData} (h : IsRot t.orientation) : dot t.zAxis t.zAxis = 1 := by
  rw [zAxis_eq, h.dot_app]; simp [dot, OUT]

theorem normalizeVector_unit {v : V3} (h : dot v v = 1) : normalizeVector v = some v := by
  have hn : norm3 v = 1 := norm3_eq_of_dot zero_le_one (by rw [h]; norm_num)
  rw [normalizeVector, if_neg (by rw [hn]; norm_num), hn, inv_one, one_smul]

/-- Rotating `z` about `u × z` (unit `u ⟂ z`) turns it away from `u`. -/
theorem rodrigues_tilt {u z : V3} (hz : dot z z = 1) (huz : dot u z = 0) (φ : ℝ) :
    rodrigues (cross u z) φ z = cos φ • z - sin φ • u := by
  rw [rodrigues, cross_cross_left, huz, hz, dot_comm, dot_cross_right]
  module

/-- The apex of the pitch cone of a gear: above its centre on the axis, at the height at which
a cone with half angle `γ` and base radius `pitch_radius` closes. -/
noncomputable def pitchApex (g : GearObj) : V3 :=
  g.transform.center + (g.pitchRadius / tan (g.coneAngle / 2)) • g.transform.zAxis

/-- `e` is a unit vector along a generator of the pitch cone of `g`, pointing away from the apex:
it makes the angle `γ` with the axis direction from the apex to the base. -/
def IsGenerator (g : GearObj) (e : V3) : Prop :=
  dot e e = 1 ∧ dot e (-g.transform.zAxis) = cos (g.coneAngle / 2)

/-- The point `p` is on the pitch circle at the base of gear `g`. -/
def OnPitchCircle (g : GearObj) (p : V3) : Prop :=
  dot (p - g.transform.center) g.transform.zAxis = 0 ∧
    norm3 (p - g.transform.center) = g.pitchRadius

/-- A well-posed bevel gear. -/
structure GearObj.BevelOk (g : GearObj) : Prop where
  sound : g.Sound
  modulePos : 0 < g.module_
  teeth : 0 < g.tooth.numTeeth
  gammaPos : 0 < g.coneAngle / 2
  gammaLt : g.coneAngle / 2 < π / 2

theorem GearObj.BevelOk.radius_pos {g : GearObj} (h : g.BevelOk) : 0 < g.pitchRadius := by
  have := h.modulePos
  have := h.teeth
  rw [GearObj.pitchRadius]; positivity

theorem GearObj.BevelOk.sin_pos {g : GearObj} (h : g.BevelOk) : 0 < sin (g.coneAngle / 2) :=
  sin_pos_of_pos_of_lt_pi h.gammaPos (by linarith [h.gammaLt, pi_pos])

theorem GearObj.BevelOk.cos_pos {g : GearObj} (h : g.BevelOk) : 0 < cos (g.coneAngle / 2) :=
  cos_pos' (by linarith [h.gammaPos, pi_pos]) h.gammaLt

theorem coneData_center {h : GearObj} (hh : h.BevelOk) : h.coneData.center = pitchApex h := by
  have hm := hh.modulePos.ne'
  have hs := hh.sound.scale
  rw [ConicData.center, applyTransform_eq, pitchApex]
  simp only [GearObj.coneData, ConicData.gamma, app_smul, zAxis_eq]
  rw [hs, smul_smul, add_comm]
  congr 2
  field_simp

theorem coneData_R {g : GearObj} (hg : g.BevelOk) :
    g.coneData.R = g.pitchRadius / sin (g.coneAngle / 2) := by
  have hm := hg.modulePos
  have h1 := hg.sin_pos
  have h2 := hg.radius_pos
  simp only [ConicData.R, GearObj.coneData, ConicData.gamma, hg.sound.scale]
  rw [abs_of_pos (by positivity)]
  field_simp

/-- The generic placement statement, for the tilt angle `φ` chosen by the code. -/
theorem bevel_core {g h : GearObj} {d : V3} {φ : ℝ} (hg : g.BevelOk) (hh : h.BevelOk)
    (hproj : 1 / 10 ^ 12 ≤ norm3 (d - dot d h.transform.zAxis • h.transform.zAxis))
    (hφ : ∀ R, bevelAngleRef (g.coneAngle / 2) (h.coneAngle / 2) R 0 g.insideInput h.insideInput = φ)
    (hcos : cos (h.coneAngle / 2 - φ) = cos (g.coneAngle / 2)) (hsin : sin φ ≠ 0) :
    ∃ g', g.meshToBevel h d = some g' ∧ pitchApex g' = pitchApex h ∧
      dot g'.transform.zAxis h.transform.zAxis = cos φ ∧
      ∃ e, IsGenerator g' e ∧ IsGenerator h e ∧ 0 < dot e d - dot e h.transform.zAxis *
          dot d h.transform.zAxis ∧
        (∀ e', IsGenerator g' e' → IsGenerator h e' → e' = e) ∧
        (g.pitchRadius / sin (g.coneAngle / 2) = h.pitchRadius / sin (h.coneAngle / 2) →
          OnPitchCircle g' (pitchApex h + (h.pitchRadius / sin (h.coneAngle / 2)) • e) ∧
          OnPitchCircle h (pitchApex h + (h.pitchRadius / sin (h.coneAngle / 2)) • e)) := by
  obtain ⟨z, hzdef⟩ : ∃ z, z = h.transform.zAxis := ⟨_, rfl⟩
  rw [← hzdef] at hproj ⊢
  have hz : dot z z = 1 := by rw [hzdef]; exact zAxis_unit hh.sound.rot
  obtain ⟨pr, hpr⟩ : ∃ pr, pr = d - dot d z • z := ⟨_, rfl⟩
  rw [← hpr] at hproj
  have hn : 0 < norm3 pr := lt_of_lt_of_le (by norm_num) hproj
  have hpr0 : pr ≠ 0 := by intro h0; rw [h0] at hn; simp [norm3] at hn
  obtain ⟨u, hu⟩ : ∃ u, u = (norm3 pr)⁻¹ • pr := ⟨_, rfl⟩
  have huu : dot u u = 1 := by rw [hu]; exact dot_normalized hpr0
  have hprz : dot pr z = 0 := by rw [hpr, dot_sub_left, dot_smul_left, hz]; ring
  have huz : dot u z = 0 := by rw [hu, dot_smul_left, hprz, mul_zero]
  have hzu : dot z u = 0 := by rw [dot_comm, huz]
  have haa : dot (cross u z) (cross u z) = 1 := by rw [dot_cross_self, huu, hz, huz]; norm_num
  have hprn : pr = norm3 pr • u := by
    rw [hu, smul_smul, mul_inv_cancel₀ hn.ne', one_smul]
  have hdz : cross d z = norm3 pr • cross u z := by
    have : d = norm3 pr • u + dot d z • z := by rw [← hprn, hpr]; abel
    conv_lhs => rw [this]
    rw [cross_add_left, cross_smul_left, cross_smul_left, cross_self, smul_zero, add_zero]
  have hn1 : normalizeVector (cross d z) = some (cross u z) := by
    rw [hdz, normalizeVector_smul hn, normalizeVector_unit haa]
  have hn2 : normalizeVector (cross u z) = some (cross u z) := normalizeVector_unit haa
  have hcg : g.coneAngle ≠ 0 := by have := hg.gammaPos; intro h0; rw [h0] at this; simp at this
  -- the two intermediate results
  have hplace : calcBevelGearPlacementVector d g.coneData h.coneData g.insideInput h.insideInput 0 =
      some (pitchApex h - (g.pitchRadius / tan (g.coneAngle / 2)) • (cos φ • z - sin φ • u)) := by
    have ht : g.coneData.R * cos g.coneData.gamma = g.pitchRadius / tan (g.coneAngle / 2) := by
      have h1 := hg.sin_pos
      have h2 := hg.cos_pos
      rw [coneData_R hg, tan_eq_sin_div_cos, show g.coneData.gamma = g.coneAngle / 2 from rfl]
      field_simp
    have hzz : h.coneData.transform.zAxis = z := hzdef.symm
    simp only [calcBevelGearPlacementVector, hzz, hn1]
    rw [show g.coneData.gamma = g.coneAngle / 2 from rfl,
      show h.coneData.gamma = h.coneAngle / 2 from rfl, hφ, fromRotvec_smul haa, app_smul, app_rotMat,
      rodrigues_tilt hz huz, coneData_center hh]
    rw [show g.coneData.gamma = g.coneAngle / 2 from rfl] at ht
    rw [ht]
    congr 1
    module
  have horient : ∀ R, calcMeshOrientation g.coneAngle h.coneAngle R h.transform g.insideInput
      h.insideInput d 0 = some (rotMat (cross u z) φ * h.transform.orientation) := by
    intro R
    simp only [calcMeshOrientation, ← hzdef, ← hpr, if_neg (not_lt.2 hproj), ← hu, hn2, hφ,
      fromRotvec_smul haa]
    rw [if_neg (fun h0 => hcg h0.1)]
  simp only [GearObj.meshToBevel, hplace, horient]
  refine ⟨_, rfl, ?_⟩
  have hz' : TransformData.zAxis ⟨pitchApex h -
      (g.pitchRadius / tan (g.coneAngle / 2)) • (cos φ • z - sin φ • u),
      rotMat (cross u z) φ * h.transform.orientation, g.transform.scale⟩ =
      cos φ • z - sin φ • u := by
    rw [zAxis_eq, app_mul, ← zAxis_eq, ← hzdef, app_rotMat, rodrigues_tilt hz huz]
  have hsc := sin_sq_add_cos_sq (h.coneAngle / 2)
  have hc1 : cos (g.coneAngle / 2) = cos (h.coneAngle / 2) * cos φ + sin (h.coneAngle / 2) * sin φ := by
    rw [← hcos, cos_sub]
  have hs1 := hg.sin_pos
  have hs2 := hh.sin_pos
  have hk1 := hg.cos_pos
  have hk2 := hh.cos_pos
  have hr1 := hg.radius_pos
  have hr2 := hh.radius_pos
  refine ⟨?_, ?_, -(cos (h.coneAngle / 2)) • z + sin (h.coneAngle / 2) • u, ⟨?_, ?_⟩, ⟨?_, ?_⟩, ?_,
    ?_, ?_⟩
  · change pitchApex h - (g.pitchRadius / tan (g.coneAngle / 2)) • (cos φ • z - sin φ • u) +
      (g.pitchRadius / tan (g.coneAngle / 2)) • TransformData.zAxis _ = pitchApex h
    rw [hz']
    abel
  · simp only [hz', dot_sub_left, dot_smul_left, hz, huz]; ring
  · simp only [dot_add_left, dot_add_right, dot_smul_left, dot_smul_right, hz, huz, huu, hzu]
    linear_combination hsc
  · simp only [hz', dot_add_left, dot_neg_right, dot_sub_right, dot_smul_left, dot_smul_right, hz,
      huz, huu, hzu]
    rw [hc1]; ring
  · simp only [dot_add_left, dot_add_right, dot_smul_left, dot_smul_right, hz, huz, huu, hzu]
    linear_combination hsc
  · simp only [← hzdef, dot_add_left, dot_neg_right, dot_smul_left, hz, huz]; ring
  · have hud : dot u d = norm3 pr := by
      have : d = norm3 pr • u + dot d z • z := by rw [← hprn, hpr]; abel
      rw [this, dot_add_right, dot_smul_right, dot_smul_right, huu, huz]; ring
    simp only [dot_add_left, dot_smul_left, hud, hz, huz, dot_comm z d]
    have : 0 < sin (h.coneAngle / 2) * norm3 pr := by positivity
    linarith
  · rintro e' ⟨he, h1⟩ ⟨_, h2⟩
    simp only [hz', dot_neg_right, dot_sub_right, dot_smul_right] at h1
    rw [← hzdef, dot_neg_right] at h2
    rw [hc1] at h1
    have hez : dot e' z = -cos (h.coneAngle / 2) := by linarith
    have heu : dot e' u = sin (h.coneAngle / 2) := by
      apply mul_left_cancel₀ hsin
      rw [hez] at h1; linarith
    have h0 : dot (e' - (-(cos (h.coneAngle / 2)) • z + sin (h.coneAngle / 2) • u))
        (e' - (-(cos (h.coneAngle / 2)) • z + sin (h.coneAngle / 2) • u)) = 0 := by
      simp only [dot_sub_left, dot_sub_right, dot_add_left, dot_add_right, dot_smul_left,
        dot_smul_right, hz, huz, huu, hzu, he, hez, heu, dot_comm z e', dot_comm u e']
      linear_combination -hsc
    exact sub_eq_zero.1 (dot_self_eq_zero.1 h0)
  · intro hR
    constructor
    · have e1 : pitchApex h + (h.pitchRadius / sin (h.coneAngle / 2)) •
            (-(cos (h.coneAngle / 2)) • z + sin (h.coneAngle / 2) • u) -
          (pitchApex h - (g.pitchRadius / tan (g.coneAngle / 2)) • (cos φ • z - sin φ • u)) =
          (g.pitchRadius / sin (g.coneAngle / 2)) •
            ((cos (g.coneAngle / 2) * cos φ - cos (h.coneAngle / 2)) • z +
              (sin (h.coneAngle / 2) - cos (g.coneAngle / 2) * sin φ) • u) := by
        rw [← hR, show g.pitchRadius / tan (g.coneAngle / 2) =
          g.pitchRadius / sin (g.coneAngle / 2) * cos (g.coneAngle / 2) by
            rw [tan_eq_sin_div_cos]; field_simp]
        module
      have hφ1 := sin_sq_add_cos_sq φ
      have hg1 := sin_sq_add_cos_sq (g.coneAngle / 2)
      constructor
      · simp only [hz']
        rw [e1]
        simp only [dot_add_left, dot_sub_right, dot_smul_left, dot_smul_right, hz, huz, huu, hzu]
        rw [hc1]
        linear_combination (g.pitchRadius / sin (g.coneAngle / 2)) *
          (cos (h.coneAngle / 2) * cos φ + sin (h.coneAngle / 2) * sin φ) * hφ1
      · rw [e1]
        apply norm3_eq_of_dot hr1.le
        simp only [dot_add_left, dot_add_right, dot_smul_left, dot_smul_right, hz, huz, huu, hzu]
        have hkey : (cos (g.coneAngle / 2) * cos φ - cos (h.coneAngle / 2)) ^ 2 +
            (sin (h.coneAngle / 2) - cos (g.coneAngle / 2) * sin φ) ^ 2 =
            sin (g.coneAngle / 2) ^ 2 := by
          linear_combination cos (g.coneAngle / 2) ^ 2 * hφ1 + hsc - hg1 +
            2 * cos (g.coneAngle / 2) * hc1
        have : g.pitchRadius ^ 2 = (g.pitchRadius / sin (g.coneAngle / 2)) ^ 2 *
            sin (g.coneAngle / 2) ^ 2 := by
          field_simp
        change _ = g.pitchRadius ^ 2
        rw [this, ← hkey]
        ring
    · have e1 : pitchApex h + (h.pitchRadius / sin (h.coneAngle / 2)) •
            (-(cos (h.coneAngle / 2)) • z + sin (h.coneAngle / 2) • u) - h.transform.center =
          h.pitchRadius • u := by
        rw [pitchApex, ← hzdef, tan_eq_sin_div_cos]
        have : h.pitchRadius / (sin (h.coneAngle / 2) / cos (h.coneAngle / 2)) =
          h.pitchRadius / sin (h.coneAngle / 2) * cos (h.coneAngle / 2) := by field_simp
        rw [this]
        have h3 : h.pitchRadius • u = (h.pitchRadius / sin (h.coneAngle / 2) *
          sin (h.coneAngle / 2)) • u := by
          rw [div_mul_cancel₀ _ hs2.ne']
        rw [h3]
        module
      constructor
      · rw [e1, ← hzdef, dot_smul_left, huz, mul_zero]
      · rw [e1, norm3_smul, abs_of_pos hr2, norm3_eq_of_dot zero_le_one (by rw [huu]; norm_num),
          mul_one]

/-- **C32.** An involute bevel gear meshed to another one: both pitch cones have the same apex, the
angle between the axes is `γ1 + γ2`, and the cones have exactly one generator in common. It lies on
the side of `target_dir`. If the cone distances agree, the two pitch circles touch in one point of
it. `target_dir` must not be parallel to the axis (sine of the angle at least 1e-12). -/
theorem c32_bevel (solve : (ℝ → ℝ) → ℝ) (g h : GearObj) (dir : V3) (b bias : ℝ)
    (hk : g.kind = .involute) (hg : g.BevelOk) (hh : h.BevelOk)
    (hr : g.insideInput = false) (hr' : h.insideInput = false) (hdir : dir ≠ 0)
    (hproj : norm3 dir / 10 ^ 12 ≤ norm3 (dir - dot dir h.transform.zAxis • h.transform.zAxis)) :
    ∃ g', g.meshTo solve h dir b bias = some g' ∧ pitchApex g' = pitchApex h ∧
      dot g'.transform.zAxis h.transform.zAxis = cos (g.coneAngle / 2 + h.coneAngle / 2) ∧
      ∃ e, IsGenerator g' e ∧ IsGenerator h e ∧
        0 < dot e (dir - dot dir h.transform.zAxis • h.transform.zAxis) ∧
        (∀ e', IsGenerator g' e' → IsGenerator h e' → e' = e) ∧
        (g.pitchRadius / sin (g.coneAngle / 2) = h.pitchRadius / sin (h.coneAngle / 2) →
          OnPitchCircle g' (pitchApex h + (h.pitchRadius / sin (h.coneAngle / 2)) • e) ∧
          OnPitchCircle h (pitchApex h + (h.pitchRadius / sin (h.coneAngle / 2)) • e)) := by
  have hn := norm3_pos hdir
  have hproj' : 1 / 10 ^ 12 ≤ norm3 ((norm3 dir)⁻¹ • dir -
      dot ((norm3 dir)⁻¹ • dir) h.transform.zAxis • h.transform.zAxis) := by
    rw [dot_smul_left, mul_smul, ← smul_sub, norm3_smul, abs_of_pos (inv_pos.2 hn)]
    rw [← div_eq_inv_mul, le_div_iff₀ hn]
    linarith
  have h1 := hg.gammaPos
  have h2 := hh.gammaPos
  have h3 := hg.gammaLt
  have h4 := hh.gammaLt
  have hcg : g.coneAngle ≠ 0 := by intro h0; rw [h0] at h1; simp at h1
  obtain ⟨g', e1, e2, e3, e, p1, p2, p3, p4, p5⟩ := bevel_core (φ := g.coneAngle / 2 + h.coneAngle / 2)
    hg hh hproj' (by intro R; simp [bevelAngleRef, hr, hr'])
    (by rw [show h.coneAngle / 2 - (g.coneAngle / 2 + h.coneAngle / 2) = -(g.coneAngle / 2) by ring,
      cos_neg]) (sin_pos_of_pos_of_lt_pi (by linarith) (by linarith)).ne'
  refine ⟨g', ?_, e2, e3, e, p1, p2, ?_, p4, p5⟩
  · simp only [GearObj.meshTo, hk, GearObj.meshToInvolute, normalizeVector_eq hdir, e1]
    rw [if_pos (Or.inl hcg)]
  · rw [dot_sub_right, dot_smul_right]
    rw [dot_smul_right, dot_smul_left] at p3
    have := mul_pos hn p3
    have e5 : norm3 dir * ((norm3 dir)⁻¹ * dot e dir -
        dot e h.transform.zAxis * ((norm3 dir)⁻¹ * dot dir h.transform.zAxis)) =
        dot e dir - dot dir h.transform.zAxis * dot e h.transform.zAxis := by field_simp
    linarith

/-- **C32 for a pinion in a bevel ring gear**: common apex, axis angle `γ2 − γ1`, one common
generator. -/
theorem c32_bevel_ring (solve : (ℝ → ℝ) → ℝ) (g h : GearObj) (dir : V3) (b bias : ℝ)
    (hk : g.kind = .involute) (hg : g.BevelOk) (hh : h.BevelOk)
    (hr' : h.insideInput = true) (hlt : g.coneAngle < h.coneAngle) (hdir : dir ≠ 0)
    (hproj : norm3 dir / 10 ^ 12 ≤ norm3 (dir - dot dir h.transform.zAxis • h.transform.zAxis)) :
    ∃ g', g.meshTo solve h dir b bias = some g' ∧ pitchApex g' = pitchApex h ∧
      dot g'.transform.zAxis h.transform.zAxis = cos (h.coneAngle / 2 - g.coneAngle / 2) ∧
      ∃ e, IsGenerator g' e ∧ IsGenerator h e ∧
        (∀ e', IsGenerator g' e' → IsGenerator h e' → e' = e) := by
  have hn := norm3_pos hdir
  have hproj' : 1 / 10 ^ 12 ≤ norm3 ((norm3 dir)⁻¹ • dir -
      dot ((norm3 dir)⁻¹ • dir) h.transform.zAxis • h.transform.zAxis) := by
    rw [dot_smul_left, mul_smul, ← smul_sub, norm3_smul, abs_of_pos (inv_pos.2 hn)]
    rw [← div_eq_inv_mul, le_div_iff₀ hn]
    linarith
  have h1 := hg.gammaPos
  have h2 := hh.gammaPos
  have h3 := hg.gammaLt
  have h4 := hh.gammaLt
  have hcg : g.coneAngle ≠ 0 := by intro h0; rw [h0] at h1; simp at h1
  obtain ⟨g', e1, e2, e3, e, p1, p2, p3, p4, p5⟩ := bevel_core (φ := h.coneAngle / 2 - g.coneAngle / 2)
    hg hh hproj' (by intro R; simp [bevelAngleRef, hr'])
    (by rw [show h.coneAngle / 2 - (h.coneAngle / 2 - g.coneAngle / 2) = g.coneAngle / 2 by ring])
    (sin_pos_of_pos_of_lt_pi (by linarith) (by linarith)).ne'
  refine ⟨g', ?_, e2, e3, e, p1, p2, p4⟩
  simp only [GearObj.meshTo, hk, GearObj.meshToInvolute, normalizeVector_eq hdir, e1]
  rw [if_pos (Or.inl hcg)]

/-- Concrete case: two 45° bevel gears with 20 teeth, target direction x. -/
example : let g : GearObj := { sampleGear .involute 20 0 0 false with coneAngle := π / 2 }
    g.BevelOk ∧ g.insideInput = false ∧
      norm3 RIGHT / 10 ^ 12 ≤ norm3 (RIGHT - dot RIGHT g.transform.zAxis • g.transform.zAxis) := by
  intro g
  have hpi := pi_pos
  refine ⟨⟨⟨IsRot.one, rfl⟩, by norm_num [g, sampleGear], by norm_num [g, sampleGear], ?_, ?_⟩, rfl, ?_⟩
  · change 0 < π / 2 / 2; positivity
  · change π / 2 / 2 < π / 2; linarith
  · have h1 : dot RIGHT g.transform.zAxis = 0 := by
      simp [g, sampleGear, TransformData.zAxis, dot, RIGHT]
    have h2 : norm3 RIGHT = 1 := norm3_eq_of_dot (by norm_num) (by simp [dot, RIGHT])
    rw [h1, zero_smul, sub_zero, h2]; norm_num

end Verif
