import Verif.Props.Bevel

/-! # Property C35: axis angle of meshed helical gears -/

namespace Verif

open Real

/-- Direction of the tooth trace on the pitch cylinder of a helical gear with axis `z`, at the point
seen from the axis in the direction `w`: the profile advances by `tan β` along the circumference per
unit of height (`angle = z·tan β / rp`, gggears_wrapper.py:515-520), normalised. -/
noncomputable def toothTrace (z w : V3) (β : ℝ) : V3 := cos β • z + sin β • cross z w

theorem rodrigues_perp {n z : V3} (hnz : dot n z = 0) (a : ℝ) :
    rodrigues n a z = cos a • z + sin a • cross n z := by
  rw [rodrigues, hnz]; module

/-- `HelicalGear.mesh_to` for cylindrical gears: orientation of the result. -/
theorem meshToHelical_eq (solve : (ℝ → ℝ) → ℝ) (g h : GearObj) (dir : V3) (b bias D : ℝ)
    (hk : g.kind = .helical) (hk' : h.kind ≠ .cycloid) (hc : g.coneAngle = 0)
    (hc' : h.coneAngle = 0) (hdir : dir ≠ 0) (hDd : D = g.meshDistance solve h 0) (hD : 0 < D) :
    ∃ g', g.meshTo solve h dir b bias = some g' ∧
      g'.transform.center = h.transform.center + (D / norm3 dir) • dir ∧
      g'.transform.orientation = rotMat (-((norm3 dir)⁻¹ • dir)) (g.helixAngle + h.helixAngle) *
        h.transform.orientation := by
  obtain ⟨d, hd⟩ : ∃ d, d = (norm3 dir)⁻¹ • dir := ⟨_, rfl⟩
  have hdd : dot d d = 1 := by rw [hd]; exact dot_normalized hdir
  have hnd : dot (-d) (-d) = 1 := by rw [dot_neg_left, dot_neg_right, neg_neg, hdd]
  simp only [GearObj.meshTo, hk, GearObj.meshToHelical, GearObj.meshToInvolute,
    normalizeVector_eq hdir, hc, hc', ne_eq, not_true_eq_false, or_self, if_false, hk', ← hDd, ← hd]
  have hcd : h.transform.center - (g.meshToAt h d D (0 / 2 * 0 / g.rBase)).transform.center =
      D • (-d) := by
    simp only [GearObj.meshToAt]; module
  rw [hcd, normalizeVector_smul hD, normalizeVector_unit hnd]
  refine ⟨_, rfl, ?_, ?_⟩
  · simp only [GearObj.meshToAt, hd, smul_smul, div_eq_mul_inv]; abel
  · simp only [GearObj.meshToAt]
    rw [fromRotvec_smul hnd]

/-- **C35, external pairs with the target direction perpendicular to the axis.** For all helix
angles, the axes enclose the sum of the helix angles, the tilt is about the common perpendicular,
and the tooth traces of the two gears at the contact point coincide. -/
theorem c35_external_partial (solve : (ℝ → ℝ) → ℝ) (g h : GearObj) (dir : V3) (b bias : ℝ)
    (hk : g.kind = .helical) (hk' : h.kind ≠ .cycloid) (hc : g.coneAngle = 0)
    (hc' : h.coneAngle = 0) (hr : g.insideTeeth = false) (hr' : h.insideTeeth = false)
    (hb : 0 < g.rBase) (hb' : 0 < h.rBase) (hO : IsRot h.transform.orientation)
    (hdir : dir ≠ 0) (hperp : dot dir h.transform.zAxis = 0)
    (hsol : solve (meshResidual g.rBase h.rBase (-g.angleBase) (-h.angleBase) h.pitchAngle false 0)
      ∈ Set.Ioo (-(π / 2)) (π / 2)) :
    ∃ g', g.meshTo solve h dir b bias = some g' ∧
      let d := (norm3 dir)⁻¹ • dir
      dot g'.transform.zAxis h.transform.zAxis = cos (g.helixAngle + h.helixAngle) ∧
      dot g'.transform.zAxis d = 0 ∧
      toothTrace g'.transform.zAxis (-d) g.helixAngle = toothTrace h.transform.zAxis d h.helixAngle := by
  have hD : 0 < g.meshDistance solve h 0 := by
    rw [GearObj.meshDistance, hr, hr', calcInvoluteMeshDistance]
    simp only [Bool.or_self, Bool.false_eq_true, if_false]
    exact div_pos (by linarith) (cos_pos' hsol.1 hsol.2)
  obtain ⟨g', e, -, ho⟩ := meshToHelical_eq solve g h dir b bias _ hk hk' hc hc' hdir rfl hD
  refine ⟨g', e, ?_⟩
  intro d
  have hdd : dot d d = 1 := dot_normalized hdir
  obtain ⟨z, hz⟩ : ∃ z, z = h.transform.zAxis := ⟨_, rfl⟩
  have hzz : dot z z = 1 := by rw [hz]; exact zAxis_unit hO
  have hdz : dot d z = 0 := by rw [hz]; simp only [d, dot_smul_left, hperp, mul_zero]
  have hzd : dot z d = 0 := by rw [dot_comm]; exact hdz
  have hz1 : g'.transform.zAxis = cos (g.helixAngle + h.helixAngle) • z +
      sin (g.helixAngle + h.helixAngle) • cross z d := by
    rw [zAxis_eq, ho, app_mul, ← zAxis_eq, ← hz, app_rotMat, rodrigues_perp
      (by rw [dot_neg_left]; exact neg_eq_zero.2 hdz)]
    congr 2
    apply V3.ext3 <;> simp [cross, d] <;> ring
  rw [← hz, hz1]
  have hcc : cross (cross z d) d = -z := by
    rw [cross_cross_left, hzd, hdd]; module
  refine ⟨?_, ?_, ?_⟩
  · rw [dot_add_left, dot_smul_left, dot_smul_left, hzz, dot_comm (cross z d), dot_cross_left]
    ring
  · rw [dot_add_left, dot_smul_left, dot_smul_left, hzd, dot_comm (cross z d), dot_cross_right]
    ring
  · have hneg : ∀ v : V3, cross v (-d) = -cross v d := by
      intro v; apply V3.ext3 <;> simp [cross] <;> ring
    rw [toothTrace, toothTrace, hneg, cross_add_left, cross_smul_left, cross_smul_left, hcc]
    have e1 : cos h.helixAngle = cos (g.helixAngle + h.helixAngle) * cos g.helixAngle +
        sin (g.helixAngle + h.helixAngle) * sin g.helixAngle := by
      rw [← cos_sub]; congr 1; ring
    have e2 : sin h.helixAngle = sin (g.helixAngle + h.helixAngle) * cos g.helixAngle -
        cos (g.helixAngle + h.helixAngle) * sin g.helixAngle := by
      rw [← sin_sub]; congr 1; ring
    rw [e1, e2]
    module

/-- Gears with opposite helix angles stay parallel. -/
theorem c35_opposite_partial (solve : (ℝ → ℝ) → ℝ) (g h : GearObj) (dir : V3) (b bias : ℝ)
    (hk : g.kind = .helical) (hk' : h.kind ≠ .cycloid) (hc : g.coneAngle = 0)
    (hc' : h.coneAngle = 0) (hdir : dir ≠ 0) (hD : 0 < g.meshDistance solve h 0)
    (hβ : g.helixAngle = -h.helixAngle) :
    ∃ g', g.meshTo solve h dir b bias = some g' ∧
      g'.transform.orientation = h.transform.orientation := by
  obtain ⟨g', e, -, ho⟩ := meshToHelical_eq solve g h dir b bias _ hk hk' hc hc' hdir rfl hD
  refine ⟨g', e, ?_⟩
  rw [ho, hβ, neg_add_cancel, rotMat_zero, one_mul]

/-- A sample gear with a helix angle. -/
noncomputable def sampleHelical (kind : GearKind) (N rb ab β : ℝ) (ring : Bool) : GearObj :=
  { sampleGear kind N rb ab ring with helixAngle := β }

/-- **C35 is violated for ring gears**: a pinion and a ring gear with the same helix angle (π/4) should
keep parallel axes; `mesh_to` tilts the pinion by the sum of the helix angles, here to perpendicular
axes. -/
theorem c35_ring_violated : ∃ (solve : (ℝ → ℝ) → ℝ) (g h : GearObj) (dir : V3) (g' : GearObj),
    g.kind = .helical ∧ h.kind = .involute ∧ g.insideTeeth = false ∧ h.insideTeeth = true ∧
    g.helixAngle = h.helixAngle ∧ dir ≠ 0 ∧ dot dir h.transform.zAxis = 0 ∧
    0 < g.rBase ∧ g.rBase < h.rBase ∧
    meshResidual g.rBase h.rBase (-g.angleBase) (-h.angleBase) h.pitchAngle true 0
      (solve (meshResidual g.rBase h.rBase (-g.angleBase) (-h.angleBase) h.pitchAngle true 0)) = 0 ∧
    g.meshTo solve h dir 0 0 = some g' ∧ dot g'.transform.zAxis h.transform.zAxis = 0 := by
  have hdir : (![1, 0, 0] : V3) ≠ 0 := by intro h; have := congrFun h 0; simp at this
  have hn : norm3 ![1, 0, 0] = 1 := norm3_eq_of_dot zero_le_one (by simp [dot])
  have hD : 0 < (sampleHelical .helical 4 1 0 (π / 4) false).meshDistance (fun _ => 0)
      (sampleHelical .involute 8 2 0 (π / 4) true) 0 := by
    simp [GearObj.meshDistance, calcInvoluteMeshDistance, sampleHelical, sampleGear,
      GearObj.insideTeeth, GearObj.rBase]
  obtain ⟨g', e, -, ho⟩ := meshToHelical_eq (fun _ => 0) (sampleHelical .helical 4 1 0 (π / 4) false)
    (sampleHelical .involute 8 2 0 (π / 4) true) ![1, 0, 0] 0 0 _ rfl
    (by simp [sampleHelical, sampleGear]) rfl rfl hdir rfl hD
  refine ⟨fun _ => 0, sampleHelical .helical 4 1 0 (π / 4) false,
    sampleHelical .involute 8 2 0 (π / 4) true, ![1, 0, 0], g', rfl, rfl, rfl, rfl, rfl, hdir, ?_,
    ?_, ?_, ?_, e, ?_⟩
  · simp [sampleHelical, sampleGear, TransformData.zAxis, dot]
  · norm_num [sampleHelical, sampleGear, GearObj.rBase]
  · norm_num [sampleHelical, sampleGear, GearObj.rBase]
  · simp [meshResidual, sampleHelical, sampleGear, GearObj.rBase, GearObj.angleBase]
  · have hz : (sampleHelical .involute 8 2 0 (π / 4) true).transform.zAxis = OUT := by
      rw [zAxis_eq]; simp [sampleHelical, sampleGear, app_one]
    rw [hz, zAxis_eq, ho, hn, app_mul, ← zAxis_eq, hz, app_rotMat, rodrigues_perp
      (by simp [dot, OUT]),
      show (sampleHelical .helical 4 1 0 (π / 4) false).helixAngle +
        (sampleHelical .involute 8 2 0 (π / 4) true).helixAngle = π / 2 by
          simp [sampleHelical]; ring]
    simp [dot, OUT, cross]

/-- Concrete case for the external theorem: base radii 1 and 2, helix angles 1 and −1/2. -/
example : let g := sampleHelical .helical 4 1 0 1 false
    let h := sampleHelical .helical 8 2 0 (-1 / 2) false
    0 < g.rBase ∧ 0 < h.rBase ∧ IsRot h.transform.orientation ∧
      dot ![1, 0, 0] h.transform.zAxis = 0 ∧ (0 : ℝ) ∈ Set.Ioo (-(π / 2)) (π / 2) := by
  have := pi_pos
  intro g h
  refine ⟨?_, ?_, IsRot.one, ?_, by linarith, by linarith⟩
  · norm_num [g, sampleHelical, sampleGear, GearObj.rBase]
  · norm_num [h, sampleHelical, sampleGear, GearObj.rBase]
  · simp [h, sampleHelical, sampleGear, TransformData.zAxis, dot]

end Verif
