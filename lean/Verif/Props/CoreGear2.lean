import Verif.Props.CoreGear
import Verif.Props.Build

/-! # Properties C116 and C117: meshing core gears, and the sphere centres they report -/

namespace Verif

open Real

/-! ### C116 -/

/-- The apex of a cone with half angle `γ` over the pitch circle of the placed gear: on the axis, at the height where a
cone over a circle with radius `N/2` times the scale closes. -/
noncomputable def coreApex (g : CoreGear) (γ : ℝ) : V3 :=
  g.transform.center + (g.tooth.numTeeth / 2 * g.transform.scale / tan γ) • g.transform.zAxis

/-- **C116, cylindrical gears.** Meshing two cylindrical core gears along a unit `target_dir` perpendicular to the axis:
the axes become parallel, the centres are `rp1 + rp2` apart along `target_dir` (the difference if one is a ring), the
size does not change, and the teeth of one gear face the gaps of the other at the line of centres (the teeth of a ring
and a pinion coincide in phase). -/
theorem c116_cylindrical_partial (g h : CoreGear) (c1 c2 : ConicData) (N1 N2 : ℕ) (hN1 : 0 < N1) (hN2 : 0 < N2)
    (e1 : g.tooth.numTeeth = N1) (e2 : h.tooth.numTeeth = N2) (hc1 : g.cone = some c1) (hc2 : h.cone = some c2)
    (z1 : c1.coneAngle = 0) (z2 : c2.coneAngle = 0) (d : V3) (hd : dot d d = 1) (D : ℝ)
    (hD : D = if g.tooth.insideTeeth || h.tooth.insideTeeth then |g.rp - h.rp| else g.rp + h.rp)
    (hpos : 1 / 10 ^ 12 ≤ D) :
    ∃ g', g.meshTo h d = some g' ∧ g'.transform.zAxis = h.transform.zAxis ∧
      g'.transform.center = h.transform.center + D • d ∧ norm3 (g'.transform.center - h.transform.center) = D ∧
      g'.transform.scale = g.transform.scale ∧ g'.tooth = g.tooth ∧
      (g.tooth.insideTeeth = false → h.tooth.insideTeeth = false → ∀ δ1 δ2,
        SeenAt g'.transform.orientation (-d) δ1 → SeenAt h.transform.orientation d δ2 →
        CongrOne ((g'.transform.angle - δ1) / (2 * π / N1) + (h.transform.angle - δ2) / (2 * π / N2)) (1 / 2)) ∧
      (g.tooth.insideTeeth = false → h.tooth.insideTeeth = true → ∀ δ1 δ2,
        SeenAt g'.transform.orientation d δ1 → SeenAt h.transform.orientation d δ2 →
        CongrOne ((g'.transform.angle - δ1) / (2 * π / N1)) ((h.transform.angle - δ2) / (2 * π / N2))) ∧
      (g.tooth.insideTeeth = true → ∀ δ1 δ2,
        SeenAt g'.transform.orientation (-d) δ1 → SeenAt h.transform.orientation (-d) δ2 →
        CongrOne ((g'.transform.angle - δ1) / (2 * π / N1)) ((h.transform.angle - δ2) / (2 * π / N2))) := by
  have hDp : 0 < D := lt_of_lt_of_le (by norm_num) hpos
  have hnd : norm3 d = 1 := norm3_eq_of_dot zero_le_one (by rw [hd]; norm_num)
  have hm : g.meshTo h d = some (g.placeAt h (D • d + h.transform.center) h.transform.orientation) := by
    simp only [CoreGear.meshTo, hc1, hc2, z1, z2, ne_eq, not_true_eq_false, or_self, if_false, hD]
  have hdiff : h.transform.center - (D • d + h.transform.center) = D • (-d) := by module
  have hdiff' : (D • d + h.transform.center) - h.transform.center = D • d := by module
  have hn1 : 1 / 10 ^ 12 ≤ norm3 (h.transform.center - (D • d + h.transform.center)) := by
    rw [hdiff, norm3_smul, norm3_neg, hnd, abs_of_pos hDp, mul_one]; exact hpos
  refine ⟨_, hm, rfl, by rw [add_comm]; rfl, ?_, rfl, rfl, ?_, ?_, ?_⟩
  · change norm3 ((D • d + h.transform.center) - h.transform.center) = D
    rw [hdiff', norm3_smul, hnd, abs_of_pos hDp, mul_one]
  · intro i1 i2 δ1 δ2 s1 s2
    simp only [CoreGear.placeAt, GearToothParam.pitchAngle, i1, i2, e1, e2]
    exact c30_external_whole _ h.transform N1 N2 hN1 hN2 δ1 δ2 hn1 (by dsimp only; rw [hdiff]; exact s1.smul hDp)
      (by dsimp only; rw [hdiff']; exact s2.smul hDp)
  · intro i1 i2 δ1 δ2 s1 s2
    simp only [CoreGear.placeAt, GearToothParam.pitchAngle, i1, i2, e1, e2]
    exact c30_ring2_whole _ h.transform N1 N2 hN1 hN2 δ1 δ2 hn1 (by dsimp only; rw [hdiff']; exact s1.smul hDp)
      (by dsimp only; rw [hdiff']; exact s2.smul hDp)
  · intro i1 δ1 δ2 s1 s2
    simp only [CoreGear.placeAt, GearToothParam.pitchAngle, i1, e1, e2]
    exact c30_ring1_whole _ h.transform N1 N2 hN1 hN2 _ δ1 δ2 hn1 (by dsimp only; rw [hdiff]; exact s1.smul hDp)
      (by dsimp only; rw [hdiff]; exact s2.smul hDp)

/-- A core gear with 20 teeth, heights 0 and 2 and half cone angle `γ`. -/
noncomputable def sampleCore (m γ : ℝ) : CoreGear := CoreGear.make [0, 2] m ⟨20, 0, false⟩ (2 * γ) none

theorem sampleCore_slice (m γ z : ℝ) (h1 : -π < γ) (h2 : γ ≤ π) (hz : |z| ≤ 2) :
    (sampleCore m γ).slice z = some ⟨2 * defaultGamma γ, 10, ⟨⟨(z * cos γ) • OUT, 1, 1 - z * 2 * sin γ / 20⟩, 0⟩⟩ := by
  have ha := abs_sin_le_one γ
  have hb := abs_le.1 ha
  have hd : DELTA = 1 / 1000000 := rfl
  have hzs : |z * sin γ| ≤ 2 := by
    rw [abs_mul]
    nlinarith [abs_nonneg z, abs_nonneg (sin γ)]
  have hzs' := abs_le.1 hzs
  have := make_slice [0, 2] m ⟨20, 0, false⟩ γ none 2 z (by simp) (by norm_num) (by norm_num) h1 h2
    (by norm_num; linarith) (by rw [hd]; norm_num; nlinarith) (by rw [hd]; norm_num; nlinarith)
  rw [sampleCore, this]
  norm_num

theorem sampleCore_cone (m γ : ℝ) (h1 : -π < γ) (h2 : γ ≤ π) :
    (sampleCore m γ).cone = some ⟨2 * defaultGamma γ, 10, TransformData.default⟩ := by
  rw [CoreGear.cone, sampleCore_slice m γ 0 h1 h2 (by simp)]; rfl

/-- Concrete case: two gears with 20 teeth and module 1 are placed at distance 20. -/
example : ∃ g', (sampleCore 1 0).meshTo (sampleCore 1 0) RIGHT = some g' ∧
    norm3 (g'.transform.center - (sampleCore 1 0).transform.center) = 20 := by
  have hc := sampleCore_cone 1 0 (by linarith [pi_pos]) pi_pos.le
  obtain ⟨g', h1, -, -, h2, -⟩ := c116_cylindrical_partial (sampleCore 1 0) (sampleCore 1 0) _ _ 20 20 (by norm_num)
    (by norm_num) (by simp [sampleCore, CoreGear.make]) (by simp [sampleCore, CoreGear.make]) hc hc
    (by simp [defaultGamma]) (by simp [defaultGamma]) RIGHT (by simp [dot, RIGHT]) 20
    (by norm_num [sampleCore, CoreGear.make, CoreGear.rp]) (by norm_num)
  exact ⟨g', h1, h2⟩

/-- **C116 is violated for a `target_dir` that is not a unit vector**: the distance between the axes is multiplied by its
length. Two gears with 20 teeth meshed along `(2, 0, 0)` are 40 apart although their pitch radii are 10. (The wrapper
classes normalise the direction first, see C29.) -/
theorem c116_direction_violated : ∃ g', (sampleCore 1 0).meshTo (sampleCore 1 0) ![2, 0, 0] = some g' ∧
    norm3 (g'.transform.center - (sampleCore 1 0).transform.center) = 40 ∧ (sampleCore 1 0).rp = 10 := by
  have hc := sampleCore_cone 1 0 (by linarith [pi_pos]) pi_pos.le
  have hrp : (sampleCore 1 0).rp = 10 := by norm_num [sampleCore, CoreGear.make, CoreGear.rp]
  have hin : (sampleCore 1 0).tooth.insideTeeth = false := rfl
  refine ⟨_, by simp only [CoreGear.meshTo, hc, defaultGamma, if_true, mul_zero, ne_eq, not_true_eq_false, or_self,
    if_false, hin, Bool.or_self, Bool.false_eq_true, hrp]; rfl, ?_, hrp⟩
  apply norm3_eq_of_dot (by norm_num)
  simp [CoreGear.placeAt, sampleCore, CoreGear.make, GearTransform.default, TransformData.default, dot]
  norm_num

/-- The gear as the placement theorems for the wrapper classes see it, for module 1. -/
noncomputable def CoreGear.toObj (g : CoreGear) (coneAngle : ℝ) : GearObj :=
  ⟨.involute, g.tooth, g.tooth.insideTeeth, coneAngle, 0, 1, 0, 0, g.transform⟩

/-- In the position in which the code is right, the result of `mesh_to` is the one of the wrapper classes. -/
theorem meshTo_toObj {g h : CoreGear} {a1 a2 : ℝ} {d : V3} {g' : GearObj}
    (hc1 : g.cone = some ⟨a1, g.tooth.numTeeth / 2, TransformData.default⟩)
    (hc2 : h.cone = some ⟨a2, h.tooth.numTeeth / 2, TransformData.default⟩) (ha : a1 ≠ 0)
    (hs1 : g.transform.scale = 1) (hs2 : h.transform.scale = 1) (hcen : h.transform.center = 0)
    (hz : h.transform.zAxis = OUT) (hm : (g.toObj a1).meshToBevel (h.toObj a2) d = some g') :
    g.meshTo h d = some { g with transform := g'.transform } := by
  have hR : ((g.toObj a1).coneData).R = (⟨a1, g.tooth.numTeeth / 2, TransformData.default⟩ : ConicData).R := by
    simp [ConicData.R, GearObj.coneData, CoreGear.toObj, ConicData.gamma, hs1, TransformData.default,
      GearObj.pitchRadius]
  have hcen' : ((h.toObj a2).coneData).center =
      (⟨a2, h.tooth.numTeeth / 2, TransformData.default⟩ : ConicData).center := by
    have : app h.transform.orientation OUT = OUT := by rw [← zAxis_eq, hz]
    simp [ConicData.center, GearObj.coneData, CoreGear.toObj, ConicData.gamma, hs2, hcen, TransformData.default,
      GearObj.pitchRadius, applyTransform_eq, app_smul, this]
  have hzz : ((h.toObj a2).coneData).transform.zAxis = TransformData.default.zAxis := by
    change h.transform.zAxis = _
    rw [hz, zAxis_eq]; simp [TransformData.default]
  have hv : calcBevelGearPlacementVector d ((g.toObj a1).coneData) ((h.toObj a2).coneData) g.tooth.insideTeeth
      h.tooth.insideTeeth 0 = calcBevelGearPlacementVector d ⟨a1, g.tooth.numTeeth / 2, TransformData.default⟩
        ⟨a2, h.tooth.numTeeth / 2, TransformData.default⟩ g.tooth.insideTeeth h.tooth.insideTeeth 0 := by
    simp only [calcBevelGearPlacementVector, hR, hcen', hzz]
    rfl
  simp only [GearObj.meshToBevel] at hm
  rw [show (g.toObj a1).insideInput = g.tooth.insideTeeth from rfl,
    show (h.toObj a2).insideInput = h.tooth.insideTeeth from rfl, hv] at hm
  simp only [CoreGear.meshTo, hc1, hc2]
  rw [if_pos (Or.inl ha)]
  cases hv' : calcBevelGearPlacementVector d ⟨a1, g.tooth.numTeeth / 2, TransformData.default⟩
        ⟨a2, h.tooth.numTeeth / 2, TransformData.default⟩ g.tooth.insideTeeth h.tooth.insideTeeth 0 with
  | none => rw [hv'] at hm; simp at hm
  | some v0 =>
    rw [hv'] at hm
    simp only at hm ⊢
    cases ho : calcMeshOrientation a1 a2 (⟨a1, g.tooth.numTeeth / 2, TransformData.default⟩ : ConicData).R h.transform
        g.tooth.insideTeeth h.tooth.insideTeeth d 0 with
    | none => rw [show calcMeshOrientation (g.toObj a1).coneAngle (h.toObj a2).coneAngle
        (⟨(g.toObj a1).coneAngle, (g.toObj a1).tooth.numTeeth / 2, TransformData.default⟩ : ConicData).R
        (h.toObj a2).transform g.tooth.insideTeeth h.tooth.insideTeeth d 0 = none from ho] at hm; simp at hm
    | some o =>
      rw [show calcMeshOrientation (g.toObj a1).coneAngle (h.toObj a2).coneAngle
        (⟨(g.toObj a1).coneAngle, (g.toObj a1).tooth.numTeeth / 2, TransformData.default⟩ : ConicData).R
        (h.toObj a2).transform g.tooth.insideTeeth h.tooth.insideTeeth d 0 = some o from ho] at hm
      simp only [Option.some.injEq] at hm
      rw [← hm]
      rfl

/-- Hypotheses on a conical core gear: the recipe has the cone over the pitch circle with an acute half angle. -/
structure CoreBevel (g : CoreGear) (a : ℝ) : Prop where
  cone : g.cone = some ⟨a, g.tooth.numTeeth / 2, TransformData.default⟩
  teeth : 0 < g.tooth.numTeeth
  outside : g.tooth.insideTeeth = false
  rot : IsRot g.transform.orientation
  gpos : 0 < a / 2
  glt : a / 2 < π / 2

/-- **C116, conical gears: what holds.** If both gears have scale 1 and the partner is still centred at the origin with
its axis along z, the pitch cones get a common apex, the axes the angle `γ1 + γ2`, and the cones touch along a common
generator on the side of `target_dir`. -/
theorem c116_bevel_partial (g h : CoreGear) (a1 a2 : ℝ) (d : V3) (hg : CoreBevel g a1) (hh : CoreBevel h a2)
    (hs1 : g.transform.scale = 1) (hs2 : h.transform.scale = 1) (hcen : h.transform.center = 0)
    (hz : h.transform.zAxis = OUT) (hproj : 1 / 10 ^ 12 ≤ norm3 (d - dot d OUT • OUT)) :
    ∃ g', g.meshTo h d = some g' ∧ coreApex g' (a1 / 2) = coreApex h (a2 / 2) ∧ g'.transform.scale = 1 ∧
      dot g'.transform.zAxis h.transform.zAxis = cos (a1 / 2 + a2 / 2) ∧
      ∃ e, dot e e = 1 ∧ dot e (-g'.transform.zAxis) = cos (a1 / 2) ∧ dot e (-h.transform.zAxis) = cos (a2 / 2) ∧
        0 < dot e (d - dot d OUT • OUT) := by
  have hgo : (g.toObj a1).BevelOk := ⟨⟨hg.rot, hs1⟩, one_pos, hg.teeth, hg.gpos, hg.glt⟩
  have hho : (h.toObj a2).BevelOk := ⟨⟨hh.rot, hs2⟩, one_pos, hh.teeth, hh.gpos, hh.glt⟩
  have hi1 : (g.toObj a1).insideInput = false := hg.outside
  have hi2 : (h.toObj a2).insideInput = false := hh.outside
  obtain ⟨g', e1, e2, e3, e, p1, p2, p3, -, -⟩ := bevel_core (d := d) (φ := a1 / 2 + a2 / 2) hgo hho
    (by change 1 / 10 ^ 12 ≤ norm3 (d - dot d h.transform.zAxis • h.transform.zAxis); rw [hz]; exact hproj)
    (by intro R; simp [bevelAngleRef, hi1, hi2]; rfl)
    (by change cos (a2 / 2 - (a1 / 2 + a2 / 2)) = cos (a1 / 2)
        rw [show a2 / 2 - (a1 / 2 + a2 / 2) = -(a1 / 2) by ring, cos_neg])
    (sin_pos_of_pos_of_lt_pi (by linarith [hg.gpos, hh.gpos]) (by linarith [hg.glt, hh.glt])).ne'
  have ha : a1 ≠ 0 := by have := hg.gpos; intro h0; rw [h0] at this; simp at this
  have hm := meshTo_toObj hg.cone hh.cone ha hs1 hs2 hcen hz e1
  -- the wrapper method keeps everything but the placement
  have hkeep : g'.tooth = g.tooth ∧ g'.coneAngle = a1 ∧ g'.module_ = 1 ∧ g'.transform.scale = 1 := by
    simp only [GearObj.meshToBevel] at e1
    split at e1
    · cases e1
    · split at e1
      · cases e1
      · obtain rfl := Option.some.inj e1
        exact ⟨rfl, rfl, rfl, hs1⟩
  obtain ⟨k1, k2, k3, k4⟩ := hkeep
  refine ⟨_, hm, ?_, k4, e3, e, p1.1, ?_, p2.2, ?_⟩
  · rw [pitchApex, pitchApex] at e2
    simp only [GearObj.pitchRadius, k1, k2, k3] at e2
    simp only [coreApex, k4, hs2, mul_one]
    rw [mul_one] at e2
    rw [e2]
    simp [CoreGear.toObj]
  · have := p1.2
    rw [k2] at this
    exact this
  · change 0 < dot e d - dot e h.transform.zAxis * dot d h.transform.zAxis at p3
    rw [hz] at p3
    rw [dot_sub_right, dot_smul_right]
    linarith

/-- The placement computed for conical gears depends on the cones, on the orientation of the partner and on the
direction only. -/
theorem meshTo_bevel_indep {g h g2 h2 g' : CoreGear} {c1 c2 : ConicData} {d : V3} (hc1 : g.cone = some c1)
    (hc2 : h.cone = some c2) (ha : c1.coneAngle ≠ 0) (k1 : g2.cone = some c1) (k2 : h2.cone = some c2)
    (t1 : g2.tooth = g.tooth) (t2 : h2.tooth = h.tooth) (ho : h2.transform.orientation = h.transform.orientation)
    (hm : g.meshTo h d = some g') :
    ∃ g2', g2.meshTo h2 d = some g2' ∧ g2'.transform.center = g'.transform.center ∧
      g2'.transform.orientation = g'.transform.orientation ∧ g2'.transform.scale = g2.transform.scale ∧
      g2'.tooth = g2.tooth := by
  simp only [CoreGear.meshTo, hc1, hc2, if_pos (Or.inl ha : c1.coneAngle ≠ 0 ∨ c2.coneAngle ≠ 0)] at hm
  simp only [CoreGear.meshTo, k1, k2, if_pos (Or.inl ha : c1.coneAngle ≠ 0 ∨ c2.coneAngle ≠ 0), t1, t2]
  have hcalc : ∀ R, calcMeshOrientation c1.coneAngle c2.coneAngle R h2.transform g.tooth.insideTeeth
      h.tooth.insideTeeth d 0 = calcMeshOrientation c1.coneAngle c2.coneAngle R h.transform g.tooth.insideTeeth
      h.tooth.insideTeeth d 0 := by
    intro R
    have hx : h2.transform.xAxis = h.transform.xAxis := by funext i; simp only [TransformData.xAxis, ho]
    have hz : h2.transform.zAxis = h.transform.zAxis := by funext i; simp only [TransformData.zAxis, ho]
    simp only [calcMeshOrientation, hx, hz, ho]
  rw [hcalc]
  split at hm
  · rename_i v0 o hv0 ho'
    obtain rfl := Option.some.inj hm
    exact ⟨_, rfl, rfl, rfl, rfl, t1⟩
  · cases hm

/-- **C116 is violated for a partner that was moved.** The placement of a conical core gear ignores where the partner
is: if the partner is moved from the origin by `c`, the two apexes are apart by exactly `c`. -/
theorem c116_moved_violated (g h : CoreGear) (a1 a2 : ℝ) (d c : V3) (hg : CoreBevel g a1) (hh : CoreBevel h a2)
    (hs1 : g.transform.scale = 1) (hs2 : h.transform.scale = 1) (hcen : h.transform.center = c)
    (hz : h.transform.zAxis = OUT) (hproj : 1 / 10 ^ 12 ≤ norm3 (d - dot d OUT • OUT)) :
    ∃ g', g.meshTo h d = some g' ∧ coreApex h (a2 / 2) - coreApex g' (a1 / 2) = c := by
  obtain ⟨h0, hh0⟩ : ∃ h0 : CoreGear, h0 = { h with transform := { h.transform with center := 0 } } := ⟨_, rfl⟩
  have hb0 : CoreBevel h0 a2 := by rw [hh0]; exact ⟨hh.cone, hh.teeth, hh.outside, hh.rot, hh.gpos, hh.glt⟩
  have hc0 : h0.cone = some ⟨a2, h.tooth.numTeeth / 2, TransformData.default⟩ := by rw [hh0]; exact hh.cone
  obtain ⟨g1, m1, q1, s1, -⟩ := c116_bevel_partial g h0 a1 a2 d hg hb0 hs1 (by rw [hh0]; exact hs2) (by rw [hh0])
    (by rw [hh0]; exact hz) hproj
  have ha : a1 ≠ 0 := by have := hg.gpos; intro h0; rw [h0] at this; simp at this
  obtain ⟨g2, m2, p1, p2, p3, p4⟩ := meshTo_bevel_indep (g2 := g) (h2 := h) hg.cone hc0 ha hg.cone hh.cone rfl
    (by rw [hh0]) (by rw [hh0]) m1
  obtain ⟨g3, m3, r1, r2, r3, r4⟩ := meshTo_bevel_indep (g2 := g) (h2 := h0) hg.cone hh.cone ha hg.cone hc0 rfl
    (by rw [hh0]) (by rw [hh0]) m2
  rw [m1] at m3
  obtain rfl := Option.some.inj m3
  refine ⟨g2, m2, ?_⟩
  have e : coreApex g2 (a1 / 2) = coreApex g1 (a1 / 2) := by
    simp only [coreApex, p1, p3, p4, r3, r4, zAxis_eq, p2]
  rw [e, q1, hh0, ← hcen]
  change h.transform.center + _ - ((0 : V3) + _) = _
  rw [zero_add]
  exact add_sub_cancel_right _ _

/-- **C116 is violated for a module other than 1.** The placement of conical core gears uses the unscaled cones: with
the same module `m ≠ 1` for both gears the apexes never coincide. -/
theorem c116_module_violated (g h : CoreGear) (a1 a2 m : ℝ) (d : V3) (hg : CoreBevel g a1) (hh : CoreBevel h a2)
    (hs1 : g.transform.scale = m) (hs2 : h.transform.scale = m) (hm : m ≠ 1) (hcen : h.transform.center = 0)
    (hz : h.transform.zAxis = OUT) (hproj : 1 / 10 ^ 12 ≤ norm3 (d - dot d OUT • OUT)) :
    ∃ g', g.meshTo h d = some g' ∧ coreApex g' (a1 / 2) ≠ coreApex h (a2 / 2) := by
  obtain ⟨h0, hh0⟩ : ∃ h0 : CoreGear, h0 = { h with transform := { h.transform with scale := 1 } } := ⟨_, rfl⟩
  obtain ⟨g0, hg0⟩ : ∃ g0 : CoreGear, g0 = { g with transform := { g.transform with scale := 1 } } := ⟨_, rfl⟩
  have hb0 : CoreBevel h0 a2 := by rw [hh0]; exact ⟨hh.cone, hh.teeth, hh.outside, hh.rot, hh.gpos, hh.glt⟩
  have gb0 : CoreBevel g0 a1 := by rw [hg0]; exact ⟨hg.cone, hg.teeth, hg.outside, hg.rot, hg.gpos, hg.glt⟩
  have hc0 : h0.cone = some ⟨a2, h.tooth.numTeeth / 2, TransformData.default⟩ := by rw [hh0]; exact hh.cone
  have gc0 : g0.cone = some ⟨a1, g.tooth.numTeeth / 2, TransformData.default⟩ := by rw [hg0]; exact hg.cone
  obtain ⟨g1, m1, q1, s1, q2, -⟩ := c116_bevel_partial g0 h0 a1 a2 d gb0 hb0 (by rw [hg0]) (by rw [hh0])
    (by rw [hh0]; exact hcen) (by rw [hh0]; exact hz) hproj
  have ha : a1 ≠ 0 := by have := hg.gpos; intro h0; rw [h0] at this; simp at this
  obtain ⟨g2, m2, p1, p2, p3, p4⟩ := meshTo_bevel_indep (g2 := g) (h2 := h) gc0 hc0 ha hg.cone hh.cone (by rw [hg0])
    (by rw [hh0]) (by rw [hh0]) m1
  obtain ⟨g3, m3, r1, r2, r3, r4⟩ := meshTo_bevel_indep (g2 := g0) (h2 := h0) hg.cone hh.cone ha gc0 hc0 (by rw [hg0])
    (by rw [hh0]) (by rw [hh0]) m2
  rw [m1] at m3
  obtain rfl := Option.some.inj m3
  refine ⟨g2, m2, fun heq => ?_⟩
  have hz1 : g2.transform.zAxis = g1.transform.zAxis := by rw [zAxis_eq, zAxis_eq, p2]
  have ht1 : g1.tooth = g.tooth := by rw [r4, hg0]
  obtain ⟨t1, ht1p⟩ : ∃ t, t = g.tooth.numTeeth / 2 / tan (a1 / 2) := ⟨_, rfl⟩
  obtain ⟨t2, ht2p⟩ : ∃ t, t = h.tooth.numTeeth / 2 / tan (a2 / 2) := ⟨_, rfl⟩
  have hp1 : 0 < t1 := by
    have := tan_pos_of_pos_of_lt_pi_div_two hg.gpos hg.glt
    have := hg.teeth
    rw [ht1p]; positivity
  have hp2 : 0 < t2 := by
    have := tan_pos_of_pos_of_lt_pi_div_two hh.gpos hh.glt
    have := hh.teeth
    rw [ht2p]; positivity
  have hzh : h0.transform.zAxis = OUT := by rw [hh0]; exact hz
  have q1' : g1.transform.center + t1 • g1.transform.zAxis = t2 • OUT := by
    have := q1
    simp only [coreApex, s1, ht1, hzh] at this
    rw [hh0] at this
    simp only [hcen] at this
    rw [ht1p, ht2p]
    simpa using this
  have q3 : g1.transform.center + (m * t1) • g1.transform.zAxis = (m * t2) • OUT := by
    have := heq
    simp only [coreApex, p1, hz1, p3, p4, hs1, hs2, hcen, hz] at this
    rw [ht1p, ht2p]
    rw [zero_add] at this
    convert this using 3 <;> ring
  have q4 : t1 • g1.transform.zAxis = t2 • OUT := by
    have h1 : (m - 1) • (t1 • g1.transform.zAxis) = (m - 1) • (t2 • OUT) := by
      have : (m - 1) • (t1 • g1.transform.zAxis) = (g1.transform.center + (m * t1) • g1.transform.zAxis) -
          (g1.transform.center + t1 • g1.transform.zAxis) := by module
      rw [this, q1', q3]; module
    exact smul_right_injective V3 (sub_ne_zero.2 hm) h1
  have hO : dot OUT OUT = 1 := by simp [dot, OUT]
  rw [hzh] at q2
  have q5 : t1 * cos (a1 / 2 + a2 / 2) = t2 := by
    have := congrArg (fun v => dot v OUT) q4
    simp only [dot_smul_left, q2, hO, mul_one] at this
    exact this
  have hcl : cos (a1 / 2 + a2 / 2) < 1 := by
    have h1 := hg.gpos
    have h2 := hh.gpos
    have h3 := hg.glt
    have h4 := hh.glt
    have := cos_lt_cos_of_nonneg_of_le_pi (x := 0) (y := a1 / 2 + a2 / 2) le_rfl (by linarith) (by linarith)
    rwa [cos_zero] at this
  have hrot : dot g1.transform.zAxis g1.transform.zAxis = 1 := by
    rw [← hz1]
    have : IsRot g2.transform.orientation := by
      simp only [CoreGear.meshTo, hg.cone, hh.cone] at m2
      rw [if_pos (Or.inl ha)] at m2
      split at m2
      · rename_i v0 o hv0 ho'
        obtain rfl := Option.some.inj m2
        exact calcMeshOrientation_rot hh.rot ho'
      · cases m2
    exact zAxis_unit this
  have q7 : t1 * t1 = t2 * t2 := by
    have := congrArg (fun v => dot v v) q4
    simp only [dot_smul_left, dot_smul_right, hrot, hO, mul_one] at this
    exact this
  have q8 : t1 = t2 := by nlinarith
  rw [← q8] at q5
  nlinarith

/-- The sample gear with a cone of half angle `10⁻⁶` times a whole number meets the hypotheses of the theorems above. -/
theorem c116_case (m : ℝ) : CoreBevel (sampleCore m (785398 * DELTA)) (2 * (785398 * DELTA)) ∧
    (sampleCore m (785398 * DELTA)).transform.zAxis = OUT ∧ (sampleCore m (785398 * DELTA)).transform.scale = m ∧
    (sampleCore m (785398 * DELTA)).transform.center = 0 ∧ 1 / 10 ^ 12 ≤ norm3 (RIGHT - dot RIGHT OUT • OUT) := by
  have hpi := Real.pi_gt_three
  have hd : DELTA = 1 / 1000000 := rfl
  have hg : defaultGamma (785398 * DELTA) = 785398 * DELTA := by
    rw [defaultGamma, if_neg (by rw [hd]; norm_num), roundGamma, if_neg (by rw [hd]; norm_num),
      mul_div_assoc, div_self (by rw [hd]; norm_num), mul_one]
    have := npRound_nat 785398
    norm_num at this
    rw [this]; norm_num
  have hc := sampleCore_cone m (785398 * DELTA) (by rw [hd]; linarith) (by rw [hd]; linarith)
  rw [hg] at hc
  refine ⟨⟨?_, ?_, rfl, IsRot.one, ?_, ?_⟩, ?_, rfl, ?_, ?_⟩
  · rw [hc]; norm_num [sampleCore, CoreGear.make]
  · norm_num [sampleCore, CoreGear.make]
  · rw [hd]; norm_num
  · rw [hd]; linarith
  · rw [zAxis_eq]; simp [sampleCore, CoreGear.make, GearTransform.default, TransformData.default]
  · simp [sampleCore, CoreGear.make, GearTransform.default, TransformData.default]
  · have h1 : dot RIGHT OUT = 0 := by simp [dot, RIGHT, OUT]
    have h2 : norm3 RIGHT = 1 := norm3_eq_of_dot (by norm_num) (by simp [dot, RIGHT])
    rw [h1, zero_smul, sub_zero, h2]; norm_num

/-! ### C117 -/

/-- **C117, positive cone angles.** For a core gear whose transform has the module as its scale, `center_sphere` is the
apex of the pitch cone and agrees with `sphere_data_at_z(0)`; every point of the pitch circle has the distance `R` from
it. -/
theorem c117_center_partial (g : CoreGear) (γ : ℝ) (hs : g.slice 0 = some ⟨2 * γ, g.tooth.numTeeth / 2, ⟨⟨0, 1, 1⟩, 0⟩⟩)
    (hN : 0 < g.tooth.numTeeth) (hm : 0 < g.module_) (hscale : g.transform.scale = g.module_)
    (hrot : IsRot g.transform.orientation) (h1 : 0 < γ) (h2 : γ < π / 2) :
    ∃ R, g.R = some R ∧ g.centerSphere = some (coreApex g γ) ∧ g.sphereDataAtZ 0 = some (coreApex g γ, R) ∧
      ∀ φ, norm3 (applyGearTransform ((g.tooth.numTeeth / 2) • polarVec φ) g.transform - coreApex g γ) = R := by
  have hs1 : 0 < sin γ := sin_pos_of_pos_of_lt_pi h1 (by linarith [pi_pos])
  have hc1 : 0 < cos γ := cos_pos' (by linarith [pi_pos]) h2
  have h2γ : 2 * γ / 2 = γ := by ring
  refine ⟨g.tooth.numTeeth / 2 / sin γ * g.module_, ?_, ?_, ?_, ?_⟩
  · simp only [CoreGear.R, CoreGear.cone, hs, Option.map_some, ConicData.R, ConicData.gamma, TransformData.default, h2γ,
      mul_one]
    rw [abs_of_pos (by positivity)]
  · simp only [CoreGear.centerSphere, CoreGear.R, CoreGear.cone, hs, Option.map_some, Option.bind_some, ConicData.R,
      ConicData.gamma, TransformData.default, h2γ, mul_one, coreApex, hscale]
    rw [abs_of_pos (by positivity), tan_eq_sin_div_cos]
    congr 3
    field_simp
  · simp only [CoreGear.sphereDataAtZ, CoreGear.coneAtZ, hs, Option.map_some, ConicData.R, ConicData.center,
      ConicData.gamma, h2γ, applyTransform_eq, GearTransform.mul, mul_one, hscale, coreApex, zAxis_eq, app_smul,
      app_def, app_zero, smul_zero, add_zero, smul_smul]
    rw [abs_of_pos (by positivity), Option.some.injEq, Prod.mk.injEq]
    refine ⟨?_, rfl⟩
    rw [add_comm]
    congr 2
    ring
  · intro φ
    have e : applyGearTransform ((g.tooth.numTeeth / 2) • polarVec φ) g.transform - coreApex g γ =
        app g.transform.orientation (g.module_ • (app (Rz g.transform.angle) ((g.tooth.numTeeth / 2) • polarVec φ)) -
          (g.tooth.numTeeth / 2 * g.module_ / tan γ) • OUT) := by
      simp only [applyGearTransform_eq, coreApex, zAxis_eq, app_sub, app_smul, hscale]
      abel
    rw [e, hrot.norm_app]
    apply norm3_eq_of_dot (by positivity)
    simp only [dot, polarVec, OUT, Rz_app, Pi.sub_apply, Pi.smul_apply, smul_eq_mul, Matrix.cons_val_zero,
      Matrix.cons_val_one, Matrix.cons_val]
    rw [tan_eq_sin_div_cos]
    have k1 := sin_sq_add_cos_sq γ
    have k2 := sin_sq_add_cos_sq φ
    have k3 := sin_sq_add_cos_sq g.transform.angle
    field_simp
    have k4 : (cos g.transform.angle * cos φ - sin g.transform.angle * sin φ) ^ 2 +
      (sin g.transform.angle * cos φ + cos g.transform.angle * sin φ) ^ 2 = 1 := by
        rw [← cos_add, ← sin_add, add_comm]; exact sin_sq_add_cos_sq _
    ring_nf at k4 ⊢
    nlinarith

/-- **C117, cone data.** For any cone data the apex lies on the axis of the transform at the (signed) `height` above the
base centre, and every point of the placed base circle has the distance `R` from it. -/
theorem c117_cone (c : ConicData) (hrot : IsRot c.transform.orientation) (hγ : sin c.gamma ≠ 0) :
    c.center = c.centerBase + c.height • c.transform.zAxis ∧
      ∀ φ, norm3 (applyTransform (c.baseRadius • polarVec φ) c.transform - c.center) = c.R := by
  have hz := zAxis_eq c.transform
  have e : c.center = c.centerBase + c.height • c.transform.zAxis := by
    simp only [ConicData.center, ConicData.centerBase, ConicData.height, applyTransform_eq, ORIGIN_eq, app_zero,
      smul_zero, zero_add, hz, app_smul]
    module
  refine ⟨e, fun φ => ?_⟩
  have e2 : applyTransform (c.baseRadius • polarVec φ) c.transform - c.center = app c.transform.orientation
      ((c.transform.scale * c.baseRadius) • polarVec φ - c.height • OUT) := by
    rw [e]
    simp only [ConicData.centerBase, applyTransform_eq, ORIGIN_eq, app_zero, smul_zero, zero_add, hz, app_smul, app_sub]
    module
  rw [e2, hrot.norm_app]
  rw [ConicData.R]
  apply norm3_eq_of_dot (abs_nonneg _)
  rw [sq_abs]
  simp only [dot, polarVec, OUT, Pi.sub_apply, Pi.smul_apply, smul_eq_mul, Matrix.cons_val_zero, Matrix.cons_val_one,
    Matrix.cons_val, ConicData.height, tan_eq_sin_div_cos]
  have k1 := sin_sq_add_cos_sq c.gamma
  have k2 := sin_sq_add_cos_sq φ
  field_simp
  linear_combination c.transform.scale ^ 2 * c.baseRadius ^ 2 * sin c.gamma ^ 2 * k2 +
    c.transform.scale ^ 2 * c.baseRadius ^ 2 * k1

/-- Concrete case: a cone with half angle `-π/4` over a circle of radius 3, scaled by 2. -/
example : IsRot (1 : M3) ∧ sin (⟨-(π / 2), 3, ⟨0, 1, 2⟩⟩ : ConicData).gamma ≠ 0 := by
  refine ⟨IsRot.one, ?_⟩
  have : (⟨-(π / 2), 3, ⟨0, 1, 2⟩⟩ : ConicData).gamma = -(π / 4) := by simp only [ConicData.gamma]; ring
  rw [this, sin_neg, sin_pi_div_four]
  have : (0:ℝ) < √2 := by positivity
  intro h; linarith

/-- **C117, all slices of a gear without a recipe share one apex, up to the rounding of the cone angle.** The sphere
centres of two slices differ by at most the distance of the slices times `DELTA / (2 |sin γ'|)`, where `γ'` is the
rounded half angle. -/
theorem c117_apex (g : CoreGear) (γ γ' z : ℝ) (hγ : |γ' - γ| ≤ DELTA / 2)
    (hs0 : g.slice 0 = some ⟨2 * γ', g.tooth.numTeeth / 2, ⟨⟨0, 1, 1⟩, 0⟩⟩)
    (hs : g.slice z = some ⟨2 * γ', g.tooth.numTeeth / 2,
      ⟨⟨(z * cos γ) • OUT, 1, 1 - z * 2 * sin γ / g.tooth.numTeeth⟩, 0⟩⟩)
    (hN : 0 < g.tooth.numTeeth) (hrot : IsRot g.transform.orientation) (hγ0 : sin γ' ≠ 0) :
    ∃ c0 R0 c R, g.sphereDataAtZ 0 = some (c0, R0) ∧ g.sphereDataAtZ z = some (c, R) ∧
      norm3 (c - c0) ≤ |g.transform.scale * z| * (DELTA / (2 * |sin γ'|)) := by
  have h2γ : 2 * γ' / 2 = γ' := by ring
  refine ⟨_, _, _, _, by rw [CoreGear.sphereDataAtZ, CoreGear.coneAtZ, hs0]; rfl,
    by rw [CoreGear.sphereDataAtZ, CoreGear.coneAtZ, hs]; rfl, ?_⟩
  have e : ∀ k l : ℝ, k = z * cos γ → l = 1 - z * 2 * sin γ / g.tooth.numTeeth →
      (⟨2 * γ', g.tooth.numTeeth / 2, (g.transform.mul ⟨⟨k • OUT, 1, l⟩, 0⟩).toTransformData⟩ : ConicData).center -
      (⟨2 * γ', g.tooth.numTeeth / 2, (g.transform.mul ⟨⟨0, 1, 1⟩, 0⟩).toTransformData⟩ : ConicData).center =
      (g.transform.scale * z * (cos γ - sin γ / tan γ')) • app g.transform.orientation OUT := by
    intro k l hk hl
    simp only [ConicData.center, ConicData.gamma, h2γ, applyTransform_eq, GearTransform.mul, mul_one, app_smul, app_def,
      app_zero, smul_zero, add_zero, app_mul, Rz_app_OUT]
    have : g.transform.scale * z * (cos γ - sin γ / tan γ') = g.transform.scale * l * (g.tooth.numTeeth / 2 / tan γ') +
        g.transform.scale * k - g.transform.scale * (g.tooth.numTeeth / 2 / tan γ') := by
      rw [hk, hl]
      field_simp
      ring
    rw [this]
    module
  rw [e _ _ rfl rfl, norm3_smul, hrot.norm_app, show norm3 OUT = 1 from norm3_eq_of_dot one_pos.le (by simp [dot, OUT]),
    mul_one, abs_mul]
  apply mul_le_mul_of_nonneg_left _ (abs_nonneg _)
  have h3 : cos γ - sin γ / tan γ' = sin (γ' - γ) / sin γ' := by
    rw [tan_eq_sin_div_cos, sin_sub]
    by_cases hc : cos γ' = 0
    · rw [hc]; field_simp
    · field_simp
  rw [h3, abs_div, div_le_div_iff₀ (abs_pos.2 hγ0) (by positivity)]
  have h4 : |sin (γ' - γ)| ≤ |γ' - γ| := abs_sin_le_abs
  have := abs_pos.2 hγ0
  nlinarith

/-- Concrete case for `c117_center_partial`: a sample gear with half angle 0.785398, module 2. -/
theorem c117_case : ∃ R, (sampleCore 2 (785398 * DELTA)).R = some R ∧
    (sampleCore 2 (785398 * DELTA)).centerSphere = some (coreApex (sampleCore 2 (785398 * DELTA)) (785398 * DELTA)) := by
  have hpi := Real.pi_gt_three
  have hd : DELTA = 1 / 1000000 := rfl
  obtain ⟨hb, -, hsc, -⟩ := c116_case 2
  have hsl := sampleCore_slice 2 (785398 * DELTA) 0 (by rw [hd]; linarith) (by rw [hd]; linarith) (by simp)
  have hcone := hb.cone
  rw [CoreGear.cone, hsl] at hcone
  simp only [Option.map_some, Option.some.injEq, ConicData.mk.injEq] at hcone
  rw [hcone.1] at hsl
  have hN : (sampleCore 2 (785398 * DELTA)).tooth.numTeeth = 20 := rfl
  obtain ⟨R, h1, h2, -⟩ := c117_center_partial (sampleCore 2 (785398 * DELTA)) (785398 * DELTA)
    (by rw [hsl, hN]; norm_num) hb.teeth (by norm_num [sampleCore, CoreGear.make])
    hsc hb.rot (by rw [hd]; norm_num) (by rw [hd]; linarith)
  exact ⟨R, h1, h2⟩

/-- **C117 is violated for negative cone angles**: `center_sphere` lies on the wrong side of the gear, at the mirror
image of the apex and not where `sphere_data_at_z(0)` has it. -/
theorem c117_negative_violated (g : CoreGear) (γ : ℝ)
    (hs : g.slice 0 = some ⟨2 * γ, g.tooth.numTeeth / 2, ⟨⟨0, 1, 1⟩, 0⟩⟩)
    (hN : 0 < g.tooth.numTeeth) (hm : 0 < g.module_) (hscale : g.transform.scale = g.module_)
    (hrot : IsRot g.transform.orientation) (h1 : γ < 0) (h2 : -(π / 2) < γ) :
    ∃ c R, g.sphereDataAtZ 0 = some (coreApex g γ, R) ∧ g.centerSphere = some c ∧ c ≠ coreApex g γ ∧
      c - g.transform.center = -(coreApex g γ - g.transform.center) := by
  have hs1 : sin γ < 0 := sin_neg_of_neg_of_neg_pi_lt h1 (by linarith [pi_pos])
  have hc1 : 0 < cos γ := cos_pos' h2 (by linarith [pi_pos])
  have h2γ : 2 * γ / 2 = γ := by ring
  have hneg : g.tooth.numTeeth / 2 / sin γ < 0 := div_neg_of_pos_of_neg (by positivity) hs1
  have hcs : g.centerSphere = some (g.transform.center -
      (g.tooth.numTeeth / 2 * g.module_ / tan γ) • g.transform.zAxis) := by
    simp only [CoreGear.centerSphere, CoreGear.R, CoreGear.cone, hs, Option.map_some, Option.bind_some, ConicData.R,
      ConicData.gamma, TransformData.default, h2γ, mul_one]
    rw [abs_of_neg hneg, tan_eq_sin_div_cos, sub_eq_add_neg, ← neg_smul]
    congr 3
    field_simp
  have hsd : ∃ R, g.sphereDataAtZ 0 = some (coreApex g γ, R) := by
    refine ⟨|g.tooth.numTeeth / 2 / sin γ * g.module_|, ?_⟩
    simp only [CoreGear.sphereDataAtZ, CoreGear.coneAtZ, hs, Option.map_some, ConicData.R, ConicData.center,
      ConicData.gamma, h2γ, applyTransform_eq, GearTransform.mul, mul_one, hscale, coreApex, zAxis_eq, app_smul,
      app_def, app_zero, smul_zero, add_zero, smul_smul]
    rw [Option.some.injEq, Prod.mk.injEq]
    refine ⟨?_, rfl⟩
    rw [add_comm]
    congr 2
    ring
  obtain ⟨R, hR⟩ := hsd
  refine ⟨_, R, hR, hcs, ?_, ?_⟩
  · intro heq
    rw [coreApex, hscale] at heq
    have h3 : (g.tooth.numTeeth / 2 * g.module_ / tan γ) • g.transform.zAxis = 0 := by
      have : (2:ℝ) • ((g.tooth.numTeeth / 2 * g.module_ / tan γ) • g.transform.zAxis) = 0 := by
        have h4 := sub_eq_zero.2 heq
        have : (2:ℝ) • ((g.tooth.numTeeth / 2 * g.module_ / tan γ) • g.transform.zAxis) =
          -(g.transform.center - (g.tooth.numTeeth / 2 * g.module_ / tan γ) • g.transform.zAxis -
          (g.transform.center + (g.tooth.numTeeth / 2 * g.module_ / tan γ) • g.transform.zAxis)) := by module
        rw [this, h4, neg_zero]
      exact (smul_eq_zero.1 this).resolve_left two_ne_zero
    have h5 := congrArg (fun v => dot v g.transform.zAxis) h3
    simp only [dot_smul_left, zAxis_unit hrot, dot_zero_left, mul_one] at h5
    rw [tan_eq_sin_div_cos, div_eq_zero_iff] at h5
    rcases h5 with h5 | h5
    · have : 0 < g.tooth.numTeeth / 2 * g.module_ := by positivity
      linarith
    · rcases div_eq_zero_iff.1 h5 with h6 | h6 <;> linarith
  · rw [coreApex, hscale]; module

theorem sampleCore_slice0 (m γ : ℝ) (h1 : -π < γ) (h2 : γ ≤ π) : (sampleCore m γ).slice 0 =
    some ⟨2 * defaultGamma γ, (sampleCore m γ).tooth.numTeeth / 2, ⟨⟨0, 1, 1⟩, 0⟩⟩ := by
  rw [sampleCore_slice m γ 0 h1 h2 (by simp), show (sampleCore m γ).tooth.numTeeth = 20 from rfl]
  norm_num

/-- Concrete case for `c117_apex`: half angle `π/4`, module 2, the slices at heights 0 and 2. -/
example : ∃ c0 R0 c R, (sampleCore 2 (π / 4)).sphereDataAtZ 0 = some (c0, R0) ∧
    (sampleCore 2 (π / 4)).sphereDataAtZ 2 = some (c, R) ∧ norm3 (c - c0) ≤ 4 * DELTA := by
  have hpi := Real.pi_gt_three
  have hpi4 := Real.pi_le_four
  have hd : DELTA = 1 / 1000000 := rfl
  have hn := defaultGamma_near (π / 4)
  have hn' := abs_le.1 hn
  have hs : 1 / 2 ≤ sin (defaultGamma (π / 4)) := by
    rw [← sin_pi_div_six]
    apply sin_le_sin_of_le_of_le_pi_div_two <;> rw [hd] at hn' <;> linarith
  obtain ⟨c0, R0, c, R, h1, h2, h3⟩ := c117_apex (sampleCore 2 (π / 4)) (π / 4) (defaultGamma (π / 4)) 2 hn
    (sampleCore_slice0 2 (π / 4) (by linarith) (by linarith))
    (by rw [sampleCore_slice 2 (π / 4) 2 (by linarith) (by linarith) (by norm_num),
      show (sampleCore 2 (π / 4)).tooth.numTeeth = 20 from rfl]; norm_num)
    (by norm_num [sampleCore, CoreGear.make]) IsRot.one (by linarith)
  refine ⟨c0, R0, c, R, h1, h2, h3.trans ?_⟩
  have e : (sampleCore 2 (π / 4)).transform.scale = 2 := rfl
  rw [e, abs_of_pos (by linarith : 0 < sin (defaultGamma (π / 4))), abs_of_pos (by norm_num)]
  rw [hd, ← mul_div_assoc, div_le_iff₀ (by linarith)]
  linarith

/-- Concrete case for `c117_negative_violated`: half angle near `-π/4`. -/
example : ∃ c R, (sampleCore 2 (-(π / 4))).sphereDataAtZ 0 =
      some (coreApex (sampleCore 2 (-(π / 4))) (defaultGamma (-(π / 4))), R) ∧
    (sampleCore 2 (-(π / 4))).centerSphere = some c ∧
      c ≠ coreApex (sampleCore 2 (-(π / 4))) (defaultGamma (-(π / 4))) := by
  have hpi := Real.pi_gt_three
  have hd : DELTA = 1 / 1000000 := rfl
  have hn' := abs_le.1 (defaultGamma_near (-(π / 4)))
  rw [hd] at hn'
  obtain ⟨c, R, h1, h2, h3, -⟩ := c117_negative_violated (sampleCore 2 (-(π / 4))) (defaultGamma (-(π / 4)))
    (sampleCore_slice0 2 (-(π / 4)) (by linarith) (by linarith)) (by norm_num [sampleCore, CoreGear.make])
    (by norm_num [sampleCore, CoreGear.make]) rfl IsRot.one (by linarith) (by linarith)
  exact ⟨c, R, h1, h2, h3⟩

/-- **C117 is violated for an explicit transform**: a core gear with module 2 that is given a transform, for instance to
choose its centre, keeps the scale of this transform. The reported pitch radius is twice the radius of the pitch circle
of the placed gear. -/
theorem c117_scale_violated : ∃ g : CoreGear, g = CoreGear.make [0, 2] 2 ⟨20, 0, false⟩ 0 (some GearTransform.default) ∧
    g.rp = 20 ∧ ∀ φ, norm3 (applyGearTransform ((20 / 2 : ℝ) • polarVec φ) g.transform - g.transform.center) = 10 := by
  refine ⟨_, rfl, by norm_num [CoreGear.rp, CoreGear.make], fun φ => ?_⟩
  rw [applyGearTransform_eq, add_sub_cancel_right]
  apply norm3_eq_of_dot (by norm_num)
  simp [CoreGear.make, GearTransform.default, TransformData.default, dot, polarVec]
  linear_combination 100 * sin_sq_add_cos_sq φ

end Verif
