import Verif.Props.MeshDistance
import Verif.Props.MeshAngle

/-! # Properties C29, C32, C35, C36, C37, C85: placement by `mesh_to` -/

namespace Verif

open Real

theorem normalizeVector_eq {v : V3} (h : v ≠ 0) : normalizeVector v = some ((norm3 v)⁻¹ • v) := by
  rw [normalizeVector, if_neg (norm3_pos h).ne']

theorem norm3_normalized {v : V3} (h : v ≠ 0) : norm3 ((norm3 v)⁻¹ • v) = 1 := by
  have := norm3_pos h
  rw [norm3_smul, abs_of_pos (inv_pos.2 this), inv_mul_cancel₀ this.ne']

theorem dot_normalized {v : V3} (h : v ≠ 0) :
    dot ((norm3 v)⁻¹ • v) ((norm3 v)⁻¹ • v) = 1 := by
  rw [← norm3_sq, norm3_normalized h]; norm_num

theorem normalizeVector_smul {v : V3} {k : ℝ} (hk : 0 < k) :
    normalizeVector (k • v) = normalizeVector v := by
  by_cases h : v = 0
  · rw [h, smul_zero]
  have hv := norm3_pos h
  rw [normalizeVector_eq h, normalizeVector_eq (smul_ne_zero hk.ne' h), norm3_smul, abs_of_pos hk,
    smul_smul]
  congr 2
  field_simp

/-! ### C29 -/

/-- **C29, external involute pair.** The centre goes to the mesh distance in the direction of
`target_dir`; the distance is positive. -/
theorem c29_external_partial (solve : (ℝ → ℝ) → ℝ) (g h : GearObj) (dir : V3) (b bias : ℝ)
    (hk : g.kind = .involute) (hk' : h.kind ≠ .cycloid) (hc : g.coneAngle = 0)
    (hc' : h.coneAngle = 0) (hr : g.insideTeeth = false) (hr' : h.insideTeeth = false)
    (hb : 0 < g.rBase) (hb' : 0 < h.rBase) (hdir : dir ≠ 0)
    (hsol : solve (meshResidual g.rBase h.rBase (-g.angleBase) (-h.angleBase) h.pitchAngle false b)
      ∈ Set.Ioo (-(π / 2)) (π / 2)) :
    ∃ g', g.meshTo solve h dir b bias = some g' ∧
      ∃ D, D = g.meshDistance solve h b ∧ 0 < D ∧
        g'.transform.center = h.transform.center + (D / norm3 dir) • dir := by
  have hD : 0 < g.meshDistance solve h b := by
    rw [GearObj.meshDistance, hr, hr', calcInvoluteMeshDistance]
    simp only [Bool.or_self, Bool.false_eq_true, if_false]
    exact div_pos (by linarith) (cos_pos' hsol.1 hsol.2)
  simp only [GearObj.meshTo, hk, GearObj.meshToInvolute, normalizeVector_eq hdir, hc, hc', ne_eq,
    not_true_eq_false, or_self, if_false, hk']
  refine ⟨_, rfl, _, rfl, hD, ?_⟩
  simp only [GearObj.meshToAt, smul_smul, div_eq_mul_inv]
  abel

/-- **C29, pinion into a ring.** -/
theorem c29_pinion_partial (solve : (ℝ → ℝ) → ℝ) (g h : GearObj) (dir : V3) (b bias : ℝ)
    (hk : g.kind = .involute) (hk' : h.kind ≠ .cycloid) (hc : g.coneAngle = 0)
    (hc' : h.coneAngle = 0) (hr' : h.insideTeeth = true)
    (hb : g.rBase < h.rBase) (hdir : dir ≠ 0)
    (hsol : solve (meshResidual g.rBase h.rBase (-g.angleBase) (-h.angleBase) h.pitchAngle true b)
      ∈ Set.Ioo (-(π / 2)) (π / 2)) :
    ∃ g', g.meshTo solve h dir b bias = some g' ∧
      ∃ D, D = g.meshDistance solve h b ∧ 0 < D ∧
        g'.transform.center = h.transform.center + (D / norm3 dir) • dir := by
  have hD : 0 < g.meshDistance solve h b := by
    rw [GearObj.meshDistance, hr', calcInvoluteMeshDistance]
    simp only [Bool.or_true, if_true]
    exact div_pos (by linarith) (cos_pos' hsol.1 hsol.2)
  simp only [GearObj.meshTo, hk, GearObj.meshToInvolute, normalizeVector_eq hdir, hc, hc', ne_eq,
    not_true_eq_false, or_self, if_false, hk']
  refine ⟨_, rfl, _, rfl, hD, ?_⟩
  simp only [GearObj.meshToAt, smul_smul, div_eq_mul_inv]
  abel

/-- **C29, length of the direction.** For involute and helical gears the result does not depend on
the length of `target_dir`. -/
theorem c29_scale_partial (solve : (ℝ → ℝ) → ℝ) (g h : GearObj) (dir : V3) (b bias k : ℝ)
    (hk : g.kind ≠ .cycloid) (h0 : 0 < k) :
    g.meshTo solve h (k • dir) b bias = g.meshTo solve h dir b bias := by
  have e : g.meshToInvolute solve h (k • dir) b bias = g.meshToInvolute solve h dir b bias := by
    simp only [GearObj.meshToInvolute, normalizeVector_smul h0]
  have e' : g.meshToInvolute solve h (k • dir) 0 0 = g.meshToInvolute solve h dir 0 0 := by
    simp only [GearObj.meshToInvolute, normalizeVector_smul h0]
  rw [GearObj.meshTo, GearObj.meshTo]
  cases hkind : g.kind
  · exact e
  · simp only [GearObj.meshToHelical, e']
  · exact absurd hkind hk

/-- **C29 is violated when a ring gear is meshed onto a pinion**: it goes to the side opposite to
`target_dir`, at a negative multiple of it. Holds for every ring gear larger than the pinion. -/
theorem c29_ring_violated (solve : (ℝ → ℝ) → ℝ) (g h : GearObj) (dir : V3) (b bias : ℝ)
    (hk : g.kind = .involute) (hk' : h.kind ≠ .cycloid) (hc : g.coneAngle = 0)
    (hc' : h.coneAngle = 0) (hr : g.insideTeeth = true)
    (hb : h.rBase < g.rBase) (hdir : dir ≠ 0)
    (hsol : solve (meshResidual g.rBase h.rBase (-g.angleBase) (-h.angleBase) h.pitchAngle true b)
      ∈ Set.Ioo (-(π / 2)) (π / 2)) :
    ∃ g', g.meshTo solve h dir b bias = some g' ∧
      ∃ D < 0, g'.transform.center = h.transform.center + (D / norm3 dir) • dir := by
  have hD : g.meshDistance solve h b < 0 := by
    rw [GearObj.meshDistance, hr, calcInvoluteMeshDistance]
    simp only [Bool.true_or, if_true]
    exact div_neg_of_neg_of_pos (by linarith) (cos_pos' hsol.1 hsol.2)
  simp only [GearObj.meshTo, hk, GearObj.meshToInvolute, normalizeVector_eq hdir, hc, hc', ne_eq,
    not_true_eq_false, or_self, if_false, hk']
  refine ⟨_, rfl, _, hD, ?_⟩
  simp only [GearObj.meshToAt, smul_smul, div_eq_mul_inv]
  abel

/-- A sample gear for the examples. -/
noncomputable def sampleGear (kind : GearKind) (N rb ab : ℝ) (ring : Bool) : GearObj :=
  { kind := kind, tooth := ⟨N, 0, ring⟩, insideInput := ring, coneAngle := 0, helixAngle := 0,
    module_ := 1, baseRadius1 := rb, baseAngle := ab,
    transform := ⟨⟨0, 1, 1⟩, 0⟩ }

/-- Concrete cases of the hypotheses above: base radii 1 and 2, solver answer 0. -/
example : let g := sampleGear .involute 4 1 0 false
    let h := sampleGear .involute 8 2 0 true
    g.kind = .involute ∧ h.kind ≠ .cycloid ∧ h.insideTeeth = true ∧ g.rBase < h.rBase ∧
      (0 : ℝ) ∈ Set.Ioo (-(π / 2)) (π / 2) := by
  intro g h
  refine ⟨rfl, by simp [h, sampleGear], rfl, by norm_num [g, h, sampleGear, GearObj.rBase], ?_, ?_⟩ <;>
    · have := pi_pos; linarith

/-- **C29 is violated for cycloid gears**: the length of `target_dir` multiplies the distance
(the docstring asks for a unit vector). Pitch radii 2 and 4 with `target_dir = 2·RIGHT` gives
distance 12. -/
theorem c29_cycloid_violated : ∃ (g h : GearObj) (dir : V3) (g' : GearObj), dir ≠ 0 ∧
    g.kind = .cycloid ∧ h.kind = .cycloid ∧ g.insideTeeth = false ∧ h.insideTeeth = false ∧
    (∀ solve, g.meshTo solve h dir 0 0 = some g') ∧ g.pitchRadius + h.pitchRadius = 6 ∧
    norm3 (g'.transform.center - h.transform.center) = 12 := by
  refine ⟨sampleGear .cycloid 4 1 0 false, sampleGear .cycloid 8 2 0 false, ![2, 0, 0],
    (sampleGear .cycloid 4 1 0 false).meshToAt (sampleGear .cycloid 8 2 0 false) ![2, 0, 0] 6 0,
    ?_, rfl, rfl, rfl, rfl, ?_, ?_, ?_⟩
  · intro h; have := congrFun h 0; simp at this
  · intro solve
    simp [GearObj.meshTo, GearObj.meshToCycloid, sampleGear, GearObj.insideTeeth,
      GearObj.pitchRadius]
    norm_num
  · norm_num [GearObj.pitchRadius, sampleGear]
  · apply norm3_eq_of_dot (by norm_num)
    simp [GearObj.meshToAt, sampleGear, dot]
    norm_num

/-- **C29, cycloid gears with a unit direction, what holds.** -/
theorem c29_cycloid_partial (solve : (ℝ → ℝ) → ℝ) (g h : GearObj) (dir : V3) (b bias : ℝ)
    (hk : g.kind = .cycloid) (hc : g.coneAngle = 0) (hc' : h.coneAngle = 0) :
    ∃ g', g.meshTo solve h dir b bias = some g' ∧ ∃ D,
      (g.insideTeeth = false → h.insideTeeth = false → D = g.pitchRadius + h.pitchRadius) ∧
      (g.insideTeeth = true ∨ h.insideTeeth = true → D = |g.pitchRadius - h.pitchRadius|) ∧
      g'.transform.center = h.transform.center + D • dir := by
  simp only [GearObj.meshTo, hk, GearObj.meshToCycloid, hc, hc', ne_eq, not_true_eq_false, or_self,
    if_false]
  refine ⟨_, rfl, if (g.insideTeeth || h.insideTeeth) = true then |g.pitchRadius - h.pitchRadius|
    else g.pitchRadius + h.pitchRadius, ?_, ?_, ?_⟩
  · intro h1 h2; simp [h1, h2]
  · rintro (h1 | h1) <;> simp [h1]
  · simp only [GearObj.meshToAt]; abel

/-! ### C85 -/

/-- Distance between the (parallel) axes of two gears: the centre difference without its component
along the axis. -/
noncomputable def axisDistance (z c1 c2 : V3) : ℝ :=
  norm3 ((c1 - c2) - dot (c1 - c2) z • z)

/-- **C85, what holds.** For an external involute pair and a target direction perpendicular to the
axis of the partner, the axes end up at the mesh distance. -/
theorem c85_perpendicular_partial (solve : (ℝ → ℝ) → ℝ) (g h : GearObj) (dir : V3) (b bias : ℝ)
    (hk : g.kind = .involute) (hk' : h.kind ≠ .cycloid) (hc : g.coneAngle = 0)
    (hc' : h.coneAngle = 0) (hr : g.insideTeeth = false) (hr' : h.insideTeeth = false)
    (hb : 0 < g.rBase) (hb' : 0 < h.rBase) (hdir : dir ≠ 0)
    (hperp : dot dir h.transform.zAxis = 0)
    (hsol : solve (meshResidual g.rBase h.rBase (-g.angleBase) (-h.angleBase) h.pitchAngle false b)
      ∈ Set.Ioo (-(π / 2)) (π / 2)) :
    ∃ g', g.meshTo solve h dir b bias = some g' ∧ g'.transform.zAxis = h.transform.zAxis ∧
      axisDistance h.transform.zAxis g'.transform.center h.transform.center =
        g.meshDistance solve h b := by
  obtain ⟨g', e, D, hD, hpos, hcen⟩ := c29_external_partial solve g h dir b bias hk hk' hc hc' hr hr'
    hb hb' hdir hsol
  refine ⟨g', e, ?_, ?_⟩
  · simp only [GearObj.meshTo, hk, GearObj.meshToInvolute, normalizeVector_eq hdir, hc, hc', ne_eq,
      not_true_eq_false, or_self, if_false, hk', Option.some.injEq] at e
    rw [← e]; rfl
  · have hn := norm3_pos hdir
    rw [axisDistance, hcen, ← hD]
    have e1 : h.transform.center + (D / norm3 dir) • dir - h.transform.center =
        (D / norm3 dir) • dir := by abel
    rw [e1, dot_smul_left, hperp, mul_zero, zero_smul, sub_zero, norm3_smul,
      abs_of_pos (div_pos hpos hn), div_mul_cancel₀ _ hn.ne']

/-- **C85 is violated** for a target direction with a component along the axis: the direction is
normalised but not projected, so the axes are closer than the mesh distance. Here the mesh distance
is 3 and the axes are 9/5 apart: the gears overlap. -/
theorem c85_violated : ∃ (solve : (ℝ → ℝ) → ℝ) (g h : GearObj) (dir : V3) (g' : GearObj),
    0 < g.rBase ∧ 0 < h.rBase ∧ g.kind = .involute ∧ h.kind = .involute ∧
    g.insideTeeth = false ∧ h.insideTeeth = false ∧ dir ≠ 0 ∧
    g.meshTo solve h dir 0 0 = some g' ∧
    meshResidual g.rBase h.rBase (-g.angleBase) (-h.angleBase) h.pitchAngle false 0
      (solve (meshResidual g.rBase h.rBase (-g.angleBase) (-h.angleBase) h.pitchAngle false 0)) = 0 ∧
    g.meshDistance solve h 0 = 3 ∧
    axisDistance h.transform.zAxis g'.transform.center h.transform.center = 9 / 5 := by
  have hdir : (![3, 0, 4] : V3) ≠ 0 := by intro h; have := congrFun h 0; simp at this
  have hn : norm3 (![3, 0, 4] : V3) = 5 := norm3_eq_of_dot (by norm_num) (by simp [dot]; norm_num)
  have hdist : (sampleGear .involute 4 1 (-(π / 4)) false).meshDistance (fun _ => 0)
      (sampleGear .involute 8 2 0 false) 0 = 3 := by
    simp [GearObj.meshDistance, calcInvoluteMeshDistance, sampleGear, GearObj.insideTeeth,
      GearObj.rBase]
    norm_num
  refine ⟨fun _ => 0, sampleGear .involute 4 1 (-(π / 4)) false, sampleGear .involute 8 2 0 false,
    ![3, 0, 4], (sampleGear .involute 4 1 (-(π / 4)) false).meshToAt
      (sampleGear .involute 8 2 0 false) ((5 : ℝ)⁻¹ • ![3, 0, 4]) 3 0, ?_, ?_, rfl, rfl, rfl, rfl,
    hdir, ?_, ?_, hdist, ?_⟩
  · norm_num [sampleGear, GearObj.rBase]
  · norm_num [sampleGear, GearObj.rBase]
  · simp only [GearObj.meshTo, GearObj.meshToInvolute, normalizeVector_eq hdir, hdist, hn]
    simp [sampleGear]
  · simp [meshResidual, sampleGear, GearObj.rBase, GearObj.angleBase, GearObj.pitchAngle,
      GearToothParam.pitchAngle]
    left; ring
  · simp only [GearObj.meshToAt, sampleGear, axisDistance]
    apply norm3_eq_of_dot (by norm_num)
    simp [TransformData.zAxis, dot]
    norm_num

/-! ### C37 -/

/-- The same gear with any other placement (centre, orientation, angle); the scale is kept. -/
def GearObj.placedAt (g : GearObj) (c : V3) (o : M3) (a : ℝ) : GearObj :=
  { g with transform := { g.transform with center := c, orientation := o, angle := a } }

/-- **C37, prior placement.** The result of `mesh_to` does not depend on where the receiver was
before. -/
theorem c37_prior_placement (solve : (ℝ → ℝ) → ℝ) (g h : GearObj) (dir : V3) (b bias : ℝ)
    (c : V3) (o : M3) (a : ℝ) :
    (g.placedAt c o a).meshTo solve h dir b bias = g.meshTo solve h dir b bias := by
  have hbevel : ∀ d, (g.placedAt c o a).meshToBevel h d = g.meshToBevel h d := by
    intro d; rfl
  have hat : ∀ d x y, (g.placedAt c o a).meshToAt h d x y = g.meshToAt h d x y := by
    intro d x y; rfl
  have hinv : ∀ b bias, (g.placedAt c o a).meshToInvolute solve h dir b bias =
      g.meshToInvolute solve h dir b bias := by
    intro b bias; rfl
  rfl

/-- `mesh_to` keeps everything but centre, orientation and angle. -/
theorem meshTo_placedAt {solve : (ℝ → ℝ) → ℝ} {g h : GearObj} {dir : V3} {b bias : ℝ} {g' : GearObj}
    (e : g.meshTo solve h dir b bias = some g') : ∃ c o a, g' = g.placedAt c o a := by
  have hbevel : ∀ {g : GearObj} {d : V3} {g' : GearObj}, g.meshToBevel h d = some g' →
      ∃ c o a, g' = g.placedAt c o a := by
    intro g d g' e
    rw [GearObj.meshToBevel] at e
    split at e
    · simp at e
    · split at e
      · simp at e
      · simp only [Option.some.injEq] at e
        exact ⟨_, _, _, e.symm⟩
  have hinv : ∀ {b bias : ℝ} {g' : GearObj}, g.meshToInvolute solve h dir b bias = some g' →
      ∃ c o a, g' = g.placedAt c o a := by
    intro b bias g' e
    rw [GearObj.meshToInvolute] at e
    split at e
    · simp at e
    · split_ifs at e
      · exact hbevel e
      · simp only [Option.some.injEq] at e
        exact ⟨_, _, _, e.symm⟩
  rw [GearObj.meshTo] at e
  split at e
  · exact hinv e
  · rw [GearObj.meshToHelical] at e
    split at e
    · simp at e
    · rename_i g1 e1
      obtain ⟨c, o, a, rfl⟩ := hinv e1
      split at e
      · simp at e
      · simp only [Option.some.injEq] at e
        exact ⟨_, _, _, e.symm⟩
  · rw [GearObj.meshToCycloid] at e
    split_ifs at e
    · exact hbevel e
    all_goals
      simp only [Option.some.injEq] at e
      exact ⟨_, _, _, e.symm⟩

/-- **C37, idempotent.** A second identical call changes nothing. -/
theorem c37_idempotent (solve : (ℝ → ℝ) → ℝ) (g h g' : GearObj) (dir : V3) (b bias : ℝ)
    (e : g.meshTo solve h dir b bias = some g') : g'.meshTo solve h dir b bias = some g' := by
  obtain ⟨c, o, a, rfl⟩ := meshTo_placedAt e
  rw [c37_prior_placement, e]

/-- Concrete case: the cycloid pair of `c29_cycloid_violated` meshes. -/
example : ∃ (g h g' : GearObj) (dir : V3), ∀ solve, g.meshTo solve h dir 0 0 = some g' := by
  obtain ⟨g, h, dir, g', _, _, _, _, _, e, _⟩ := c29_cycloid_violated
  exact ⟨g, h, g', dir, e⟩

/-! ### C36 -/

/-- What every history preserves, for one gear. -/
structure GearObj.Sound (g : GearObj) : Prop where
  rot : IsRot g.transform.orientation
  scale : g.transform.scale = g.module_

theorem calcMeshOrientation_rot {cone1 cone2 R : ℝ} {g2 : GearTransform} {r1 r2 : Bool} {d : V3}
    {off : ℝ} {o : M3} (h : IsRot g2.orientation)
    (e : calcMeshOrientation cone1 cone2 R g2 r1 r2 d off = some o) : IsRot o := by
  rw [calcMeshOrientation] at e
  split_ifs at e
  · simp only [Option.some.injEq] at e; rw [← e]; exact h
  · split at e
    · simp at e
    · simp only [Option.some.injEq] at e; rw [← e]; exact (IsRot.fromRotvec _).mul h
  · split at e
    · simp at e
    · simp only [Option.some.injEq] at e; rw [← e]; exact (IsRot.fromRotvec _).mul h
theorem meshTo_rot {solve : (ℝ → ℝ) → ℝ} {g h : GearObj} {dir : V3} {b bias : ℝ} {g' : GearObj}
    (hh : IsRot h.transform.orientation) (e : g.meshTo solve h dir b bias = some g') :
    IsRot g'.transform.orientation := by
  have hbevel : ∀ {g : GearObj} {d : V3} {g' : GearObj}, g.meshToBevel h d = some g' →
      IsRot g'.transform.orientation := by
    intro g d g' e
    rw [GearObj.meshToBevel] at e
    split at e
    · simp at e
    · split at e
      · simp at e
      · rename_i o eo
        simp only [Option.some.injEq] at e
        rw [← e]; exact calcMeshOrientation_rot hh eo
  have hinv : ∀ {b bias : ℝ} {g' : GearObj}, g.meshToInvolute solve h dir b bias = some g' →
      IsRot g'.transform.orientation := by
    intro b bias g' e
    rw [GearObj.meshToInvolute] at e
    split at e
    · simp at e
    · split_ifs at e
      · exact hbevel e
      · simp only [Option.some.injEq] at e
        rw [← e]; exact hh
  rw [GearObj.meshTo] at e
  split at e
  · exact hinv e
  · rw [GearObj.meshToHelical] at e
    split at e
    · simp at e
    · rename_i g1 e1
      split at e
      · simp at e
      · simp only [Option.some.injEq] at e
        rw [← e]; exact (IsRot.fromRotvec _).mul (hinv e1)
  · rw [GearObj.meshToCycloid] at e
    split_ifs at e
    · exact hbevel e
    all_goals
      simp only [Option.some.injEq] at e
      rw [← e]; exact hh

/-- The gear a call is made on (`none` for constructors, which append a new gear). -/
def GearOp.receiver : GearOp → Option ℕ
  | .construct .. => none
  | .constructCycloid .. => none
  | .meshTo i .. => some i
  | .resetLocation i => some i
  | .setCenter i _ => some i
  | .setAngle i _ => some i

theorem forall_set {P : GearObj → Prop} {s : List GearObj} {i : ℕ} {g : GearObj}
    (h : ∀ x ∈ s, P x) (hg : P g) : ∀ x ∈ s.set i g, P x := by
  intro x hx
  rcases List.mem_or_eq_of_mem_set hx with h' | h'
  · exact h x h'
  · rw [h']; exact hg

theorem step_sound {solve : (ℝ → ℝ) → ℝ} {s s' : List GearObj} {op : GearOp}
    (hs : ∀ g ∈ s, g.Sound) (e : op.step solve s = some s') : ∀ g ∈ s', g.Sound := by
  cases op with
  | construct helical p t =>
    simp only [GearOp.step, Option.some.injEq] at e
    rw [← e]
    intro g hg
    rcases List.mem_append.1 hg with h | h
    · exact hs g h
    · rw [List.mem_singleton.1 h]; exact ⟨IsRot.one, rfl⟩
  | constructCycloid p =>
    simp only [GearOp.step, Option.some.injEq] at e
    rw [← e]
    intro g hg
    rcases List.mem_append.1 hg with h | h
    · exact hs g h
    · rw [List.mem_singleton.1 h]; exact ⟨IsRot.one, rfl⟩
  | meshTo i j dir b bias =>
    simp only [GearOp.step] at e
    split_ifs at e
    split at e
    · rename_i g h eg eh
      obtain ⟨g', eg', rfl⟩ := Option.map_eq_some_iff.1 e
      have hg := hs g (List.mem_of_getElem? eg)
      have hh := hs h (List.mem_of_getElem? eh)
      obtain ⟨c, o, a, rfl⟩ := meshTo_placedAt eg'
      exact forall_set hs ⟨meshTo_rot hh.rot eg', hg.scale⟩
    · simp at e
  | resetLocation i =>
    simp only [GearOp.step] at e
    obtain ⟨g, eg, e2⟩ := Option.bind_eq_some_iff.1 e
    split_ifs at e2
    simp only [Option.some.injEq] at e2
    rw [← e2]
    exact forall_set hs ⟨IsRot.one, (hs g (List.mem_of_getElem? eg)).scale⟩
  | setCenter i c =>
    simp only [GearOp.step] at e
    obtain ⟨g, eg, rfl⟩ := Option.map_eq_some_iff.1 e
    have hg := hs g (List.mem_of_getElem? eg)
    exact forall_set hs ⟨hg.rot, hg.scale⟩
  | setAngle i c =>
    simp only [GearOp.step] at e
    obtain ⟨g, eg, rfl⟩ := Option.map_eq_some_iff.1 e
    have hg := hs g (List.mem_of_getElem? eg)
    exact forall_set hs ⟨hg.rot, hg.scale⟩

/-- **C36, every history.** After any sequence of calls starting from no gears at all, every gear
has a rotation as orientation and a scale equal to its module. -/
theorem c36_history (solve : (ℝ → ℝ) → ℝ) (ops : List GearOp) (s : List GearObj)
    (e : runOps solve [] ops = some s) :
    ∀ g ∈ s, IsRot g.transform.orientation ∧ g.transform.scale = g.module_ := by
  have key : ∀ (ops : List GearOp) (s0 s : List GearObj), (∀ g ∈ s0, g.Sound) →
      runOps solve s0 ops = some s → ∀ g ∈ s, g.Sound := by
    intro ops
    induction ops with
    | nil => intro s0 s h e; simp only [runOps, Option.some.injEq] at e; rw [← e]; exact h
    | cons op ops ih =>
      intro s0 s h e
      simp only [runOps] at e
      obtain ⟨s1, e1, e2⟩ := Option.bind_eq_some_iff.1 e
      exact ih s1 s (step_sound h e1) e2
  intro g hg
  have := key ops [] s (by simp) e g hg
  exact ⟨this.rot, this.scale⟩

/-- **C36, frame.** A call leaves every gear other than its receiver exactly as it was, and never
removes a gear. -/
theorem c36_frame (solve : (ℝ → ℝ) → ℝ) (op : GearOp) (s s' : List GearObj) (k : ℕ) (g : GearObj)
    (e : op.step solve s = some s') (hk : s[k]? = some g) (hne : op.receiver ≠ some k) :
    s'[k]? = some g ∧ s.length ≤ s'.length := by
  have happ : ∀ x, (s ++ [x])[k]? = some g := by
    intro x
    have := (List.getElem?_eq_some_iff.1 hk).1
    rw [List.getElem?_append_left this, hk]
  have hset : ∀ i x, i ≠ k → (s.set i x)[k]? = some g := by
    intro i x h
    rw [List.getElem?_set_ne h, hk]
  cases op with
  | construct helical p t =>
    simp only [GearOp.step, Option.some.injEq] at e
    rw [← e]; exact ⟨happ _, by simp⟩
  | constructCycloid p =>
    simp only [GearOp.step, Option.some.injEq] at e
    rw [← e]; exact ⟨happ _, by simp⟩
  | meshTo i j dir b bias =>
    have hik : i ≠ k := fun h => hne (by rw [GearOp.receiver, h])
    simp only [GearOp.step] at e
    split_ifs at e
    split at e
    · obtain ⟨g', eg', rfl⟩ := Option.map_eq_some_iff.1 e
      exact ⟨hset _ _ hik, by simp⟩
    · simp at e
  | resetLocation i =>
    have hik : i ≠ k := fun h => hne (by rw [GearOp.receiver, h])
    simp only [GearOp.step] at e
    obtain ⟨g, eg, e2⟩ := Option.bind_eq_some_iff.1 e
    split_ifs at e2
    simp only [Option.some.injEq] at e2
    rw [← e2]; exact ⟨hset _ _ hik, by simp⟩
  | setCenter i c =>
    have hik : i ≠ k := fun h => hne (by rw [GearOp.receiver, h])
    simp only [GearOp.step] at e
    obtain ⟨g, eg, rfl⟩ := Option.map_eq_some_iff.1 e
    exact ⟨hset _ _ hik, by simp⟩
  | setAngle i c =>
    have hik : i ≠ k := fun h => hne (by rw [GearOp.receiver, h])
    simp only [GearOp.step] at e
    obtain ⟨g, eg, rfl⟩ := Option.map_eq_some_iff.1 e
    exact ⟨hset _ _ hik, by simp⟩

/-- **C36, receiver.** A `mesh_to` call changes at most the placement of its receiver: all
geometric parameters and the scale are kept. -/
theorem c36_receiver (solve : (ℝ → ℝ) → ℝ) (g h g' : GearObj) (dir : V3) (b bias : ℝ)
    (e : g.meshTo solve h dir b bias = some g') :
    g'.kind = g.kind ∧ g'.tooth = g.tooth ∧ g'.insideInput = g.insideInput ∧
      g'.coneAngle = g.coneAngle ∧ g'.helixAngle = g.helixAngle ∧ g'.module_ = g.module_ ∧
      g'.rBase = g.rBase ∧ g'.angleBase = g.angleBase ∧
      g'.transform.scale = g.transform.scale := by
  obtain ⟨c, o, a, rfl⟩ := meshTo_placedAt e
  exact ⟨rfl, rfl, rfl, rfl, rfl, rfl, rfl, rfl, rfl⟩

/-- A history with a construction, a mesh and a reset that runs to the end. -/
example : ∃ s, runOps (fun _ => 0) []
    [.construct false ⟨20, 1, 0, 0, 0, 0, 1, 0, π / 9, 0, 0, false, 0⟩ 0,
      .constructCycloid ⟨20, 1, 0, 0, 0, 0, 1, 0, π / 9, 0, 0, false, 0⟩,
      .meshTo 1 0 RIGHT 0 0, .resetLocation 0] = some s := by
  have h : ¬ (20 : ℝ) < 0 := by norm_num
  simp [runOps, GearOp.step, InvParam.construct, InvParam.constructCycloid, InvParam.normalise,
    GearObj.meshTo, GearObj.meshToCycloid, if_neg h]

end Verif
