import Verif.Model.Report
import Verif.Spec.Axis
import Verif.Props.Radii
import Verif.Props.Reported
import Verif.Props.Arc2

/-! # Properties C112 to C114: reported radii, cone angles and centres -/

namespace Verif

open Real Set

/-! ## C112 -/

/-- A slice of a gear at a regular height: the gear is rigidly placed with a positive module, and the slice is a scaled
copy with its centre on the axis. -/
structure Placed (g : WGear) (z : ℝ) : Prop where
  rot : IsRot g.core.transform.orientation
  scale : 0 < g.core.transform.scale
  slice : 0 < g.core.recipe.scale z
  center : ∃ k : ℝ, g.core.recipe.center z = k • OUT

/-- The place in space of the point `q` of the slice at height `z`. -/
noncomputable def WGear.world (g : WGear) (z : ℝ) (q : V3) : V3 := applyGearTransform q (g.core.transformAt z)

theorem world_eq {g : WGear} {z k : ℝ} (hk : g.core.recipe.center z = k • OUT) (q : V3) :
    g.world z q = g.core.transform.center + app g.core.transform.orientation
      ((g.core.transform.scale * g.core.recipe.scale z) • app (Rz (g.core.transform.angle + g.core.recipe.angle z)) q +
        (g.core.transform.scale * k) • OUT) := by
  rw [WGear.world, applyGearTransform_eq]
  simp only [GearCore.transformAt, GearTransform.mul, GearCore.recipeTransform, hk, Matrix.mul_one]
  rw [app_def, app_mul, app_smul, Rz_app_OUT, app_add, app_smul, app_smul, app_smul]
  module

theorem axisDist_smul (c : ℝ) (p : V3) : axisDist (c • p) = |c| * axisDist p := by
  rw [axisDist, axisDist, ← sqrt_sq_eq_abs, ← sqrt_mul (sq_nonneg c)]
  congr 1
  simp; ring

theorem distToLine_world {g : WGear} {z : ℝ} (h : Placed g z) (q : V3) :
    Spec.distToLine g.core.transform.center g.core.transform.zAxis (g.world z q) =
      g.core.transform.scale * g.core.recipe.scale z * axisDist q := by
  obtain ⟨k, hk⟩ := h.center
  obtain ⟨X, hX⟩ : ∃ X, X = (g.core.transform.scale * g.core.recipe.scale z) •
      app (Rz (g.core.transform.angle + g.core.recipe.angle z)) q + (g.core.transform.scale * k) • OUT := ⟨_, rfl⟩
  rw [world_eq hk, ← hX, Spec.distToLine, add_sub_cancel_left, zAxis_eq, h.rot.dot_app, ← app_smul, ← app_sub,
    h.rot.norm_app]
  have hd : norm3 (X - dot X OUT • OUT) = axisDist X := by
    rw [norm3, axisDist]; congr 1; simp [dot, OUT]; ring
  have hx : axisDist X = axisDist ((g.core.transform.scale * g.core.recipe.scale z) •
      app (Rz (g.core.transform.angle + g.core.recipe.angle z)) q) := by
    rw [hX, axisDist, axisDist]; simp [OUT]
  rw [hd, hx, axisDist_smul, axisDist_Rz, abs_of_pos (mul_pos h.scale h.slice)]

theorem arcTransform_kind {asEuler : M3 → ℝ × ℝ × ℝ} {c c' : Curve} {f : V3 → V3} {r a : ℝ} {m : V3} {M : M3} {q0 : V3}
    (hk : c.kind = .arc r a m M) (h0 : c.eval 0 = some q0) (h : arcTransform asEuler c f = some c') :
    c'.arcRadius = some (norm3 (f q0 - f m)) ∧ c'.arcCenter = some (f m) := by
  rw [arcTransform] at h
  simp only [hk, h0] at h
  split at h
  · cases h
  · rw [arcFromPointCenterAngle] at h
    simp only at h
    split at h
    · cases h
    · split at h
      · cases h
      · cases h
        cases c.active <;> simp [Curve.arcRadius, Curve.arcCenter, arcInit, Curve.make, updateLengths_kind]

theorem reportedCircle_facts {asEuler : M3 → ℝ × ℝ × ℝ} (hE : EulerOk asEuler) {g : WGear} {z : ℝ} (h : Placed g z)
    {r : ℝ} (hr : 0 < r) (m : V3) :
    ∃ c, reportedCircle asEuler (g.core.transformAt z) r m = some c ∧
      c.arcRadius = some (g.core.transform.scale * g.core.recipe.scale z * r) ∧ c.arcCenter = some (g.world z m) ∧
      ∀ s, c.eval s = some (g.world z (m + ![r * cos (2 * π * s), r * sin (2 * π * s), 0])) := by
  obtain ⟨t, ht⟩ : ∃ t : TransformData, t = ⟨(g.core.transformAt z).center,
    (g.core.transformAt z).orientation * Rz (g.core.transformAt z).angle, (g.core.transformAt z).scale⟩ := ⟨_, rfl⟩
  have hf : (fun q => applyGearTransform q (g.core.transformAt z)) = (fun q => applyTransform q t) := by
    funext q
    rw [applyGearTransform_eq, applyTransform_eq, ht, app_mul]
  have hrot : IsRot t.orientation := by
    rw [ht]
    refine IsRot.mul ?_ (IsRot.Rz _)
    simp only [GearCore.transformAt, GearTransform.mul, GearCore.recipeTransform, Matrix.mul_one]
    exact h.rot
  have hts : t.scale = g.core.transform.scale * g.core.recipe.scale z := by rw [ht]; rfl
  have hpos : 0 < t.scale := by rw [hts]; exact mul_pos h.scale h.slice
  have hM : eulerZYX 0 0 0 = 1 := by
    rw [eulerZYX]; ext i j; fin_cases i <;> fin_cases j <;> simp [Rx, Ry, Rz, Matrix.mul_apply, Fin.sum_univ_three]
  have h1 : IsRot (1 : M3) := hM ▸ eulerZYX_isRot 0 0 0
  obtain ⟨c, e1, -, e2⟩ := c50_arc_partial hE r (2 * π) hr.ne' m 1 h1 true t hrot hpos
  have hw : ∀ q, g.world z q = applyTransform q t := fun q => congrFun hf q
  have hev : ∀ s, (Curve.make (.arc r (2 * π) m 1) true 0 1).eval s =
      some (m + ![r * cos (2 * π * s), r * sin (2 * π * s), 0]) := by
    intro s
    rw [make_eval _ (by intro f n h; cases h), arc_fn _ _ _ _ h1, app_one, app_one]
    congr 2
    apply V3.ext3 <;> simp [rodrigues, OUT, RIGHT, dot, cross] <;> ring
  refine ⟨c, ?_, ?_⟩
  · rw [reportedCircle, arcInit, hM, hf]; exact e1
  · have hk := arcTransform_kind (r := r) (a := 2 * π) (m := m) (M := 1) (by simp [Curve.make, updateLengths_kind])
      (hev 0) e1
    have hn : norm3 (applyTransform (m + ![r * cos (2 * π * 0), r * sin (2 * π * 0), 0]) t - applyTransform m t) =
        g.core.transform.scale * g.core.recipe.scale z * r := by
      rw [applyTransform_eq, applyTransform_eq, add_sub_add_right_eq_sub, ← smul_sub, ← app_sub, norm3_smul,
        hrot.norm_app, add_sub_cancel_left, abs_of_pos hpos, hts]
      congr 1
      rw [norm3]
      simp [dot, hr.le]
    refine ⟨by rw [hk.1, hn], by rw [hk.2, hw], fun s => ?_⟩
    rw [e2, hev, Option.map_some, hw]

theorem arcInit_kind (r ang : ℝ) (m : V3) (a b c : ℝ) (act : Bool) :
    (arcInit r ang m a b c act).kind = .arc r ang m (eulerZYX a b c) := by
  cases act <;> simp [arcInit, Curve.make, updateLengths_kind]

/-- The arcs that close the profile turn about the axis at the height of their ends. -/
theorem closingArc_kind {asEuler : M3 → ℝ × ℝ × ℝ} {p q y : V3} {R : ℝ} {c : Curve}
    (h : closingArc asEuler p q y R = some c) (hz : p 2 = q 2) :
    ∃ ang M, (1 / 10 ^ 10 < norm3 (p - q) → c.kind = .arc (axisDist p) ang ![0, 0, p 2] M) ∧
      (¬1 / 10 ^ 10 < norm3 (p - q) → c.kind = .arc R ang ![0, 0, p 2] M) := by
  have hm : midOnAxis p q = ![0, 0, p 2] := by
    apply V3.ext3 <;> simp [midOnAxis, mulV, OUT, ← hz]
    ring
  rw [closingArc] at h
  split_ifs at h with hfar
  · rw [hm, arcFrom2PointCenter] at h
    simp only at h
    split at h
    · cases h
      exact ⟨_, _, fun _ => by rw [arcInit_kind, axisDist_norm p ![0, 0, p 2] rfl rfl rfl], fun hn => absurd hfar hn⟩
    · cases h
  · cases h
    exact ⟨_, _, fun hn => absurd hn hfar, fun _ => by rw [arcInit_kind, hm]⟩

theorem axisDist_pos {p : V3} (h : 0 < p 0) : 0 < axisDist p := sqrt_pos.2 (by positivity)

theorem polar_point (p : V3) : p = ![0, 0, p 2] + ![axisDist p * cos (arctan2 (p 1) (p 0)),
    axisDist p * sin (arctan2 (p 1) (p 0)), 0] := by
  have h : axisDist p = √(p 0 ^ 2 + p 1 ^ 2) := rfl
  apply V3.ext3
  · simp [h, polar_cos]
  · simp [h, polar_sin]
  · simp

/-- A point at the height and distance of a reported circle is on it. -/
theorem mem_reported {g : WGear} {z R : ℝ} {m : V3} {c : Curve} (hm : m = ![0, 0, m 2])
    (hc : ∀ s, c.eval s = some (g.world z (m + ![R * cos (2 * π * s), R * sin (2 * π * s), 0]))) {p : V3}
    (hR : axisDist p = R) (hz : p 2 = m 2) : g.world z p ∈ Spec.trace c.eval := by
  have hpi := pi_pos
  obtain ⟨φ, hφ⟩ : ∃ φ, φ = arctan2 (p 1) (p 0) := ⟨_, rfl⟩
  have hp := polar_point p
  rw [← hφ, hR, hz, ← hm] at hp
  have hmem := arctan2_mem (p 1) (p 0)
  rw [← hφ] at hmem
  rcases lt_or_ge φ 0 with h | h
  · refine ⟨φ / (2 * π) + 1, ⟨?_, ?_⟩, ?_⟩
    · have : -1 ≤ φ / (2 * π) := by rw [le_div_iff₀ (by positivity)]; linarith [hmem.1]
      linarith
    · have : φ / (2 * π) ≤ 0 := div_nonpos_of_nonpos_of_nonneg h.le (by positivity)
      linarith
    · rw [hc, show 2 * π * (φ / (2 * π) + 1) = φ + 2 * π by field_simp, cos_add_two_pi, sin_add_two_pi, ← hp]
  · refine ⟨φ / (2 * π), ⟨by positivity, ?_⟩, ?_⟩
    · rw [div_le_one (by positivity)]; linarith [hmem.2]
    · rw [hc, show 2 * π * (φ / (2 * π)) = φ by field_simp, ← hp]

section
variable {α : Type} {o : CurveOps α} {asEuler : M3 → ℝ × ℝ × ℝ} {tooth : α} {T : ℝ → V3} {pitch r θ : ℝ}

/-- **C112, radii (partial).** For every placement of a gear and every slice whose tip and root arcs are not degenerate:
the circles that `radii_data_gen` reports for tip and root contain the placed tip and root arc, their radii are the
distances of the end points of the placed tooth flank from the gear's axis; the pitch circle is the placed circle of
radius `N / 2`, the outside circle has the prescribed centre and radius. Missing: pointed teeth, where the claim is false. -/
theorem c112_radii_partial (hE : EulerOk asEuler) (h : ToothOk o tooth T pitch r θ) (rA rD rO : ℝ) (centerO : V3)
    (hO : 0 < rO) (P : RefProfile α) (hP : closeProfile o asEuler tooth rA rD rO centerO pitch = some P)
    (ha : P.ra.active = true) (hd : P.rd.active = true) (g : WGear) (z : ℝ) (hg : Placed g z)
    (hN : 0 < g.core.tooth.numTeeth) :
    ∃ C, g.radiiData asEuler P z = some C ∧
      C.a.arcRadius = some (Spec.distToLine g.core.transform.center g.core.transform.zAxis (g.world z (T 1))) ∧
      C.d.arcRadius = some (Spec.distToLine g.core.transform.center g.core.transform.zAxis (g.world z (T 0))) ∧
      (∀ s p, P.ra.eval s = some p → g.world z p ∈ Spec.trace C.a.eval) ∧
      (∀ s p, P.rd.eval s = some p → g.world z p ∈ Spec.trace C.d.eval) ∧
      (∀ s, C.p.eval s = some (g.world z ![g.core.tooth.numTeeth / 2 * cos (2 * π * s),
        g.core.tooth.numTeeth / 2 * sin (2 * π * s), 0])) ∧
      C.o.arcRadius = some (g.core.transform.scale * g.core.recipe.scale z * rO) ∧
      C.o.arcCenter = some (g.world z centerO) ∧
      C.p.arcRadius = some (g.core.transform.scale * g.core.recipe.scale z * (g.core.tooth.numTeeth / 2)) := by
  obtain ⟨P', hP', f, q0, q1, -, -, hro, hca, hcd⟩ := close_facts hE h rA rD rO centerO
  rw [hP] at hP'
  cases Option.some.inj hP'
  have fa : 1 / 10 ^ 10 < norm3 (T 1 - flipY (T 1)) := by
    rcases f.ra with ⟨x, -⟩ | ⟨-, x⟩
    · exact x
    · rw [ha] at x; cases x
  have fd : 1 / 10 ^ 10 < norm3 (rootStart T pitch - T 0) := by
    rcases f.rd with ⟨x, -⟩ | ⟨-, x⟩
    · exact x
    · rw [hd] at x; cases x
  have hzd : rootStart T pitch 2 = T 0 2 := by simp [rootStart, Rz_app, flipY]
  have edd : axisDist (rootStart T pitch) = axisDist (T 0) := by rw [rootStart, axisDist_Rz, axisDist_flipY]
  obtain ⟨ang, M, ka, -⟩ := closingArc_kind hca (by simp [flipY])
  obtain ⟨ang', M', kd, -⟩ := closingArc_kind hcd hzd
  have ka := ka fa
  have kd := kd fd
  rw [edd, hzd] at kd
  have r0 : axisDist (T 0) = r := by
    rw [axisDist, h.rootX, h.rootY, sqrt_eq_iff_mul_self_eq (by positivity) h.rootPos.le]
    nlinarith [sin_sq_add_cos_sq θ]
  obtain ⟨a, a1, a2, -, a4⟩ := reportedCircle_facts hE hg (axisDist_pos h.tip) ![0, 0, T 1 2]
  obtain ⟨d, d1, d2, -, d4⟩ := reportedCircle_facts hE hg (r := axisDist (T 0)) (by rw [r0]; exact h.rootPos)
    ![0, 0, T 0 2]
  obtain ⟨oc, o1, o2, o3, -⟩ := reportedCircle_facts hE hg hO centerO
  obtain ⟨pc, p1, p2, -, p4⟩ := reportedCircle_facts hE hg (r := g.core.tooth.numTeeth / 2) (by positivity) ORIGIN
  have ko : P.ro.kind = .arc rO (arctan2 (q1 1) (q1 0) - arctan2 (q0 1) (q0 0)) centerO
      (eulerZYX (arctan2 (q0 1) (q0 0)) 0 0) := by
    rw [hro, arcInit_kind]
  refine ⟨⟨a, pc, d, oc⟩, ?_, ?_, ?_, ?_, ?_, ?_, o2, o3, p2⟩
  · simp only [WGear.radiiData, circleOf, ka, kd, ko, a1, d1, o1, p1]
  · rw [distToLine_world hg]; exact a2
  · rw [distToLine_world hg]; exact d2
  · intro s p hp
    obtain ⟨x, e1, e2, e3⟩ := closingArc_dist hE hca fa (by simp [flipY]) (axisDist_flipY _).symm s
    rw [hp] at e1
    cases Option.some.inj e1
    exact mem_reported rfl a4 e2 e3
  · intro s p hp
    obtain ⟨x, e1, e2, e3⟩ := closingArc_dist hE hcd fd hzd edd s
    rw [hp] at e1
    cases Option.some.inj e1
    exact mem_reported rfl d4 (by rw [e2, edd]) (by rw [e3, hzd]; rfl)
  · intro s
    rw [show pc.eval s = _ from p4 s, ORIGIN_eq, zero_add]


/-- **C112 is violated for pointed teeth**: the flank ends on the tooth's centre line, the tip arc is inactive, and the
reported tip radius is that of the nominal tip circle, whatever the height of the tooth. If the tooth ends below that
circle, the reported radius is larger than the distance of every point of the profile from the axis. -/
theorem c112_pointed_violated (hE : EulerOk asEuler) (h : ToothOk o tooth T pitch r θ) (hp : T 1 1 = 0) (rA rD rO : ℝ)
    (centerO : V3) (hA : 0 < rA) (hO : 0 < rO) (P : RefProfile α)
    (hP : closeProfile o asEuler tooth rA rD rO centerO pitch = some P) (hd : P.rd.active = true)
    (hlow : ∀ s, 0 ≤ s → s ≤ 1 → axisDist (T s) < rA) (g : WGear) (z : ℝ) (hg : Placed g z)
    (hN : 0 < g.core.tooth.numTeeth) :
    ∃ C R, g.radiiData asEuler P z = some C ∧ C.a.arcRadius = some R ∧
      ∀ s, 0 ≤ s → s ≤ 1 → ∃ p, chainEval (sumOps o curveOps) (P.chain o) s = some p ∧
        Spec.distToLine g.core.transform.center g.core.transform.zAxis (g.world z p) < R := by
  obtain ⟨P', hP', f, q0, q1, -, -, hro, hca, hcd⟩ := close_facts hE h rA rD rO centerO
  rw [hP] at hP'
  cases Option.some.inj hP'
  have fd : 1 / 10 ^ 10 < norm3 (rootStart T pitch - T 0) := by
    rcases f.rd with ⟨x, -⟩ | ⟨-, x⟩
    · exact x
    · rw [hd] at x; cases x
  have hfl : flipY (T 1) = T 1 := by apply V3.ext3 <;> simp [flipY, hp]
  have fa : ¬1 / 10 ^ 10 < norm3 (T 1 - flipY (T 1)) := by
    rw [hfl, sub_self, norm3_eq_zero.2 rfl]; norm_num
  have hzd : rootStart T pitch 2 = T 0 2 := by simp [rootStart, Rz_app, flipY]
  have edd : axisDist (rootStart T pitch) = axisDist (T 0) := by rw [rootStart, axisDist_Rz, axisDist_flipY]
  obtain ⟨ang, M, -, ka⟩ := closingArc_kind hca (by simp [flipY])
  obtain ⟨ang', M', kd, -⟩ := closingArc_kind hcd hzd
  have ka := ka fa
  have kd := kd fd
  rw [edd, hzd] at kd
  have r0 : axisDist (T 0) = r := by
    rw [axisDist, h.rootX, h.rootY, sqrt_eq_iff_mul_self_eq (by positivity) h.rootPos.le]
    nlinarith [sin_sq_add_cos_sq θ]
  obtain ⟨a, a1, a2, -, -⟩ := reportedCircle_facts hE hg hA ![0, 0, T 1 2]
  obtain ⟨d, d1, -, -, -⟩ := reportedCircle_facts hE hg (r := axisDist (T 0)) (by rw [r0]; exact h.rootPos)
    ![0, 0, T 0 2]
  obtain ⟨oc, o1, -, -, -⟩ := reportedCircle_facts hE hg hO centerO
  obtain ⟨pc, p1, -, -, -⟩ := reportedCircle_facts hE hg (r := g.core.tooth.numTeeth / 2) (by positivity) ORIGIN
  have ko : P.ro.kind = .arc rO (arctan2 (q1 1) (q1 0) - arctan2 (q0 1) (q0 0)) centerO
      (eulerZYX (arctan2 (q0 1) (q0 0)) 0 0) := by
    rw [hro, arcInit_kind]
  have hcpt : ∃ m, m < rA ∧ ∀ s, 0 ≤ s → s ≤ 1 → axisDist (T s) ≤ m := by
    have hc : ContinuousOn (fun s => axisDist (T s)) (Icc 0 1) := by
      have h0 := (continuous_apply (0 : Fin 3)).comp_continuousOn h.cont
      have h1 := (continuous_apply (1 : Fin 3)).comp_continuousOn h.cont
      exact ((h0.pow 2).add (h1.pow 2)).sqrt
    obtain ⟨x, hx, hmax⟩ := isCompact_Icc.exists_isMaxOn ⟨0, by simp⟩ hc
    exact ⟨_, hlow x hx.1 hx.2, fun s h0 h1 => hmax ⟨h0, h1⟩⟩
  obtain ⟨m, hm, hT⟩ := hcpt
  obtain ⟨P', hP', hb, -, -⟩ := c106_band hE h rA rD rO centerO 0 m fun s h0 h1 => ⟨sqrt_nonneg _, hT s h0 h1⟩
  rw [hP] at hP'
  cases Option.some.inj hP'
  refine ⟨⟨a, pc, d, oc⟩, g.core.transform.scale * g.core.recipe.scale z * rA, ?_, a2, fun s h0 h1 => ?_⟩
  · simp only [WGear.radiiData, circleOf, ka, kd, ko, a1, d1, o1, p1]
  · obtain ⟨p, e1, -, e2⟩ := hb s h0 h1
    refine ⟨p, e1, ?_⟩
    rw [distToLine_world hg]
    exact mul_lt_mul_of_pos_left (e2.trans_lt hm) (mul_pos hg.scale hg.slice)

/-- A slice with a regular profile `P`: its flank `T` rises to the tip, tip and root arc are not degenerate, the outside
ring has radius `rO`. -/
structure SliceOk (o : CurveOps α) (asEuler : M3 → ℝ × ℝ × ℝ) (g : WGear) (z : ℝ) (P : RefProfile α) (T : ℝ → V3)
    (rO : ℝ) : Prop where
  placed : Placed g z
  ring : 0 < rO
  closed : ∃ tooth pitch r θ rA rD centerO, ToothOk o tooth T pitch r θ ∧
    closeProfile o asEuler tooth rA rD rO centerO pitch = some P
  tipArc : P.ra.active = true
  rootArc : P.rd.active = true
  highest : ∀ s, 0 ≤ s → s ≤ 1 → axisDist (T s) ≤ axisDist (T 1)

/-- **C112, addendum and dedendum radius (partial).** They are the distances of tip and root of the placed flank of the
first section from the gear's axis. -/
theorem c112_addendum_partial (hE : EulerOk asEuler) (g : WGear) (hN : 0 < g.core.tooth.numTeeth)
    (profile : ℝ → Option (RefProfile α)) (P : RefProfile α) (rO : ℝ)
    (hp : profile (g.core.zVals.headD 0) = some P) (hs : SliceOk o asEuler g (g.core.zVals.headD 0) P T rO) :
    g.addendumRadius asEuler profile = some (Spec.distToLine g.core.transform.center g.core.transform.zAxis
      (g.world (g.core.zVals.headD 0) (T 1))) ∧
    g.dedendumRadius asEuler profile = some (Spec.distToLine g.core.transform.center g.core.transform.zAxis
      (g.world (g.core.zVals.headD 0) (T 0))) := by
  obtain ⟨tooth, pitch, r, θ, rA, rD, centerO, hT, hc⟩ := hs.closed
  obtain ⟨C, c1, c2, c3, -⟩ := c112_radii_partial hE hT rA rD rO centerO hs.ring P hc hs.tipArc hs.rootArc g _ hs.placed hN
  constructor
  · rw [WGear.addendumRadius]
    simp only [hp, Option.bind_some, c1, c2]
  · rw [WGear.dedendumRadius]
    simp only [hp, Option.bind_some, c1, c3]

theorem outsideRadii_eq (g : WGear) (profile : ℝ → Option (RefProfile α)) (ro ra : ℝ → ℝ) (l : List ℝ)
    (h : ∀ z ∈ l, ∃ P C, profile z = some P ∧ g.radiiData asEuler P z = some C ∧ C.o.arcRadius = some (ro z) ∧
      C.a.arcRadius = some (ra z)) :
    g.outsideRadii asEuler profile l = some (l.flatMap fun z => [ro z, ra z]) := by
  induction l with
  | nil => rfl
  | cons z zs ih =>
    obtain ⟨P, C, h1, h2, h3, h4⟩ := h z (by simp)
    rw [WGear.outsideRadii, ih fun y hy => h y (by simp [hy])]
    simp only [h1, Option.bind_some, h2, h3, h4]
    rfl

/-- **C112, largest radius (partial).** `max_outside_radius` is at least the distance of every point of the profiles of
all sections from the axis; it is the largest of the distances of the tips and the radii of the outside rings. -/
theorem c112_max_partial (hE : EulerOk asEuler) (g : WGear) (hN : 0 < g.core.tooth.numTeeth) (hz : g.core.zVals ≠ [])
    (profile : ℝ → Option (RefProfile α)) (P : ℝ → RefProfile α) (T : ℝ → ℝ → V3) (rO : ℝ → ℝ)
    (hs : ∀ z ∈ g.core.zVals, profile z = some (P z) ∧ SliceOk o asEuler g z (P z) (T z) (rO z)) :
    ∃ R, g.maxOutsideRadius asEuler profile = some R ∧
      (∀ z ∈ g.core.zVals, ∀ s, 0 ≤ s → s ≤ 1 → ∃ p, chainEval (sumOps o curveOps) ((P z).chain o) s = some p ∧
        Spec.distToLine g.core.transform.center g.core.transform.zAxis (g.world z p) ≤ R) ∧
      (∀ z ∈ g.core.zVals, Spec.distToLine g.core.transform.center g.core.transform.zAxis (g.world z (T z 1)) ≤ R ∧
        g.core.transform.scale * g.core.recipe.scale z * rO z ≤ R) ∧
      ∃ z ∈ g.core.zVals,
        R = Spec.distToLine g.core.transform.center g.core.transform.zAxis (g.world z (T z 1)) ∨
        R = g.core.transform.scale * g.core.recipe.scale z * rO z := by
  obtain ⟨ra, hra⟩ : ∃ ra : ℝ → ℝ, ra = fun z => Spec.distToLine g.core.transform.center g.core.transform.zAxis
    (g.world z (T z 1)) := ⟨_, rfl⟩
  obtain ⟨ro, hro⟩ : ∃ ro : ℝ → ℝ, ro = fun z => g.core.transform.scale * g.core.recipe.scale z * rO z := ⟨_, rfl⟩
  have hl := outsideRadii_eq (asEuler := asEuler) g profile ro ra g.core.zVals fun z hzm => by
    obtain ⟨h1, h2⟩ := hs z hzm
    obtain ⟨tooth, pitch, r, θ, rA, rD, centerO, hT, hc⟩ := h2.closed
    obtain ⟨C, c1, c2, -, -, -, -, c3, -⟩ :=
      c112_radii_partial hE hT rA rD _ centerO h2.ring _ hc h2.tipArc h2.rootArc g _ h2.placed hN
    exact ⟨_, C, h1, c1, by rw [c3, hro], by rw [c2, hra]⟩
  obtain ⟨L, hL⟩ : ∃ L, L = g.core.zVals.flatMap fun z => [ro z, ra z] := ⟨_, rfl⟩
  rw [← hL] at hl
  have hne : L ≠ [] := by
    rw [hL]
    obtain ⟨z, zs, hzz⟩ := List.exists_cons_of_ne_nil hz
    rw [hzz]; simp
  obtain ⟨R, hR⟩ : ∃ R, L.max? = some R := by
    rcases hx : L.max? with _ | R
    · exact absurd (List.max?_eq_none_iff.1 hx) hne
    · exact ⟨R, rfl⟩
  have hm := List.max?_eq_some_iff.1 hR
  refine ⟨R, by rw [WGear.maxOutsideRadius, hl, Option.bind_some, hR], fun z hzm s h0 h1 => ?_, fun z hzm => ⟨?_, ?_⟩, ?_⟩
  · obtain ⟨-, h2⟩ := hs z hzm
    obtain ⟨tooth, pitch, r, θ, rA, rD, centerO, hT, hc⟩ := h2.closed
    obtain ⟨P', hP', hb, -, -⟩ := c106_band hE hT rA rD (rO z) centerO 0 (axisDist (T z 1)) fun s h0 h1 =>
      ⟨sqrt_nonneg _, h2.highest s h0 h1⟩
    rw [hc] at hP'
    cases Option.some.inj hP'
    obtain ⟨p, e1, -, e2⟩ := hb s h0 h1
    refine ⟨p, e1, ?_⟩
    have hle : ra z ≤ R := hm.2 _ (by rw [hL, List.mem_flatMap]; exact ⟨z, hzm, by simp⟩)
    refine le_trans ?_ hle
    rw [hra]
    simp only
    rw [distToLine_world h2.placed, distToLine_world h2.placed]
    exact mul_le_mul_of_nonneg_left e2 (mul_pos h2.placed.scale h2.placed.slice).le
  · exact hm.2 _ (by rw [hL, List.mem_flatMap]; exact ⟨z, hzm, by simp [hra]⟩)
  · exact hm.2 _ (by rw [hL, List.mem_flatMap]; exact ⟨z, hzm, by simp [hro]⟩)
  · have := hm.1
    rw [hL, List.mem_flatMap] at this
    obtain ⟨z, hzm, hx⟩ := this
    simp only [List.mem_cons, List.not_mem_nil, or_false] at hx
    refine ⟨z, hzm, ?_⟩
    rcases hx with hx | hx
    · right; rw [hx, hro]
    · left; rw [hx, hra]

end

/-- Involute and cycloid gears are placed regularly wherever their slices have positive size. -/
theorem placed_of_make (p : GearInput) (hn : 0 < p.numTeeth) (hm : 0 < p.module_) (make : GearInput → WGear)
    (hmake : make = involuteGear ∨ make = cycloidGear) (c : V3) (o : M3) (ho : IsRot o) (a z : ℝ)
    (hz : z * 2 * sin (p.coneAngle / 2) < p.numTeeth) : Placed ((make p).place c o a) z := by
  obtain ⟨h1, -, -, -, h3, h4, -⟩ := make_fields p hn make hmake
  refine ⟨ho, ?_, ?_, z * cos (p.coneAngle / 2), h3 z⟩
  · simp only [WGear.place, h1]; exact hm
  · change 0 < (make p).core.recipe.scale z
    rw [h4, sub_pos, div_lt_one hn]; exact hz

/-- A straight flank from `(√3, -1, 0)` to `q`. -/
noncomputable def lineFlank (q : V3) : ℝ → V3 := fun s => (1 - s) • (![√3, -1, 0] : V3) + s • q

theorem lineFlank_ok {q : V3} (h0 : 0 < q 0) (h1 : q 1 ≠ -1) :
    ToothOk curveOps (lineC ![√3, -1, 0] q) (lineFlank q) (π / 2) 2 (-(π / 6)) := by
  have hpi := pi_pos
  refine ⟨lineC_active ![√3, -1, 0] q, (lineC_fresh ![√3, -1, 0] q).2, ?_, fun s _ _ => lineC_eval ![√3, -1, 0] q s,
    ?_, ?_, by linarith, by linarith, by norm_num, ?_, ?_, by linarith, by linarith, ?_⟩
  · change 0 < (lineC _ _).length
    rw [lineC_length]
    apply norm3_pos
    intro h
    have := congrFun h 1
    simp at this
    exact h1 (by linarith)
  · refine Continuous.continuousOn ?_
    unfold lineFlank
    fun_prop
  · intro i _ h
    have := congrFun h 1
    simp [lineFlank, linspace] at this
    exact h1 (by linarith)
  · simp [lineFlank]; ring
  · simp [lineFlank]
  · simp [lineFlank, h0]

theorem lineFlank_root (q : V3) (h0 : 0 < q 0) (h1 : q 1 ≠ -1) :
    1 / 10 ^ 10 < norm3 (rootStart (lineFlank q) (π / 2) - lineFlank q 0) := by
  have h1' : 1 / 10 ^ 10 < (1 : ℝ) / 2 := by norm_num
  rw [rootStart_polar (lineFlank_ok h0 h1)]
  refine lt_of_lt_of_le h1' ?_
  have h3 : (√3 : ℝ) ^ 2 = 3 := sq_sqrt (by norm_num)
  have h3' : (3 : ℝ) / 2 < √3 := by nlinarith [sqrt_nonneg (3 : ℝ)]
  have e1 : - -(π / 6) - π / 2 = -(π / 3) := by ring
  rw [e1, cos_neg, sin_neg, cos_pi_div_three, sin_pi_div_three]
  refine le_of_sq_le_sq' ?_
  simp [dot, lineFlank]
  nlinarith

/-- The profile closed over a straight flank; the tip arc is active unless the flank ends on the centre line. -/
theorem lineFlank_profile {asEuler : M3 → ℝ × ℝ × ℝ} (hE : EulerOk asEuler) {q : V3} (h0 : 0 < q 0) (h1 : q 1 ≠ -1)
    (rA rD rO : ℝ) (centerO : V3) :
    ∃ P, closeProfile curveOps asEuler (lineC ![√3, -1, 0] q) rA rD rO centerO (π / 2) = some P ∧ P.rd.active = true ∧
      (q 1 < -1 / 10 → P.ra.active = true) := by
  obtain ⟨P, hP, f, -⟩ := close_facts hE (lineFlank_ok h0 h1) rA rD rO centerO
  have hr := lineFlank_root q h0 h1
  refine ⟨P, hP, ?_, fun hq => ?_⟩
  · rcases f.rd with ⟨-, x, -⟩ | ⟨x, -⟩
    · exact x.active
    · linarith
  · rcases f.ra with ⟨-, x, -⟩ | ⟨x, -⟩
    · exact x.active
    · have : (1 : ℝ) / 10 ≤ norm3 (lineFlank q 1 - flipY (lineFlank q 1)) := by
        refine le_of_sq_le_sq' ?_
        simp [dot, lineFlank, flipY]
        nlinarith
      norm_num at this x
      linarith

/-- Four straight teeth on a helical involute gear of module 2, tilted, moved and turned. -/
noncomputable def reportGear : WGear :=
  (involuteGear { exampleInput with numTeeth := 4 }).place ![1, 2, 3] (Rx (π / 2)) 1

theorem reportGear_placed (z : ℝ) : Placed reportGear z :=
  placed_of_make _ (by norm_num) (by norm_num [exampleInput]) involuteGear (Or.inl rfl) _ _ (IsRot.Rx _) _ _
    (by simp [exampleInput])

theorem reportGear_fields : reportGear.core.tooth.numTeeth = 4 ∧ reportGear.core.transform.scale = 2 ∧
    (∀ z, reportGear.core.recipe.scale z = 1) ∧ reportGear.core.zVals ≠ [] := by
  obtain ⟨h1, -, h2, h3, -, h4, -⟩ :=
    make_fields { exampleInput with numTeeth := 4 } (by norm_num) involuteGear (Or.inl rfl)
  refine ⟨h2, ?_, fun z => ?_, ?_⟩
  · simp only [reportGear, WGear.place, h1]; norm_num [exampleInput]
  · simp only [reportGear, WGear.place]
    rw [h4]; simp [exampleInput]
  · simp only [reportGear, WGear.place, h3, GearInput.zVals]; simp

/-- A gear that meets the hypotheses: the reported radii are those of the points `(3, -1/2)` and `(√3, -1)`, times the
module. -/
theorem c112_case : ∃ (asEuler : M3 → ℝ × ℝ × ℝ) (P : RefProfile Curve), EulerOk asEuler ∧
    reportGear.addendumRadius asEuler (fun _ => some P) = some (√37) ∧
    reportGear.dedendumRadius asEuler (fun _ => some P) = some 4 ∧
    reportGear.maxOutsideRadius asEuler (fun _ => some P) = some (√37) := by
  obtain ⟨asEuler, hE⟩ := eulerOk_exists
  have hq0 : (0 : ℝ) < (![3, -1 / 2, 0] : V3) 0 := by simp
  have hq1 : (![3, -1 / 2, 0] : V3) 1 ≠ -1 := by norm_num
  obtain ⟨P, hP, hd, ha⟩ := lineFlank_profile hE hq0 hq1 3 2 1 ORIGIN
  have ha := ha (by norm_num)
  obtain ⟨hN, hsc, hsl, hz⟩ := reportGear_fields
  have h1 : axisDist (lineFlank ![3, -1 / 2, 0] 1) = √37 / 2 := by
    rw [axisDist, show (√37 : ℝ) / 2 = √(37 / 4) by
      rw [sqrt_div (by norm_num), show (4 : ℝ) = 2 ^ 2 by norm_num, sqrt_sq (by norm_num)]]
    congr 1
    simp [lineFlank]; norm_num
  have h0 : axisDist (lineFlank ![3, -1 / 2, 0] 0) = 2 := by
    rw [axisDist, show (2 : ℝ) = √4 by rw [show (4 : ℝ) = 2 ^ 2 by norm_num, sqrt_sq (by norm_num)]]
    congr 1
    simp [lineFlank]; norm_num
  have hs : ∀ z, SliceOk curveOps asEuler reportGear z P (lineFlank ![3, -1 / 2, 0]) 1 := fun z => by
    refine ⟨reportGear_placed z, one_pos, ⟨_, _, _, _, _, _, _, lineFlank_ok hq0 hq1, hP⟩, ha, hd, fun s s0 s1 => ?_⟩
    have h3 : (√3 : ℝ) ^ 2 = 3 := sq_sqrt (by norm_num)
    have h3' : (√3 : ℝ) < 2 := by nlinarith [sqrt_nonneg (3 : ℝ)]
    refine sqrt_le_sqrt ?_
    simp [lineFlank]
    nlinarith [mul_nonneg s0 (sub_nonneg.2 s1), sqrt_nonneg (3 : ℝ)]
  have hdist : ∀ z q, Spec.distToLine reportGear.core.transform.center reportGear.core.transform.zAxis
      (reportGear.world z q) = 2 * axisDist q := fun z q => by
    rw [distToLine_world (reportGear_placed z), hsc, hsl]; ring
  obtain ⟨e1, e2⟩ := c112_addendum_partial hE reportGear (by rw [hN]; norm_num) (fun _ => some P) P 1 rfl (hs _)
  obtain ⟨R, e3, -, e4, z, hzm, e5⟩ := c112_max_partial hE reportGear (by rw [hN]; norm_num) hz (fun _ => some P)
    (fun _ => P) (fun _ => lineFlank ![3, -1 / 2, 0]) (fun _ => 1) fun z _ => ⟨rfl, hs z⟩
  rw [hdist, h1] at e1
  rw [hdist, h0] at e2
  refine ⟨asEuler, P, hE, by rw [e1]; congr 1; ring, by rw [e2]; norm_num, ?_⟩
  rcases e5 with e5 | e5
  · rw [e3, e5, hdist, h1]; congr 1; ring
  · exfalso
    have h6 := (e4 z hzm).1
    rw [hdist, h1, e5, hsc, hsl] at h6
    nlinarith [sq_sqrt (show (0 : ℝ) ≤ 37 by norm_num), sqrt_nonneg (37 : ℝ)]

/-- A pointed tooth: the flank ends at `(3, 0)`, the nominal tip circle has radius 4. -/
theorem c112_pointed_case : ∃ (asEuler : M3 → ℝ × ℝ × ℝ) (P : RefProfile Curve) (C : RefCircles) (R : ℝ),
    EulerOk asEuler ∧ closeProfile curveOps asEuler (lineC ![√3, -1, 0] ![3, 0, 0]) 4 2 1 ORIGIN (π / 2) = some P ∧
      reportGear.radiiData asEuler P 0 = some C ∧ C.a.arcRadius = some R ∧
      ∀ s, 0 ≤ s → s ≤ 1 → ∃ p, chainEval (sumOps curveOps curveOps) (P.chain curveOps) s = some p ∧
        Spec.distToLine reportGear.core.transform.center reportGear.core.transform.zAxis (reportGear.world 0 p) < R := by
  obtain ⟨asEuler, hE⟩ := eulerOk_exists
  have hq0 : (0 : ℝ) < (![3, 0, 0] : V3) 0 := by simp
  have hq1 : (![3, 0, 0] : V3) 1 ≠ -1 := by norm_num
  obtain ⟨P, hP, hd, -⟩ := lineFlank_profile hE hq0 hq1 4 2 1 ORIGIN
  obtain ⟨C, R, h1, h2, h3⟩ := c112_pointed_violated hE (lineFlank_ok hq0 hq1) (by simp [lineFlank]) 4 2 1 ORIGIN
    (by norm_num) one_pos P hP hd (fun s s0 s1 => by
      have h3 : (√3 : ℝ) ^ 2 = 3 := sq_sqrt (by norm_num)
      have h3' : (√3 : ℝ) < 2 := by nlinarith [sqrt_nonneg (3 : ℝ)]
      rw [axisDist, sqrt_lt' (by norm_num)]
      simp [lineFlank]
      nlinarith [mul_nonneg s0 (sub_nonneg.2 s1), sqrt_nonneg (3 : ℝ)])
    reportGear 0 (reportGear_placed 0) (by rw [reportGear_fields.1]; norm_num)
  exact ⟨asEuler, P, C, R, hE, hP, h1, h2, h3⟩

end Verif
