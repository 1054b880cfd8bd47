import Verif.Props.Report

/-! # Properties C113 and C114: reported cone angles, centres and proportions -/

namespace Verif

open Real Set

/-! ## C113 -/

theorem apex_world (g : WGear) (z : ℝ) :
    (g.core.coneAtZ z).center = g.world z ((g.core.recipe.coneBase / tan (g.core.recipe.coneAngle / 2)) • OUT) := by
  rw [WGear.world, applyGearTransform_eq, GearCore.coneAtZ, ConicData.center, applyTransform_eq]
  rw [app_smul (Rz _), Rz_app_OUT]
  rfl

theorem world_sub {g : WGear} {z : ℝ} (p q : V3) :
    g.world z p - g.world z q = (g.core.transform.scale * g.core.recipe.scale z) • app g.core.transform.orientation
      (app (Rz (g.core.transform.angle + g.core.recipe.angle z)) (p - q)) := by
  rw [WGear.world, WGear.world, applyGearTransform_eq, applyGearTransform_eq, add_sub_add_right_eq_sub, ← smul_sub,
    ← app_sub, ← app_sub]
  simp only [GearCore.transformAt, GearTransform.mul, GearCore.recipeTransform, Matrix.mul_one]

/-- Direction from the apex of the pitch cone to its base. -/
noncomputable def toBase (g : WGear) : V3 :=
  if 0 < sin (g.core.recipe.coneAngle / 2) then -g.core.transform.zAxis else g.core.transform.zAxis

theorem norm3_sq_split (q : V3) (h : ℝ) : norm3 (q - h • OUT) ^ 2 = axisDist q ^ 2 + (q 2 - h) ^ 2 := by
  rw [norm3_sq, axisDist, sq_sqrt (by positivity)]
  simp [dot, OUT]; ring

/-- The angle at the apex of the gear's pitch cone between the direction to the base and the placed point `q`. -/
noncomputable def apexAngle (g : WGear) (z : ℝ) (q : V3) : ℝ :=
  Spec.angleAt (g.core.coneAtZ z).center (toBase g) (g.world z q)

/-- `q` is on the sphere about the apex through the pitch circle of the slice. -/
def OnSphere (g : WGear) (q : V3) : Prop :=
  norm3 (q - (g.core.recipe.coneBase / tan (g.core.recipe.coneAngle / 2)) • OUT) =
    g.core.recipe.coneBase / |sin (g.core.recipe.coneAngle / 2)|

theorem apexAngle_eq {g : WGear} {z : ℝ} (hg : Placed g z) {q : V3} (hq : OnSphere g q) :
    apexAngle g z q = arccos ((if 0 < sin (g.core.recipe.coneAngle / 2) then -1 else 1) *
      (q 2 - g.core.recipe.coneBase / tan (g.core.recipe.coneAngle / 2)) /
        (g.core.recipe.coneBase / |sin (g.core.recipe.coneAngle / 2)|)) := by
  obtain ⟨h, hh⟩ : ∃ h, h = g.core.recipe.coneBase / tan (g.core.recipe.coneAngle / 2) := ⟨_, rfl⟩
  obtain ⟨R0, hR0⟩ : ∃ R0, R0 = g.core.recipe.coneBase / |sin (g.core.recipe.coneAngle / 2)| := ⟨_, rfl⟩
  rw [OnSphere] at hq
  rw [← hh, ← hR0] at hq
  have hsp := mul_pos hg.scale hg.slice
  have hdz : dot (app g.core.transform.orientation (app (Rz (g.core.transform.angle + g.core.recipe.angle z))
      (q - h • OUT))) g.core.transform.zAxis = q 2 - h := by
    rw [zAxis_eq, hg.rot.dot_app, Rz_app]
    simp [dot, OUT]
  rw [apexAngle, Spec.angleAt, apex_world, ← hh, ← hR0, world_sub, norm3_smul, hg.rot.norm_app, (IsRot.Rz _).norm_app, hq,
    dot_smul_left, abs_of_pos hsp, mul_div_mul_left _ _ hsp.ne', toBase]
  split_ifs
  · rw [dot_neg_right, hdz]; congr 2; ring
  · rw [hdz, one_mul]

/-- `arcsin` of a radius over the cone distance: the angle seen from the apex, folded at a right angle. -/
theorem coneAngle_fold {g : WGear} {z : ℝ} (hg : Placed g z) (hb : 0 < g.core.recipe.coneBase)
    (hγ : sin (g.core.recipe.coneAngle / 2) ≠ 0) {q : V3} (hq : OnSphere g q) :
    arcsin (g.core.transform.scale * g.core.recipe.scale z * axisDist q /
      ((⟨g.core.recipe.coneAngle, g.core.recipe.coneBase, TransformData.default⟩ : ConicData).R *
        g.core.recipe.scale z * g.core.transform.scale)) = min (apexAngle g z q) (π - apexAngle g z q) := by
  have hx := apexAngle_eq hg hq
  rw [OnSphere] at hq
  obtain ⟨h, hh⟩ : ∃ h, h = g.core.recipe.coneBase / tan (g.core.recipe.coneAngle / 2) := ⟨_, rfl⟩
  obtain ⟨R0, hR0⟩ : ∃ R0, R0 = g.core.recipe.coneBase / |sin (g.core.recipe.coneAngle / 2)| := ⟨_, rfl⟩
  rw [← hh, ← hR0] at hq hx
  have hRp : 0 < R0 := by rw [hR0]; have := abs_pos.2 hγ; positivity
  have hR : (⟨g.core.recipe.coneAngle, g.core.recipe.coneBase, TransformData.default⟩ : ConicData).R = R0 := by
    rw [ConicData.R, hR0]
    simp only [ConicData.gamma, TransformData.default, mul_one, abs_div, abs_of_pos hb]
  have hc : g.core.transform.scale * g.core.recipe.scale z * axisDist q /
      (R0 * g.core.recipe.scale z * g.core.transform.scale) = axisDist q / R0 := by
    have := hg.scale.ne'
    have := hg.slice.ne'
    field_simp
  obtain ⟨x, hxx⟩ : ∃ x, x = (if 0 < sin (g.core.recipe.coneAngle / 2) then -1 else 1) * (q 2 - h) / R0 := ⟨_, rfl⟩
  rw [← hxx] at hx
  have hx2 : x ^ 2 = ((q 2 - h) / R0) ^ 2 := by rw [hxx]; split_ifs <;> ring
  rw [hR, hc, hx]
  have hs : axisDist q / R0 = sin (arccos x) := by
    rw [sin_arccos, hx2]
    have e := norm3_sq_split q h
    rw [hq] at e
    have : 1 - ((q 2 - h) / R0) ^ 2 = (axisDist q / R0) ^ 2 := by field_simp; linarith
    rw [this, sqrt_sq (div_nonneg (show 0 ≤ axisDist q from sqrt_nonneg _) hRp.le)]
  rw [hs]
  have h0 := arccos_nonneg x
  have h1 := arccos_le_pi x
  rcases le_total (arccos x) (π / 2) with hle | hle
  · rw [arcsin_sin (by linarith [pi_pos]) hle, min_eq_left (by linarith)]
  · rw [← sin_pi_sub, arcsin_sin (by linarith) (by linarith), min_eq_right (by linarith)]

section
variable {α : Type} {o : CurveOps α} {asEuler : M3 → ℝ × ℝ × ℝ} {T : ℝ → V3}

theorem onSphere_pitch {g : WGear} (hb : 0 < g.core.recipe.coneBase) (hγ : sin (g.core.recipe.coneAngle / 2) ≠ 0) {q : V3}
    (h1 : axisDist q = g.core.recipe.coneBase) (h2 : q 2 = 0) : OnSphere g q := by
  have ha := abs_pos.2 hγ
  have h := norm3_sq_split q (g.core.recipe.coneBase / tan (g.core.recipe.coneAngle / 2))
  rw [h1, h2] at h
  refine le_antisymm (le_of_sq_le_sq ?_ (by positivity)) (le_of_sq_le_sq ?_ (norm3_nonneg _)) <;>
  · rw [h, div_pow, sq_abs, tan_eq_sin_div_cos]
    apply le_of_eq
    have := sin_sq_add_cos_sq (g.core.recipe.coneAngle / 2)
    by_cases hc : cos (g.core.recipe.coneAngle / 2) = 0
    · rw [hc] at this ⊢
      have e : sin (g.core.recipe.coneAngle / 2) ^ 2 = 1 := by linarith
      rw [e]; simp
    · field_simp
      nlinarith

theorem apexAngle_pitch {g : WGear} {z : ℝ} (hg : Placed g z) (hb : 0 < g.core.recipe.coneBase)
    (hγ : sin (g.core.recipe.coneAngle / 2) ≠ 0) (hπ : |g.core.recipe.coneAngle / 2| ≤ π) {q : V3}
    (h1 : axisDist q = g.core.recipe.coneBase) (h2 : q 2 = 0) : apexAngle g z q = |g.core.recipe.coneAngle / 2| := by
  rw [apexAngle_eq hg (onSphere_pitch hb hγ h1 h2), h2, ← arccos_cos (abs_nonneg _) hπ, cos_abs]
  congr 1
  have hb' := hb.ne'
  rw [zero_sub, tan_eq_sin_div_cos]
  split_ifs with hs
  · rw [abs_of_pos hs]; field_simp
  · rw [abs_of_nonpos (not_lt.1 hs)]; field_simp

/-- A slice of a bevel gear: a regular profile with tip, root and outside ring on the sphere through the pitch circle. -/
structure ConeSlice (o : CurveOps α) (asEuler : M3 → ℝ × ℝ × ℝ) (g : WGear) (z : ℝ) (P : RefProfile α) (T : ℝ → V3)
    (rO cO : ℝ) : Prop where
  placed : Placed g z
  ring : 0 < rO
  closed : ∃ tooth pitch r θ rA rD, ToothOk o tooth T pitch r θ ∧
    closeProfile o asEuler tooth rA rD rO ![0, 0, cO] pitch = some P
  tipArc : P.ra.active = true
  rootArc : P.rd.active = true
  teeth : 0 < g.core.tooth.numTeeth
  base : g.core.recipe.coneBase = g.core.tooth.numTeeth / 2
  cone : sin (g.core.recipe.coneAngle / 2) ≠ 0
  tip : OnSphere g (T 1)
  root : OnSphere g (T 0)
  outside : OnSphere g ![rO, 0, cO]

/-- The angles that `cone_angles_at_z` returns are folded at a right angle. -/
theorem cone_fold (hE : EulerOk asEuler) (g : WGear) (z : ℝ) (P : RefProfile α) (rO cO : ℝ)
    (h : ConeSlice o asEuler g z P T rO cO) :
    g.coneAnglesAtZ asEuler P z = some (
      min (apexAngle g z ![rO, 0, cO]) (π - apexAngle g z ![rO, 0, cO]),
      min (apexAngle g z (T 0)) (π - apexAngle g z (T 0)),
      min (apexAngle g z ![g.core.tooth.numTeeth / 2, 0, 0]) (π - apexAngle g z ![g.core.tooth.numTeeth / 2, 0, 0]),
      min (apexAngle g z (T 1)) (π - apexAngle g z (T 1))) := by
  obtain ⟨hg, hO, ⟨tooth, pitch, r, θ, rA, rD, hT, hP⟩, ha, hd, hN, hb, hγ, h1, h0, hO'⟩ := h
  have hb0 : 0 < g.core.recipe.coneBase := by rw [hb]; positivity
  obtain ⟨C, c1, c2, c3, -, -, -, c5, -, c4⟩ := c112_radii_partial hE hT rA rD rO _ hO P hP ha hd g z hg hN
  rw [distToLine_world hg] at c2 c3
  have eO : axisDist (![rO, 0, cO] : V3) = rO := by rw [axisDist]; simp [hO.le]
  have eP : axisDist (![g.core.tooth.numTeeth / 2, 0, 0] : V3) = g.core.tooth.numTeeth / 2 := by
    rw [axisDist]
    simp only [Matrix.cons_val_zero, Matrix.cons_val_one, ne_eq, OfNat.ofNat_ne_zero, not_false_eq_true, zero_pow, add_zero]
    exact sqrt_sq (by positivity)
  have hpp := onSphere_pitch hb0 hγ (q := ![g.core.tooth.numTeeth / 2, 0, 0]) (by rw [eP, hb]) rfl
  rw [WGear.coneAnglesAtZ]
  simp only [c1, Option.bind_some, c2, c3, c4, c5]
  rw [← coneAngle_fold hg hb0 hγ h1, ← coneAngle_fold hg hb0 hγ h0, ← coneAngle_fold hg hb0 hγ hO',
    ← coneAngle_fold hg hb0 hγ hpp, eO, eP]

/-- **C113 (partial).** Seen from the apex of the gear's own pitch cone, the angles that `cone_angles_at_z` returns are
those of the outside ring, the root, the pitch circle and the tip of the placed slice, if none is above a right angle; the
pitch angle is then half the cone angle. Missing: an angle above a right angle is folded, see below. -/
theorem c113_partial (hE : EulerOk asEuler) (g : WGear) (z : ℝ) (P : RefProfile α) (rO cO : ℝ)
    (h : ConeSlice o asEuler g z P T rO cO) (h1 : apexAngle g z (T 1) ≤ π / 2) (h0 : apexAngle g z (T 0) ≤ π / 2)
    (hO : apexAngle g z ![rO, 0, cO] ≤ π / 2) (hγ : |g.core.recipe.coneAngle / 2| ≤ π / 2) :
    g.coneAnglesAtZ asEuler P z = some (apexAngle g z ![rO, 0, cO], apexAngle g z (T 0),
      |g.core.recipe.coneAngle / 2|, apexAngle g z (T 1)) := by
  have hN := h.teeth
  have hp := apexAngle_pitch h.placed (by rw [h.base]; positivity) h.cone (by linarith [pi_pos])
    (q := ![g.core.tooth.numTeeth / 2, 0, 0]) (by
      rw [h.base, axisDist]
      simp only [Matrix.cons_val_zero, Matrix.cons_val_one, ne_eq, OfNat.ofNat_ne_zero, not_false_eq_true, zero_pow,
        add_zero]
      exact sqrt_sq (by positivity)) rfl
  rw [cone_fold hE g z P rO cO h, hp, min_eq_left (by linarith), min_eq_left (by linarith), min_eq_left (by linarith),
    min_eq_left (by linarith)]

/-- **C113 is violated** for teeth that reach past the plane through the apex, as those of crown gears do: the reported
tip angle is `π` minus the real one. -/
theorem c113_crown_violated (hE : EulerOk asEuler) (g : WGear) (z : ℝ) (P : RefProfile α) (rO cO : ℝ)
    (h : ConeSlice o asEuler g z P T rO cO) (h1 : π / 2 < apexAngle g z (T 1)) :
    ∃ a, g.coneAnglesAtZ asEuler P z = some a ∧ a.2.2.2 = π - apexAngle g z (T 1) ∧ a.2.2.2 < apexAngle g z (T 1) := by
  refine ⟨_, cone_fold hE g z P rO cO h, ?_, ?_⟩
  · exact min_eq_right (by linarith)
  · exact min_lt_of_right_lt (by linarith)

end

/-- **C113, pitch angle.** For involute and cycloid gears in every position, at every height where the slice has positive
size, and for every profile, the pitch entry of `cone_angles_at_z` is half the absolute cone angle. -/
theorem c113_pitch {α : Type} {asEuler : M3 → ℝ × ℝ × ℝ} (hE : EulerOk asEuler) (p : GearInput) (hn : 0 < p.numTeeth)
    (hm : 0 < p.module_) (make : GearInput → WGear) (hmake : make = involuteGear ∨ make = cycloidGear) (c : V3) (o : M3)
    (ho : IsRot o) (a z : ℝ) (hz : z * 2 * sin (p.coneAngle / 2) < p.numTeeth) (h0 : p.coneAngle ≠ 0)
    (hπ : |p.coneAngle| ≤ π) (P : RefProfile α) (r : ℝ × ℝ × ℝ × ℝ)
    (hr : ((make p).place c o a).coneAnglesAtZ asEuler P z = some r) : r.2.2.1 = |p.coneAngle| / 2 := by
  obtain ⟨h1, -, h2, -, h3, h4, h5, h6⟩ := make_fields p hn make hmake
  have hg := placed_of_make p hn hm make hmake c o ho a z hz
  obtain ⟨g, hgg⟩ : ∃ g, g = (make p).place c o a := ⟨_, rfl⟩
  rw [← hgg] at hg hr
  have e1 : g.core.tooth.numTeeth = p.numTeeth := by rw [hgg]; exact h2
  have e2 : g.core.recipe.coneAngle = p.coneAngle := by rw [hgg]; exact h5
  have e3 : g.core.recipe.coneBase = p.numTeeth / 2 := by rw [hgg]; exact h6
  have habs : |p.coneAngle / 2| = |p.coneAngle| / 2 := by rw [abs_div, abs_two]
  have hpos : 0 < |p.coneAngle| := abs_pos.2 h0
  have hpi := pi_pos
  have hs : |sin (p.coneAngle / 2)| = sin |p.coneAngle / 2| := (abs_sin_eq_sin_abs_of_abs_le_pi (by rw [habs]; linarith))
  have hsp : 0 < sin |p.coneAngle / 2| := sin_pos_of_pos_of_lt_pi (by rw [habs]; linarith) (by rw [habs]; linarith)
  obtain ⟨pc, p1, p2, -, -⟩ := reportedCircle_facts hE hg (r := g.core.tooth.numTeeth / 2) (by rw [e1]; positivity) ORIGIN
  rw [WGear.coneAnglesAtZ, WGear.radiiData] at hr
  simp only [p1] at hr
  cases ha : circleOf asEuler (g.core.transformAt z) P.ra <;> cases hd : circleOf asEuler (g.core.transformAt z) P.rd <;>
    cases hoo : circleOf asEuler (g.core.transformAt z) P.ro <;> simp only [ha, hd, hoo, Option.bind_none, reduceCtorEq] at hr
  simp only [Option.bind_some] at hr
  split at hr
  · rename_i q1 q2 q3
    simp only [Option.some.injEq] at hr
    rw [p2, Option.some.injEq] at q2
    rw [← hr, ← habs, ← q2]
    have : g.core.transform.scale * g.core.recipe.scale z * (g.core.tooth.numTeeth / 2) /
      ((⟨g.core.recipe.coneAngle, g.core.recipe.coneBase, TransformData.default⟩ : ConicData).R *
        g.core.recipe.scale z * g.core.transform.scale) = sin |p.coneAngle / 2| := by
      rw [ConicData.R, e1, e2, e3]
      simp only [ConicData.gamma, TransformData.default, mul_one]
      rw [abs_div, hs, abs_of_pos (show 0 < p.numTeeth / 2 by positivity)]
      have := hg.scale.ne'
      have := hg.slice.ne'
      have := hsp.ne'
      field_simp
    change arcsin _ = _
    rw [this, arcsin_sin (by have := abs_nonneg (p.coneAngle / 2); linarith) (by rw [habs]; linarith)]
  · cases hr

/-- A bevel gear with four straight teeth and a right cone angle, tilted, moved and turned. -/
noncomputable def bevelCase : WGear :=
  (involuteGear { exampleInput with numTeeth := 4, coneAngle := π / 2 }).place ![1, 2, 3] (Rx (π / 2)) 1

theorem bevelCase_placed : Placed bevelCase 0 :=
  placed_of_make _ (by norm_num) (by norm_num [exampleInput]) involuteGear (Or.inl rfl) _ _ (IsRot.Rx _) _ _
    (by simp)

theorem bevelCase_fields : bevelCase.core.tooth.numTeeth = 4 ∧ bevelCase.core.recipe.coneAngle / 2 = π / 4 ∧
    bevelCase.core.recipe.coneBase = 2 := by
  obtain ⟨-, -, h2, -, -, -, h5, h6⟩ :=
    make_fields { exampleInput with numTeeth := 4, coneAngle := π / 2 } (by norm_num) involuteGear (Or.inl rfl)
  refine ⟨h2, ?_, ?_⟩
  · simp only [bevelCase, WGear.place, h5]; ring
  · simp only [bevelCase, WGear.place, h6]; norm_num

theorem bevelCase_sphere {q : V3} (h : axisDist q ^ 2 + (q 2 - 2) ^ 2 = 8) : OnSphere bevelCase q := by
  obtain ⟨-, h2, h3⟩ := bevelCase_fields
  rw [OnSphere, h2, h3, tan_pi_div_four, sin_pi_div_four, div_one]
  have h2' : (0 : ℝ) < √2 := by positivity
  have h4 : (√2 : ℝ) ^ 2 = 2 := sq_sqrt (by norm_num)
  refine norm3_eq_of_dot (by positivity) ?_
  rw [← norm3_sq, norm3_sq_split, h, div_pow, sq_abs, div_pow, h4]
  norm_num

theorem bevelCase_angle {q : V3} (h : axisDist q ^ 2 + (q 2 - 2) ^ 2 = 8) :
    apexAngle bevelCase 0 q = arccos ((2 - q 2) / (2 / |√2 / 2|)) := by
  obtain ⟨-, h2, h3⟩ := bevelCase_fields
  rw [apexAngle_eq bevelCase_placed (bevelCase_sphere h), h2, h3, tan_pi_div_four, sin_pi_div_four, div_one,
    if_pos (by positivity)]
  congr 2
  ring

/-- The straight flank of the cases, ending at height `h` on the sphere. -/
theorem bevelCase_slice {asEuler : M3 → ℝ × ℝ × ℝ} (hE : EulerOk asEuler) (h : ℝ) (hh : (h - 2) ^ 2 = 1) :
    ∃ P, ConeSlice curveOps asEuler bevelCase 0 P (lineFlank ![√27 / 2, -1 / 2, h]) 1 (2 - √7) := by
  have hq0 : (0 : ℝ) < (![√27 / 2, -1 / 2, h] : V3) 0 := by simp
  have hq1 : (![√27 / 2, -1 / 2, h] : V3) 1 ≠ -1 := by norm_num
  obtain ⟨P, hP, hd, ha⟩ := lineFlank_profile hE hq0 hq1 3 2 1 ![0, 0, 2 - √7]
  obtain ⟨h1, h2, h3⟩ := bevelCase_fields
  have s27 : (√27 : ℝ) ^ 2 = 27 := sq_sqrt (by norm_num)
  have s7 : (√7 : ℝ) ^ 2 = 7 := sq_sqrt (by norm_num)
  have s3 : (√3 : ℝ) ^ 2 = 3 := sq_sqrt (by norm_num)
  refine ⟨P, bevelCase_placed, one_pos, ⟨_, _, _, _, _, _, lineFlank_ok hq0 hq1, hP⟩, ha (by norm_num), hd,
    by rw [h1]; norm_num, by rw [h1, h3]; norm_num, by rw [h2, sin_pi_div_four]; positivity, ?_, ?_, ?_⟩ <;>
    refine bevelCase_sphere ?_ <;> rw [axisDist, sq_sqrt (by positivity)]
  · simp [lineFlank, div_pow, s27, hh]; norm_num
  · simp [lineFlank, s3]; norm_num
  · simp [s7]; norm_num

theorem lineFlank_one (q : V3) : lineFlank q 1 = q := by simp [lineFlank]

/-- A bevel gear that meets the hypotheses of C113, and a crown gear with the tip past the plane through the apex. -/
theorem c113_case : ∃ asEuler : M3 → ℝ × ℝ × ℝ, EulerOk asEuler ∧
    (∃ P : RefProfile Curve, bevelCase.coneAnglesAtZ asEuler P 0 =
      some (arccos (√7 / (2 / |√2 / 2|)), arccos (2 / (2 / |√2 / 2|)), π / 4, arccos (1 / (2 / |√2 / 2|)))) ∧
    ∃ (P : RefProfile Curve) (a : ℝ × ℝ × ℝ × ℝ), bevelCase.coneAnglesAtZ asEuler P 0 = some a ∧
      a.2.2.2 < π / 2 ∧ π / 2 < apexAngle bevelCase 0 ![√27 / 2, -1 / 2, 3] := by
  obtain ⟨asEuler, hE⟩ := eulerOk_exists
  have s27 : (√27 : ℝ) ^ 2 = 27 := sq_sqrt (by norm_num)
  have s7 : (√7 : ℝ) ^ 2 = 7 := sq_sqrt (by norm_num)
  have s3 : (√3 : ℝ) ^ 2 = 3 := sq_sqrt (by norm_num)
  have hpi := pi_pos
  have hd : 0 < 2 / |√2 / 2| := by positivity
  have e1 : apexAngle bevelCase 0 (lineFlank ![√27 / 2, -1 / 2, 1] 1) = arccos (1 / (2 / |√2 / 2|)) := by
    rw [lineFlank_one, bevelCase_angle]
    · congr 2; simp; norm_num
    · rw [axisDist, sq_sqrt (by positivity)]; simp [div_pow, s27]; norm_num
  have e0 : apexAngle bevelCase 0 (lineFlank ![√27 / 2, -1 / 2, 1] 0) = arccos (2 / (2 / |√2 / 2|)) := by
    rw [bevelCase_angle]
    · congr 2; simp [lineFlank]
    · rw [axisDist, sq_sqrt (by positivity)]; simp [lineFlank, s3]; norm_num
  have eO : apexAngle bevelCase 0 ![1, 0, 2 - √7] = arccos (√7 / (2 / |√2 / 2|)) := by
    rw [bevelCase_angle]
    · congr 2; simp
    · rw [axisDist, sq_sqrt (by positivity)]; simp [s7]; norm_num
  have e3 : π / 2 < apexAngle bevelCase 0 ![√27 / 2, -1 / 2, 3] := by
    rw [bevelCase_angle]
    · rw [← not_le, arccos_le_pi_div_two, not_le]
      exact div_neg_of_neg_of_pos (by simp; norm_num) hd
    · rw [axisDist, sq_sqrt (by positivity)]; simp [div_pow, s27]; norm_num
  refine ⟨asEuler, hE, ?_, ?_⟩
  · obtain ⟨P, hP⟩ := bevelCase_slice hE 1 (by norm_num)
    refine ⟨P, ?_⟩
    have hγ : |bevelCase.core.recipe.coneAngle / 2| = π / 4 := by
      rw [bevelCase_fields.2.1, abs_of_pos (by positivity)]
    rw [c113_partial hE bevelCase 0 P 1 (2 - √7) hP (by rw [e1, arccos_le_pi_div_two]; positivity)
      (by rw [e0, arccos_le_pi_div_two]; positivity) (by rw [eO, arccos_le_pi_div_two]; positivity)
      (by rw [hγ]; linarith), e1, e0, eO, hγ]
  · obtain ⟨P, hP⟩ := bevelCase_slice hE 3 (by norm_num)
    obtain ⟨a, h1, h2, -⟩ := c113_crown_violated hE bevelCase 0 P 1 (2 - √7) hP (by rw [lineFlank_one]; exact e3)
    rw [lineFlank_one] at h2
    exact ⟨P, a, h1, by rw [h2]; linarith, e3⟩

/-! ## C114 -/

/-- **C114.** For involute and cycloid gears in every position: the reported centre of the slice at the proportion `t` of
the face width divides the segment between the reported bottom and top centres in the ratio `t : 1 - t`; the middle centre
is the midpoint; bottom and top are `height · cos γ` apart along the gear's axis. -/
theorem c114_centers (p : GearInput) (hn : 0 < p.numTeeth) (hm : p.module_ ≠ 0) (make : GearInput → WGear)
    (hmake : make = involuteGear ∨ make = cycloidGear) (c : V3) (o : M3) (a t : ℝ) (g : WGear)
    (hg : g = (make p).place c o a) :
    g.centerPointAtZ (g.proportionToZ t) = (1 - t) • g.centerPointBottom + t • g.centerPointTop ∧
      g.centerPointMiddle = (1 / 2 : ℝ) • (g.centerPointBottom + g.centerPointTop) ∧
      g.centerPointTop - g.centerPointBottom = (p.height * cos (p.coneAngle / 2)) • app o ![0, 0, 1] := by
  obtain ⟨h1, -, -, h4, h3, -⟩ := make_fields p hn make hmake
  have hc : ∀ z, g.centerPointAtZ z = c + (p.module_ * (z * cos (p.coneAngle / 2))) • app o ![0, 0, 1] := by
    intro z
    simp only [hg, WGear.centerPointAtZ, GearCore.transformAt, GearTransform.mul, GearCore.recipeTransform, WGear.place, h1,
      h3]
    rw [app_def, app_mul, app_smul, Rz_app_OUT, app_smul, smul_smul]
    rfl
  have hz : g.core.zVals = p.zVals := by rw [hg]; exact h4
  simp only [WGear.centerPointBottom, WGear.centerPointTop, WGear.centerPointMiddle, WGear.proportionToZ, hc, hz,
    GearInput.zVals, List.headD_cons, List.getLastD_cons, List.getD_cons_succ, List.getD_cons_zero, List.getLastD_nil]
  refine ⟨?_, ?_, ?_⟩
  · module
  · module
  · rw [add_sub_add_left_eq_sub, ← sub_smul]
    congr 1
    field_simp
    ring

/-- **C114 is violated** by herringbone gears: `p2z(1)` is the second section, not the top, and the centre found for it
is at least half the height below the top. -/
theorem c114_herringbone_violated (p : GearInput) (hn : 0 < p.numTeeth) (hh : 0 < p.height) (hm : 0 < p.module_)
    (hβ : 0 < cos p.helixAngle) (g : WGear) (hg : g = helicalGear true p ∨ g = helicalRingGear true p) (c : V3) (o : M3)
    (a : ℝ) :
    ∃ d, p.height / 2 ≤ d ∧ (g.place c o a).centerPointTop -
      (g.place c o a).centerPointAtZ ((g.place c o a).proportionToZ 1) = d • app o ![0, 0, 1] := by
  have hlt : lowEnd p < highEnd p := by
    rw [← sub_pos, ends_sub]; positivity
  obtain ⟨q, -, hq, h1, -, -, -, h2, h3, -⟩ := helical_fields true p hn g hg
  have hqm : q.module_ = p.module_ / cos p.helixAngle := by rcases hq with rfl | rfl <;> rfl
  have hqc : q.coneAngle = 0 := by rcases hq with rfl | rfl <;> rfl
  have hq0 : 0 < q.module_ := by rw [hqm]; positivity
  obtain ⟨z1, e0, e1, l0, l1, l2⟩ := herringbone_second p hn hlt g hg
  have hc : ∀ z, (g.place c o a).centerPointAtZ z = c + (q.module_ * z) • app o ![0, 0, 1] := by
    intro z
    simp only [WGear.centerPointAtZ, GearCore.transformAt, GearTransform.mul, GearCore.recipeTransform, WGear.place, h2,
      h3, GearInput.calcParams, hqc]
    rw [app_def, app_mul, app_smul, Rz_app_OUT, app_smul, smul_smul, zero_div, cos_zero, mul_one]
    rfl
  have htop : (g.place c o a).core.zVals.getLastD 0 = highEnd p := by
    change g.core.zVals.getLastD 0 = _
    rw [List.getLastD_eq_getLast?, l2]; rfl
  have hp : (g.place c o a).proportionToZ 1 = z1 := by
    simp only [WGear.proportionToZ]
    change 1 * g.core.zVals.getD 1 0 + (1 - 1) * g.core.zVals.getD 0 0 = _
    rw [e1]; ring
  refine ⟨q.module_ * (highEnd p - z1), ?_, ?_⟩
  · have h := ends_sub p
    rw [← hqm] at h
    have h4 : p.height / q.module_ / 2 ≤ highEnd p - z1 := by rw [← h]; linarith
    calc p.height / 2 = q.module_ * (p.height / q.module_ / 2) := by field_simp
      _ ≤ _ := by gcongr
  · rw [WGear.centerPointTop, htop, hp, hc, hc]
    module

/-- **C114 for helical gears**, with and without herringbone, where there are more than two sections: the middle centre is the
midpoint between bottom and top. -/
theorem c114_helical_middle (hb : Bool) (p : GearInput) (hn : 0 < p.numTeeth) (g : WGear)
    (hg : g = helicalGear hb p ∨ g = helicalRingGear hb p) (c : V3) (o : M3) (a : ℝ) :
    (g.place c o a).centerPointMiddle =
      (1 / 2 : ℝ) • ((g.place c o a).centerPointBottom + (g.place c o a).centerPointTop) := by
  obtain ⟨q, -, hq, h1, -, -, -, h2, h3, -⟩ := helical_fields hb p hn g hg
  have hqc : q.coneAngle = 0 := by rcases hq with rfl | rfl <;> rfl
  have hc : ∀ z, (g.place c o a).centerPointAtZ z = c + (q.module_ * z) • app o ![0, 0, 1] := by
    intro z
    simp only [WGear.centerPointAtZ, GearCore.transformAt, GearTransform.mul, GearCore.recipeTransform, WGear.place, h2,
      h3, GearInput.calcParams, hqc]
    rw [app_def, app_mul, app_smul, Rz_app_OUT, app_smul, smul_smul, zero_div, cos_zero, mul_one]
    rfl
  simp only [WGear.centerPointBottom, WGear.centerPointTop, WGear.centerPointMiddle, hc]
  module

/-- Hypotheses of C114: a bevel gear, and a herringbone gear of height 10. -/
example : (0 : ℝ) < ({ exampleInput with coneAngle := π / 2 } : GearInput).numTeeth ∧
    ({ exampleInput with coneAngle := π / 2 } : GearInput).module_ ≠ 0 ∧ 0 < exampleInput.height ∧
    0 < exampleInput.module_ ∧ 0 < cos exampleInput.helixAngle := by
  refine ⟨by norm_num [exampleInput], by norm_num [exampleInput], by norm_num [exampleInput], by norm_num [exampleInput], ?_⟩
  simp only [exampleInput, cos_pi_div_six]; positivity

end Verif
