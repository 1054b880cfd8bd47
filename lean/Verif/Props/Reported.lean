import Verif.Props.HelicalGear
import Verif.Props.Mesh
import Verif.Props.Profile
import Verif.Props.Recipe

/-! # Properties C66–C69 and C71: what gears report, setters, reset, adapted cycloid gears -/

namespace Verif

open Real

/-- What involute and cycloid gears store about placement and slices. -/
theorem make_fields (p : GearInput) (hn : 0 < p.numTeeth) (make : GearInput → WGear)
    (hmake : make = involuteGear ∨ make = cycloidGear) :
    (make p).core.transform = { center := p.center, orientation := 1, scale := p.module_, angle := p.angle } ∧
      (make p).core.module_ = p.module_ ∧ (make p).core.tooth.numTeeth = p.numTeeth ∧
      (make p).core.zVals = p.zVals ∧ (∀ z, (make p).core.recipe.center z = (z * cos (p.coneAngle / 2)) • OUT) ∧
      (∀ z, (make p).core.recipe.scale z = 1 - z * 2 * sin (p.coneAngle / 2) / p.numTeeth) ∧
      (make p).core.recipe.coneAngle = p.coneAngle ∧ (make p).core.recipe.coneBase = p.numTeeth / 2 := by
  rcases hmake with rfl | rfl
  · rw [involuteGear, normalise_pos hn, make_pos hn]
    exact ⟨rfl, rfl, rfl, rfl, fun _ => rfl, fun _ => rfl, rfl, rfl⟩
  · refine ⟨rfl, rfl, ?_, rfl, fun _ => rfl, fun _ => rfl, rfl, rfl⟩
    rw [cycloidGear, GearInput.calcCycloid, make_pos hn]

/-! ## C66 -/

theorem zHeight_eq (p : GearInput) (hn : 0 < p.numTeeth) (hm : p.module_ ≠ 0) (make : GearInput → WGear)
    (hmake : make = involuteGear ∨ make = cycloidGear) (c : V3) (o : M3) (a : ℝ) :
    ((make p).place c o a).zHeight = norm3 ((p.height * cos (p.coneAngle / 2)) • app o OUT + c) := by
  obtain ⟨h1, -, -, h2, h3, -⟩ := make_fields p hn make hmake
  simp only [WGear.zHeight, WGear.place, h1, h2, h3]
  rw [applyGearTransform_eq, ← sub_smul, app_smul, app_smul, Rz_app_OUT, smul_smul]
  congr 3
  simp only [GearInput.zVals, List.getD_cons_succ, List.getD_cons_zero]
  field_simp
  ring

/-- **C66** (`_partial`: only for gears whose centre is the origin; the other positions are refuted below). The
reported height is the axial height, whatever the orientation and angle. -/
theorem c66_partial (p : GearInput) (hn : 0 < p.numTeeth) (hm : p.module_ ≠ 0) (make : GearInput → WGear)
    (hmake : make = involuteGear ∨ make = cycloidGear) (o : M3) (ho : IsRot o) (a : ℝ) :
    ((make p).place 0 o a).zHeight = |p.height * cos (p.coneAngle / 2)| := by
  rw [zHeight_eq p hn hm make hmake, add_zero, norm3_smul, ho.norm_app, norm3_OUT, mul_one]

/-- **C66 is violated**: moving a gear by `t` along its axis changes the reported height by `t`. -/
theorem c66_moved_violated (p : GearInput) (hn : 0 < p.numTeeth) (hm : p.module_ ≠ 0) (make : GearInput → WGear)
    (hmake : make = involuteGear ∨ make = cycloidGear) (hh : 0 < p.height) (hγ : 0 < cos (p.coneAngle / 2)) (t : ℝ)
    (ht : 0 < t) :
    ((make p).place (t • OUT) 1 0).zHeight = ((make p).place 0 1 0).zHeight + t := by
  rw [c66_partial p hn hm make hmake 1 IsRot.one, zHeight_eq p hn hm make hmake, app_one, ← add_smul, norm3_smul,
    norm3_OUT, mul_one, abs_of_pos (by positivity), abs_of_pos (by positivity)]

/-- The second section of a herringbone gear is between the lowest and the middle one. -/
theorem herringbone_second (p : GearInput) (hn : 0 < p.numTeeth) (hlt : lowEnd p < highEnd p) (g : WGear)
    (hg : g = helicalGear true p ∨ g = helicalRingGear true p) :
    ∃ z1, g.core.zVals.getD 0 0 = lowEnd p ∧ g.core.zVals.getD 1 0 = z1 ∧ lowEnd p ≤ z1 ∧
      z1 ≤ (highEnd p + lowEnd p) / 2 ∧ g.core.zVals.getLast? = some (highEnd p) := by
  have key : ∀ zs : List ℝ, zs.Pairwise (· < ·) → zs.head? = some (lowEnd p) → (highEnd p + lowEnd p) / 2 ∈ zs →
      ∃ z1, zs.getD 0 0 = lowEnd p ∧ zs.getD 1 0 = z1 ∧ lowEnd p ≤ z1 ∧ z1 ≤ (highEnd p + lowEnd p) / 2 := by
    intro zs hs hh' hmem
    match zs, hs, hh', hmem with
    | [], _, hh', _ => simp at hh'
    | [x], _, hh', hmem =>
      simp only [List.head?_cons, Option.some.injEq] at hh'
      simp only [List.mem_singleton] at hmem
      linarith
    | x :: y :: t, hs, hh', hmem =>
      simp only [List.head?_cons, Option.some.injEq] at hh'
      subst hh'
      simp only [List.pairwise_cons] at hs
      have hy := hs.1 y (by simp)
      refine ⟨y, rfl, rfl, hy.le, ?_⟩
      simp only [List.mem_cons] at hmem
      rcases hmem with h | h | h
      · linarith
      · exact h.ge
      · exact (hs.2.1 _ h).le
  obtain ⟨s1, s2, -, -, s5, s6⟩ := startSections_mem true hlt
  have smid : (highEnd p + lowEnd p) / 2 ∈ startSections true (lowEnd p) (highEnd p) := by simp [startSections]
  rcases hg with rfl | rfl
  · obtain ⟨c, k1, k2, k3⟩ := helical_start true p hn hlt
    have hr := (refine_spec true c hlt k1 k2).1
    rw [k1] at hr
    rw [k3]
    obtain ⟨z1, a1, a2, a3, a4⟩ := key _ hr.1 (hr.2.1.trans s5) (hr.2.2.2 _ smid)
    exact ⟨z1, a1, a2, a3, a4, hr.2.2.1.trans s6.1⟩
  · rw [(helical_ring_start true p hn hlt).1]
    obtain ⟨z1, a1, a2, a3, a4⟩ := key _ s1 s5 smid
    exact ⟨z1, a1, a2, a3, a4, s6.1⟩

/-- **C66 is violated** by herringbone gears: at the origin, the reported height is at most half of the height. -/
theorem c66_herringbone_violated (p : GearInput) (hn : 0 < p.numTeeth) (hh : 0 < p.height) (hm : 0 < p.module_)
    (hβ : 0 < cos p.helixAngle) (g : WGear) (hg : g = helicalGear true p ∨ g = helicalRingGear true p) :
    (g.place 0 1 0).zHeight ≤ p.height / 2 := by
  have hlt : lowEnd p < highEnd p := by
    rw [← sub_pos, ends_sub]; positivity
  obtain ⟨q, -, hq, h1, -, -, -, h2, h3, -⟩ := helical_fields true p hn g hg
  have hqm : q.module_ = p.module_ / cos p.helixAngle := by rcases hq with rfl | rfl <;> rfl
  have hqc : q.coneAngle = 0 := by rcases hq with rfl | rfl <;> rfl
  have hmid : (highEnd p + lowEnd p) / 2 - lowEnd p = p.height / 2 / q.module_ := by
    have := ends_sub p
    rw [hqm]
    field_simp at this ⊢
    linarith
  have hq0 : 0 < q.module_ := by rw [hqm]; positivity
  obtain ⟨z1, e0, e1, l0, l1, -⟩ := herringbone_second p hn hlt g hg
  simp only [WGear.zHeight, WGear.place, e0, e1, h3, GearInput.calcParams, h2, hqc]
  rw [applyGearTransform_eq, ← sub_smul, app_smul, app_smul, Rz_app_OUT, smul_smul, add_zero, app_one, norm3_smul,
    norm3_OUT, zero_div, cos_zero, mul_one, mul_one, mul_one, abs_of_nonneg (by
      apply mul_nonneg hq0.le; linarith)]
  have : z1 - lowEnd p ≤ p.height / 2 / q.module_ := by rw [← hmid]; linarith
  calc q.module_ * (z1 - lowEnd p) ≤ q.module_ * (p.height / 2 / q.module_) := by gcongr
    _ = p.height / 2 := by field_simp

/-! ## C67 -/

theorem centerSpherical_eq (p : GearInput) (hn : 0 < p.numTeeth) (hm : p.module_ ≠ 0) (make : GearInput → WGear)
    (hmake : make = involuteGear ∨ make = cycloidGear) (c : V3) (o : M3) (a : ℝ) :
    ((make p).place c o a).centerSpherical =
      app o (app (Rz a) ((p.module_ * (p.numTeeth / 2) / tan (p.coneAngle / 2)) • app o OUT + c)) + c := by
  obtain ⟨h1, h2, h3, -, -, -, h4, h5⟩ := make_fields p hn make hmake
  simp only [WGear.centerSpherical, WGear.coneData, ConicData.center, ConicData.gamma, WGear.coneAngle, WGear.pitchRadius,
    WGear.module_, WGear.place, h1, h2, h3, h4]
  rw [applyGearTransform_eq, applyTransform_eq]
  simp only [app_smul, app_add, smul_smul, smul_add]
  rw [mul_inv_cancel₀ hm, one_smul]
  congr 3
  field_simp

/-- **C67** (`_partial`: only for gears centred at the origin with their axis along z, at any angle). The reported
centre is the cone apex. -/
theorem c67_partial (p : GearInput) (hn : 0 < p.numTeeth) (hm : p.module_ ≠ 0) (hγ : sin (p.coneAngle / 2) ≠ 0)
    (make : GearInput → WGear) (hmake : make = involuteGear ∨ make = cycloidGear) (a : ℝ) :
    ((make p).place 0 1 a).centerSpherical = (p.module_ * (p.numTeeth / 2) / tan (p.coneAngle / 2)) • OUT ∧
      ∀ z, ((make p).place 0 1 a).centerSpherical = (((make p).place 0 1 a).core.coneAtZ z).center := by
  have h : ((make p).place 0 1 a).centerSpherical = (p.module_ * (p.numTeeth / 2) / tan (p.coneAngle / 2)) • OUT := by
    rw [centerSpherical_eq p hn hm make hmake, app_one, app_one, add_zero, add_zero, app_smul, Rz_app_OUT]
  refine ⟨h, fun z => ?_⟩
  rw [h, c63_apex p hn hγ make hmake, app_one, zero_add, tan_eq_sin_div_cos, OUT, div_div_eq_mul_div, mul_div_assoc]

/-- **C67 is violated** by every gear that is not at the origin: its centre is counted twice. -/
theorem c67_violated (p : GearInput) (hn : 0 < p.numTeeth) (hm : p.module_ ≠ 0) (hγ : sin (p.coneAngle / 2) ≠ 0)
    (make : GearInput → WGear) (hmake : make = involuteGear ∨ make = cycloidGear) (c : V3) (hc : c ≠ 0) (z : ℝ) :
    ((make p).place c 1 0).centerSpherical = (((make p).place c 1 0).core.coneAtZ z).center + c ∧
      ((make p).place c 1 0).centerSpherical ≠ (((make p).place c 1 0).core.coneAtZ z).center := by
  have h : ((make p).place c 1 0).centerSpherical = (((make p).place c 1 0).core.coneAtZ z).center + c := by
    rw [centerSpherical_eq p hn hm make hmake, c63_apex p hn hγ make hmake, app_one, app_one, Rz_zero, app_one, app_one,
      tan_eq_sin_div_cos, OUT, div_div_eq_mul_div, mul_div_assoc]
    abel
  exact ⟨h, fun e => hc (by rw [h] at e; simpa using e)⟩

/-- **C67 is violated** by tilted gears as well: the tilt is applied twice. A gear at the origin turned by a quarter
turn about x has its apex on the y axis; the reported centre is on the z axis. -/
theorem c67_tilted_violated (p : GearInput) (hn : 0 < p.numTeeth) (hm : 0 < p.module_) (hγ : 0 < tan (p.coneAngle / 2))
    (make : GearInput → WGear) (hmake : make = involuteGear ∨ make = cycloidGear) (z : ℝ) :
    ((make p).place 0 (Rx (π / 2)) 0).centerSpherical 1 = 0 ∧
      (((make p).place 0 (Rx (π / 2)) 0).core.coneAtZ z).center 1 < 0 := by
  have hs : sin (p.coneAngle / 2) ≠ 0 := by
    intro h; rw [tan_eq_sin_div_cos, h, zero_div] at hγ; exact lt_irrefl _ hγ
  have hk : cos (p.coneAngle / 2) / sin (p.coneAngle / 2) = (tan (p.coneAngle / 2))⁻¹ := by
    rw [tan_eq_sin_div_cos, inv_div]
  constructor
  · rw [centerSpherical_eq p hn hm.ne' make hmake, Rz_zero, app_one, add_zero, add_zero, app_smul]
    simp [app, Rx, OUT, Matrix.mulVec, dotProduct, Fin.sum_univ_three]
  · rw [c63_apex p hn hs make hmake, zero_add, hk]
    have : 0 < p.module_ * (p.numTeeth / 2) * (tan (p.coneAngle / 2))⁻¹ := by positivity
    have e : app (Rx (π / 2)) ![0, 0, 1] 1 = -1 := by simp [app, Rx, Matrix.mulVec, dotProduct, Fin.sum_univ_three]
    rw [Pi.smul_apply, e, smul_eq_mul]
    linarith

/-- A concrete case for C66 and C67: a bevel gear with pitch cone half angle π/4. -/
example : let p : GearInput := { exampleInput with coneAngle := π / 2 }
    0 < p.numTeeth ∧ 0 < p.module_ ∧ 0 < p.height ∧ 0 < cos (p.coneAngle / 2) ∧ sin (p.coneAngle / 2) ≠ 0 ∧
      0 < tan (p.coneAngle / 2) := by
  intro p
  have e : p.coneAngle / 2 = π / 4 := by simp only [p]; ring
  rw [e, cos_pi_div_four, sin_pi_div_four, tan_pi_div_four]
  refine ⟨by norm_num [p, exampleInput], by norm_num [p, exampleInput], by norm_num [p, exampleInput], by positivity,
    by positivity, one_pos⟩

/-! ## C68 -/

theorem rodrigues_app {M : M3} (h : IsRot M) (n v : V3) (a : ℝ) :
    rodrigues (app M n) a (app M v) = app M (rodrigues n a v) := by
  simp only [rodrigues, h.dot_app, h.cross_app, app_add, app_smul]

theorem zAxis_eq (t : TransformData) : t.zAxis = app t.orientation OUT := by
  apply V3.ext3 <;> simp [TransformData.zAxis, app_0, app_1, app_2, OUT]

/-- **C68, centre**: the assigned centre is read back, and every point of every slice moves by the difference. -/
theorem c68_center_partial (g : WGear) (v : V3) (z : ℝ) (q : V3) :
    (g.setCenter v).center = v ∧ (g.setCenter v).angle = g.angle ∧
      applyGearTransform q ((g.setCenter v).core.transformAt z) =
        applyGearTransform q (g.core.transformAt z) + (v - g.center) := by
  refine ⟨rfl, rfl, ?_⟩
  rw [applyGearTransform_eq, applyGearTransform_eq]
  simp only [GearCore.transformAt, WGear.setCenter, GearTransform.mul, GearCore.recipeTransform, WGear.center]
  abel

/-- **C68, angle**: the assigned angle is read back, and every point of every slice turns about the gear axis by the
difference. -/
theorem c68_angle_partial (g : WGear) (v : ℝ) (ho : IsRot g.core.transform.orientation) (z : ℝ) (q : V3) :
    (g.setAngle v).angle = v ∧ (g.setAngle v).center = g.center ∧
      applyGearTransform q ((g.setAngle v).core.transformAt z) - g.center =
        rodrigues g.core.transform.zAxis (v - g.angle) (applyGearTransform q (g.core.transformAt z) - g.center) := by
  refine ⟨rfl, rfl, ?_⟩
  rw [applyGearTransform_eq, applyGearTransform_eq]
  simp only [GearCore.transformAt, WGear.setAngle, GearTransform.mul, GearCore.recipeTransform, WGear.center, WGear.angle,
    Matrix.mul_one]
  obtain ⟨t, ht⟩ : ∃ t, t = g.core.transform := ⟨_, rfl⟩
  rw [← ht] at ho ⊢
  have key : ∀ x : ℝ, (t.scale * g.core.recipe.scale z) • app t.orientation (app (Rz (x + g.core.recipe.angle z)) q) +
      (t.center + t.scale • ((t.orientation * Rz x).mulVec (g.core.recipe.center z))) - t.center =
        app t.orientation (app (Rz x) ((t.scale * g.core.recipe.scale z) • app (Rz (g.core.recipe.angle z)) q +
          t.scale • g.core.recipe.center z)) := by
    intro x
    have e : (t.orientation * Rz x).mulVec (g.core.recipe.center z) = app t.orientation (app (Rz x) (g.core.recipe.center z)) := by
      rw [← app_mul]; rfl
    rw [e, Rz_add, app_mul, app_add, app_add, app_smul, app_smul, app_smul, app_smul]
    abel
  rw [zAxis_eq, key, key, rodrigues_app ho, rodrigues_OUT, ← app_mul (Rz _) (Rz _), ← Rz_add, sub_add_cancel]

/-- **C68 is violated by `module`**: the value is read back and the pitch radius follows it, but the pitch circle of
the geometry keeps the size of the old module. Before the assignment the two agree. -/
theorem c68_module_violated (p : GearInput) (hn : 0 < p.numTeeth) (hm : 0 < p.module_) (make : GearInput → WGear)
    (hmake : make = involuteGear ∨ make = cycloidGear) (v : ℝ) (hv : v ≠ p.module_) :
    (make p).pitchRadius = (make p).pitchCircleRadius 0 ∧ ((make p).setModule v).module_ = v ∧
      ((make p).setModule v).pitchRadius = p.numTeeth * v / 2 ∧
      ((make p).setModule v).pitchCircleRadius 0 = p.numTeeth * p.module_ / 2 ∧
      ((make p).setModule v).pitchRadius ≠ ((make p).setModule v).pitchCircleRadius 0 := by
  obtain ⟨h1, h2, h3, -, h4, h5, -⟩ := make_fields p hn make hmake
  have hr : (make p).pitchCircleRadius 0 = p.numTeeth * p.module_ / 2 := by
    simp only [WGear.pitchCircleRadius, applyGearTransform_eq, GearCore.transformAt, GearTransform.mul, h1, h3, h5,
      GearCore.recipeTransform, h4]
    rw [add_sub_add_right_eq_sub, ORIGIN_eq, app_zero, app_zero, smul_zero, sub_zero, Matrix.mul_one, app_one, norm3_smul,
      (IsRot.Rz _).norm_app, norm3_smul,
      show norm3 RIGHT = 1 from norm3_eq_of_dot zero_le_one (by simp [dot, RIGHT])]
    simp only [zero_mul, zero_div, sub_zero, mul_one]
    rw [abs_of_pos hm, abs_of_pos (by positivity)]
    ring
  refine ⟨?_, rfl, ?_, hr, ?_⟩
  · rw [hr, WGear.pitchRadius, h2, h3]
  · simp only [WGear.pitchRadius, WGear.setModule, h3]
  · have : ((make p).setModule v).pitchCircleRadius 0 = p.numTeeth * p.module_ / 2 := hr
    rw [this]
    simp only [WGear.pitchRadius, WGear.setModule, h3]
    intro h
    apply hv
    have : p.numTeeth * (v - p.module_) = 0 := by linarith
    rcases mul_eq_zero.1 this with h | h <;> linarith

/-! Assigning the cone angle: through the heap model of recipes. -/

section
open Spec

variable {α : Type}

theorem DenP.mem_ref {H : Heap α} {P : ℕ → Prop} {fs F} (h : DenP H P fs F) {k : String} {c : ℕ}
    (hc : (k, HVal.ref c) ∈ fs) : P c := by
  induction h with
  | nil => simp at hc
  | leaf _ ih =>
    rcases List.mem_cons.1 hc with h | h
    · simp at h
    · exact ih h
  | ref hp _ _ _ _ ih =>
    rcases List.mem_cons.1 hc with h | h
    · simp only [Prod.mk.injEq, HVal.ref.injEq] at h; rw [h.2]; exact hp
    · exact ih h

theorem ValueAt_unique {z : ℝ} {F G : Fields α} (h : ValueAt z F G) : ∀ {G'}, ValueAt z F G' → G' = G := by
  induction h with
  | nil => intro G' h; cases h; rfl
  | data _ ih => intro G' h; cases h with | data h => rw [ih h]
  | fn e _ ih =>
    intro G' h
    cases h with
    | fn e' h =>
      rw [e] at e'
      cases e'
      rw [ih h]
  | node _ _ ih1 ih2 => intro G' h; cases h with | node h1 h2 => rw [ih1 h1, ih2 h2]

/-- **C59, no sharing**. The result of evaluating a recipe refers to new objects only. -/
theorem c59_fresh_partial (params : String → List String) (H H' : Heap α) (a b : ℕ) (z : ℝ) (cls : String)
    (F : Fields α) (hobj : Obj H a true cls F) (hF : F.Proper z) (h : CallRecipe params H a z H' b) (r : Rec α)
    (hr : H'[b]? = some r) (k : String) (c : ℕ) (hc : (k, HVal.ref c) ∈ r.fields) : H.length ≤ c := by
  obtain ⟨q, H1, fs, H2, D, hq, hrec, hcopy, hloop, hD, -, rfl, rfl⟩ := h
  obtain ⟨r0, hr0, h1, h2, h3⟩ := hobj
  rw [hq] at hr0
  cases hr0
  obtain ⟨e1, e2, D', e3, -, e5⟩ := evalLoop_effect hloop ⟨false, "dict", fs⟩ (by simp)
  rw [hD] at e3
  cases e3
  have l1 := hcopy.length_le
  obtain ⟨G, g1, g2⟩ := e5 (fun a => H.length ≤ a ∧ a ≠ H1.length) F (by simp)
    (fun a ha => by simp at ha; exact ⟨by omega, by omega⟩)
    (by
      simp only [List.drop_zero]
      exact (hcopy.den h3.toP).mono (fun a ha _ => get_append ha) fun a ha h => ⟨h.1, by omega⟩) hF
  simp only [List.getElem?_append_right le_rfl, Nat.sub_self, List.getElem?_cons_zero, Option.some.injEq] at hr
  subst hr
  rw [List.drop_zero] at g2
  exact (g2.mem_ref hc).1

/-- **C68 is violated by `cone_angle`**. The setter writes to an object inside the result of evaluating the recipe
(address `c`, attribute `k` = `"cone"`), whatever it writes (`q`): the recipe of the gear is as before, and reading the
cone angle, which evaluates the recipe again, gives the same values as before the assignment. -/
theorem c68_cone_angle_violated (params : String → List String) (H H' H'' : Heap α) (a b b' : ℕ) (cls : String)
    (F : Fields α) (hobj : Obj H a true cls F) (hF : F.Proper 0) (h : CallRecipe params H a 0 H' b) (r : Rec α)
    (hr : H'[b]? = some r) (k : String) (c : ℕ) (hc : (k, HVal.ref c) ∈ r.fields) (q : Rec α)
    (h' : CallRecipe params (H'.set c q) a 0 H'' b') :
    Obj (H'.set c q) a true cls F ∧ ∃ G, ValueAt 0 F G ∧ Obj H' b true cls G ∧ Obj H'' b' true cls G := by
  have hcl := c59_fresh_partial params H H' a b 0 cls F hobj hF h r hr k c hc
  obtain ⟨-, -, hpure⟩ := c59_pure params H H' a b 0 h
  have hmem : ∀ x, x < H.length → (H'.set c q)[x]? = H[x]? := fun x hx => by
    rw [List.getElem?_set_ne (by omega), hpure x hx]
  have hobj' : Obj (H'.set c q) a true cls F := by
    obtain ⟨r0, h1, h2, h3, h4⟩ := hobj
    exact ⟨r0, by rw [hmem a (lt_of_get h1)]; exact h1, h2, h3,
      (h4.toP.mono (fun x hx _ => hmem x hx) (Q := fun _ => True) fun _ _ _ => trivial).toDen⟩
  refine ⟨hobj', ?_⟩
  obtain ⟨G, g1, g2⟩ := c59_values_partial params H H' a b 0 cls F hobj hF h
  obtain ⟨G', k1, k2⟩ := c59_values_partial params _ H'' a b' 0 cls F hobj' hF h'
  rw [ValueAt_unique g1 k1] at k2
  exact ⟨G, g1, g2, k2⟩

/-- A concrete case: a recipe whose cone has the angle 0; the setter writes 1. -/
example : let c0 : Rec ℝ := ⟨false, "ConicData", [("cone_angle", .leaf (.data 0))]⟩
    let c1 : Rec ℝ := ⟨false, "ConicData", [("cone_angle", .leaf (.data 1))]⟩
    let r0 : Rec ℝ := ⟨true, "GearProfileRecipe", [("cone", .ref 0)]⟩
    ∃ F H' H'' b b' r c, Obj [c0, r0] 1 true "GearProfileRecipe" F ∧ F.Proper 0 ∧
      CallRecipe (fun _ => ["cone"]) [c0, r0] 1 0 H' b ∧ H'[b]? = some r ∧ ("cone", HVal.ref c) ∈ r.fields ∧
      H'[c]? = some c0 ∧ CallRecipe (fun _ => ["cone"]) (H'.set c c1) 1 0 H'' b' := by
  intro c0 c1 r0
  let r1 : Rec ℝ := ⟨true, "GearProfileRecipe", [("cone", .ref 2)]⟩
  let d0 : Rec ℝ := ⟨false, "dict", [("cone", .ref 2)]⟩
  let r2 : Rec ℝ := ⟨true, "GearProfileRecipe", [("cone", .ref 5)]⟩
  let d1 : Rec ℝ := ⟨false, "dict", [("cone", .ref 5)]⟩
  refine ⟨_, [c0, r0, c0, d0, r1], [c0, r0, c1, d0, r1, c0, d1, r2], 4, 7, r1, 2,
    ⟨r0, rfl, rfl, rfl, Den.ref (r := c0) rfl (.leaf .nil) .nil⟩, ⟨trivial, trivial⟩, ?_, rfl, by simp [r1], rfl, ?_⟩
  · refine ⟨r0, [c0, r0, c0], [("cone", .ref 2)], [c0, r0, c0, d0], d0, rfl, rfl, ?_, ?_, rfl, by simp [d0], rfl, rfl⟩
    · exact Copy.ref (H1 := [c0, r0]) (r := c0) rfl (.leaf (.nil _)) (.nil _)
    · exact EvalLoop.plain (r := d0) (k := "cone") (c := 2) (q := c0) rfl rfl rfl rfl (.done (r := d0) rfl (by simp [d0]))
  · refine ⟨r0, [c0, r0, c1, d0, r1, c0], [("cone", .ref 5)], [c0, r0, c1, d0, r1, c0, d1], d1, rfl, rfl, ?_, ?_, rfl,
      by simp [d1], rfl, rfl⟩
    · exact Copy.ref (H1 := [c0, r0, c1, d0, r1]) (r := c0) rfl (.leaf (.nil _)) (.nil _)
    · exact EvalLoop.plain (r := d1) (k := "cone") (c := 5) (q := c0) rfl rfl rfl rfl (.done (r := d1) rfl (by simp [d1]))

end

/-! ## C69 -/

theorem placedAt_placedAt (g : GearObj) (c c' : V3) (o o' : M3) (a a' : ℝ) :
    (g.placedAt c o a).placedAt c' o' a' = g.placedAt c' o' a' := rfl

/-- Whatever is called, the gear at index `k` only changes its placement. -/
theorem step_placedAt {solve : (ℝ → ℝ) → ℝ} {s s' : List GearObj} {op : GearOp} {k : ℕ} {g : GearObj}
    (e : op.step solve s = some s') (hk : s[k]? = some g) : ∃ c o a, s'[k]? = some (g.placedAt c o a) := by
  have hkl : k < s.length := (List.getElem?_eq_some_iff.1 hk).1
  have hid : ∃ c o a, s[k]? = some (g.placedAt c o a) :=
    ⟨g.transform.center, g.transform.orientation, g.transform.angle, hk⟩
  by_cases hrec : op.receiver = some k
  · cases op with
    | construct helical p t => simp [GearOp.receiver] at hrec
    | constructCycloid p => simp [GearOp.receiver] at hrec
    | meshTo i j dir b bias =>
      simp only [GearOp.receiver, Option.some.injEq] at hrec
      subst hrec
      simp only [GearOp.step] at e
      split_ifs at e
      split at e
      · rename_i g0 h0 eg eh
        obtain ⟨g', eg', rfl⟩ := Option.map_eq_some_iff.1 e
        rw [hk] at eg
        cases eg
        obtain ⟨c, o, a, rfl⟩ := meshTo_placedAt eg'
        exact ⟨c, o, a, by rw [List.getElem?_set_self hkl]⟩
      · simp at e
    | resetLocation i =>
      simp only [GearOp.receiver, Option.some.injEq] at hrec
      subst hrec
      simp only [GearOp.step, hk, Option.bind_some] at e
      split_ifs at e
      simp only [Option.some.injEq] at e
      exact ⟨_, _, _, by rw [← e, List.getElem?_set_self hkl]; rfl⟩
    | setCenter i c =>
      simp only [GearOp.receiver, Option.some.injEq] at hrec
      subst hrec
      simp only [GearOp.step, hk, Option.map_some, Option.some.injEq] at e
      exact ⟨c, g.transform.orientation, g.transform.angle, by rw [← e, List.getElem?_set_self hkl]; rfl⟩
    | setAngle i a =>
      simp only [GearOp.receiver, Option.some.injEq] at hrec
      subst hrec
      simp only [GearOp.step, hk, Option.map_some, Option.some.injEq] at e
      exact ⟨g.transform.center, g.transform.orientation, a, by rw [← e, List.getElem?_set_self hkl]; rfl⟩
  · obtain ⟨h, -⟩ := c36_frame solve op s s' k g e hk hrec
    rw [h, ← hk]
    exact hid

theorem runOps_placedAt {solve : (ℝ → ℝ) → ℝ} {ops : List GearOp} : ∀ {s s' : List GearObj} {k : ℕ} {g : GearObj},
    runOps solve s ops = some s' → s[k]? = some g → ∃ c o a, s'[k]? = some (g.placedAt c o a) := by
  induction ops with
  | nil =>
    intro s s' k g e hk
    simp only [runOps, Option.some.injEq] at e
    exact ⟨g.transform.center, g.transform.orientation, g.transform.angle, by rw [← e]; exact hk⟩
  | cons op ops ih =>
    intro s s' k g e hk
    simp only [runOps] at e
    obtain ⟨s1, e1, e2⟩ := Option.bind_eq_some_iff.1 e
    obtain ⟨c, o, a, h⟩ := step_placedAt e1 hk
    obtain ⟨c', o', a', h'⟩ := ih e2 h
    exact ⟨c', o', a', by rw [h', placedAt_placedAt]⟩

/-- **C69** (`_partial`: for gears constructed with the default centre and angle; the others are refuted below).
A gear is constructed after the gears `s`, then any calls are made, then `reset_location` is called on it: the
gear is exactly as it was constructed, and no other gear changes. -/
theorem c69_partial (solve : (ℝ → ℝ) → ℝ) (s : List GearObj) (helical : Bool) (p : InvParam) (t : ℝ) (g0 : GearObj)
    (hg0 : g0 = p.construct (if helical then .helical else .involute) t) (hc : p.center = 0) (ha : p.angle = 0)
    (ops : List GearOp) (s' : List GearObj) (e : runOps solve s (.construct helical p t :: ops) = some s') :
    ∃ s'', (GearOp.resetLocation s.length).step solve s' = some s'' ∧ s''[s.length]? = some g0 ∧
      ∀ k ≠ s.length, s''[k]? = s'[k]? := by
  simp only [runOps, GearOp.step, Option.bind_some, ← hg0] at e
  obtain ⟨c, o, a, h⟩ := runOps_placedAt e (k := s.length) (g := g0) (by simp)
  have hl : s.length < s'.length := (List.getElem?_eq_some_iff.1 h).1
  have hkind : (g0.placedAt c o a).kind ≠ .cycloid := by
    rw [hg0]; cases helical <;> simp [GearObj.placedAt, InvParam.construct]
  have hres : (g0.placedAt c o a).resetLocation = g0 := by
    have h1 : g0.transform.center = ORIGIN := by
      rw [hg0, ORIGIN_eq, ← hc]; simp only [InvParam.construct, InvParam.normalise]; split_ifs <;> rfl
    have h2 : g0.transform.orientation = 1 := by rw [hg0]; rfl
    have h3 : g0.transform.angle = 0 := by
      rw [hg0, ← ha]; simp only [InvParam.construct, InvParam.normalise]; split_ifs <;> rfl
    simp only [GearObj.resetLocation, GearObj.placedAt, ← h1, ← h2, ← h3]
  refine ⟨s'.set s.length g0, ?_, by rw [List.getElem?_set_self hl], fun k hk => List.getElem?_set_ne (Ne.symm hk)⟩
  simp only [GearOp.step, h, Option.bind_some, hkind, if_false, hres]

/-- **C69 is violated** by every gear constructed with another centre or angle: even called right after the
construction, `reset_location` moves the gear to the origin and turns it to angle 0. -/
theorem c69_violated (solve : (ℝ → ℝ) → ℝ) (s : List GearObj) (helical : Bool) (p : InvParam) (t : ℝ) (g0 : GearObj)
    (hg0 : g0 = p.construct (if helical then .helical else .involute) t) (hca : p.center ≠ 0 ∨ p.angle ≠ 0) :
    g0.transform.center = p.center ∧ g0.transform.angle = p.angle ∧
    ∃ s' g, runOps solve s [.construct helical p t, .resetLocation s.length] = some s' ∧ s'[s.length]? = some g ∧
      (g.transform.center ≠ p.center ∨ g.transform.angle ≠ p.angle) := by
  have h1 : g0.transform.center = p.center := by
    rw [hg0]; simp only [InvParam.construct, InvParam.normalise]; split_ifs <;> rfl
  have h3 : g0.transform.angle = p.angle := by
    rw [hg0]; simp only [InvParam.construct, InvParam.normalise]; split_ifs <;> rfl
  have hkind : g0.kind ≠ .cycloid := by
    rw [hg0]; cases helical <;> simp [InvParam.construct]
  refine ⟨h1, h3, s ++ [g0.resetLocation], g0.resetLocation, ?_, by simp, ?_⟩
  · simp [runOps, GearOp.step, ← hg0, hkind]
  · rcases hca with h | h
    · left; rw [GearObj.resetLocation, ORIGIN_eq]; exact Ne.symm h
    · right; exact Ne.symm h

/-- A concrete case for C69: a gear is constructed, moved and turned; the history runs through. -/
example : ∃ s, runOps (fun _ => 0) []
    [.construct false ⟨20, 1, 0, 0, 0, 0, 1, 0, π / 9, 0, 0, false, 0⟩ 0, .setCenter 0 RIGHT, .setAngle 0 1] = some s := by
  have h : ¬ (20 : ℝ) < 0 := by norm_num
  simp [runOps, GearOp.step, InvParam.construct, InvParam.normalise, if_neg h]

/-! ## C71 -/

/-- The radii, in world units, of the circles rolling inside and outside of the pitch circle of a cycloid gear
(`cycloidFlankLower`, `cycloidFlankUpper`), as the tooth generator of the gear has them. -/
noncomputable def rollingRadii (g : WGear) : ℝ × ℝ :=
  match g.core.recipe.gen with
  | .cycloid rp _ _ rcIn rcOut => (g.core.transform.scale * (rcIn * rp), g.core.transform.scale * (rcOut * rp))
  | _ => (0, 0)

theorem cycloid_teeth (p : GearInput) (hn : 0 < p.numTeeth) (c : V3) (o : M3) (a : ℝ) :
    ((cycloidGear p).place c o a).numberOfTeeth = p.numTeeth ∧
      ((cycloidGear p).place c o a).insideTeeth = p.insideTeeth ∧ ((cycloidGear p).place c o a).input = p := by
  refine ⟨?_, ?_, rfl⟩ <;>
  simp [WGear.numberOfTeeth, WGear.insideTeeth, WGear.place, cycloidGear, GearInput.calcCycloid, make_pos hn]

/-- **C71, conjugate circles**. Two cycloid gears of the same module, however they are placed. After adapting, for two
external gears the circle rolling outside of each pitch circle is as large as the circle rolling inside the
other one. For a gear in a ring gear, both pitch circles lie on the same side of the contact, so that the two
inside circles and the two outside circles are equal. -/
theorem c71_radii (p q : GearInput) (hp : 0 < p.numTeeth) (hq : 0 < q.numTeeth) (hm : p.module_ = q.module_)
    (c c' : V3) (o o' : M3) (a a' : ℝ) :
    let r := adaptCycloidRadii ((cycloidGear p).place c o a) ((cycloidGear q).place c' o' a')
    (p.insideTeeth = false → q.insideTeeth = false →
      (rollingRadii r.1).2 = (rollingRadii r.2).1 ∧ (rollingRadii r.2).2 = (rollingRadii r.1).1) ∧
    ((p.insideTeeth = true ∨ q.insideTeeth = true) → rollingRadii r.1 = rollingRadii r.2) := by
  obtain ⟨n1, i1, e1⟩ := cycloid_teeth p hp c o a
  obtain ⟨n2, i2, e2⟩ := cycloid_teeth q hq c' o' a'
  have hp' := hp.ne'
  have hq' := hq.ne'
  intro r
  have hr : r = adaptCycloidRadii ((cycloidGear p).place c o a) ((cycloidGear q).place c' o' a') := rfl
  rw [adaptCycloidRadii, adaptInputs, n1, n2, i1, i2, e1, e2] at hr
  rw [hr]
  constructor
  · intro h1 h2
    simp only [h1, h2, Bool.false_eq_true, if_false, rollingRadii, cycloidGear, GearInput.calcCycloid, hm]
    constructor <;> field_simp
  · intro h
    cases h1 : p.insideTeeth
    · have h2 : q.insideTeeth = true := by rcases h with h | h <;> simp_all
      simp only [h2, Bool.false_eq_true, if_false, if_true, rollingRadii, cycloidGear, GearInput.calcCycloid, hm,
        Prod.mk.injEq]
      constructor <;> field_simp
    · simp only [if_true, rollingRadii, cycloidGear, GearInput.calcCycloid, hm, Prod.mk.injEq]
      constructor <;> field_simp

/-- **C71, adapting again changes nothing**, in any stored value of either gear. -/
theorem c71_idempotent (p q : GearInput) (hp : 0 < p.numTeeth) (hq : 0 < q.numTeeth) (c c' : V3) (o o' : M3) (a a' : ℝ) :
    let r := adaptCycloidRadii ((cycloidGear p).place c o a) ((cycloidGear q).place c' o' a')
    adaptCycloidRadii r.1 r.2 = r := by
  obtain ⟨n1, i1, e1⟩ := cycloid_teeth p hp c o a
  obtain ⟨n2, i2, e2⟩ := cycloid_teeth q hq c' o' a'
  intro r
  have hr : r = adaptCycloidRadii ((cycloidGear p).place c o a) ((cycloidGear q).place c' o' a') := rfl
  rw [adaptCycloidRadii, adaptInputs, n1, n2, i1, i2, e1, e2] at hr
  have key : ∀ p' q' : GearInput, 0 < p'.numTeeth → 0 < q'.numTeeth →
      adaptCycloidRadii (cycloidGear p') (cycloidGear q') =
        let t := if p'.insideTeeth then
            ({ p' with insideCycloid := q'.insideCycloid / p'.numTeeth * q'.numTeeth },
              { q' with outsideCycloid := p'.outsideCycloid / q'.numTeeth * p'.numTeeth })
          else if q'.insideTeeth then
            ({ p' with outsideCycloid := q'.outsideCycloid / p'.numTeeth * q'.numTeeth },
              { q' with insideCycloid := p'.insideCycloid / q'.numTeeth * p'.numTeeth })
          else
            ({ p' with outsideCycloid := q'.insideCycloid / p'.numTeeth * q'.numTeeth },
              ({ q' with outsideCycloid := p'.insideCycloid / q'.numTeeth * p'.numTeeth } : GearInput))
        (cycloidGear t.1, cycloidGear t.2) := by
    intro p' q' h1 h2
    obtain ⟨n1, i1, e1⟩ := cycloid_teeth p' h1 p'.center 1 p'.angle
    obtain ⟨n2, i2, e2⟩ := cycloid_teeth q' h2 q'.center 1 q'.angle
    have r1 : (cycloidGear p').place p'.center 1 p'.angle = cycloidGear p' := rfl
    have r2 : (cycloidGear q').place q'.center 1 q'.angle = cycloidGear q' := rfl
    rw [r1] at n1 i1 e1
    rw [r2] at n2 i2 e2
    rw [adaptCycloidRadii, adaptInputs, n1, n2, i1, i2, e1, e2]
  rw [hr]
  cases h1 : p.insideTeeth <;> cases h2 : q.insideTeeth <;>
    simp only [Bool.false_eq_true, if_false, if_true] <;> rw [key] <;>
    simp only [h1, h2, hp, hq, Bool.false_eq_true, if_false, if_true]

/-- **C71, placements** (`_partial`: only for gears still placed as constructed; the others are refuted below). -/
theorem c71_placement_partial (p q : GearInput) :
    (adaptCycloidRadii (cycloidGear p) (cycloidGear q)).1.core.transform = (cycloidGear p).core.transform ∧
      (adaptCycloidRadii (cycloidGear p) (cycloidGear q)).2.core.transform = (cycloidGear q).core.transform := by
  rw [adaptCycloidRadii, adaptInputs]
  split_ifs <;> exact ⟨rfl, rfl⟩

/-- **C71 is violated**: a gear that was moved or turned since its construction is put back to the centre and angle
of its constructor. -/
theorem c71_placement_violated (p q : GearInput) (c c' : V3) (o o' : M3) (a a' : ℝ) (h : c ≠ p.center ∨ o ≠ 1 ∨ a ≠ p.angle) :
    (adaptCycloidRadii ((cycloidGear p).place c o a) ((cycloidGear q).place c' o' a')).1.core.transform =
        (cycloidGear p).core.transform ∧
      (adaptCycloidRadii ((cycloidGear p).place c o a) ((cycloidGear q).place c' o' a')).1.core.transform ≠
        ((cycloidGear p).place c o a).core.transform := by
  have e : (adaptCycloidRadii ((cycloidGear p).place c o a) ((cycloidGear q).place c' o' a')).1.core.transform =
      (cycloidGear p).core.transform := by
    rw [adaptCycloidRadii, adaptInputs]
    split_ifs <;> rfl
  refine ⟨e, ?_⟩
  rw [e]
  simp only [cycloidGear, GearInput.calcCycloid, WGear.place]
  intro h'
  injection h' with h1 h2
  injection h1 with h3 h4
  rcases h with h | h | h
  · exact h h3.symm
  · exact h h4.symm
  · exact h h2.symm

/-- A concrete case for C71: 24 and 12 teeth of the same module. -/
example : let q : GearInput := { exampleInput with numTeeth := 12, insideCycloid := 1 / 3 }
    0 < exampleInput.numTeeth ∧ 0 < q.numTeeth ∧ exampleInput.module_ = q.module_ ∧ (RIGHT : V3) ≠ exampleInput.center := by
  refine ⟨by norm_num [exampleInput], by norm_num, rfl, fun h => ?_⟩
  have := congrFun h 0
  simp [exampleInput, RIGHT, ORIGIN] at this

/-- **C68 is violated by `cone_angle`**, in terms of the gear: the value read back is the old one, so an assigned value
that differs is lost, whatever the gear. -/
theorem c68_cone_angle_lost_violated (p : GearInput) (hn : 0 < p.numTeeth) (make : GearInput → WGear)
    (hmake : make = involuteGear ∨ make = cycloidGear) (v : ℝ) (hv : v ≠ p.coneAngle) :
    ((make p).setConeAngle v).coneAngle = p.coneAngle ∧ ((make p).setConeAngle v).coneAngle ≠ v := by
  obtain ⟨-, -, -, -, -, -, h, -⟩ := make_fields p hn make hmake
  have e : ((make p).setConeAngle v).coneAngle = p.coneAngle := h
  exact ⟨e, by rw [e]; exact hv.symm⟩

/-! ## C91 for all tooth generators -/

/-- **C91, every generator.** Whichever tooth generator the class chooses (cylindrical or conical, with or without
undercut), it is asked for flanks on the pitch circle that the gear reports, with the prescribed distance along it. What
the generators make of it is C24 and C80. -/
theorem c91_generator (p : GearInput) (hn : 0 < p.numTeeth) (hc : p.crowning = 0) (z : ℝ) :
    (involuteGear p).pitchRadius = p.module_ * (involuteGear p).core.recipe.gen.pitchRadius ∧
      (involuteGear p).pitchRadius * (2 * (involuteGear p).core.recipe.gen.pitchIntersectAngle z) =
        p.module_ * (π / 2 + 2 * p.profileShift * tan p.pressureAngle - 2 * p.backlash) := by
  obtain ⟨-, hm, ht, -⟩ := make_fields p hn involuteGear (Or.inl rfl)
  have hg : (involuteGear p).core.recipe.gen = p.involuteGen := by rw [involuteGear, normalise_pos hn]; rfl
  have hr : p.involuteGen.pitchRadius = p.numTeeth / 2 := by
    rw [GearInput.involuteGen]; split_ifs <;> rfl
  rw [hg, hr, WGear.pitchRadius, hm, ht, involuteGen_pia, GearInput.crowningFunc, hc,
    GearInput.toothAngle]
  constructor
  · ring
  · field_simp
    ring

/-- Bevel gears with and without undercut meet the conditions of `c91_generator` and use different generators. -/
example : let p : GearInput := { exampleInput with coneAngle := 1, undercut := true, crowning := 0 }
    0 < p.numTeeth ∧ p.crowning = 0 ∧ p.involuteGen ≠ ({ p with undercut := false } : GearInput).involuteGen := by
  refine ⟨by norm_num [exampleInput], rfl, ?_⟩
  simp [GearInput.involuteGen]

end Verif
