import Verif.Props.Conjugate
import Verif.Props.Mesh2
import Verif.Props.Reported

/-! # Property C98: meshed cycloid gears are conjugate -/

namespace Verif

open Real

/-- The curves `F` and `G` touch at the parameters `t` and `s`, and their common normal there goes through `P`. -/
def TouchAt (F G : ℝ → V3) (t s : ℝ) (P : V3) : Prop :=
  F t = G s ∧ NormalAt F t (F t - P) ∧ NormalAt G s (G s - P)

/-- The cycloid of a circle with radius `c` rolling on a circle with radius `R`, in polar form. -/
noncomputable def polarCycloid (O : M3) (C : V3) (R c a σ t : ℝ) : V3 :=
  C + (R + c) • app O (polarVec (a + σ * t)) - c • app O (polarVec (a + σ * t + σ * t * R / c))

theorem hasDerivAt_polarVec (a b t : ℝ) :
    HasDerivAt (fun t => polarVec (a + b * t)) (b • polarVec (a + b * t + π / 2)) t := by
  have h : HasDerivAt (fun t => a + b * t) b t := by
    simpa using ((hasDerivAt_id t).const_mul b).const_add a
  apply hasDerivAt_v3
  · simpa [polarVec, cos_add_pi_div_two, mul_comm] using h.cos
  · simpa [polarVec, sin_add_pi_div_two, mul_comm] using h.sin
  · simpa [polarVec] using hasDerivAt_const t (0 : ℝ)

theorem polarCycloid_deriv (O : M3) (C : V3) (R c a σ t : ℝ) (hc : c ≠ 0) :
    HasDerivAt (polarCycloid O C R c a σ) (((R + c) * σ) • (app O (polarVec (a + σ * t + π / 2)) -
      app O (polarVec (a + σ * t + σ * t * R / c + π / 2)))) t := by
  have h1 := hasDerivAt_app O (hasDerivAt_polarVec a σ t)
  have h2 := hasDerivAt_app O (hasDerivAt_polarVec a (σ + σ * R / c) t)
  have h := ((h1.const_smul (R + c)).const_add C).sub (h2.const_smul c)
  have e : ∀ t : ℝ, a + (σ + σ * R / c) * t = a + σ * t + σ * t * R / c := by intro t; ring
  have ef : polarCycloid O C R c a σ = fun t => C + (R + c) • app O (polarVec (a + σ * t)) -
      c • app O (polarVec (a + (σ + σ * R / c) * t)) := by
    funext t; rw [polarCycloid, e]
  have ev : (R + c) • app O (σ • polarVec (a + σ * t + π / 2)) -
      c • app O ((σ + σ * R / c) • polarVec (a + (σ + σ * R / c) * t + π / 2)) =
      ((R + c) * σ) • (app O (polarVec (a + σ * t + π / 2)) -
        app O (polarVec (a + σ * t + σ * t * R / c + π / 2))) := by
    have ec : c * (σ + σ * R / c) = (R + c) * σ := by field_simp; ring
    rw [app_smul, app_smul, e, smul_smul, smul_smul, smul_sub, ec]
  rw [ef, ← ev]
  exact h

/-- At the moment when the rolling circle touches the pitch circle at `P`, the normal goes through `P`. -/
theorem polarCycloid_normal {O : M3} (hO : IsRot O) (C P : V3) (R c a σ t : ℝ) (hc : c ≠ 0)
    (hP : P = C + R • app O (polarVec (a + σ * t))) :
    NormalAt (polarCycloid O C R c a σ) t (polarCycloid O C R c a σ t - P) := by
  refine ⟨_, polarCycloid_deriv O C R c a σ t hc, ?_⟩
  obtain ⟨x, hx⟩ : ∃ x, x = a + σ * t := ⟨_, rfl⟩
  obtain ⟨y, hy⟩ : ∃ y, y = x + σ * t * R / c := ⟨_, rfl⟩
  have e : polarCycloid O C R c a σ t - P = c • (app O (polarVec x) - app O (polarVec y)) := by
    rw [polarCycloid, hP, ← hx, ← hy]; module
  rw [e, ← hx, ← hy, ← app_sub, ← app_sub, dot_smul_left, dot_smul_right, hO.dot_app]
  have : dot (polarVec (x + π / 2) - polarVec (y + π / 2)) (polarVec x - polarVec y) = 0 := by
    simp [dot, polarVec, cos_add_pi_div_two, sin_add_pi_div_two]; ring
  rw [this]; ring

/-- Two cycloids touch when the same arc was rolled. -/
theorem polarCycloid_touch {O : M3} (hO : IsRot O) (C1 C2 P : V3) (R1 R2 c1 c2 a1 a2 σ η1 η2 : ℝ) (hσ : σ * σ = 1)
    (h1 : c1 ≠ 0) (h2 : c2 ≠ 0) (hP1 : P = C1 + R1 • app O (polarVec η1)) (hP2 : P = C2 + R2 • app O (polarVec η2))
    (hx : ∀ x, c1 • app O (polarVec (η1 + x)) = c2 • app O (polarVec (η2 + x)))
    (hr : (η1 - a1) * R1 / c1 = (η2 - a2) * R2 / c2) :
    TouchAt (polarCycloid O C1 R1 c1 a1 σ) (polarCycloid O C2 R2 c2 a2 σ) (σ * (η1 - a1)) (σ * (η2 - a2)) P := by
  have e1 : a1 + σ * (σ * (η1 - a1)) = η1 := by linear_combination (η1 - a1) * hσ
  have e2 : a2 + σ * (σ * (η2 - a2)) = η2 := by linear_combination (η2 - a2) * hσ
  refine ⟨?_, polarCycloid_normal hO C1 P R1 c1 a1 σ _ h1 (by rw [e1]; exact hP1),
    polarCycloid_normal hO C2 P R2 c2 a2 σ _ h2 (by rw [e2]; exact hP2)⟩
  have f1 : σ * (σ * (η1 - a1)) * R1 / c1 = (η1 - a1) * R1 / c1 := by
    rw [← mul_assoc, hσ, one_mul]
  have f2 : σ * (σ * (η2 - a2)) * R2 / c2 = (η2 - a2) * R2 / c2 := by
    rw [← mul_assoc, hσ, one_mul]
  rw [polarCycloid, polarCycloid, e1, e2, f1, f2, hr]
  have g0 := hx 0
  rw [add_zero, add_zero] at g0
  have g1 := hx ((η2 - a2) * R2 / c2)
  rw [add_smul, add_smul, g0, g1, ← add_assoc, ← add_assoc, ← hP1, ← hP2]

/-- Radius of the rolling circle in modules, negative for the circle inside the pitch circle. -/
noncomputable def signedRolling (p : GearInput) (outside : Bool) : ℝ :=
  if outside then p.outsideCycloid * (p.numTeeth / 2) else -p.insideCycloid * (p.numTeeth / 2)

theorem cycloidFlankLower_polar (f r i t : ℝ) : cycloidFlankLower f r i t =
    (r + -i * r) • polarVec (t - f) - (-i * r) • polarVec (t - f + t * r / (-i * r)) := by
  apply V3.ext3 <;> simp [cycloidFlankLower, cycloidCircle, polarVec, RIGHT, LEFT, ORIGIN, OUT] <;>
    simp only [sub_eq_add_neg, cos_add, sin_add] <;> ring

theorem cycloidFlankUpper_polar (f r i t : ℝ) : cycloidFlankUpper f r i t =
    (r + i * r) • polarVec (t - f) - (i * r) • polarVec (t - f + t * r / (i * r)) := by
  apply V3.ext3 <;> simp [cycloidFlankUpper, cycloidCircle, polarVec, RIGHT, LEFT, ORIGIN, OUT] <;>
    simp only [sub_eq_add_neg, cos_add, sin_add] <;> ring

/-- The sign of a side of the tooth. -/
noncomputable def side (mirrored : Bool) : ℝ := if mirrored then -1 else 1

theorem side_sq (b : Bool) : side b * side b = 1 := by cases b <;> norm_num [side]

theorem mirror_cycloid (b : Bool) (A c x y : ℝ) :
    (if b then mulV (A • polarVec x - c • polarVec y) ![1, -1, 1] else A • polarVec x - c • polarVec y : V3) =
      A • polarVec (side b * x) - c • polarVec (side b * y) := by
  cases b
  · simp [side]
  · apply V3.ext3 <;> simp [side, mulV, polarVec] ; ring

/-- Direction of the beginning of the cycloids at a tooth. -/
noncomputable def rootDir (p : GearInput) (A z turn : ℝ) (k : ℤ) (b : Bool) : ℝ :=
  A + z * (tan p.helixAngle / (p.numTeeth / 2)) + turn + k * (2 * π / p.numTeeth) -
    side b * p.crowningFunc z (2 * π / p.numTeeth / 4 - p.backlash / (p.numTeeth / 2))

theorem cycloidFlank_polar (p : GearInput) (hn : 0 < p.numTeeth) (h0 : p.coneAngle = 0) (hm : 0 < p.module_)
    (C : V3) (O : M3) (A z turn : ℝ) (k : ℤ) (out b : Bool) :
    ((cycloidGear p).place C O A).cycloidFlank out b z turn k =
      polarCycloid O (C + (p.module_ * z) • app O OUT) (p.module_ * (p.numTeeth / 2))
        (p.module_ * signedRolling p out) (rootDir p A z turn k b) (side b) := by
  funext t
  have hf : ((cycloidGear p).place C O A).core.recipe.gen.cycloidFlank out z t =
      (p.numTeeth / 2 + signedRolling p out) •
        polarVec (t - p.crowningFunc z (2 * π / p.numTeeth / 4 - p.backlash / (p.numTeeth / 2))) -
      signedRolling p out •
        polarVec (t - p.crowningFunc z (2 * π / p.numTeeth / 4 - p.backlash / (p.numTeeth / 2)) +
          t * (p.numTeeth / 2) / signedRolling p out) := by
    cases out
    · simp only [WGear.place, cycloidGear, GearInput.calcCycloid, ToothGen.cycloidFlank, cycloidFlankLower_polar,
        signedRolling, Bool.false_eq_true, if_false]
    · simp only [WGear.place, cycloidGear, GearInput.calcCycloid, ToothGen.cycloidFlank, cycloidFlankUpper_polar,
        signedRolling, if_true]
  have hpa : ((cycloidGear p).place C O A).pitchAngle = 2 * π / p.numTeeth := by
    simp [WGear.pitchAngle, WGear.place, cycloidGear, GearInput.calcCycloid, make_pos hn, GearToothParam.pitchAngle]
  have hcz : (cycloidGear p).core.recipe.center z = z • OUT := by
    simp [cycloidGear, GearInput.calcCycloid, h0]
  have hsz : (cycloidGear p).core.recipe.scale z = 1 := by
    simp [cycloidGear, GearInput.calcCycloid, h0]
  have haz : (cycloidGear p).core.recipe.angle z = z * (tan p.helixAngle / (p.numTeeth / 2)) := rfl
  have hsc : (cycloidGear p).core.transform.scale = p.module_ := rfl
  rw [WGear.cycloidFlank, place_transformAt, hpa]
  simp only
  rw [hf, mirror_cycloid, applyGearTransform_eq, hcz, hsz, haz, hsc]
  simp only [app_sub, app_smul, app_mul, Rz_polarVec, Rz_app_OUT]
  rw [polarCycloid, rootDir]
  have e : side b * t * (p.module_ * (p.numTeeth / 2)) / (p.module_ * signedRolling p out) =
      side b * t * (p.numTeeth / 2) / signedRolling p out := by
    rw [show side b * t * (p.module_ * (p.numTeeth / 2)) = p.module_ * (side b * t * (p.numTeeth / 2)) by ring,
      mul_div_mul_left _ _ hm.ne']
  rw [e]
  obtain ⟨f, hfd⟩ : ∃ f, f = p.crowningFunc z (2 * π / p.numTeeth / 4 - p.backlash / (p.numTeeth / 2)) := ⟨_, rfl⟩
  rw [← hfd]
  obtain ⟨B, hB⟩ : ∃ B, B = A + z * (tan p.helixAngle / (p.numTeeth / 2)) + turn + k * (2 * π / p.numTeeth) := ⟨_, rfl⟩
  rw [← hB, show B + side b * (t - f) = B - side b * f + side b * t by ring,
    show B + side b * (t - f + t * (p.numTeeth / 2) / signedRolling p out) =
      B - side b * f + side b * t + side b * t * (p.numTeeth / 2) / signedRolling p out by ring]
  module

/-- Two cylindrical cycloid gears that can work together: whole tooth counts, the same module, and no rolling circle of
radius 0. -/
structure CycloidPair (p q : GearInput) (N1 N2 : ℕ) : Prop where
  posN : 0 < N1
  posN' : 0 < N2
  teeth : p.numTeeth = N1
  teeth' : q.numTeeth = N2
  cone : p.coneAngle = 0
  cone' : q.coneAngle = 0
  modulePos : 0 < p.module_
  sameModule : q.module_ = p.module_
  inside : p.insideCycloid ≠ 0
  inside' : q.insideCycloid ≠ 0
  outside : p.outsideCycloid ≠ 0
  outside' : q.outsideCycloid ≠ 0

theorem signedRolling_ne {p : GearInput} (hn : 0 < p.numTeeth) (hi : p.insideCycloid ≠ 0) (ho : p.outsideCycloid ≠ 0)
    (b : Bool) : signedRolling p b ≠ 0 := by
  have := hn.ne'
  cases b <;> simp [signedRolling, *]

/-- Touching of two placed cycloid gears. -/
theorem cycloid_touch (p q : GearInput) (N1 N2 : ℕ) (H : CycloidPair p q N1 N2) (C1 C2 : V3) (O : M3) (hO : IsRot O)
    (A1 A2 z turn φ : ℝ) (k1 k2 : ℤ) (out1 out2 b : Bool) (η1 η2 : ℝ)
    (hP : C1 + (p.module_ * (p.numTeeth / 2)) • app O (polarVec η1) =
      C2 + (p.module_ * (q.numTeeth / 2)) • app O (polarVec η2))
    (hx : ∀ x, signedRolling p out1 • polarVec (η1 + x) = signedRolling q out2 • polarVec (η2 + x))
    (hr : (η1 - rootDir p A1 z turn k1 b) * p.numTeeth / signedRolling p out1 =
      (η2 - rootDir q A2 z φ k2 b) * q.numTeeth / signedRolling q out2) :
    TouchAt (((cycloidGear p).place C1 O A1).cycloidFlank out1 b z turn k1)
      (((cycloidGear q).place C2 O A2).cycloidFlank out2 b z φ k2)
      (side b * (η1 - rootDir p A1 z turn k1 b)) (side b * (η2 - rootDir q A2 z φ k2 b))
      (C2 + (p.module_ * z) • app O OUT + (p.module_ * (q.numTeeth / 2)) • app O (polarVec η2)) := by
  have hm := H.modulePos
  have hp : 0 < p.numTeeth := by rw [H.teeth]; exact_mod_cast H.posN
  have hq : 0 < q.numTeeth := by rw [H.teeth']; exact_mod_cast H.posN'
  have n1 := signedRolling_ne hp H.inside H.outside out1
  have n2 := signedRolling_ne hq H.inside' H.outside' out2
  rw [cycloidFlank_polar p hp H.cone hm, cycloidFlank_polar q hq H.cone' (by rw [H.sameModule]; exact hm), H.sameModule]
  refine polarCycloid_touch hO _ _ _ _ _ _ _ _ _ _ η1 η2 (side_sq b) (mul_ne_zero hm.ne' n1) (mul_ne_zero hm.ne' n2)
    ?_ rfl ?_ ?_
  · rw [add_right_comm, ← hP]; module
  · intro x
    rw [mul_smul, mul_smul, ← app_smul O (signedRolling p out1), hx, app_smul]
  · rw [show (η1 - rootDir p A1 z turn k1 b) * (p.module_ * (p.numTeeth / 2)) =
        p.module_ * ((η1 - rootDir p A1 z turn k1 b) * p.numTeeth / 2) by ring,
      show (η2 - rootDir q A2 z φ k2 b) * (p.module_ * (q.numTeeth / 2)) =
        p.module_ * ((η2 - rootDir q A2 z φ k2 b) * q.numTeeth / 2) by ring,
      mul_div_mul_left _ _ hm.ne', mul_div_mul_left _ _ hm.ne', div_right_comm, hr, div_right_comm]

/-- What one gear contributes to the play between the flanks, in modules along the pitch circle: `backlash`, and the
relief of the tooth by the crowning. -/
noncomputable def thinning (p : GearInput) (z : ℝ) : ℝ :=
  p.backlash + (z * 2 / p.height - 1) ^ 2 * p.crowning / 1000

theorem rootDir_arc (p : GearInput) (hn : 0 < p.numTeeth) (A z turn : ℝ) (k : ℤ) (b : Bool) :
    rootDir p A z turn k b * p.numTeeth = A * p.numTeeth + 2 * z * tan p.helixAngle + turn * p.numTeeth + 2 * π * k -
      side b * (π / 2 - 2 * thinning p z) := by
  rw [rootDir, thinning, GearInput.crowningFunc]
  field_simp
  ring

theorem cycloid_meshTo (p q : GearInput) (N1 N2 : ℕ) (H : CycloidPair p q N1 N2) (c C2 : V3) (o O : M3) (a A2 : ℝ)
    (dir : V3) :
    ∃ A1, ((cycloidGear p).place c o a).meshToCycloid ((cycloidGear q).place C2 O A2) dir =
        some ((cycloidGear p).place ((if p.insideTeeth || q.insideTeeth then
            |(N1 : ℝ) * p.module_ / 2 - N2 * p.module_ / 2| else N1 * p.module_ / 2 + N2 * p.module_ / 2) • dir + C2) O A1) ∧
      ∃ g1 g2 : GearTransform, A1 = calcMeshAngle g1 g2 (2 * π / N1) (2 * π / N2) p.insideTeeth q.insideTeeth ∧
        g1.center = (if p.insideTeeth || q.insideTeeth then
            |(N1 : ℝ) * p.module_ / 2 - N2 * p.module_ / 2| else N1 * p.module_ / 2 + N2 * p.module_ / 2) • dir + C2 ∧
        g2.center = C2 ∧ g1.orientation = O ∧ g2.orientation = O ∧ g2.angle = A2 := by
  have hp : (0 : ℝ) < N1 := by exact_mod_cast H.posN
  have hq : (0 : ℝ) < N2 := by exact_mod_cast H.posN'
  refine ⟨_, ?_, ⟨⟨_, O, p.module_⟩, a⟩, ((cycloidGear q).place C2 O A2).core.transform, rfl, rfl, rfl, rfl, rfl, rfl⟩
  rw [WGear.meshToCycloid, GearObj.meshToCycloid]
  have e1 : ((cycloidGear p).place c o a).cycloidObj.coneAngle = 0 := H.cone
  have e2 : ((cycloidGear q).place C2 O A2).cycloidObj.coneAngle = 0 := H.cone'
  rw [if_neg (by simp [e1, e2])]
  simp only [Option.map_some, GearObj.meshToAt, WGear.cycloidObj, WGear.place, cycloidGear, GearInput.calcCycloid,
    GearObj.pitchRadius, GearObj.insideTeeth, GearObj.pitchAngle, make_pos hp, make_pos hq, GearToothParam.pitchAngle,
    H.teeth, H.teeth', H.sameModule, add_zero]

theorem cycloid_external (p q : GearInput) (N1 N2 : ℕ) (H : CycloidPair p q N1 N2) (hp : p.insideTeeth = false)
    (hq : q.insideTeeth = false) (hβ : tan p.helixAngle = -tan q.helixAngle)
    (h1 : p.outsideCycloid * N1 = q.insideCycloid * N2) (h2 : q.outsideCycloid * N2 = p.insideCycloid * N1)
    (c C2 : V3) (o O : M3) (hO : IsRot O) (a A2 δ : ℝ)
    (hbig : 1 / 10 ^ 12 ≤ (N1 : ℝ) * p.module_ / 2 + N2 * p.module_ / 2) :
    ∃ g', ((cycloidGear p).place c o a).meshToCycloid ((cycloidGear q).place C2 O A2) (app O (polarVec δ)) = some g' ∧
      ∀ (z φ : ℝ) (k2 : ℤ) (b : Bool), ∃ k1 : ℤ, ∀ out : Bool, ∃ t s : ℝ,
        TouchAt (g'.cycloidFlank out b z (-(φ * N2) / N1 - side b * (thinning p z + thinning q z) * 2 / N1) k1)
          (((cycloidGear q).place C2 O A2).cycloidFlank (!out) b z φ k2) t s
          (C2 + (p.module_ * z) • app O OUT + (p.module_ * (N2 / 2)) • app O (polarVec δ)) ∧ t * N1 = -(s * N2) := by
  have hN1 : (0 : ℝ) < N1 := by exact_mod_cast H.posN
  have hN2 : (0 : ℝ) < N2 := by exact_mod_cast H.posN'
  have hnp : 0 < p.numTeeth := by rw [H.teeth]; exact hN1
  have hnq : 0 < q.numTeeth := by rw [H.teeth']; exact hN2
  obtain ⟨A1, hmesh, g1, g2, hA, hc1, hc2, ho1, ho2, ha2⟩ := cycloid_meshTo p q N1 N2 H c C2 o O a A2 (app O (polarVec δ))
  refine ⟨_, hmesh, ?_⟩
  simp only [hp, hq, Bool.or_false, Bool.false_eq_true, if_false] at hA hc1 ⊢
  obtain ⟨D, hD⟩ : ∃ D, D = (N1 : ℝ) * p.module_ / 2 + N2 * p.module_ / 2 := ⟨_, rfl⟩
  rw [← hD] at hc1 hbig ⊢
  have hDpos : 0 < D := lt_of_lt_of_le (by norm_num) hbig
  have s1 : SeenAt g1.orientation (g2.center - g1.center) (δ + π) := by
    rw [ho1, hc1, hc2, show C2 - (D • app O (polarVec δ) + C2) = D • app O (polarVec (δ + π)) by
      rw [polarVec_add_pi, app_neg]; module]
    exact seenAt_polar hO hDpos _
  have s2 : SeenAt g2.orientation (g1.center - g2.center) δ := by
    rw [ho2, hc1, hc2, show D • app O (polarVec δ) + C2 - C2 = D • app O (polarVec δ) by module]
    exact seenAt_polar hO hDpos _
  have hfar : 1 / 10 ^ 12 ≤ norm3 (g2.center - g1.center) := by
    rw [hc1, hc2, show C2 - (D • app O (polarVec δ) + C2) = D • app O (polarVec (δ + π)) by
      rw [polarVec_add_pi, app_neg]; module, norm3_smul, app_polarVec_unit hO, abs_of_pos hDpos, mul_one]
    exact hbig
  obtain ⟨n, hn⟩ := c30_external_whole g1 g2 N1 N2 H.posN H.posN' (δ + π) δ hfar s1 s2
  rw [← hA, ha2] at hn
  have hn' : (A1 - (δ + π)) * N1 + (A2 - δ) * N2 = π + 2 * π * n := by
    field_simp at hn; linarith
  intro z φ k2 b
  obtain ⟨k1, hk1⟩ : ∃ k1 : ℤ, (k1 : ℝ) = side b / 2 - 1 / 2 - n - k2 := by
    cases b
    · exact ⟨-n - k2, by simp [side]⟩
    · exact ⟨-1 - n - k2, by push_cast; norm_num [side]⟩
  have r1 := rootDir_arc p hnp A1 z (-(φ * N2) / N1 - side b * (thinning p z + thinning q z) * 2 / N1) k1 b
  have r2 := rootDir_arc q hnq A2 z φ k2 b
  rw [H.teeth, hk1] at r1
  rw [H.teeth'] at r2
  have ht : (-(φ * N2) / N1 - side b * (thinning p z + thinning q z) * 2 / N1) * N1 =
      -(φ * N2) - side b * (thinning p z + thinning q z) * 2 := by field_simp
  have harc : (δ + π - rootDir p A1 z (-(φ * N2) / N1 - side b * (thinning p z + thinning q z) * 2 / N1) k1 b) * N1 =
      -((δ - rootDir q A2 z φ k2 b) * N2) := by
    linear_combination -hn' - r1 - r2 - ht - 2 * z * hβ
  refine ⟨k1, fun out => ⟨side b * (δ + π - rootDir p A1 z
    (-(φ * N2) / N1 - side b * (thinning p z + thinning q z) * 2 / N1) k1 b), side b * (δ - rootDir q A2 z φ k2 b), ?_, ?_⟩⟩
  · have hroll : signedRolling p out = -signedRolling q (!out) := by
      cases out
      · simp only [signedRolling, H.teeth, H.teeth', Bool.not_false, Bool.false_eq_true, if_false, if_true]; linarith
      · simp only [signedRolling, H.teeth, H.teeth', Bool.not_true, Bool.false_eq_true, if_false, if_true]; linarith
    rw [← H.teeth', ← H.teeth] at *
    refine cycloid_touch p q N1 N2 H _ C2 O hO A1 A2 z _ φ _ k2 out (!out) b (δ + π) δ ?_ ?_ ?_
    · rw [polarVec_add_pi, app_neg, hD]; module
    · intro x
      rw [add_right_comm, polarVec_add_pi, hroll]; module
    · rw [harc, hroll, neg_div_neg_eq]
  · linear_combination side b * harc

theorem cycloid_ring (p q : GearInput) (N1 N2 : ℕ) (H : CycloidPair p q N1 N2)
    (hk : p.insideTeeth = false ∧ q.insideTeeth = true ∧ N1 < N2 ∨ p.insideTeeth = true ∧ q.insideTeeth = false ∧ N2 < N1)
    (hβ : tan p.helixAngle = tan q.helixAngle)
    (h1 : p.outsideCycloid * N1 = q.outsideCycloid * N2) (h2 : p.insideCycloid * N1 = q.insideCycloid * N2)
    (c C2 : V3) (o O : M3) (hO : IsRot O) (a A2 δ : ℝ)
    (hbig : 1 / 10 ^ 12 ≤ |(N1 : ℝ) * p.module_ / 2 - N2 * p.module_ / 2|) :
    ∃ g', ((cycloidGear p).place c o a).meshToCycloid ((cycloidGear q).place C2 O A2) (app O (polarVec δ)) = some g' ∧
      ∀ (z φ : ℝ) (k2 : ℤ), ∃ k1 : ℤ, ∀ b out : Bool, ∃ t s : ℝ,
        TouchAt (g'.cycloidFlank out b z (φ * N2 / N1 - side b * (thinning p z - thinning q z) * 2 / N1) k1)
          (((cycloidGear q).place C2 O A2).cycloidFlank out b z φ k2) t s
          (C2 + (p.module_ * z) • app O OUT +
            ((if q.insideTeeth then 1 else -1) * (p.module_ * (N2 / 2))) • app O (polarVec δ)) ∧ t * N1 = s * N2 := by
  have hN1 : (0 : ℝ) < N1 := by exact_mod_cast H.posN
  have hN2 : (0 : ℝ) < N2 := by exact_mod_cast H.posN'
  have hnp : 0 < p.numTeeth := by rw [H.teeth]; exact hN1
  have hnq : 0 < q.numTeeth := by rw [H.teeth']; exact hN2
  have hm := H.modulePos
  obtain ⟨A1, hmesh, g1, g2, hA, hc1, hc2, ho1, ho2, ha2⟩ := cycloid_meshTo p q N1 N2 H c C2 o O a A2 (app O (polarVec δ))
  refine ⟨_, hmesh, ?_⟩
  have hor : (p.insideTeeth || q.insideTeeth) = true := by rcases hk with ⟨_, h, _⟩ | ⟨h, _, _⟩ <;> simp [h]
  simp only [hor, if_true] at hA hc1 ⊢
  obtain ⟨D, hD⟩ : ∃ D, D = |(N1 : ℝ) * p.module_ / 2 - N2 * p.module_ / 2| := ⟨_, rfl⟩
  rw [← hD] at hc1 hbig ⊢
  have hDpos : 0 < D := lt_of_lt_of_le (by norm_num) hbig
  have d1 : g1.center - g2.center = D • app O (polarVec δ) := by rw [hc1, hc2]; module
  have d2 : g2.center - g1.center = D • app O (polarVec (δ + π)) := by
    rw [hc1, hc2, polarVec_add_pi, app_neg]; module
  have hfar : 1 / 10 ^ 12 ≤ norm3 (g2.center - g1.center) := by
    rw [d2, norm3_smul, app_polarVec_unit hO, abs_of_pos hDpos, mul_one]
    exact hbig
  obtain ⟨η, hη, n, hn, hP⟩ : ∃ η : ℝ, app O (polarVec η) = ((if q.insideTeeth then 1 else -1 : ℝ)) • app O (polarVec δ) ∧
      ∃ n : ℤ, (A1 - η) / (2 * π / N1) = (A2 - η) / (2 * π / N2) + n ∧
        D • app O (polarVec δ) + C2 + (p.module_ * (N1 / 2)) • app O (polarVec η) =
          C2 + (p.module_ * (N2 / 2)) • app O (polarVec η) := by
    rcases hk with ⟨e1, e2, h⟩ | ⟨e1, e2, h⟩
    · have hlt : (N1 : ℝ) < N2 := by exact_mod_cast h
      rw [e1, e2] at hA
      obtain ⟨n, hn⟩ := c30_ring2_whole g1 g2 N1 N2 H.posN H.posN' δ δ hfar
        (by rw [ho1, d1]; exact seenAt_polar hO hDpos _) (by rw [ho2, d1]; exact seenAt_polar hO hDpos _)
      rw [← hA, ha2] at hn
      refine ⟨δ, by simp [e2], n, hn, ?_⟩
      rw [hD, abs_of_nonpos (by nlinarith)]; module
    · have hlt : (N2 : ℝ) < N1 := by exact_mod_cast h
      rw [e1, e2] at hA
      obtain ⟨n, hn⟩ := c30_ring1_whole g1 g2 N1 N2 H.posN H.posN' false (δ + π) (δ + π) hfar
        (by rw [ho1, d2]; exact seenAt_polar hO hDpos _) (by rw [ho2, d2]; exact seenAt_polar hO hDpos _)
      rw [← hA, ha2] at hn
      refine ⟨δ + π, by simp [e2, polarVec_add_pi, app_neg], n, hn, ?_⟩
      rw [hD, abs_of_nonneg (by nlinarith), polarVec_add_pi, app_neg]; module
  have hn' : (A1 - η) * N1 = (A2 - η) * N2 + 2 * π * n := by
    field_simp at hn; linarith
  intro z φ k2
  refine ⟨k2 - n, fun b out => ?_⟩
  have r1 := rootDir_arc p hnp A1 z (φ * N2 / N1 - side b * (thinning p z - thinning q z) * 2 / N1) (k2 - n) b
  have r2 := rootDir_arc q hnq A2 z φ k2 b
  rw [H.teeth] at r1
  rw [H.teeth'] at r2
  have ht : (φ * N2 / N1 - side b * (thinning p z - thinning q z) * 2 / N1) * N1 =
      φ * N2 - side b * (thinning p z - thinning q z) * 2 := by field_simp
  push_cast at r1
  have harc : (η - rootDir p A1 z (φ * N2 / N1 - side b * (thinning p z - thinning q z) * 2 / N1) (k2 - n) b) * N1 =
      (η - rootDir q A2 z φ k2 b) * N2 := by
    linear_combination -hn' - r1 + r2 - ht - 2 * z * hβ
  refine ⟨side b * (η - rootDir p A1 z (φ * N2 / N1 - side b * (thinning p z - thinning q z) * 2 / N1) (k2 - n) b),
     side b * (η - rootDir q A2 z φ k2 b), ?_, ?_⟩
  · have hroll : signedRolling p out = signedRolling q out := by
      cases out
      · simp only [signedRolling, H.teeth, H.teeth', Bool.false_eq_true, if_false]; linarith
      · simp only [signedRolling, H.teeth, H.teeth', if_true]; linarith
    have h := cycloid_touch p q N1 N2 H _ C2 O hO A1 A2 z _ φ _ k2 out out b η η (by rw [H.teeth, H.teeth']; exact hP)
      (fun x => by rw [hroll]) (by rw [H.teeth, H.teeth', harc, hroll])
    rw [hη, H.teeth', smul_smul, mul_comm (p.module_ * _)] at h
    exact h
  · linear_combination side b * harc

/-- **C98, external pair.** Two cylindrical cycloid gears, adapted to each other, the second one put anywhere, the first
one meshed to it from any direction in its plane. When the second gear turns by any angle `φ` and the first one by the
opposite angle in the ratio of the tooth counts, back by the play, then in every slice every flank of every tooth of
the second gear, inside and outside the pitch circle, touches a flank of the first gear (outside and inside). At the
contact both flanks have the same normal, and it goes through the pitch point: the law of gearing. The same arc has
been rolled on both. The play is the sum of what the gears' backlash and crowning take off the teeth. -/
theorem c98_external (p q : GearInput) (N1 N2 : ℕ) (H : CycloidPair p q N1 N2) (hp : p.insideTeeth = false)
    (hq : q.insideTeeth = false) (hβ : tan p.helixAngle = -tan q.helixAngle) (c0 c0' c C : V3) (o0 o0' o O : M3)
    (a0 a0' a A δ : ℝ) (hO : IsRot O) (hbig : 1 / 10 ^ 12 ≤ (N1 : ℝ) * p.module_ / 2 + N2 * p.module_ / 2) :
    let r := adaptCycloidRadii ((cycloidGear p).place c0 o0 a0) ((cycloidGear q).place c0' o0' a0')
    let g := r.1.place c o a
    let h := r.2.place C O A
    let d := app O (polarVec δ)
    ∃ g', g.meshToCycloid h d = some g' ∧ ∀ (z φ : ℝ) (k2 : ℤ) (b : Bool), ∃ k1 : ℤ, ∀ out : Bool, ∃ t s : ℝ,
      TouchAt (g'.cycloidFlank out b z (-(φ * N2) / N1 - side b * (thinning p z + thinning q z) * 2 / N1) k1)
        (h.cycloidFlank (!out) b z φ k2) t s
        (C + (p.module_ * z) • app O OUT + (p.module_ * (N2 / 2)) • d) ∧ t * N1 = -(s * N2) := by
  have hN1 : (0 : ℝ) < N1 := by exact_mod_cast H.posN
  have hN2 : (0 : ℝ) < N2 := by exact_mod_cast H.posN'
  obtain ⟨n1, i1, e1⟩ := cycloid_teeth p (by rw [H.teeth]; exact hN1) c0 o0 a0
  obtain ⟨n2, i2, e2⟩ := cycloid_teeth q (by rw [H.teeth']; exact hN2) c0' o0' a0'
  intro r
  have hr : r = adaptCycloidRadii ((cycloidGear p).place c0 o0 a0) ((cycloidGear q).place c0' o0' a0') := rfl
  rw [adaptCycloidRadii, adaptInputs, n1, n2, i1, i2, e1, e2, H.teeth, H.teeth', hp, hq] at hr
  simp only [Bool.false_eq_true, if_false] at hr
  rw [hr]
  have hi := H.inside
  have hi' := H.inside'
  refine cycloid_external { p with outsideCycloid := q.insideCycloid / N1 * N2 }
    { q with outsideCycloid := p.insideCycloid / N2 * N1 } N1 N2 ?_ hp hq hβ ?_ ?_ c C o O hO a A δ hbig
  · exact { H with outside := by simp only; positivity, outside' := by simp only; positivity }
  · simp only; field_simp
  · simp only; field_simp

/-- **C98, gear and ring.** The same for a gear in a ring gear, either of them meshed to the other: both turn the same
way, and inside flanks meet inside flanks, outside flanks outside flanks. -/
theorem c98_ring (p q : GearInput) (N1 N2 : ℕ) (H : CycloidPair p q N1 N2)
    (hk : p.insideTeeth = false ∧ q.insideTeeth = true ∧ N1 < N2 ∨ p.insideTeeth = true ∧ q.insideTeeth = false ∧ N2 < N1)
    (hβ : tan p.helixAngle = tan q.helixAngle) (c0 c0' c C : V3) (o0 o0' o O : M3)
    (a0 a0' a A δ : ℝ) (hO : IsRot O) (hbig : 1 / 10 ^ 12 ≤ |(N1 : ℝ) * p.module_ / 2 - N2 * p.module_ / 2|) :
    let r := adaptCycloidRadii ((cycloidGear p).place c0 o0 a0) ((cycloidGear q).place c0' o0' a0')
    let g := r.1.place c o a
    let h := r.2.place C O A
    let d := app O (polarVec δ)
    ∃ g', g.meshToCycloid h d = some g' ∧ ∀ (z φ : ℝ) (k2 : ℤ), ∃ k1 : ℤ, ∀ b out : Bool, ∃ t s : ℝ,
      TouchAt (g'.cycloidFlank out b z (φ * N2 / N1 - side b * (thinning p z - thinning q z) * 2 / N1) k1)
        (h.cycloidFlank out b z φ k2) t s
        (C + (p.module_ * z) • app O OUT + ((if q.insideTeeth then 1 else -1) * (p.module_ * (N2 / 2))) • d) ∧
      t * N1 = s * N2 := by
  have hN1 : (0 : ℝ) < N1 := by exact_mod_cast H.posN
  have hN2 : (0 : ℝ) < N2 := by exact_mod_cast H.posN'
  obtain ⟨n1, i1, e1⟩ := cycloid_teeth p (by rw [H.teeth]; exact hN1) c0 o0 a0
  obtain ⟨n2, i2, e2⟩ := cycloid_teeth q (by rw [H.teeth']; exact hN2) c0' o0' a0'
  have hi := H.inside
  have hi' := H.inside'
  have ho := H.outside
  have ho' := H.outside'
  intro r
  have hr : r = adaptCycloidRadii ((cycloidGear p).place c0 o0 a0) ((cycloidGear q).place c0' o0' a0') := rfl
  rw [adaptCycloidRadii, adaptInputs, n1, n2, i1, i2, e1, e2, H.teeth, H.teeth'] at hr
  rcases hk with ⟨hp, hq, hlt⟩ | ⟨hp, hq, hlt⟩
  · rw [hp, hq] at hr
    rw [hr]
    refine cycloid_ring { p with outsideCycloid := q.outsideCycloid / N1 * N2 }
      { q with insideCycloid := p.insideCycloid / N2 * N1 } N1 N2 ?_ (Or.inl ⟨hp, hq, hlt⟩) hβ ?_ ?_ c C o O hO a A δ hbig
    · exact { H with outside := by simp only; positivity, inside' := by simp only; positivity }
    · simp only; field_simp
    · simp only; field_simp
  · rw [hp] at hr
    rw [hr]
    refine cycloid_ring { p with insideCycloid := q.insideCycloid / N1 * N2 }
      { q with outsideCycloid := p.outsideCycloid / N2 * N1 } N1 N2 ?_ (Or.inr ⟨hp, hq, hlt⟩) hβ ?_ ?_ c C o O hO a A δ hbig
    · exact { H with inside := by simp only; positivity, outside' := by simp only; positivity }
    · simp only; field_simp
    · simp only; field_simp

/-- Concrete case: a helical cycloid gear with 24 teeth and one with 12 teeth, module 2. -/
theorem cycloid_example_pair (b b' : ℝ) (i j : Bool) (β : ℝ) : CycloidPair { exampleInput with backlash := b, insideTeeth := i }
    { exampleInput with numTeeth := 12, helixAngle := β, backlash := b', insideTeeth := j } 24 12 := by
  constructor <;> norm_num [exampleInput]

example : CycloidPair exampleInput { exampleInput with numTeeth := 12, helixAngle := -exampleInput.helixAngle } 24 12 ∧
    tan exampleInput.helixAngle = -tan (-exampleInput.helixAngle) ∧ tan exampleInput.helixAngle ≠ 0 ∧
    (1 : ℝ) / 10 ^ 12 ≤ (24 : ℕ) * exampleInput.module_ / 2 + (12 : ℕ) * exampleInput.module_ / 2 ∧
    (1 : ℝ) / 10 ^ 12 ≤ |(24 : ℕ) * exampleInput.module_ / 2 - (12 : ℕ) * exampleInput.module_ / 2| := by
  refine ⟨cycloid_example_pair 0 0 false false _, by rw [tan_neg, neg_neg], ?_, by norm_num [exampleInput],
    by norm_num [exampleInput]⟩
  simp [exampleInput]

/-! ## C99 -/

/-- **C99 for external gears.** The two contacts of a tooth, on its lower and on its upper side, are apart by twice the
play, and without crowning the play is the sum of the backlashes. -/
theorem c99_external_partial (p q : GearInput) (N1 N2 : ℕ) (H : CycloidPair p q N1 N2) (hp : p.insideTeeth = false)
    (hq : q.insideTeeth = false) (hβ : tan p.helixAngle = -tan q.helixAngle) (c0 c0' c C : V3) (o0 o0' o O : M3)
    (a0 a0' a A δ : ℝ) (hO : IsRot O) (hbig : 1 / 10 ^ 12 ≤ (N1 : ℝ) * p.module_ / 2 + N2 * p.module_ / 2)
    (hcp : p.crowning = 0) (hcq : q.crowning = 0) (hb : 0 < p.backlash + q.backlash) :
    let r := adaptCycloidRadii ((cycloidGear p).place c0 o0 a0) ((cycloidGear q).place c0' o0' a0')
    let g := r.1.place c o a
    let h := r.2.place C O A
    let d := app O (polarVec δ)
    ∃ g', g.meshToCycloid h d = some g' ∧ ∀ (z φ : ℝ) (k2 : ℤ), ∃ (turn turn' : ℝ) (k1 k1' : ℤ),
      turn < turn' ∧ turn' - turn = (p.backlash + q.backlash) * 4 / N1 ∧ (turn + turn') / 2 = -(φ * N2) / N1 ∧
      (∃ t s, TouchAt (g'.cycloidFlank true false z turn k1) (h.cycloidFlank false false z φ k2) t s
        (C + (p.module_ * z) • app O OUT + (p.module_ * (N2 / 2)) • d)) ∧
      ∃ t s, TouchAt (g'.cycloidFlank true true z turn' k1') (h.cycloidFlank false true z φ k2) t s
        (C + (p.module_ * z) • app O OUT + (p.module_ * (N2 / 2)) • d) := by
  have hN1 : (0 : ℝ) < N1 := by exact_mod_cast H.posN
  intro r g h d
  obtain ⟨g', h1, h2⟩ := c98_external p q N1 N2 H hp hq hβ c0 c0' c C o0 o0' o O a0 a0' a A δ hO hbig
  refine ⟨g', h1, fun z φ k2 => ?_⟩
  obtain ⟨k1, hk1⟩ := h2 z φ k2 false
  obtain ⟨k1', hk1'⟩ := h2 z φ k2 true
  obtain ⟨t, s, ht, -⟩ := hk1 true
  obtain ⟨t', s', ht', -⟩ := hk1' true
  have hth : thinning p z + thinning q z = p.backlash + q.backlash := by simp [thinning, hcp, hcq]
  rw [hth] at ht ht'
  refine ⟨_, _, k1, k1', ?_, ?_, ?_, ⟨t, s, ht⟩, ⟨t', s', ht'⟩⟩
  · simp only [side, Bool.false_eq_true, if_false, if_true]
    have : 0 < (p.backlash + q.backlash) * 2 / N1 := by positivity
    have e : -1 * (p.backlash + q.backlash) * 2 / N1 = -((p.backlash + q.backlash) * 2 / N1) := by ring
    rw [e, one_mul]
    linarith
  · simp only [side, Bool.false_eq_true, if_false, if_true]; ring
  · simp only [side, Bool.false_eq_true, if_false, if_true]; ring

/-- **C99 is violated by ring gears.** `tooth_angle` takes the backlash off the angle also for a ring gear, where it
describes the space between the teeth. A ring gear and a pinion, both with a backlash of 1/10: after meshing, a tooth
of the pinion touches the ring on both sides at once. There is no play. -/
theorem c99_violated : ∃ (p q : GearInput) (N1 N2 : ℕ), CycloidPair p q N1 N2 ∧ p.insideTeeth = true ∧
    q.insideTeeth = false ∧ 0 < p.backlash ∧ 0 < q.backlash ∧ p.crowning = 0 ∧ q.crowning = 0 ∧
    let r := adaptCycloidRadii ((cycloidGear p).place 0 1 0) ((cycloidGear q).place 0 1 0)
    let h := r.2.place 0 1 0
    ∃ g', (r.1.place 0 1 0).meshToCycloid h RIGHT = some g' ∧ ∃ k1 : ℤ, ∀ b out : Bool, ∃ t s P,
      TouchAt (g'.cycloidFlank out b 0 0 k1) (h.cycloidFlank out b 0 0 0) t s P := by
  obtain ⟨p, hp⟩ : ∃ p : GearInput, p = { exampleInput with backlash := 1 / 10, insideTeeth := true } := ⟨_, rfl⟩
  obtain ⟨q, hq⟩ : ∃ q : GearInput, q = { exampleInput with
    numTeeth := 12, helixAngle := π / 6, backlash := 1 / 10, insideTeeth := false } := ⟨_, rfl⟩
  have H : CycloidPair p q 24 12 := by rw [hp, hq]; exact cycloid_example_pair _ _ _ _ _
  refine ⟨p, q, 24, 12, H, by rw [hp], by rw [hq], by norm_num [hp], by norm_num [hq], by norm_num [hp, exampleInput],
    by norm_num [hq, exampleInput], ?_⟩
  have h := c98_ring p q 24 12 H (Or.inr ⟨by rw [hp], by rw [hq], by norm_num⟩) (by rw [hp, hq]; rfl) 0 0 0 0 1 1 1 1
    0 0 0 0 0 IsRot.one (by norm_num [hp, exampleInput])
  obtain ⟨g', h1, h2⟩ := h
  obtain ⟨k1, hk⟩ := h2 0 0 0
  have e : app 1 (polarVec 0) = RIGHT := by
    rw [app_one]; simp [polarVec, RIGHT]
  rw [e] at h1
  refine ⟨g', h1, k1, fun b out => ?_⟩
  obtain ⟨t, s, ht, -⟩ := hk b out
  have hth : thinning p 0 - thinning q 0 = 0 := by simp [thinning, hp, hq, exampleInput]
  rw [hth] at ht
  simp only [zero_mul, zero_div, mul_zero, sub_zero] at ht
  exact ⟨t, s, _, ht⟩

end Verif
