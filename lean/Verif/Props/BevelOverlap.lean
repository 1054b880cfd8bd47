import Verif.Props.OctoidMesh

/-!
# C123: meshed bevel gears do not overlap on their pitch cones
-/

namespace Verif

open scoped Matrix
open Real

/-- The direction `e` from the apex is inside a tooth of the gear, on the pitch cone in the slice at height `z`, when the gear is
turned by `turn`. -/
def InTooth (g : WGear) (z turn : ℝ) (e : V3) : Prop :=
  ∃ (k : ℤ) (ψ : ℝ), |ψ| < halfTooth g z ∧ e = app g.core.transform.orientation
    (genDir (g.coneAngle / 2) ((g.core.transformAt z).angle + turn + k * g.pitchAngle + ψ))

theorem genDir_inj {γ x y : ℝ} (hγ : sin γ ≠ 0) {O : M3} (hO : IsRot O) (h : app O (genDir γ x) = app O (genDir γ y)) :
    ∃ j : ℤ, x = y + 2 * π * j := by
  have h1 : genDir γ x = genDir γ y := by
    have := congrArg (app Oᵀ) h
    rwa [hO.app_T_app, hO.app_T_app] at this
  have h2 := congrFun h1 0
  have h3 := congrFun h1 1
  simp [genDir, polarVec, OUT, hγ] at h2 h3
  obtain ⟨j, hj⟩ := Real.Angle.angle_eq_iff_two_pi_dvd_sub.1 (Real.Angle.cos_sin_inj h2 h3)
  exact ⟨j, by linarith⟩

theorem involute_place_facts (p : GearInput) (hn : 0 < p.numTeeth) (C : V3) (O : M3) (A z : ℝ) :
    ((involuteGear p).place C O A).core.transform.orientation = O ∧ ((involuteGear p).place C O A).coneAngle = p.coneAngle ∧
      (((involuteGear p).place C O A).core.transformAt z).angle = A + z * (tan p.helixAngle / (p.numTeeth / 2)) ∧
      ((involuteGear p).place C O A).pitchAngle = 2 * π / p.numTeeth ∧
      halfTooth ((involuteGear p).place C O A) z * p.numTeeth = π / 2 - 2 * shiftedThinning p z := by
  refine ⟨rfl, ?_, ?_, ?_, ?_⟩
  · rw [involuteGear_pos hn]; rfl
  · rw [place_transformAt, involuteGear_pos hn]; rfl
  · rw [involuteGear_pos hn]; rfl
  · have : halfTooth ((involuteGear p).place C O A) z = p.crowningFunc z p.toothAngle := by
      rw [halfTooth, involuteGear_pos hn]
      exact involuteGen_pia p z
    rw [this, GearInput.crowningFunc, GearInput.toothAngle, shiftedThinning]
    field_simp
    ring

/-- **C123.** The arc is that between the two flanks of the tooth: they cross the pitch cone at its ends. -/
theorem c123_ends (p : GearInput) (hn : 0 < p.numTeeth) (h0 : 0 < p.coneAngle / 2) (h1 : p.coneAngle / 2 < π / 2)
    (hα : sin p.pressureAngle ≠ 0) (C : V3) {O : M3} (hO : IsRot O) (A z turn : ℝ) (k : ℤ) (b : Bool) :
    let g := (involuteGear p).place C O A
    g.octoidFlank b z turn k 0 = C + (p.module_ * (p.numTeeth / 2) / tan (p.coneAngle / 2)) • app O OUT +
      (p.module_ * (p.numTeeth / 2 / sin (p.coneAngle / 2) - z)) • app O (genDir (p.coneAngle / 2)
        ((g.core.transformAt z).angle + turn + k * g.pitchAngle + (if b then halfTooth g z else -halfTooth g z))) := by
  intro g
  obtain ⟨f1, f2, f3, f4, f5⟩ := involute_place_facts p hn C O A z
  have hF := (octoidFlank_place p hn h0 h1 hα C hO A z turn k b 0).1
  have f5' : halfTooth g z = p.crowningFunc z p.toothAngle := by
    rw [halfTooth]
    change ((involuteGear p).place C O A).core.recipe.gen.pitchIntersectAngle z = _
    rw [involuteGear_pos hn]
    exact involuteGen_pia p z
  have e : pitchDir p A z turn k b + side b * 0 =
      (g.core.transformAt z).angle + turn + k * g.pitchAngle + (if b then halfTooth g z else -halfTooth g z) := by
    change _ = (((involuteGear p).place C O A).core.transformAt z).angle + turn +
      k * ((involuteGear p).place C O A).pitchAngle + _
    rw [f3, f4, f5', pitchDir]
    cases b <;> simp [side] <;> ring
  rw [e] at hF
  refine hF.trans ?_
  simp [octPoint]

example : sin (π / 9) ≠ 0 :=
  (sin_pos_of_pos_of_lt_pi (by positivity) (by linarith [pi_pos])).ne'

/-- **C123, what holds.** Two external bevel gears meshed with `mesh_to`, turned together. In every slice where the backlash
and the crowning take at least as much from the teeth as the profile shifts add, the common generator of the pitch cones is
never inside a tooth of both gears. Missing: gears whose profile shifts add more (see `c123_overlap_violated`), ring gears and
the flanks away from the pitch cones. -/
theorem c123_clear_partial (p q : GearInput) (N1 N2 : ℕ) (H : OctoidPair p q N1 N2) (hp : p.insideTeeth = false)
    (hq : q.insideTeeth = false) (hβ : tan p.helixAngle = -tan q.helixAngle) (c C : V3) (o O : M3) (ho : IsRot o)
    (hO : IsRot O) (a A : ℝ) (d : V3) (hd : d ≠ 0)
    (hproj : norm3 d / 10 ^ 12 ≤ norm3 (d - dot d (app O OUT) • app O OUT))
    (hbig : 1 / 10 ^ 12 ≤ p.module_ * (N2 / 2 / sin (q.coneAngle / 2)) * sin (q.coneAngle / 2 + p.coneAngle / 2))
    (solve : (ℝ → ℝ) → ℝ) (backlash bias : ℝ) :
    let h := (involuteGear q).place C O A
    ∃ g' e, ((involuteGear p).place c o a).meshToBevel solve h d backlash bias = some g' ∧
      IsGenerator g'.bevelObj e ∧ IsGenerator h.bevelObj e ∧ 0 < dot e (d - dot d (app O OUT) • app O OUT) ∧
      ∀ z φ, 0 ≤ shiftedThinning p z + shiftedThinning q z → ¬ (InTooth g' z (-(φ * N2) / N1) e ∧ InTooth h z φ e) := by
  intro h
  have hpos : 0 < sin (q.coneAngle / 2 + p.coneAngle / 2) :=
    sin_pos_of_pos_of_lt_pi (by linarith [H.gammaPos, H.gammaPos']) (by linarith [H.gammaLt, H.gammaLt'])
  have hN1 : (0 : ℝ) < N1 := by exact_mod_cast H.posN
  have hN2 : (0 : ℝ) < N2 := by exact_mod_cast H.posN'
  have hnp : 0 < p.numTeeth := by rw [H.teeth]; exact hN1
  have hnq : 0 < q.numTeeth := by rw [H.teeth']; exact hN2
  have hs1 : 0 < sin (p.coneAngle / 2) := sin_pos_of_pos_of_lt_pi H.gammaPos (by linarith [pi_pos, H.gammaLt])
  have hs2 : 0 < sin (q.coneAngle / 2) := sin_pos_of_pos_of_lt_pi H.gammaPos' (by linarith [pi_pos, H.gammaLt'])
  obtain ⟨g', e, m1, m2, m3, m4, m5, m6, ⟨C1, O1, A1, δ1, δ2, n, hO1, hg', u1, u2, hn⟩, -⟩ := octoid_mesh p q N1 N2 H c C o O ho hO
    a A d hd (-1) hproj (Or.inl ⟨rfl, hp, hq⟩) (by rw [neg_one_mul]; exact hβ)
    (by rw [neg_one_mul, sub_neg_eq_add, abs_of_pos hpos]; exact hbig) solve backlash bias
  refine ⟨g', e, m1, m4, m5, m6, fun z φ hz => ?_⟩
  rintro ⟨⟨k1, ψ1, l1, q1⟩, k2, ψ2, l2, q2⟩
  obtain ⟨f1, f2, f3, f4, f5⟩ := involute_place_facts p hnp C1 O1 A1 z
  obtain ⟨y1, y2, y3, y4, y5⟩ := involute_place_facts q hnq C O A z
  rw [hg', f1, f2, f3, f4, ← u1] at q1
  rw [hg'] at l1
  change e = app ((involuteGear q).place C O A).core.transform.orientation (genDir (((involuteGear q).place C O A).coneAngle / 2)
    ((((involuteGear q).place C O A).core.transformAt z).angle + φ + k2 * ((involuteGear q).place C O A).pitchAngle + ψ2)) at q2
  change |ψ2| < halfTooth ((involuteGear q).place C O A) z at l2
  rw [y1, y2, y3, y4, ← u2] at q2
  obtain ⟨j1, w1⟩ := genDir_inj hs1.ne' hO1 q1
  obtain ⟨j2, w2⟩ := genDir_inj hs2.ne' hO q2
  have l1' := mul_lt_mul_of_pos_right l1 hnp
  have l2' := mul_lt_mul_of_pos_right l2 hnq
  rw [f5, H.teeth] at l1'
  rw [y5, H.teeth'] at l2'
  rw [H.teeth] at w1
  rw [H.teeth'] at w2
  have w1' : (δ1 - 2 * π * j1 - A1) * N1 = 2 * z * tan p.helixAngle - φ * N2 + 2 * π * k1 + ψ1 * N1 := by
    rw [w1]; field_simp; ring
  have w2' : (δ2 - 2 * π * j2 - A) * N2 = 2 * z * tan q.helixAngle + φ * N2 + 2 * π * k2 + ψ2 * N2 := by
    rw [w2]; field_simp; ring
  have hsum : ψ1 * N1 + ψ2 * N2 = π * (2 * (-n - j1 * N1 - j2 * N2 - k1 - k2 - 1 : ℤ) + 1) := by
    push_cast
    linear_combination -hn - w1' - w2' + (-2 * z) * hβ
  obtain ⟨m, hm⟩ : ∃ m : ℤ, m = -n - j1 * N1 - j2 * N2 - k1 - k2 - 1 := ⟨_, rfl⟩
  rw [← hm] at hsum
  have hb : |ψ1 * N1 + ψ2 * N2| < π := by
    refine (abs_add_le _ _).trans_lt ?_
    rw [abs_mul, abs_mul, abs_of_pos hN1, abs_of_pos hN2]
    linarith
  rw [hsum, abs_mul, abs_of_pos pi_pos] at hb
  have h1 : (1 : ℝ) ≤ |2 * (m : ℝ) + 1| := by
    have : (1 : ℤ) ≤ |2 * m + 1| := Int.one_le_abs (by omega)
    exact_mod_cast this
  nlinarith [pi_pos]

/-- **C123, as it is.** When the profile shifts add more to the teeth than the backlash and the crowning take, meshed bevel gears
do overlap: there is a position in which the common generator is inside a tooth of both. `mesh_to` does not look at the profile
shift of bevel gears, while it moves shifted cylindrical gears apart. -/
theorem c123_overlap (p q : GearInput) (N1 N2 : ℕ) (H : OctoidPair p q N1 N2) (hp : p.insideTeeth = false)
    (hq : q.insideTeeth = false) (hβ : tan p.helixAngle = -tan q.helixAngle) (c C : V3) (o O : M3) (ho : IsRot o)
    (hO : IsRot O) (a A : ℝ) (d : V3) (hd : d ≠ 0)
    (hproj : norm3 d / 10 ^ 12 ≤ norm3 (d - dot d (app O OUT) • app O OUT))
    (hbig : 1 / 10 ^ 12 ≤ p.module_ * (N2 / 2 / sin (q.coneAngle / 2)) * sin (q.coneAngle / 2 + p.coneAngle / 2))
    (solve : (ℝ → ℝ) → ℝ) (backlash bias z : ℝ) (hz : shiftedThinning p z + shiftedThinning q z < 0)
    (hz1 : 2 * shiftedThinning p z < π / 2) (hz2 : 2 * shiftedThinning q z < π / 2) :
    let h := (involuteGear q).place C O A
    ∃ g' e φ, ((involuteGear p).place c o a).meshToBevel solve h d backlash bias = some g' ∧
      IsGenerator g'.bevelObj e ∧ IsGenerator h.bevelObj e ∧ InTooth g' z (-(φ * N2) / N1) e ∧ InTooth h z φ e := by
  intro h
  have hpos : 0 < sin (q.coneAngle / 2 + p.coneAngle / 2) :=
    sin_pos_of_pos_of_lt_pi (by linarith [H.gammaPos, H.gammaPos']) (by linarith [H.gammaLt, H.gammaLt'])
  have hN1 : (0 : ℝ) < N1 := by exact_mod_cast H.posN
  have hN2 : (0 : ℝ) < N2 := by exact_mod_cast H.posN'
  have hnp : 0 < p.numTeeth := by rw [H.teeth]; exact hN1
  have hnq : 0 < q.numTeeth := by rw [H.teeth']; exact hN2
  obtain ⟨g', e, m1, m2, m3, m4, m5, m6, ⟨C1, O1, A1, δ1, δ2, n, hO1, hg', u1, u2, hn⟩, -⟩ := octoid_mesh p q N1 N2 H c C o O ho hO
    a A d hd (-1) hproj (Or.inl ⟨rfl, hp, hq⟩) (by rw [neg_one_mul]; exact hβ)
    (by rw [neg_one_mul, sub_neg_eq_add, abs_of_pos hpos]; exact hbig) solve backlash bias
  obtain ⟨f1, f2, f3, f4, f5⟩ := involute_place_facts p hnp C1 O1 A1 z
  obtain ⟨y1, y2, y3, y4, y5⟩ := involute_place_facts q hnq C O A z
  rw [H.teeth] at f5
  rw [H.teeth'] at y5
  -- the arc at which the middle of the tooth of the second gear is away from the generator
  obtain ⟨w, w0, w1, w2, w3⟩ : ∃ w, 0 < w ∧ w < π ∧ w < π / 2 - 2 * shiftedThinning q z ∧
      π - w < π / 2 - 2 * shiftedThinning p z := by
    obtain ⟨x, hx⟩ : ∃ x, x = π / 2 - 2 * shiftedThinning p z := ⟨_, rfl⟩
    obtain ⟨y, hy⟩ : ∃ y, y = π / 2 - 2 * shiftedThinning q z := ⟨_, rfl⟩
    rw [← hx, ← hy]
    have hx0 : 0 < x := by rw [hx]; linarith
    have hy0 : 0 < y := by rw [hy]; linarith
    have hxy : π < x + y := by rw [hx, hy]; linarith
    have hp0 := pi_pos
    refine ⟨π * y / (x + y), by positivity, ?_, ?_, ?_⟩
    · rw [div_lt_iff₀ (by positivity)]; nlinarith
    · rw [div_lt_iff₀ (by positivity)]; nlinarith
    · rw [sub_lt_iff_lt_add', ← sub_lt_iff_lt_add, lt_div_iff₀ (by positivity)]; nlinarith
  refine ⟨g', e, δ2 - A - z * (tan q.helixAngle / (q.numTeeth / 2)) + w / N2, m1, m4, m5, ?_, ?_⟩
  · refine ⟨-n, (w - π) / N1, ?_, ?_⟩
    · rw [hg', ← mul_lt_mul_iff_of_pos_right hN1, f5, abs_div, abs_of_pos hN1, div_mul_cancel₀ _ hN1.ne', abs_of_neg (by linarith)]
      linarith
    · rw [hg', f1, f2, f3, f4, H.teeth, H.teeth', ← u1]
      congr 2
      have : δ1 * N1 = (A1 + z * (tan p.helixAngle / (N1 / 2)) +
          -((δ2 - A - z * (tan q.helixAngle / (N2 / 2)) + w / N2) * N2) / N1 + (-n : ℤ) * (2 * π / N1) + (w - π) / N1) * N1 := by
        push_cast
        field_simp
        linear_combination -hn - 2 * z * hβ
      exact mul_right_cancel₀ hN1.ne' this
  · refine ⟨0, -w / N2, ?_, ?_⟩
    · change |-w / (N2 : ℝ)| < halfTooth ((involuteGear q).place C O A) z
      rw [← mul_lt_mul_iff_of_pos_right hN2, y5, abs_div, abs_of_pos hN2, div_mul_cancel₀ _ hN2.ne', abs_neg, abs_of_pos (by linarith)]
      linarith
    · change e = app ((involuteGear q).place C O A).core.transform.orientation (genDir (((involuteGear q).place C O A).coneAngle / 2)
        ((((involuteGear q).place C O A).core.transformAt z).angle + _ + (0 : ℤ) * ((involuteGear q).place C O A).pitchAngle + _))
      rw [y1, y2, y3, y4, H.teeth', ← u2]
      congr 2
      push_cast
      ring

theorem overlap_example (z : ℝ) : shiftedThinning { exampleInput with coneAngle := π / 3 } z < 0 ∧
    shiftedThinning { exampleInput with
      numTeeth := 12, coneAngle := 2 * arcsin (1 / 4), helixAngle := -exampleInput.helixAngle } z < 0 := by
  have h : 0 < tan (π / 9) := tan_pos_of_pos_of_lt_pi_div_two (by positivity) (by linarith [pi_pos])
  constructor <;> simp only [shiftedThinning, exampleInput] <;> linarith

/-- **C123, violated.** Bevel gears with 24 and 12 teeth, module 2, pressure angle 20° and a profile shift of 0.2 each: meshed with
`mesh_to`, at every height there is a position in which a tooth of one is inside a tooth of the other. -/
theorem c123_overlap_violated (z : ℝ) :
    let p : GearInput := { exampleInput with coneAngle := π / 3 }
    let q : GearInput := { exampleInput with numTeeth := 12, coneAngle := 2 * arcsin (1 / 4), helixAngle := -exampleInput.helixAngle }
    OctoidPair p q 24 12 ∧ ∀ solve : (ℝ → ℝ) → ℝ, ∃ g' e φ,
      ((involuteGear p).place ORIGIN 1 0).meshToBevel solve ((involuteGear q).place ORIGIN 1 0) RIGHT 0 0 = some g' ∧
      IsGenerator g'.bevelObj e ∧ IsGenerator ((involuteGear q).place ORIGIN 1 0).bevelObj e ∧
      InTooth g' z (-(φ * (12 : ℕ)) / (24 : ℕ)) e ∧ InTooth ((involuteGear q).place ORIGIN 1 0) z φ e := by
  intro p q
  obtain ⟨h1, h2, h3, h4, h5, h6, h7, h8⟩ := octoid_example
  obtain ⟨t1, t2⟩ := overlap_example z
  refine ⟨h1, fun solve => ?_⟩
  exact c123_overlap p q 24 12 h1 h2 h3 h4 ORIGIN ORIGIN 1 1 h5 h5 0 0 RIGHT h6 h7 h8 solve 0 0 z (by linarith)
    (by linarith [pi_pos]) (by linarith [pi_pos])

/-- Concrete case for `c123_clear_partial`: without profile shift the play is that of the backlash. -/
example (z : ℝ) : 0 ≤ shiftedThinning { exampleInput with profileShift := 0, backlash := 1 / 10 } z := by
  norm_num [shiftedThinning, exampleInput]

end Verif
