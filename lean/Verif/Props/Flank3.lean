import Verif.Props.MeshDistance
import Mathlib.Analysis.Calculus.Deriv.MeanValue

/-! # Properties C22 (the two flanks of a cycloid tooth) and C90 (nominal mesh distance) -/

namespace Verif

open Real
open Spec (circlePoint)

/-! ### C22: the flanks of a cycloid tooth -/

theorem le_of_sq_le' {x y : ℝ} (hy : 0 ≤ y) (h : x ^ 2 ≤ y ^ 2) : x ≤ y := by
  by_contra hc
  nlinarith [not_le.1 hc]

theorem norm3_add_le (a b : V3) : norm3 (a + b) ≤ norm3 a + norm3 b := by
  have h1 : dot a b ≤ norm3 a * norm3 b := by
    refine le_of_sq_le' (mul_nonneg (norm3_nonneg a) (norm3_nonneg b)) ?_
    have := dot_self_nonneg (cross a b)
    rw [mul_pow, norm3_sq, norm3_sq]
    simp only [dot, cross, Matrix.cons_val_zero, Matrix.cons_val_one, Matrix.cons_val] at this ⊢
    nlinarith
  refine le_of_sq_le' (add_nonneg (norm3_nonneg a) (norm3_nonneg b)) ?_
  rw [add_sq, norm3_sq, norm3_sq, norm3_sq, dot_add_left, dot_add_right, dot_add_right, dot_comm b a]
  linarith

theorem norm3_circlePoint {r : ℝ} (hr : 0 ≤ r) (a : ℝ) : norm3 (circlePoint r a 0) = r := by
  refine norm3_eq_of_dot hr ?_
  simp [dot, circlePoint]
  linear_combination r ^ 2 * sin_sq_add_cos_sq a

/-- **C22, the tooth.** With rolling coefficients `0 < rc_in ≤ 1` and `0 < rc_out` the lower and the upper
curve of the tooth meet on the pitch circle at the pitch intersect angle. The lower one is traced by a circle
of radius `rc_in · rp` that rolls inside the pitch circle and never leaves it, the upper one by a circle of
radius `rc_out · rp` that rolls outside and never enters it. -/
theorem c22_tooth_flanks (pia rp rcIn rcOut t : ℝ) (hr : 0 < rp) (hi : 0 < rcIn) (hi1 : rcIn ≤ 1)
    (ho : 0 < rcOut) :
    cycloidFlankLower pia rp rcIn 0 = circlePoint rp (-pia) 0 ∧
      cycloidFlankUpper pia rp rcOut 0 = circlePoint rp (-pia) 0 ∧
      norm3 (cycloidFlankLower pia rp rcIn t - circlePoint (rp - rcIn * rp) (t - pia) 0) = rcIn * rp ∧
      norm3 (cycloidFlankUpper pia rp rcOut t - circlePoint (rp + rcOut * rp) (t - pia) 0) = rcOut * rp ∧
      norm3 (cycloidFlankLower pia rp rcIn t) ≤ rp ∧ rp ≤ norm3 (cycloidFlankUpper pia rp rcOut t) := by
  have h0 : ORIGIN = (0 : V3) := by apply V3.ext3 <;> simp [ORIGIN]
  obtain ⟨l1, l2⟩ := c22_rolling t rp (-rcIn * rp) (-pia) 0
  obtain ⟨u1, u2⟩ := c22_rolling t rp (rcOut * rp) (-pia) 0
  have a1 : |-rcIn * rp| = rcIn * rp := by rw [neg_mul, abs_neg, abs_of_pos (by positivity)]
  have a2 : |rcOut * rp| = rcOut * rp := abs_of_pos (by positivity)
  rw [a1] at l1
  rw [a2] at u1
  simp only [cycloidFlankLower, cycloidFlankUpper, h0]
  have e1 : rp + -rcIn * rp = rp - rcIn * rp := by ring
  rw [e1] at l1
  rw [sub_eq_add_neg t pia]
  refine ⟨l2, u2, l1, u1, ?_, ?_⟩
  · have := norm3_add_le (cycloidCircle t rp (-rcIn * rp) (-pia) 0 0 -
      circlePoint (rp - rcIn * rp) (t + -pia) 0) (circlePoint (rp - rcIn * rp) (t + -pia) 0)
    rw [sub_add_cancel, l1, norm3_circlePoint (by nlinarith)] at this
    linarith
  · have := norm3_add_le (cycloidCircle t rp (rcOut * rp) (-pia) 0 0)
      (-(cycloidCircle t rp (rcOut * rp) (-pia) 0 0 - circlePoint (rp + rcOut * rp) (t + -pia) 0))
    rw [norm3_neg, u1, show ∀ a b : V3, a + -(a - b) = b from fun a b => by abel,
      norm3_circlePoint (by positivity)] at this
    linarith

/-- Concrete case: a circle of half the pitch radius rolling inside traces a radial straight flank. -/
example (t : ℝ) : cycloidFlankLower 0 2 (1 / 2) t = ![2 * cos t, 0, 0] := by
  rw [cycloidFlankLower, show ORIGIN = (0 : V3) by apply V3.ext3 <;> simp [ORIGIN], cycloidCircle_eq]
  have e : (1 + 2 / (-(1 / 2) * 2)) * t + -0 = -t := by norm_num
  rw [e]
  apply V3.ext3 <;> simp <;> ring

/-! ### C90: nominal mesh distance -/

/-- The chord inequality behind C90. -/
theorem sin_tangent {a w : ℝ} (ha : 0 ≤ a) (ha' : a ≤ π) (hw : 0 ≤ w) (hw' : w ≤ π) (h : a ≠ w) :
    sin a - sin w < (a - w) * cos w := by
  rcases lt_or_gt_of_ne h with h | h
  · obtain ⟨c, hc, e⟩ := exists_hasDerivAt_eq_slope sin cos h continuous_sin.continuousOn
      fun x _ => hasDerivAt_sin x
    have hlt : cos w < cos c := cos_lt_cos_of_nonneg_of_le_pi (by linarith [hc.1]) hw' hc.2
    rw [eq_div_iff (by linarith)] at e
    nlinarith [mul_lt_mul_of_pos_right hlt (sub_pos.2 h)]
  · obtain ⟨c, hc, e⟩ := exists_hasDerivAt_eq_slope sin cos h continuous_sin.continuousOn
      fun x _ => hasDerivAt_sin x
    have hlt : cos c < cos w := cos_lt_cos_of_nonneg_of_le_pi hw (by linarith [hc.2]) hc.1
    rw [eq_div_iff (by linarith)] at e
    nlinarith [mul_lt_mul_of_pos_right hlt (sub_pos.2 h)]

/-- The working distance of a pair in units of the standard distance, against the profile shift. -/
theorem working_distance {a w : ℝ} (ha : 0 < a) (ha' : a < π / 2) (hw : 0 ≤ w) (hw' : w < π / 2) :
    cos a / cos w ≤ 1 + ((tan w - w) - (tan a - a)) / tan a ∧
      (cos a / cos w = 1 + ((tan w - w) - (tan a - a)) / tan a ↔ w = a) := by
  have hca : 0 < cos a := cos_pos' (by linarith) ha'
  have hcw : 0 < cos w := cos_pos' (by linarith) hw'
  have hsa : 0 < sin a := sin_pos_of_pos_of_lt_pi ha (by linarith)
  have e : 1 + ((tan w - w) - (tan a - a)) / tan a - cos a / cos w =
      ((a - w) * cos w - (sin a - sin w)) * (cos a / (sin a * cos w)) := by
    rw [tan_eq_sin_div_cos, tan_eq_sin_div_cos]
    field_simp
    ring
  have hk : 0 < cos a / (sin a * cos w) := by positivity
  rcases eq_or_ne w a with h | h
  · subst h
    have h0 : cos w / cos w = 1 + ((tan w - w) - (tan w - w)) / tan w := by
      rw [div_self hcw.ne', sub_self, zero_div, add_zero]
    exact ⟨h0.le, fun _ => rfl, fun _ => h0⟩
  · have hlt : cos a / cos w < 1 + ((tan w - w) - (tan a - a)) / tan a := by
      rw [← sub_pos, e]
      exact mul_pos (sub_pos.2 (sin_tangent ha.le (by linarith) hw (by linarith) h.symm)) hk
    exact ⟨hlt.le, fun h' => absurd h' hlt.ne, fun h' => absurd h' h⟩

/-- **C90, order of the gears.** The nominal distance does not depend on which gear is named first. -/
theorem c90_symmetric (rp1 rp2 x1 x2 m : ℝ) (ring1 ring2 : Bool) :
    calcNominalMeshDistance rp1 rp2 x1 x2 m ring1 ring2 =
      calcNominalMeshDistance rp2 rp1 x2 x1 m ring2 ring1 := by
  simp only [calcNominalMeshDistance]; ring

/-- **C90, external pair.** The nominal distance is at least the distance at which `mesh_to` places the
gears, for every root the solver may return with a working pressure angle in [0, π/2). It is the same if the
profile shifts cancel, and different otherwise. -/
theorem c90_external (solve : (ℝ → ℝ) → ℝ) (p q : InvParam) (t u aw : ℝ)
    (hp : p.Good t) (hq : q.Good u)
    (hm : p.module_ = q.module_) (ha : p.pressureAngle = q.pressureAngle)
    (hep : p.insideTeeth = false) (heq : q.insideTeeth = false)
    (hbp : p.backlash = 0) (hbq : q.backlash = 0) (hcp : p.crowning = 0) (hcq : q.crowning = 0) :
    let g := p.construct .involute t
    let h := q.construct .involute u
    aw = solve (meshResidual g.rBase h.rBase (-g.angleBase) (-h.angleBase) h.pitchAngle false 0) →
    0 ≤ aw → aw < π / 2 →
    meshResidual g.rBase h.rBase (-g.angleBase) (-h.angleBase) h.pitchAngle false 0 aw = 0 →
      g.meshDistance solve h 0 ≤ calcNominalMeshDistance g.pitchRadius h.pitchRadius p.profileShift
          q.profileShift p.module_ g.insideTeeth h.insideTeeth ∧
        (g.meshDistance solve h 0 = calcNominalMeshDistance g.pitchRadius h.pitchRadius p.profileShift
          q.profileShift p.module_ g.insideTeeth h.insideTeeth ↔ p.profileShift + q.profileShift = 0) := by
  intro g h hsol hlo hhi hroot
  obtain ⟨hlaw, hD, -⟩ := c26_external solve p q t u aw hp hq hm ha hep heq hbp hbq hcp hcq hsol
    (by linarith [pi_pos]) hhi hroot
  obtain ⟨g1, g2, g3, g4, g5⟩ := construct_base (k := .involute) hp
  obtain ⟨h1, h2, h3, h4, h5⟩ := construct_base (k := .involute) hq
  have hN := hp.teeth
  have hM := hq.teeth
  have hmod := hp.modulePos
  have hta : 0 < tan p.pressureAngle := tan_pos_of_pos_of_lt_pi_div_two hp.alphaPos hp.alphaLt
  obtain ⟨w1, w2⟩ := working_distance hp.alphaPos hp.alphaLt hlo hhi
  have hk : 0 < (p.numTeeth + q.numTeeth) / 2 * p.module_ := by positivity
  have hd : g.meshDistance solve h 0 = (p.numTeeth + q.numTeeth) / 2 * p.module_ *
      (cos p.pressureAngle / cos aw) := by
    rw [hD, g1, h1, ← ha, ← hm]; ring
  have hn : calcNominalMeshDistance g.pitchRadius h.pitchRadius p.profileShift q.profileShift p.module_
      g.insideTeeth h.insideTeeth = (p.numTeeth + q.numTeeth) / 2 * p.module_ *
      (1 + ((tan aw - aw) - (tan p.pressureAngle - p.pressureAngle)) / tan p.pressureAngle) := by
    rw [hlaw, g4, h4, hep, heq, g5, h5, ← hm]
    simp only [calcNominalMeshDistance, Bool.false_eq_true, if_false]
    field_simp
    ring
  rw [hd, hn]
  refine ⟨mul_le_mul_of_nonneg_left w1 hk.le, ?_⟩
  rw [mul_right_inj' hk.ne', w2]
  constructor
  · rintro rfl
    have : 2 * tan p.pressureAngle * (p.profileShift + q.profileShift) /
        (p.numTeeth + q.numTeeth) = 0 := by linarith
    rw [div_eq_zero_iff] at this
    rcases this with h0 | h0
    · rcases mul_eq_zero.1 h0 with h0 | h0
      · linarith
      · exact h0
    · linarith
  · intro hx
    rw [hx, mul_zero, zero_div, add_zero] at hlaw
    exact inv_injective (by linarith [pi_pos]) hhi (by linarith [hp.alphaPos, pi_pos]) hp.alphaLt hlaw

/-- **C90, pinion in a ring gear.** The same for a ring gear as second gear. The solver's angle has the
opposite sign here, see C26. -/
theorem c90_ring (solve : (ℝ → ℝ) → ℝ) (p q : InvParam) (t u aw : ℝ)
    (hp : p.Good t) (hq : q.Good u)
    (hm : p.module_ = q.module_) (ha : p.pressureAngle = q.pressureAngle)
    (hep : p.insideTeeth = false) (heq : q.insideTeeth = true) (hz : p.numTeeth < q.numTeeth)
    (hbp : p.backlash = 0) (hbq : q.backlash = 0) (hcp : p.crowning = 0) (hcq : q.crowning = 0)
    (hpw : 0 ≤ p.pitchIntersectAngle 0 + (tan p.pressureAngle - p.pressureAngle))
    (hqw : 0 ≤ q.pitchIntersectAngle 0 + (tan q.pressureAngle - q.pressureAngle)) :
    let g := p.construct .involute t
    let h := q.construct .involute u
    aw = solve (meshResidual g.rBase h.rBase (-g.angleBase) (-h.angleBase) h.pitchAngle true 0) →
    -(π / 2) < aw → aw ≤ 0 →
    meshResidual g.rBase h.rBase (-g.angleBase) (-h.angleBase) h.pitchAngle true 0 aw = 0 →
      g.meshDistance solve h 0 ≤ calcNominalMeshDistance g.pitchRadius h.pitchRadius p.profileShift
          q.profileShift p.module_ g.insideTeeth h.insideTeeth ∧
        (g.meshDistance solve h 0 = calcNominalMeshDistance g.pitchRadius h.pitchRadius p.profileShift
          q.profileShift p.module_ g.insideTeeth h.insideTeeth ↔ q.profileShift = p.profileShift) := by
  intro g h hsol hlo hhi hroot
  obtain ⟨hlaw, hD, -⟩ := c26_ring solve p q t u aw hp hq hm ha heq hz hbp hbq hcp hcq hpw hqw hsol
    hlo (by linarith [pi_pos]) hroot
  obtain ⟨g1, g2, g3, g4, g5⟩ := construct_base (k := .involute) hp
  obtain ⟨h1, h2, h3, h4, h5⟩ := construct_base (k := .involute) hq
  have hmod := hp.modulePos
  have hz' : 0 < q.numTeeth - p.numTeeth := by linarith
  have hta : 0 < tan p.pressureAngle := tan_pos_of_pos_of_lt_pi_div_two hp.alphaPos hp.alphaLt
  obtain ⟨w1, w2⟩ := working_distance hp.alphaPos hp.alphaLt (w := -aw) (by linarith) (by linarith)
  have hk : 0 < (q.numTeeth - p.numTeeth) / 2 * p.module_ := by positivity
  have hd : g.meshDistance solve h 0 = (q.numTeeth - p.numTeeth) / 2 * p.module_ *
      (cos p.pressureAngle / cos (-aw)) := by
    rw [hD, g1, h1, ← ha, ← hm, cos_neg]; ring
  have hn : calcNominalMeshDistance g.pitchRadius h.pitchRadius p.profileShift q.profileShift p.module_
      g.insideTeeth h.insideTeeth = (q.numTeeth - p.numTeeth) / 2 * p.module_ *
      (1 + ((tan (-aw) - -aw) - (tan p.pressureAngle - p.pressureAngle)) / tan p.pressureAngle) := by
    rw [hlaw, g4, h4, hep, heq, g5, h5, ← hm]
    simp only [calcNominalMeshDistance, Bool.false_eq_true, if_false, if_true]
    have := hz'.ne'
    field_simp
    ring
  rw [hd, hn]
  refine ⟨mul_le_mul_of_nonneg_left w1 hk.le, ?_⟩
  rw [mul_right_inj' hk.ne', w2]
  constructor
  · intro e
    rw [e] at hlaw
    have : 2 * tan p.pressureAngle * (q.profileShift - p.profileShift) /
        (q.numTeeth - p.numTeeth) = 0 := by linarith
    rw [div_eq_zero_iff] at this
    rcases this with h0 | h0
    · rcases mul_eq_zero.1 h0 with h0 | h0 <;> linarith
    · linarith
  · intro hx
    rw [hx, sub_self, mul_zero, zero_div, add_zero] at hlaw
    exact inv_injective (by linarith) (by linarith) (by linarith [hp.alphaPos, pi_pos]) hp.alphaLt hlaw

/-- The solver hypotheses of C26 and C90 can be met for shifted gears as well: any angle that obeys the
working pressure angle law is a root. -/
theorem c90_root_of_law (p q : InvParam) (t u aw : ℝ) (hp : p.Good t) (hq : q.Good u)
    (hm : p.module_ = q.module_) (ha : p.pressureAngle = q.pressureAngle)
    (hbp : p.backlash = 0) (hbq : q.backlash = 0) (hcp : p.crowning = 0) (hcq : q.crowning = 0)
    (hlaw : tan aw - aw = tan p.pressureAngle - p.pressureAngle +
      2 * tan p.pressureAngle * (p.profileShift + q.profileShift) / (p.numTeeth + q.numTeeth)) :
    let g := p.construct .involute t
    let h := q.construct .involute u
    meshResidual g.rBase h.rBase (-g.angleBase) (-h.angleBase) h.pitchAngle false 0 aw = 0 := by
  intro g h
  obtain ⟨g1, g2, g3, g4, g5⟩ := construct_base (k := .involute) hp
  obtain ⟨h1, h2, h3, h4, h5⟩ := construct_base (k := .involute) hq
  have hN := hp.teeth
  have hM := hq.teeth
  have hmod := hp.modulePos
  have hca : 0 < cos p.pressureAngle := cos_pos' (by linarith [hp.alphaPos, pi_pos]) hp.alphaLt
  have e : aw = tan aw - (tan p.pressureAngle - p.pressureAngle +
      2 * tan p.pressureAngle * (p.profileShift + q.profileShift) / (p.numTeeth + q.numTeeth)) := by
    linarith
  rw [meshResidual, if_neg (by simp), g1, h1, g2, h2, h3]
  rw [pia_standard p hN hbp hcp, pia_standard q hM hbq hcq, ← ha, ← hm]
  simp only
  rw [show aw - tan aw = -(tan p.pressureAngle - p.pressureAngle +
      2 * tan p.pressureAngle * (p.profileShift + q.profileShift) / (p.numTeeth + q.numTeeth)) by linarith]
  field_simp
  ring

/-- Concrete case for C90: 20 and 20 teeth, 45° pressure angle, the second gear shifted so that the working
angle becomes 60°: `mesh_to` places the gears strictly closer than the nominal distance. -/
example : ∃ (p q : InvParam) (t u : ℝ), p.Good t ∧ q.Good u ∧ p.profileShift + q.profileShift ≠ 0 ∧
    (p.construct .involute t).meshDistance (fun _ => π / 3) (q.construct .involute u) 0 <
      calcNominalMeshDistance (p.construct .involute t).pitchRadius (q.construct .involute u).pitchRadius
        p.profileShift q.profileShift p.module_ (p.construct .involute t).insideTeeth
        (q.construct .involute u).insideTeeth := by
  have hpi := pi_pos
  have hgood : ∀ x, (InvParam.mk 20 1 0 0 0 0 2 x (π / 4) 0 0 false 0).Good (tan (π / 4)) := by
    intro x
    refine ⟨by norm_num, by norm_num, by positivity, ?_, ?_, rfl, ?_⟩
    · change π / 4 < π / 2; linarith
    · change tan (π / 4) - π / 4 ≤ π; rw [tan_pi_div_four]; linarith [two_le_pi]
    · exact c24_crossing_exists (20 / 2) (π / 4) (by norm_num) (by positivity) (by linarith)
  obtain ⟨x, hx⟩ : ∃ x, x = 20 * ((tan (π / 3) - π / 3) - (tan (π / 4) - π / 4)) := ⟨_, rfl⟩
  have hx0 : (0 : ℝ) + x ≠ 0 := by
    rw [zero_add, hx]
    have := (inv_lt_inv_iff (a := π / 4) (b := π / 3) (by linarith) (by linarith) (by linarith)
      (by linarith)).2 (by linarith)
    intro h; linarith
  refine ⟨_, _, _, _, hgood 0, hgood x, hx0, ?_⟩
  have hlaw : tan (π / 3) - π / 3 = tan (π / 4) - π / 4 + 2 * tan (π / 4) * (0 + x) / (20 + 20) := by
    rw [hx, tan_pi_div_four]; ring
  have hroot := c90_root_of_law _ _ _ _ (π / 3) (hgood 0) (hgood x) rfl rfl rfl rfl rfl rfl hlaw
  obtain ⟨h1, h2⟩ := c90_external (fun _ => π / 3) _ _ _ _ (π / 3) (hgood 0) (hgood x) rfl rfl rfl rfl
    rfl rfl rfl rfl rfl (by linarith) (by linarith) hroot
  exact lt_of_le_of_ne h1 fun e => hx0 (h2.1 e)

end Verif
