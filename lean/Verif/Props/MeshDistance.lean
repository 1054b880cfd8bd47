import Verif.Model.Mesh
import Verif.Lemmas.Inv
import Verif.Props.Flank2

/-! # Properties C26, C27, C28, C33: mesh distance, backlash and cone angles -/

namespace Verif

open Real

/-- The root search of the tooth generator found the crossing of the involute with the pitch
circle (see C24, where its existence is proved). -/
def InvParam.SolverOk (p : InvParam) (tSol : ℝ) : Prop :=
  0 ≤ tSol ∧ norm3 (involuteCircle tSol (p.numTeeth / 2 * cos p.pressureAngle) 0 0 0) =
    p.numTeeth / 2

/-- A well-posed cylindrical involute gear: positive tooth count and module, pressure angle in
(0, π/2), `inv α ≤ π`, no cone. -/
structure InvParam.Good (p : InvParam) (tSol : ℝ) : Prop where
  teeth : 0 < p.numTeeth
  modulePos : 0 < p.module_
  alphaPos : 0 < p.pressureAngle
  alphaLt : p.pressureAngle < π / 2
  invLe : tan p.pressureAngle - p.pressureAngle ≤ π
  noCone : p.coneAngle = 0
  solver : p.SolverOk tSol

/-- Base radius and base angle of a constructed gear. -/
theorem construct_base {k : GearKind} {p : InvParam} {t : ℝ} (h : p.Good t) :
    (p.construct k t).rBase = p.numTeeth / 2 * p.module_ * cos p.pressureAngle ∧
    -(p.construct k t).angleBase = p.pitchIntersectAngle 0 +
      (tan p.pressureAngle - p.pressureAngle) ∧
    (p.construct k t).pitchAngle = 2 * π / p.numTeeth ∧
    (p.construct k t).insideTeeth = p.insideTeeth ∧
    (p.construct k t).pitchRadius = p.numTeeth / 2 * p.module_ := by
  have hN : ¬ p.numTeeth < 0 := not_lt.2 h.teeth.le
  have h24 := (c24_pitch_crossing (p.pitchIntersectAngle 0) (p.numTeeth / 2) p.pressureAngle t
    (by have := h.teeth; positivity) h.alphaPos h.alphaLt h.invLe h.solver.1 h.solver.2).1
  simp only [InvParam.construct, InvParam.normalise, if_neg hN, GearObj.rBase, GearObj.angleBase,
    GearObj.pitchAngle, GearToothParam.pitchAngle, GearObj.insideTeeth, GearToothParam.make,
    GearObj.pitchRadius, h24]
  refine ⟨by ring, by ring, by trivial, by trivial, by ring⟩

theorem cos_pos' {a : ℝ} (h : -(π / 2) < a) (h' : a < π / 2) : 0 < cos a :=
  cos_pos_of_mem_Ioo ⟨h, h'⟩

/-- Without backlash and crowning the half tooth angle is `(π/2 + 2 x tan α)/N`. -/
theorem pia_standard (p : InvParam) (hN : 0 < p.numTeeth) (hb : p.backlash = 0)
    (hc : p.crowning = 0) :
    p.pitchIntersectAngle 0 = (π / 2 + 2 * p.profileShift * tan p.pressureAngle) / p.numTeeth := by
  simp only [InvParam.pitchIntersectAngle, hb, hc]
  field_simp
  ring

/-! ### C26 -/

/-- **C26, external pair.** For two external gears with equal module and pressure angle (no
backlash, no crowning) and any root `aw` of the solver in (−π/2, π/2), the working pressure angle
obeys `inv aw = inv α + 2 tan α (x1 + x2)/(z1 + z2)`, the mesh distance is
`(rb1 + rb2)/cos aw`, and without net profile shift it is the sum of the pitch radii. -/
theorem c26_external (solve : (ℝ → ℝ) → ℝ) (p q : InvParam) (t u aw : ℝ)
    (hp : p.Good t) (hq : q.Good u)
    (hm : p.module_ = q.module_) (ha : p.pressureAngle = q.pressureAngle)
    (hep : p.insideTeeth = false) (heq : q.insideTeeth = false)
    (hbp : p.backlash = 0) (hbq : q.backlash = 0) (hcp : p.crowning = 0) (hcq : q.crowning = 0) :
    let g := p.construct .involute t
    let h := q.construct .involute u
    aw = solve (meshResidual g.rBase h.rBase (-g.angleBase) (-h.angleBase) h.pitchAngle false 0) →
    -(π / 2) < aw → aw < π / 2 →
    meshResidual g.rBase h.rBase (-g.angleBase) (-h.angleBase) h.pitchAngle false 0 aw = 0 →
      tan aw - aw = tan p.pressureAngle - p.pressureAngle +
          2 * tan p.pressureAngle * (p.profileShift + q.profileShift) / (p.numTeeth + q.numTeeth) ∧
        g.meshDistance solve h 0 = (g.rBase + h.rBase) / cos aw ∧
        (p.profileShift + q.profileShift = 0 →
          g.meshDistance solve h 0 = g.pitchRadius + h.pitchRadius) := by
  intro g h hsol hlo hhi hroot
  obtain ⟨g1, g2, g3, g4, g5⟩ := construct_base (k := .involute) hp
  obtain ⟨h1, h2, h3, h4, h5⟩ := construct_base (k := .involute) hq
  have hN := hp.teeth
  have hM := hq.teeth
  have hmod := hp.modulePos
  have hca : 0 < cos p.pressureAngle := cos_pos' (by linarith [hp.alphaPos, pi_pos]) hp.alphaLt
  have hlaw : tan aw - aw = tan p.pressureAngle - p.pressureAngle +
      2 * tan p.pressureAngle * (p.profileShift + q.profileShift) / (p.numTeeth + q.numTeeth) := by
    rw [meshResidual, if_neg (by simp), g1, h1, g2, h2, h3] at hroot
    rw [pia_standard p hN hbp hcp, pia_standard q hM hbq hcq, ← ha, ← hm] at hroot
    have hk : p.module_ * cos p.pressureAngle ≠ 0 := by positivity
    field_simp at hroot
    field_simp
    apply mul_left_cancel₀ hk
    linear_combination -(1 / 2) * hroot
  have hD : g.meshDistance solve h 0 = (g.rBase + h.rBase) / cos aw := by
    rw [GearObj.meshDistance, calcInvoluteMeshDistance, show (g.insideTeeth || h.insideTeeth) = false
      by rw [g4, h4, hep, heq]; rfl]
    simp only [← hsol, Bool.false_eq_true, if_false]
  refine ⟨hlaw, hD, fun hx => ?_⟩
  rw [hx, mul_zero, zero_div, add_zero] at hlaw
  have := inv_injective hlo hhi (by linarith [hp.alphaPos, pi_pos]) hp.alphaLt hlaw
  rw [hD, this, g1, h1, g5, h5, ← ha]
  field_simp

/-- **C26, ring and pinion.** For a pinion `g` meshed into a ring gear `h` with more teeth, the
working angle obeys `inv(−aw) = inv α + 2 tan α (x2 − x1)/(z2 − z1)`, and without net profile
shift the distance is the difference of the pitch radii. The hypotheses on the intersect angles
say that both tooth halves are at least `−inv α` wide. -/
theorem c26_ring (solve : (ℝ → ℝ) → ℝ) (p q : InvParam) (t u aw : ℝ)
    (hp : p.Good t) (hq : q.Good u)
    (hm : p.module_ = q.module_) (ha : p.pressureAngle = q.pressureAngle)
    (heq : q.insideTeeth = true) (hz : p.numTeeth < q.numTeeth)
    (hbp : p.backlash = 0) (hbq : q.backlash = 0) (hcp : p.crowning = 0) (hcq : q.crowning = 0)
    (hpw : 0 ≤ p.pitchIntersectAngle 0 + (tan p.pressureAngle - p.pressureAngle))
    (hqw : 0 ≤ q.pitchIntersectAngle 0 + (tan q.pressureAngle - q.pressureAngle)) :
    let g := p.construct .involute t
    let h := q.construct .involute u
    aw = solve (meshResidual g.rBase h.rBase (-g.angleBase) (-h.angleBase) h.pitchAngle true 0) →
    -(π / 2) < aw → aw < π / 2 →
    meshResidual g.rBase h.rBase (-g.angleBase) (-h.angleBase) h.pitchAngle true 0 aw = 0 →
      tan (-aw) - (-aw) = tan p.pressureAngle - p.pressureAngle +
          2 * tan p.pressureAngle * (q.profileShift - p.profileShift) / (q.numTeeth - p.numTeeth) ∧
        g.meshDistance solve h 0 = (h.rBase - g.rBase) / cos aw ∧
        (q.profileShift = p.profileShift →
          g.meshDistance solve h 0 = h.pitchRadius - g.pitchRadius) := by
  intro g h hsol hlo hhi hroot
  obtain ⟨g1, g2, g3, g4, g5⟩ := construct_base (k := .involute) hp
  obtain ⟨h1, h2, h3, h4, h5⟩ := construct_base (k := .involute) hq
  have hN := hp.teeth
  have hM := hq.teeth
  have hmod := hp.modulePos
  have hz' : q.numTeeth - p.numTeeth ≠ 0 := by linarith
  have hca : 0 < cos p.pressureAngle := cos_pos' (by linarith [hp.alphaPos, pi_pos]) hp.alphaLt
  have hlaw : tan (-aw) - (-aw) = tan p.pressureAngle - p.pressureAngle +
      2 * tan p.pressureAngle * (q.profileShift - p.profileShift) / (q.numTeeth - p.numTeeth) := by
    rw [meshResidual, if_pos rfl, g1, h1, g2, h2, abs_of_nonneg hpw, abs_of_nonneg hqw] at hroot
    rw [pia_standard p hN hbp hcp, pia_standard q hM hbq hcq, ← ha, ← hm] at hroot
    have e : q.numTeeth / 2 * p.module_ * cos p.pressureAngle -
        p.numTeeth / 2 * p.module_ * cos p.pressureAngle =
        (q.numTeeth - p.numTeeth) * (p.module_ * cos p.pressureAngle / 2) := by ring
    rw [e] at hroot
    rw [tan_neg]
    have hk : p.module_ * cos p.pressureAngle ≠ 0 := by positivity
    field_simp at hroot
    field_simp
    apply mul_left_cancel₀ hk
    linear_combination -(1 / 2) * hroot
  have hD : g.meshDistance solve h 0 = (h.rBase - g.rBase) / cos aw := by
    rw [GearObj.meshDistance, calcInvoluteMeshDistance, show (g.insideTeeth || h.insideTeeth) = true
      by rw [g4, h4, heq]; simp]
    simp only [← hsol, if_true]
  refine ⟨hlaw, hD, fun hx => ?_⟩
  rw [hx, sub_self, mul_zero, zero_div, add_zero] at hlaw
  have := inv_injective (by linarith) (by linarith) (by linarith [hp.alphaPos, pi_pos])
    hp.alphaLt hlaw
  rw [hD, ← cos_neg, this, g1, h1, g5, h5, ← ha]
  field_simp

/-- The solver hypothesis of C26 can be met: for a standard external pair `α` is a root. -/
theorem c26_root_exists (p q : InvParam) (t u : ℝ) (hp : p.Good t) (hq : q.Good u)
    (hm : p.module_ = q.module_) (ha : p.pressureAngle = q.pressureAngle)
    (hbp : p.backlash = 0) (hbq : q.backlash = 0) (hcp : p.crowning = 0) (hcq : q.crowning = 0)
    (hx : p.profileShift + q.profileShift = 0) :
    let g := p.construct .involute t
    let h := q.construct .involute u
    meshResidual g.rBase h.rBase (-g.angleBase) (-h.angleBase) h.pitchAngle false 0
      p.pressureAngle = 0 := by
  intro g h
  obtain ⟨g1, g2, g3, g4, g5⟩ := construct_base (k := .involute) hp
  obtain ⟨h1, h2, h3, h4, h5⟩ := construct_base (k := .involute) hq
  have hN := hp.teeth
  have hM := hq.teeth
  have hmod := hp.modulePos
  have hca : 0 < cos p.pressureAngle := cos_pos' (by linarith [hp.alphaPos, pi_pos]) hp.alphaLt
  have hx' : q.profileShift = -p.profileShift := by linarith
  rw [meshResidual, if_neg (by simp), g1, h1, g2, h2, h3]
  rw [pia_standard p hN hbp hcp, pia_standard q hM hbq hcq, ← ha, ← hm, hx']
  field_simp
  ring

/-- Concrete gear meeting `InvParam.Good`: 20 teeth, module 2, 45° pressure angle. -/
example : (InvParam.mk 20 1 0 0 0 0 2 0 (π / 4) 0 0 false 0).Good (tan (π / 4)) := by
  have := pi_pos
  refine ⟨by norm_num, by norm_num, by positivity, ?_, ?_, rfl, ?_⟩
  · change π / 4 < π / 2; linarith
  · change tan (π / 4) - π / 4 ≤ π; rw [tan_pi_div_four]; linarith [two_le_pi]
  · exact c24_crossing_exists (20 / 2) (π / 4) (by norm_num) (by positivity) (by linarith)

/-! ### C28 -/

/-- **C28.** For any two roots in [0, π/2) the mesh distance of external gears is strictly
increasing in the backlash, and it is at least the sum of the base radii. -/
theorem c28_backlash_monotone (solve : (ℝ → ℝ) → ℝ) (r1 r2 ang1 ang2 p2 b1 b2 : ℝ)
    (hr1 : 0 < r1) (hr2 : 0 < r2) (hb : b1 < b2)
    (h1 : solve (meshResidual r1 r2 ang1 ang2 p2 false b1) ∈ Set.Ico 0 (π / 2))
    (h2 : solve (meshResidual r1 r2 ang1 ang2 p2 false b2) ∈ Set.Ico 0 (π / 2))
    (e1 : meshResidual r1 r2 ang1 ang2 p2 false b1
      (solve (meshResidual r1 r2 ang1 ang2 p2 false b1)) = 0)
    (e2 : meshResidual r1 r2 ang1 ang2 p2 false b2
      (solve (meshResidual r1 r2 ang1 ang2 p2 false b2)) = 0) :
    calcInvoluteMeshDistance solve r1 r2 ang1 ang2 p2 false b1 <
        calcInvoluteMeshDistance solve r1 r2 ang1 ang2 p2 false b2 ∧
      r1 + r2 ≤ calcInvoluteMeshDistance solve r1 r2 ang1 ang2 p2 false b1 := by
  simp only [calcInvoluteMeshDistance, Bool.false_eq_true, if_false]
  obtain ⟨a, hA⟩ : ∃ a, a = solve (meshResidual r1 r2 ang1 ang2 p2 false b1) := ⟨_, rfl⟩
  obtain ⟨c, hC⟩ : ∃ c, c = solve (meshResidual r1 r2 ang1 ang2 p2 false b2) := ⟨_, rfl⟩
  rw [← hA] at h1 e1 ⊢
  rw [← hC] at h2 e2 ⊢
  have hpi := pi_pos
  simp only [meshResidual, Bool.false_eq_true, if_false] at e1 e2
  have hlt : a < c := by
    rw [← inv_lt_inv_iff (by linarith [h1.1]) h1.2 (by linarith [h2.1]) h2.2]
    have : (r1 * ang1 - r2 * (p2 / 2 - ang2) + b1 / 2) / (r1 + r2) <
        (r1 * ang1 - r2 * (p2 / 2 - ang2) + b2 / 2) / (r1 + r2) := by
      apply div_lt_div_of_pos_right _ (by positivity); linarith
    linarith
  have hca : 0 < cos a := cos_pos' (by linarith [h1.1]) h1.2
  have hcc : 0 < cos c := cos_pos' (by linarith [h2.1]) h2.2
  have hcos : cos c < cos a := cos_lt_cos_of_nonneg_of_le_pi_div_two h1.1 h2.2.le hlt
  constructor
  · exact div_lt_div_of_pos_left (by positivity) hcc hcos
  · rw [le_div_iff₀ hca]
    exact mul_le_of_le_one_right (by positivity) (cos_le_one a)

/-- Concrete case for C28: unit base radii; with backlash `0` the root is 0, with backlash
`4 (1 − π/4)` it is π/4. -/
example : meshResidual 1 1 0 0 0 false 0 0 = 0 ∧
    meshResidual 1 1 0 0 0 false (4 * (1 - π / 4)) (π / 4) = 0 := by
  constructor
  · simp [meshResidual]
  · simp [meshResidual]; ring

/-! ### C27 -/

/-- **C27, external pairs, what holds.** With the base angles negated, the function returns half
of the prescribed backlash. With the same arguments it is off by twice the base arcs as well. -/
theorem c27_external_partial (solve : (ℝ → ℝ) → ℝ) (r1 r2 ang1 ang2 p2 b : ℝ)
    (hr1 : 0 < r1) (hr2 : 0 < r2)
    (h1 : solve (meshResidual r1 r2 ang1 ang2 p2 false b) ∈ Set.Ico 0 (π / 2))
    (e1 : meshResidual r1 r2 ang1 ang2 p2 false b
      (solve (meshResidual r1 r2 ang1 ang2 p2 false b)) = 0) :
    let D := calcInvoluteMeshDistance solve r1 r2 ang1 ang2 p2 false b
    backlashFromAxDistance D r1 r2 (-ang1) (-ang2) p2 false = some (b / 2) ∧
      backlashFromAxDistance D r1 r2 ang1 ang2 p2 false =
        some (b / 2 + 2 * (r1 * ang1 + r2 * ang2)) := by
  intro D
  obtain ⟨a, hA⟩ : ∃ a, a = solve (meshResidual r1 r2 ang1 ang2 p2 false b) := ⟨_, rfl⟩
  have hD : D = (r1 + r2) / cos a := by
    simp only [D, calcInvoluteMeshDistance, Bool.false_eq_true, if_false, ← hA]
  rw [← hA] at h1 e1
  have hpi := pi_pos
  have hca : 0 < cos a := cos_pos' (by linarith [h1.1]) h1.2
  have hr : 0 < r1 + r2 := by positivity
  have hD0 : D ≠ 0 := by rw [hD]; positivity
  have hq : (r1 + r2) / D = cos a := by rw [hD]; field_simp
  have hg : ¬ (D = 0 ∨ 1 < |(r1 + r2) / D|) := by
    rw [hq]; rintro (h | h)
    · exact hD0 h
    · exact absurd (abs_cos_le_one a) (not_le.2 h)
  have hac : arccos (cos a) = a := arccos_cos h1.1 (by linarith [h1.2])
  simp only [meshResidual, Bool.false_eq_true, if_false] at e1
  have e2 : (tan a - a) * (r1 + r2) = r1 * ang1 - r2 * (p2 / 2 - ang2) + b / 2 := by
    field_simp at e1; linarith
  rw [hq] at hg
  simp only [backlashFromAxDistance, Bool.false_eq_true, if_false, hq, hac, if_neg hg]
  constructor
  · congr 1; linear_combination e2
  · congr 1; linear_combination e2

/-- **C27, ring pairs, what holds.** With the same arguments the result is minus half the
backlash (for non-negative base angles, positive distance and a root in (−π/2, 0]). -/
theorem c27_ring_partial (solve : (ℝ → ℝ) → ℝ) (r1 r2 ang1 ang2 p2 b : ℝ)
    (hr : r1 < r2) (ha1 : 0 ≤ ang1) (ha2 : 0 ≤ ang2) (hd : r1 * ang1 < r2 * ang2)
    (h1 : solve (meshResidual r1 r2 ang1 ang2 p2 true b) ∈ Set.Ioc (-(π / 2)) 0)
    (e1 : meshResidual r1 r2 ang1 ang2 p2 true b
      (solve (meshResidual r1 r2 ang1 ang2 p2 true b)) = 0) :
    let D := calcInvoluteMeshDistance solve r1 r2 ang1 ang2 p2 true b
    backlashFromAxDistance D r1 r2 ang1 ang2 p2 true = some (-(b / 2)) := by
  intro D
  obtain ⟨a, hA⟩ : ∃ a, a = solve (meshResidual r1 r2 ang1 ang2 p2 true b) := ⟨_, rfl⟩
  have hD : D = (r2 - r1) / cos a := by
    simp only [D, calcInvoluteMeshDistance, if_true, ← hA]
  rw [← hA] at h1 e1
  have hpi := pi_pos
  have hca : 0 < cos a := cos_pos' h1.1 (by linarith [h1.2])
  have hr' : 0 < r2 - r1 := by linarith
  have hD0 : D ≠ 0 := by rw [hD]; positivity
  have hq : (r2 - r1) / D = cos a := by rw [hD]; field_simp
  have hg : ¬ (D = 0 ∨ 1 < |(r2 - r1) / D|) := by
    rw [hq]; rintro (h | h)
    · exact hD0 h
    · exact absurd (abs_cos_le_one a) (not_le.2 h)
  have hac : arccos (cos a) = -a := by
    rw [← cos_neg]; exact arccos_cos (by linarith [h1.2]) (by linarith [h1.1])
  have hsg : sgn (r2 * ang2 - r1 * ang1) = 1 := by
    rw [sgn, if_neg (by linarith), if_neg (by linarith)]
  simp only [meshResidual, if_true, abs_of_nonneg ha1, abs_of_nonneg ha2, hsg] at e1
  have e2 : (tan a - a) * (r2 - r1) = -(r2 * ang2 - r1 * ang1 - b / 2) := by
    rw [eq_neg_iff_add_eq_zero]
    have := congrArg (· * (r2 - r1)) e1
    simp only [zero_mul, add_mul, div_mul_cancel₀ _ hr'.ne', mul_one] at this
    exact this
  rw [hq] at hg
  simp only [backlashFromAxDistance, if_true, hq, hac, tan_neg, if_neg hg]
  congr 1
  linear_combination -e2

/-- **C27 is violated.** The function does not return the prescribed backlash, whether or not the
base angles are negated: base radii 1/2, base angles 0, pitch angle π, backlash 2 gives the
distance √2 and back comes 1. -/
theorem c27_violated : ¬ ∀ (solve : (ℝ → ℝ) → ℝ) (r1 r2 ang1 ang2 p2 b s : ℝ), 0 < r1 → 0 < r2 →
    (s = 1 ∨ s = -1) →
    solve (meshResidual r1 r2 ang1 ang2 p2 false b) ∈ Set.Ico 0 (π / 2) →
    meshResidual r1 r2 ang1 ang2 p2 false b
      (solve (meshResidual r1 r2 ang1 ang2 p2 false b)) = 0 →
    backlashFromAxDistance (calcInvoluteMeshDistance solve r1 r2 ang1 ang2 p2 false b)
      r1 r2 (s * ang1) (s * ang2) p2 false = some b := by
  intro h
  have hpi := pi_pos
  have hmem : (fun _ : ℝ → ℝ => π / 4) (meshResidual (1 / 2) (1 / 2) 0 0 π false 2) ∈
      Set.Ico 0 (π / 2) := ⟨by simp only; positivity, by simp only; linarith⟩
  have hres : meshResidual (1 / 2) (1 / 2) 0 0 π false 2 (π / 4) = 0 := by
    simp only [meshResidual, Bool.false_eq_true, if_false, tan_pi_div_four]; ring
  have h1 := h (fun _ => π / 4) (1 / 2) (1 / 2) 0 0 π 2 1 (by norm_num) (by norm_num) (Or.inl rfl)
    hmem hres
  have h2 := (c27_external_partial (fun _ => π / 4) (1 / 2) (1 / 2) 0 0 π 2 (by norm_num)
    (by norm_num) hmem hres).1
  simp only [mul_zero, neg_zero] at h1 h2
  rw [h1] at h2
  norm_num at h2

/-! ### C33 -/

/-- **C33, right angle, what holds.** For a 90° shaft angle the half cone angles add up to 90° and
their sines are in the ratio of the tooth counts. -/
theorem c33_right_angle_partial (n1 n2 : ℝ) (h1 : 0 < n1) (h2 : 0 < n2) :
    ∃ c1 c2, coneAngleFromTeeth n1 n2 (π / 2) = some (c1, c2) ∧
      c1 / 2 + c2 / 2 = π / 2 ∧ 0 < c1 / 2 ∧ 0 < c2 / 2 ∧
      sin (c1 / 2) * n2 = sin (c2 / 2) * n1 := by
  have hrad : (-(n2 ^ 2) - 2 * n1 * n2 * cos (π / 2) - n1 ^ 2 * cos (π / 2)) / (cos (π / 2) - 1) =
      n2 ^ 2 := by simp
  have hg : ¬ (cos (π / 2) - 1 = 0 ∨ (-(n2 ^ 2) - 2 * n1 * n2 * cos (π / 2) -
      n1 ^ 2 * cos (π / 2)) / (cos (π / 2) - 1) < 0 ∨ n1 = 0) := by
    rw [hrad]
    rintro (h | h | h)
    · simp at h
    · exact absurd h (not_lt.2 (sq_nonneg _))
    · exact h1.ne' h
  refine ⟨(π - π / 2 - arctan (n2 / n1)) * 2, arctan (n2 / n1) * 2, ?_, by ring, ?_, ?_, ?_⟩
  · rw [hrad] at hg
    simp only [coneAngleFromTeeth, hrad, if_neg hg, Real.sqrt_sq h2.le]
  · have := arctan_lt_pi_div_two (n2 / n1); linarith
  · have := arctan_pos.2 (div_pos h2 h1); linarith
  · have e : (π - π / 2 - arctan (n2 / n1)) * 2 / 2 = π / 2 - arctan (n2 / n1) := by ring
    rw [e, sin_pi_div_two_sub, mul_div_cancel_right₀ _ (two_ne_zero), sin_arctan, cos_arctan]
    field_simp

/-- **C33 is violated** for 60° and equal gears: the half cone angles add up to 120° instead of
60°, and they are not even equal, so the cones do not roll at ratio 1 under either convention for
the shaft angle. For 120° the function returns NaN. -/
theorem c33_violated : (∃ c1 c2, coneAngleFromTeeth 1 1 (π / 3) = some (c1, c2) ∧
      c1 / 2 + c2 / 2 = 2 * π / 3 ∧ sin (c1 / 2) ≠ sin (c2 / 2)) ∧
    coneAngleFromTeeth 1 1 (2 * π / 3) = none := by
  constructor
  · have hrad : (-((1 : ℝ) ^ 2) - 2 * 1 * 1 * cos (π / 3) - 1 ^ 2 * cos (π / 3)) /
        (cos (π / 3) - 1) = 5 := by rw [cos_pi_div_three]; norm_num
    have hg : ¬ (cos (π / 3) - 1 = 0 ∨ (-((1 : ℝ) ^ 2) - 2 * 1 * 1 * cos (π / 3) -
        1 ^ 2 * cos (π / 3)) / (cos (π / 3) - 1) < 0 ∨ (1 : ℝ) = 0) := by
      rw [hrad, cos_pi_div_three]; norm_num
    refine ⟨(π - π / 3 - arctan (√5 / 1)) * 2, arctan (√5 / 1) * 2, ?_, by ring, ?_⟩
    · rw [hrad] at hg
      simp only [coneAngleFromTeeth, hrad, if_neg hg]
    · have e : (π - π / 3 - arctan (√5 / 1)) * 2 / 2 = 2 * (π / 3) - arctan (√5 / 1) := by ring
      rw [e, mul_div_cancel_right₀ _ (two_ne_zero), div_one, sin_sub, sin_two_mul, cos_two_mul,
        sin_pi_div_three, cos_pi_div_three]
      intro h
      have hc : 0 < cos (arctan √5) := cos_arctan_pos _
      have ht : sin (arctan √5) = √5 * cos (arctan √5) := by
        rw [← tan_mul_cos hc.ne', tan_arctan]
      rw [ht] at h
      have h' : √3 = √5 := by
        have h3 : cos (arctan √5) * √3 = cos (arctan √5) * √5 := by linarith
        exact mul_left_cancel₀ hc.ne' h3
      rw [Real.sqrt_inj (by norm_num) (by norm_num)] at h'
      norm_num at h'
  · have hc : cos (2 * π / 3) = -1 / 2 := by
      rw [show 2 * π / 3 = π - π / 3 by ring, cos_pi_sub, cos_pi_div_three]; norm_num
    simp only [coneAngleFromTeeth, hc]
    rw [if_pos]
    right; left; norm_num

end Verif
