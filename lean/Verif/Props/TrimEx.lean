import Verif.Props.Trim
import Verif.Base.Angle

/-! # Concrete cases and violations for C103, C104, C105 -/

namespace Verif

open Real

/-- A full circle about the origin, as the reference circles are made (`gggears_base_classes.py:347-397`). -/
noncomputable def circ (R : ℝ) : Curve := arcInit R (2 * π) 0 0 0 0 true

theorem circ_eval (R s : ℝ) : (circ R).eval s = some ![R * cos (2 * π * s), R * sin (2 * π * s), 0] := by
  rw [circ, arcInit, make_eval _ (by intro f n h; cases h)]
  congr 1
  simp only [CurveKind.fn, eulerZYX]
  rw [app_mul, app_mul, app_mul]
  apply V3.ext3 <;> simp [app_0, app_1, app_2, Rx, Ry, Rz, RIGHT] <;> ring

theorem DELTA_pos : 0 < DELTA := by rw [DELTA]; norm_num

theorem circ_tangent {R : ℝ} (hR : 0 < R) (s : ℝ) :
    unitTangent (circ R).eval s = some ![-sin (2 * π * s), cos (2 * π * s), 0] := by
  have hD := DELTA_pos
  have hsin : 0 < sin (2 * π * DELTA) := by
    apply sin_pos_of_pos_of_lt_pi
    · positivity
    · have : DELTA < 1 / 2 := by rw [DELTA]; norm_num
      nlinarith [pi_pos]
  rw [unitTangent, numericDiff, if_pos rfl]
  simp only [PyFun.call, circ_eval, Option.bind_some]
  obtain ⟨κ, hκ⟩ : ∃ κ, κ = R / DELTA * sin (2 * π * DELTA) := ⟨_, rfl⟩
  have hκ0 : 0 < κ := by rw [hκ]; positivity
  have e : (1 / 2 / DELTA : ℝ) • ((![R * cos (2 * π * (s + DELTA)), R * sin (2 * π * (s + DELTA)), 0] : V3) -
      ![R * cos (2 * π * (s - DELTA)), R * sin (2 * π * (s - DELTA)), 0]) =
      κ • ![-sin (2 * π * s), cos (2 * π * s), 0] := by
    rw [hκ, mul_add, mul_sub, cos_add, cos_sub, sin_add, sin_sub]
    apply V3.ext3 <;> simp <;> field_simp <;> ring
  have hn : norm3 (κ • (![-sin (2 * π * s), cos (2 * π * s), 0] : V3)) = κ := by
    rw [norm3_smul, abs_of_pos hκ0, norm3_eq_of_dot zero_le_one, mul_one]
    simp [dot]
    nlinarith [sin_sq_add_cos_sq (2 * π * s)]
  rw [e, normalizeVector, if_neg (by rw [hn]; exact hκ0.ne'), hn, smul_smul, inv_mul_cancel₀ hκ0.ne', one_smul]

/-- The values of a chain of one straight line. -/
theorem seg_eval {p q : V3} (hpq : q - p ≠ 0) {s : ℝ} (h0 : 0 ≤ s) (h1 : s ≤ 1) :
    chainEval curveOps [lineC p q] s = some ((1 - s) • p + s • q) := by
  have hlen : 0 < (lineC p q).length := by rw [lineC_length]; exact norm3_pos hpq
  rcases h0.eq_or_lt with rfl | h0
  · have hall : AllPos curveOps [lineC p q] := by
      intro a ha _
      rw [List.mem_singleton.1 ha]; exact hlen
    have hact : curveOps.active (lineC p q) = true := lineC_active p q
    rw [chainEval_zero_find hall (a := lineC p q) (by simp [hact])]
    exact lineC_eval p q 0
  · rw [chainEval, single_index _ (lineC_active p q) hlen s h0 h1]
    exact lineC_eval p q s

theorem seg_tangent {p q : V3} (hpq : q - p ≠ 0) {s : ℝ} (h0 : DELTA ≤ s) (h1 : s + DELTA ≤ 1) :
    unitTangent (chainEval curveOps [lineC p q]) s = some ((norm3 (q - p))⁻¹ • (q - p)) := by
  apply c100_tangent_line hpq (q := p)
  intro x hx0 hx1
  rw [seg_eval hpq (by linarith) (by linarith)]
  congr 1; module

theorem seg_len {p q : V3} : chainLen curveOps [lineC p q] = norm3 (q - p) := by
  rw [chainLen_cons, lineC_len]
  simp [chainLen]

theorem seg_facts {p q : V3} (hpq : q - p ≠ 0) : AllPos curveOps [lineC p q] ∧ Meets curveOps [lineC p q] ∧
    0 < chainLen curveOps [lineC p q] ∧
    ∀ a ∈ [lineC p q], a.active = true → a.kind.Sampled ∧ a.updateLengths = a := by
  have hact : curveOps.active (lineC p q) = true := lineC_active p q
  refine ⟨?_, ?_, by rw [seg_len]; exact norm3_pos hpq, ?_⟩
  · intro a ha _
    rw [List.mem_singleton.1 ha]
    change 0 < (lineC p q).length
    rw [lineC_length]; exact norm3_pos hpq
  · rw [meets_iff]
    simp [hact]
  · intro a ha _
    rw [List.mem_singleton.1 ha]; exact lineC_fresh p q

/-- An angle in the fourth quadrant. -/
theorem angleCheck_pi {p : V3} (hx : 0 < p 0) (hy : p 1 < 0) : angleCheck π p := by
  have h1 : arctan2 (p 1) (p 0) < 0 := Complex.arg_neg_iff.2 hy
  have h2 : -(π / 2) < arctan2 (p 1) (p 0) := by
    have := (Complex.abs_arg_lt_pi_div_two_iff (z := ⟨p 0, p 1⟩)).2 (Or.inl hx)
    exact (abs_lt.1 this).1
  exact ⟨by linarith, by linarith⟩

open scoped Classical in
/-- Solvers that know one answer for the intersections and one for the tangent arcs (whose first guess is zero),
and report success where the equation holds there. -/
noncomputable def knowing (xI xF : V3) : ScalarSolvers where
  root cost guess :=
    let x := if guess = 0 then xF else xI
    if cost x = some 0 then ⟨true, x⟩ else ⟨false, 0⟩
  minimize _ _ := ⟨false, (0, 0)⟩
  root1 _ _ := ⟨false, 0⟩
  minimize1 _ _ := ⟨false, 0⟩

theorem knowing_honest (xI xF : V3) : Honest (knowing xI xF) := by
  constructor
  · intro cost guess h
    simp only [knowing] at h ⊢
    split_ifs at h ⊢ with h1 h2 h2
    all_goals first | exact h2 | assumption | cases h
  · intro cost guess h
    cases h

theorem guess_ne {a b : ℝ} (h : a ≠ 0) : (![a, b, 0] : V3) ≠ 0 := by
  intro e
  exact h (by simpa using congrFun e 0)

theorem knowing_root {xI xF : V3} {cost : V3 → Option V3} (h : cost xF = some 0) :
    (knowing xI xF).root cost 0 = ⟨true, xF⟩ := by
  simp [knowing, h]

theorem knowing_intersect {xI xF : V3} {f1 f2 : ℝ → Option V3} {a b : ℝ} (ha : a ≠ 0)
    (h : curveDiff f1 f2 (xI 0) (xI 1) = some 0) :
    findCurveIntersect (knowing xI xF).toSolvers f1 f2 (a, b) .equality = ⟨true, (xI 0, xI 1)⟩ := by
  simp [findCurveIntersect, knowing, h, guess_ne ha]

/-- The sine and cosine of the angles used below. -/
theorem arcsin_facts {a c : ℝ} (h0 : -1 ≤ a) (h1 : a ≤ 1) (hc : 0 ≤ c) (h : a ^ 2 + c ^ 2 = 1) :
    sin (2 * π * (-arcsin a / (2 * π))) = -a ∧ cos (2 * π * (-arcsin a / (2 * π))) = c := by
  have e : 2 * π * (-arcsin a / (2 * π)) = -arcsin a := by
    have := pi_pos
    field_simp
  rw [e, sin_neg, cos_neg, sin_arcsin h0 h1, cos_arcsin]
  refine ⟨rfl, ?_⟩
  rw [show 1 - a ^ 2 = c ^ 2 by linarith, sqrt_sq hc]

/-- A straight tooth at the height `y`. -/
noncomputable def flat (y : ℝ) : List Curve := [lineC ![0, y, 0] ![6, y, 0]]

theorem flat_dir (y : ℝ) : (![6, y, 0] : V3) - ![0, y, 0] = ![6, 0, 0] := by apply V3.ext3 <;> simp

theorem flat_ne (y : ℝ) : (![6, y, 0] : V3) - ![0, y, 0] ≠ 0 := by
  rw [flat_dir]
  intro e
  have := congrFun e 0
  norm_num at this

theorem flat_norm : norm3 (![6, 0, 0] : V3) = 6 := norm3_eq_of_dot (by norm_num) (by simp [dot]; norm_num)

theorem flat_eval (y : ℝ) {s : ℝ} (h0 : 0 ≤ s) (h1 : s ≤ 1) : chainEval curveOps (flat y) s = some ![6 * s, y, 0] := by
  rw [flat, seg_eval (flat_ne y) h0 h1]
  congr 1
  apply V3.ext3 <;> simp <;> ring

theorem flat_tangent (y : ℝ) {s : ℝ} (h0 : 1 / 4 ≤ s) (h1 : s ≤ 5 / 6) :
    unitTangent (chainEval curveOps (flat y)) s = some ![1, 0, 0] := by
  have hD : DELTA < 1 / 6 := by rw [DELTA]; norm_num
  rw [flat, seg_tangent (flat_ne y) (by linarith) (by linarith), flat_dir, flat_norm]
  congr 1
  apply V3.ext3 <;> simp

theorem flat_len (y : ℝ) : chainLen curveOps (flat y) = 6 := by rw [flat, seg_len, flat_dir, flat_norm]

theorem flat_facts (y : ℝ) : AllPos curveOps (flat y) ∧ Meets curveOps (flat y) ∧ 0 < chainLen curveOps (flat y) ∧
    ∀ a ∈ flat y, a.active = true → a.kind.Sampled ∧ a.updateLengths = a := seg_facts (flat_ne y)

theorem curveDiff_intro {f1 f2 : ℝ → Option V3} {t1 t2 : ℝ} {p q : V3} (h1 : f1 t1 = some p)
    (h2 : f2 t2 = some q) : curveDiff f1 f2 t1 t2 = some (p - q) := by
  rw [curveDiff, h1, h2]

/-- The circle of radius `5 ∓ 1` at the angle with sine `-4/5`. -/
theorem circ_at {w : ℝ} (hw : w = -arcsin (4 / 5) / (2 * π)) {R : ℝ} (hR : 0 < R) :
    (circ R).eval w = some ![R * (3 / 5), -R * (4 / 5), 0] ∧
      unitTangent (circ R).eval w = some ![4 / 5, 3 / 5, 0] := by
  obtain ⟨f1, f2⟩ := arcsin_facts (a := 4 / 5) (c := 3 / 5) (by norm_num) (by norm_num) (by norm_num)
    (by norm_num)
  rw [← hw] at f1 f2
  rw [circ_tangent hR, circ_eval, f1, f2]
  constructor <;> congr 1 <;> apply V3.ext3 <;> simp

theorem cross_flat : cross (![4 / 5, 3 / 5, 0] : V3) ![1, 0, 0] = ![0, 0, -3 / 5] ∧
    cross (![1, 0, 0] : V3) ![4 / 5, 3 / 5, 0] = ![0, 0, 3 / 5] ∧ norm3 (![0, 0, -3 / 5] : V3) = 3 / 5 ∧
    norm3 (![0, 0, 3 / 5] : V3) = 3 / 5 ∧ (![0, 0, -3 / 5] : V3) ≠ 0 ∧ (![0, 0, 3 / 5] : V3) ≠ 0 := by
  refine ⟨?_, ?_, norm3_eq_of_dot (by norm_num) (by simp [dot]; norm_num),
    norm3_eq_of_dot (by norm_num) (by simp [dot]; norm_num), ?_, ?_⟩
  · apply V3.ext3 <;> simp
    norm_num
  · apply V3.ext3 <;> simp
  · intro e
    have := congrFun e 2
    simp at this
  · intro e
    have := congrFun e 2
    simp at this

/-- The centres for a fillet of radius 1 between the circle of radius 4 and the tooth at -3. -/
theorem root_centers {w : ℝ} (hw : w = -arcsin (4 / 5) / (2 * π)) {s : ℝ} (h0 : 1 / 4 ≤ s) (h1 : s ≤ 5 / 6) :
    calcCenters (circ 4).eval (chainEval curveOps (flat (-3))) 1 w s = some (![3, -4, 0], ![6 * s, -4, 0]) := by
  obtain ⟨p1, d1⟩ := circ_at hw (R := 4) (by norm_num)
  obtain ⟨c1, c2, c3, c4, c5, c6⟩ := cross_flat
  rw [calcCenters_intro p1 (flat_eval _ (by linarith) (by linarith)) d1 (flat_tangent _ h0 h1) (by rw [c1]; exact c5),
    c1, c3]
  congr 2 <;> apply V3.ext3 <;> simp <;> norm_num

/-- The centres for a fillet of radius 1 between the tooth at -5 and the circle of radius 6. -/
theorem tip_centers {w : ℝ} (hw : w = -arcsin (4 / 5) / (2 * π)) {s : ℝ} (h0 : 1 / 4 ≤ s) (h1 : s ≤ 5 / 6) :
    calcCenters (chainEval curveOps (flat (-5))) (circ 6).eval 1 s w = some (![6 * s, -4, 0], ![3, -4, 0]) := by
  obtain ⟨p1, d1⟩ := circ_at hw (R := 6) (by norm_num)
  obtain ⟨c1, c2, c3, c4, c5, c6⟩ := cross_flat
  rw [calcCenters_intro (flat_eval _ (by linarith) (by linarith)) p1 (flat_tangent _ h0 h1) d1 (by rw [c2]; exact c6),
    c2, c4]
  congr 2 <;> apply V3.ext3 <;> simp <;> norm_num

/-- Where the straight tooth meets the circle. -/
theorem flat_meets {R y x u : ℝ} (hu : u = -arcsin (y / R) / (2 * π)) (hy : 0 < y) (hx : 0 < x) (hR : 0 < R) (hx6 : x ≤ 6)
    (h : x ^ 2 + y ^ 2 = R ^ 2) : curveDiff (chainEval curveOps (flat (-y))) (circ R).eval (x / 6) u = some 0 ∧
      (circ R).eval u = some ![x, -y, 0] := by
  have e : (y / R) ^ 2 + (x / R) ^ 2 = 1 := by
    rw [div_pow, div_pow, ← add_div, add_comm, h, div_self (by positivity)]
  obtain ⟨i1, i2⟩ := arcsin_facts (a := y / R) (c := x / R) (by linarith [show 0 < y / R by positivity])
    (by nlinarith [sq_nonneg (x / R), show 0 < y / R by positivity]) (by positivity) e
  rw [← hu] at i1 i2
  have hc : (circ R).eval u = some ![x, -y, 0] := by
    rw [circ_eval, i1, i2]
    congr 1
    apply V3.ext3 <;> simp <;> field_simp
  refine ⟨?_, hc⟩
  rw [curveDiff_intro (flat_eval _ (by positivity) (by linarith)) hc]
  congr 1
  apply V3.ext3 <;> simp
  ring

/-- C103 for a straight tooth `y = -3` and a root circle of radius 4: the fillet of radius 1 has its centre at
`(3, -4)`. -/
theorem c103_root_case {asEuler : M3 → ℝ × ℝ × ℝ} (hE : EulerOk asEuler) : ∃ (S : ScalarSolvers) (arc : Curve)
    (after : List Curve), Honest S ∧
    applyFillet asEuler S.toSolvers (flat (-3)) π (circ 4) 1 true = some (arc :: after) ∧
    SmoothArc arc ![12 / 5, -16 / 5, 0] ![3, -3, 0] ![4 / 5, 3 / 5, 0] ![1, 0, 0] 1 ∧
    Meets curveOps (arc :: after) := by
  have h7 : √7 < 3 := by rw [sqrt_lt' (by norm_num)]; norm_num
  have h7p : 0 < √7 := sqrt_pos.2 (by norm_num)
  obtain ⟨u, hu⟩ : ∃ u, u = -arcsin (3 / 4) / (2 * π) := ⟨_, rfl⟩
  obtain ⟨w, hw⟩ : ∃ w, w = -arcsin (4 / 5) / (2 * π) := ⟨_, rfl⟩
  obtain ⟨m1, m2⟩ := flat_meets hu (x := √7) (by norm_num) h7p (by norm_num) (by linarith)
    (by rw [sq_sqrt (by norm_num)]; norm_num)
  obtain ⟨L, hL⟩ : ∃ L, L = (circ 4).length := ⟨_, rfl⟩
  obtain ⟨xI, hxI⟩ : ∃ xI : V3, xI = ![√7 / 6, u, 0] := ⟨_, rfl⟩
  obtain ⟨xF, hxF⟩ : ∃ xF : V3, xF = ![u - 1 / 2 * 1 / L - w, 1 / 2 - (√7 / 6 + 1 / 2 * 1 / 6), 0] := ⟨_, rfl⟩
  have I0 : xI 0 = √7 / 6 := by rw [hxI]; rfl
  have I1 : xI 1 = u := by rw [hxI]; rfl
  have F0 : xF 0 = u - 1 / 2 * 1 / L - w := by rw [hxF]; rfl
  have F1 : xF 1 = 1 / 2 - (√7 / 6 + 1 / 2 * 1 / 6) := by rw [hxF]; rfl
  obtain ⟨a1, a2, a3, a4⟩ := flat_facts (-3)
  have hint := knowing_intersect (xI := xI) (xF := xF) (f1 := chainEval curveOps (flat (-3)))
    (f2 := (circ 4).eval) (a := 1 / 2) (b := -π / (2 * π) / 4 * (101 / 100)) (by norm_num)
    (by rw [I0, I1]; exact m1)
  have p2 : chainEval curveOps (flat (-3)) (1 / 2) = some ![3, -3, 0] := by
    rw [flat_eval _ (by norm_num) (by norm_num)]; norm_num
  obtain ⟨p1, d1⟩ := circ_at hw (R := 4) (by norm_num)
  have d2 := flat_tangent (-3) (s := 1 / 2) (by norm_num) (by norm_num)
  have hcost : tangentCost (circ 4).eval (chainEval curveOps (flat (-3))) 1
      (u - 1 / 2 * 1 / L, √7 / 6 + 1 / 2 * 1 / 6) xF = some 0 := by
    rw [tangentCost]
    simp only [F0, F1]
    rw [show u - 1 / 2 * 1 / L - (u - 1 / 2 * 1 / L - w) = w by ring,
      show √7 / 6 + 1 / 2 * 1 / 6 + (1 / 2 - (√7 / 6 + 1 / 2 * 1 / 6)) = 1 / 2 by ring,
      root_centers hw (by norm_num) (by norm_num), Option.map_some]
    norm_num
  have hroot := knowing_root (xI := xI) hcost
  have ht : ((w, 1 / 2) : ℝ × ℝ) = contactParams (knowing xI xF).toSolvers (circ 4).eval
      (chainEval curveOps (flat (-3))) 1 (u - 1 / 2 * 1 / L, √7 / 6 + 1 / 2 * 1 / 6) := by
    rw [contactParams, hroot]
    simp only [F0, F1]
    ring_nf
  obtain ⟨arc, after, x, a, a', q1, q2, e1, e2, r1, r2, r3, r4, r5, r6, r7, r8, r9, r10, r11, -, -, r12, -⟩ :=
    c103_root_partial hE (knowing xI xF) (knowing_honest _ _) _ a1 a2 a3 a4 π (circ 4) 1 one_pos _ hint.symm rfl
      (by
        refine ⟨_, (by rw [I1]; exact m2), angleCheck_pi ?_ ?_⟩
        · simpa using h7p
        · simp)
      (fun g => (u - g / L, √7 / 6 + g / 6)) (by intro g; rw [I0, I1, hL, flat_len]) (1 / 2 * 1) (by simp)
      (by rw [hroot]) (by
        intro g' hg' hlt
        simp only [List.mem_cons, List.not_mem_nil, or_false] at hg'
        rcases hg' with rfl | rfl | rfl <;> norm_num at hlt)
      (w, 1 / 2) ht (by
        refine ⟨by norm_num, by norm_num, ?_, ?_⟩
        · intro p hp
          rw [p1] at hp
          rw [← Option.some.inj hp]
          exact angleCheck_pi (by norm_num) (by norm_num)
        · intro p hp
          change chainEval curveOps (flat (-3)) (1 / 2) = some p at hp
          rw [p2] at hp
          rw [← Option.some.inj hp]
          exact angleCheck_pi (by norm_num) (by norm_num))
  refine ⟨knowing xI xF, arc, after, knowing_honest _ _, r1, ?_, r12⟩
  change (circ 4).eval w = some q1 at r7
  change chainEval curveOps (flat (-3)) (1 / 2) = some q2 at r8
  change unitTangent (circ 4).eval w = some e1 at r9
  change unitTangent (chainEval curveOps (flat (-3))) (1 / 2) = some e2 at r10
  rw [p1] at r7
  rw [p2] at r8
  rw [d1] at r9
  rw [d2] at r10
  have hq1 : q1 = ![12 / 5, -16 / 5, 0] := by
    rw [← Option.some.inj r7]; norm_num
  rw [← hq1, Option.some.inj r8, Option.some.inj r9, Option.some.inj r10]
  exact r11

/-- C103 for a straight tooth `y = -5` and a tip circle of radius 6: the fillet of radius 1 has its centre at
`(3, -4)`. -/
theorem c103_tip_case {asEuler : M3 → ℝ × ℝ × ℝ} (hE : EulerOk asEuler) : ∃ (S : ScalarSolvers) (arc : Curve)
    (before : List Curve), Honest S ∧
    applyFillet asEuler S.toSolvers (flat (-5)) π (circ 6) 1 false = some (before ++ [arc]) ∧
    SmoothArc arc ![3, -5, 0] ![18 / 5, -24 / 5, 0] ![1, 0, 0] ![4 / 5, 3 / 5, 0] 1 ∧
    Meets curveOps (before ++ [arc]) := by
  have h7 : √11 < 4 := by rw [sqrt_lt' (by norm_num)]; norm_num
  have h7p : 0 < √11 := sqrt_pos.2 (by norm_num)
  obtain ⟨u, hu⟩ : ∃ u, u = -arcsin (5 / 6) / (2 * π) := ⟨_, rfl⟩
  obtain ⟨w, hw⟩ : ∃ w, w = -arcsin (4 / 5) / (2 * π) := ⟨_, rfl⟩
  obtain ⟨m1, m2⟩ := flat_meets hu (x := √11) (by norm_num) h7p (by norm_num) (by linarith)
    (by rw [sq_sqrt (by norm_num)]; norm_num)
  obtain ⟨L, hL⟩ : ∃ L, L = (circ 6).length := ⟨_, rfl⟩
  obtain ⟨xI, hxI⟩ : ∃ xI : V3, xI = ![√11 / 6, u, 0] := ⟨_, rfl⟩
  obtain ⟨xF, hxF⟩ : ∃ xF : V3, xF = ![√11 / 6 - 1 / 2 * 1 / 6 - 1 / 2, w - (u + 1 / 2 * 1 / L), 0] := ⟨_, rfl⟩
  have I0 : xI 0 = √11 / 6 := by rw [hxI]; rfl
  have I1 : xI 1 = u := by rw [hxI]; rfl
  have F0 : xF 0 = √11 / 6 - 1 / 2 * 1 / 6 - 1 / 2 := by rw [hxF]; rfl
  have F1 : xF 1 = w - (u + 1 / 2 * 1 / L) := by rw [hxF]; rfl
  obtain ⟨a1, a2, a3, a4⟩ := flat_facts (-5)
  have hint := knowing_intersect (xI := xI) (xF := xF) (f1 := chainEval curveOps (flat (-5)))
    (f2 := (circ 6).eval) (a := 1 / 2) (b := -π / (2 * π) / 4 * (101 / 100)) (by norm_num)
    (by rw [I0, I1]; exact m1)
  have p2 : chainEval curveOps (flat (-5)) (1 / 2) = some ![3, -5, 0] := by
    rw [flat_eval _ (by norm_num) (by norm_num)]; norm_num
  obtain ⟨p1, d1⟩ := circ_at hw (R := 6) (by norm_num)
  have d2 := flat_tangent (-5) (s := 1 / 2) (by norm_num) (by norm_num)
  have hcost : tangentCost (chainEval curveOps (flat (-5))) (circ 6).eval 1
      (√11 / 6 - 1 / 2 * 1 / 6, u + 1 / 2 * 1 / L) xF = some 0 := by
    rw [tangentCost]
    simp only [F0, F1]
    rw [show √11 / 6 - 1 / 2 * 1 / 6 - (√11 / 6 - 1 / 2 * 1 / 6 - 1 / 2) = 1 / 2 by ring,
      show u + 1 / 2 * 1 / L + (w - (u + 1 / 2 * 1 / L)) = w by ring,
      tip_centers hw (by norm_num) (by norm_num), Option.map_some]
    norm_num
  have hroot := knowing_root (xI := xI) hcost
  have ht : ((1 / 2, w) : ℝ × ℝ) = contactParams (knowing xI xF).toSolvers (chainEval curveOps (flat (-5)))
      (circ 6).eval 1 (√11 / 6 - 1 / 2 * 1 / 6, u + 1 / 2 * 1 / L) := by
    rw [contactParams, hroot]
    simp only [F0, F1]
    ring_nf
  obtain ⟨arc, before, y, a, a', q1, q2, e1, e2, r1, r2, r3, r4, r5, r6, r7, r8, r9, r10, r11, -, -, r12, -⟩ :=
    c103_tip_partial hE (knowing xI xF) (knowing_honest _ _) _ a1 a2 a3 a4 π (circ 6) 1 one_pos _ hint.symm rfl
      (by
        refine ⟨_, (by rw [I1]; exact m2), angleCheck_pi ?_ ?_⟩
        · simpa using h7p
        · simp)
      (fun g => (√11 / 6 - g / 6, u + g / L)) (by intro g; rw [I0, I1, hL, flat_len]) (1 / 2 * 1) (by simp)
      (by rw [hroot]) (by
        intro g' hg' hlt
        simp only [List.mem_cons, List.not_mem_nil, or_false] at hg'
        rcases hg' with rfl | rfl | rfl <;> norm_num at hlt)
      (1 / 2, w) ht (by
        refine ⟨by norm_num, by norm_num, ?_, ?_⟩
        · intro p hp
          change chainEval curveOps (flat (-5)) (1 / 2) = some p at hp
          rw [p2] at hp
          rw [← Option.some.inj hp]
          exact angleCheck_pi (by norm_num) (by norm_num)
        · intro p hp
          rw [p1] at hp
          rw [← Option.some.inj hp]
          exact angleCheck_pi (by norm_num) (by norm_num))
  refine ⟨knowing xI xF, arc, before, knowing_honest _ _, r1, ?_, r12⟩
  change chainEval curveOps (flat (-5)) (1 / 2) = some q1 at r7
  change (circ 6).eval w = some q2 at r8
  change unitTangent (chainEval curveOps (flat (-5))) (1 / 2) = some e1 at r9
  change unitTangent (circ 6).eval w = some e2 at r10
  rw [p2] at r7
  rw [p1] at r8
  rw [d2] at r9
  rw [d1] at r10
  have hq2 : q2 = ![18 / 5, -24 / 5, 0] := by
    rw [← Option.some.inj r8]; norm_num
  rw [← hq2, Option.some.inj r7, Option.some.inj r9, Option.some.inj r10]
  exact r11

end Verif
