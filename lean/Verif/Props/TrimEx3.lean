import Verif.Props.TrimEx2
import Verif.Props.Radii

/-!
# C104 and C106 violated: a fillet and a root circle when the solver fails
-/

namespace Verif

open Real

/-- **C104 violated.** The answer of the tangent arc solver is not checked where the fillet does not fit: if the solver gives
up, half of the arc of its last iterate is used. Here (the tooth from `(0, -4)` to `(4, 0)` and a fillet of radius `√2`, the
solver stops at a contact in the middle of the tooth) the arc ends away from the point where the tooth was cut, so that the
tooth is not connected. -/
theorem c104_violated {asEuler : M3 → ℝ × ℝ × ℝ} (hE : EulerOk asEuler) : ∃ (S : ScalarSolvers) (arc : Curve)
    (after : List Curve), Honest S ∧
    applyFillet asEuler S.toSolvers ramp π (circ 1) √2 true = some (arc :: after) ∧
    arc.active = true ∧ ¬ Meets curveOps (arc :: after) := by
  obtain ⟨N, hN⟩ : ∃ N, N = app (Rz (-π / 2)) UP := ⟨_, rfl⟩
  have hN' : N = ![1, 0, 0] := hN.trans gap_normal
  have hNN : dot N N = 1 := by rw [hN]; exact planeNormal_unit _
  obtain ⟨a1, a2, a3, a4⟩ := seg_facts ramp_ne
  obtain ⟨c1, -, c2, c3⟩ := diag_cross
  have hD := DELTA_small
  have hs : 0 < √2 := by positivity
  have hm1 : (mirrorTooth ramp N).eval (3 / 4) = some ![-1, -3, 0] := by
    rw [ramp, mirrorTooth_seg ramp_ne hNN (by norm_num) (by norm_num), hN']
    congr 1
    apply V3.ext3 <;> simp [mirrorFunc, dot] <;> norm_num
  have hv : (![4, -4, 0] : V3) = mirrorFunc N 0 ![0, -4, 0] - mirrorFunc N 0 ![4, 0, 0] := by
    rw [hN']
    apply V3.ext3 <;> simp [mirrorFunc, dot] <;> norm_num
  have hd1 : unitTangent (mirrorTooth ramp N).eval (3 / 4) = some ((4 * √2)⁻¹ • ![4, -4, 0]) := by
    rw [ramp, mirrorTooth_tangent ramp_ne hNN hv (by
      intro e
      have := congrFun e 0
      norm_num at this) (by linarith) (by linarith), norm_diag (by norm_num) (by norm_num)]
  have hp2 : chainEval curveOps ramp (1 / 2) = some ![2, -2, 0] := by
    rw [ramp_eval (by norm_num) (by norm_num)]; norm_num
  have hd2 := ramp_tangent (s := 1 / 2) (by norm_num) (by norm_num)
  obtain ⟨q1, hq1⟩ : ∃ q1 : V3, q1 = ![-1, -3, 0] := ⟨_, rfl⟩
  obtain ⟨q2, hq2⟩ : ∃ q2 : V3, q2 = ![2, -2, 0] := ⟨_, rfl⟩
  obtain ⟨c, hc⟩ : ∃ c : V3, c = ![1 / 2, -3 / 2, 0] := ⟨_, rfl⟩
  have hcen : calcCenters (mirrorTooth ramp N).eval (chainEval curveOps ramp) √2 (3 / 4) (1 / 2) =
      some (![0, -2, 0], ![1, -1, 0]) := by
    rw [calcCenters_intro hm1 hp2 hd1 hd2 (by rw [c1]; exact c3), c1, c2]
    congr 2
    · apply V3.ext3 <;> simp [cross] <;> field_simp <;> norm_num
    · apply V3.ext3 <;> simp [cross] <;> field_simp <;> norm_num
  rw [← hq1] at hm1
  rw [← hq2] at hp2
  have e1 : q1 - c = ![-3 / 2, -3 / 2, 0] := by rw [hq1, hc]; apply V3.ext3 <;> simp <;> norm_num
  have e2 : q2 - c = ![3 / 2, -1 / 2, 0] := by rw [hq2, hc]; apply V3.ext3 <;> simp <;> norm_num
  obtain ⟨k, hk⟩ : ∃ k, k = √(9 / 5) := ⟨_, rfl⟩
  have hk0 : 0 < k := by rw [hk]; positivity
  have hk2 : k * k = 9 / 5 := by rw [hk]; exact mul_self_sqrt (by norm_num)
  obtain ⟨arc, b1, b2, b3, b4⟩ := arc_uneven hE (p0 := q1) (p1 := q2) (c := c) hk0
    (by
      symm
      refine norm3_eq_of_dot (mul_nonneg hk0.le (norm3_nonneg _)) ?_
      rw [mul_pow, norm3_sq, e1, e2]
      simp [dot]
      nlinarith)
    (by
      rw [e1, e2]
      intro e
      have := congrFun e 2
      simp at this
      norm_num at this)
  have hbet : arcBetween asEuler (mirrorTooth ramp N).eval (chainEval curveOps ramp) √2 (3 / 4) (1 / 2) = some arc := by
    rw [arcBetween, hcen, hm1, hp2]
    dsimp only
    rw [← b1, hc]
    congr 1
    apply V3.ext3 <;> simp <;> norm_num
  have hshape : ∃ r A M, arc = .make (.arc r A c M) true 0 1 := by
    rw [arcFrom2PointCenter] at b1
    split at b1
    · exact ⟨_, _, _, (Option.some.inj b1).symm⟩
    · cases b1
  obtain ⟨r, A, M, hA⟩ := hshape
  obtain ⟨⟨d, g1, g2, -, g4, g5⟩, -⟩ := arc_halves r A c M arc hA
  obtain ⟨S, hS⟩ : ∃ S, S = giveUp 0 ![0, 1 / 4, 0] := ⟨_, rfl⟩
  have hroot : ∀ cost, S.root cost 0 = ⟨false, ![0, 1 / 4, 0]⟩ := by intro cost; rw [hS]; simp [giveUp]
  have hint : (findCurveIntersect S.toSolvers (chainEval curveOps ramp) (circ 1).eval
      (1 / 2, -π / (2 * π) / 4 * (101 / 100)) .equality).success = false := by
    rw [hS]
    simp only [findCurveIntersect, giveUp]
    rw [if_neg (guess_ne (by norm_num)), if_neg ramp_miss]
  obtain ⟨x, a, y, a', s1, s2, s3, s4, s5, s6, s7, -⟩ :=
    setStart_shape curve_lawful a1 a3 a4 (s := 1 / 2) (by norm_num) (by norm_num) hp2
  have hy : ∀ b ∈ y, curveOps.active b = true → b.kind.Sampled ∧ b.updateLengths = b :=
    fun b hb => a4 b (by change b ∈ ramp; rw [show ramp = _ from s1]; simp [hb])
  have hins : chainInsert curveOps (a' :: y) 0 d = d :: a' :: y := by
    rw [chainInsert]
    apply chainUpdate_eq curve_lawful
    intro m hm hact
    simp only [List.take_zero, List.drop_zero, List.nil_append, List.mem_cons] at hm
    rcases hm with rfl | rfl | hm
    · exact g5
    · exact s5
    · exact hy m hm hact
  have hsharp : sharpFillet asEuler S.toSolvers ramp π √2 true = some (d :: a' :: y) := by
    rw [sharpFillet]
    simp only [if_true]
    rw [mirroredCurve, rotateVector, ← hN, normalizeVector_one hNN, Option.map_some]
    dsimp only
    rw [zero_add, ORIGIN_eq]
    change (calcTangentArc asEuler S.toSolvers (mirrorTooth ramp N).eval (chainEval curveOps ramp) √2
      (1 - √2 / chainLen curveOps ramp, √2 / chainLen curveOps ramp) .equality).bind _ = _
    rw [calcTangentArc]
    dsimp only
    rw [hroot, ramp_len, sqrt2_ratio]
    dsimp only
    rw [show (1 - 1 / 4 - (![0, 1 / 4, 0] : V3) 0 : ℝ) = 3 / 4 by norm_num,
      show (1 / 4 + (![0, 1 / 4, 0] : V3) 1 : ℝ) = 1 / 2 by norm_num, hbet, Option.map_some, Option.bind_some]
    dsimp only
    rw [g1, Option.bind_some]
    rw [show chainSetStart curveOps ramp (1 / 2) false = _ from s2, Option.map_some, hins]
  refine ⟨S, d, a' :: y, hS ▸ giveUp_honest _ _, ?_, g2, ?_⟩
  · rw [applyFillet]
    dsimp only
    rw [if_neg, hsharp]
    rintro ⟨o1, -⟩
    rw [hint] at o1
    cases o1
  · rw [meets_cons]
    rintro ⟨h, -⟩
    have := h g2 a' (by simp [List.filter_cons_of_pos s4])
    change d.eval 1 = curveOps.eval a' 0 at this
    rw [g4, show (1 / 2 + 1 / 2 : ℝ) = 1 by norm_num, b4, s7, e2, hq2, hc] at this
    have := congrFun (Option.some.inj this) 0
    simp at this
    have : k = 1 := by linarith
    rw [this] at hk2
    norm_num at hk2

/-! ### C106 violated -/

open scoped Classical in
/-- Solvers that know one intersection and give up elsewhere; the one for planes stops at `y`. -/
noncomputable def tiring (x : V3) (y : ℝ) : ScalarSolvers where
  root cost _ := if cost x = some 0 then ⟨true, x⟩ else ⟨false, 0⟩
  minimize _ _ := ⟨false, (0, 0)⟩
  root1 _ _ := ⟨false, y⟩
  minimize1 _ _ := ⟨false, 0⟩

theorem tiring_honest (x : V3) (y : ℝ) : Honest (tiring x y) ∧ HonestMin (tiring x y) := by
  refine ⟨⟨?_, ?_⟩, ?_⟩
  · intro cost guess h
    simp only [tiring] at h ⊢
    split_ifs at h ⊢ with h1
    exact h1
  · intro cost guess h; cases h
  · intro cost guess h; cases h

/-- **C106 violated.** The tooth `y = -3` meets the root circle of radius 4, but the solvers for the root do not find the
point. The last iterate for the middle plane of the gap is used without a look at the solver's flag: the profile goes down to
the distance √10 from the axis, inside the root circle. -/
theorem c106_violated {asEuler : M3 → ℝ × ℝ × ℝ} (hE : EulerOk asEuler) : ∃ (S : ScalarSolvers) (P : RefProfile Curve),
    Honest S ∧ HonestMin S ∧
    (∃ σ u q, 0 < σ ∧ σ < 1 ∧ bar.eval σ = some q ∧ (circ 4).eval u = some q ∧ -π / 2 < arctan2 (q 1) (q 0)) ∧
    trimReferenceProfile curveOps asEuler S bar (circ 6) (circ 4) 6 4 8 ORIGIN 0 0 π = some P ∧
    ∃ p, chainEval (sumOps curveOps curveOps) (P.chain curveOps) 1 = some p ∧ axisDist p = √10 := by
  have h7p : 0 < √7 := sqrt_pos.2 (by norm_num)
  have h7 : √7 ^ 2 = 7 := sq_sqrt (by norm_num)
  have h27p : 0 < √27 := sqrt_pos.2 (by norm_num)
  have h27 : √27 ^ 2 = 27 := sq_sqrt (by norm_num)
  have h27l : √27 < 6 := by nlinarith
  have h1l : 1 < √27 := by nlinarith
  have h727 : √7 < √27 := sqrt_lt_sqrt (by norm_num) (by norm_num)
  obtain ⟨u6, hu6⟩ : ∃ u, u = -arcsin (3 / 6) / (2 * π) := ⟨_, rfl⟩
  obtain ⟨u4, hu4⟩ : ∃ u, u = -arcsin (3 / 4) / (2 * π) := ⟨_, rfl⟩
  obtain ⟨-, m6⟩ := flat_meets hu6 (x := √27) (by norm_num) h27p (by norm_num) h27l.le (by rw [h27]; norm_num)
  obtain ⟨-, m4⟩ := flat_meets hu4 (x := √7) (by norm_num) h7p (by norm_num) (by linarith) (by rw [h7]; norm_num)
  obtain ⟨t, ht⟩ : ∃ t, t = Curve.make (.line ![0, -3, 0] ![6, -3, 0]) true 0 (√27 / 6) := ⟨_, rfl⟩
  have hte : ∀ s, t.eval s = some ![√27 * s, -3, 0] := by
    intro s
    rw [ht, line_eval]
    congr 1
    apply V3.ext3 <;> simp <;> ring
  obtain ⟨S, hS⟩ : ∃ S, S = tiring ![√27 / 6, u6, 0] (1 / √27) := ⟨_, rfl⟩
  have s6 : findCurveIntersect S.toSolvers (curveOps.eval bar) (circ 6).eval (9 / 10, -π / 8 / (circ 6).length)
      .equality = ⟨true, (√27 / 6, u6)⟩ := by
    have : curveDiff bar.eval (circ 6).eval (√27 / 6) u6 = some 0 := by
      rw [curveDiff_intro (bar_eval _) m6]
      congr 1
      apply V3.ext3 <;> simp
      ring
    rw [hS, findCurveIntersect]
    simp only [tiring]
    rw [if_pos (by exact this)]
    rfl
  have s4 : findCurveIntersect S.toSolvers t.eval (circ 4).eval (3 / 10, -π / 2 / (circ 4).length)
      .equality = ⟨false, (0, 0)⟩ := by
    have no : curveDiff t.eval (circ 4).eval (√27 / 6) u6 ≠ some 0 := by
      intro e
      obtain ⟨p, e1, e2⟩ := curveDiff_zero e
      rw [hte] at e1
      have hy := congrFun (Option.some.inj e1) 1
      rw [circ_eval] at m6 e2
      have a := congrFun (Option.some.inj m6) 1
      have b := congrFun (Option.some.inj e2) 1
      simp only [Matrix.cons_val_one, Matrix.cons_val_zero] at a b hy
      linarith
    rw [hS, findCurveIntersect]
    simp only [tiring]
    rw [if_neg (by exact no)]
    rfl
  have s4' : findCurveIntersect S.toSolvers t.eval (circ 4).eval (0, -π / 2 / (circ 4).length)
      .minDistance = ⟨false, (0, 0)⟩ := by rw [hS]; rfl
  have hfar : ¬ isClose t.eval (circ 4).eval (0, 0) := by
    rintro ⟨d, e, hn⟩
    rw [curveDiff_intro (hte _) (circ_eval 4 _)] at e
    have h0 := norm3_sq d
    rw [← Option.some.inj e] at h0 hn
    simp [dot] at h0
    have := norm3_nonneg (![√27 * 0, -3, 0] - ![4 * cos (2 * π * 0), 4 * sin (2 * π * 0), 0])
    simp at this hn
    norm_num at hn
    nlinarith
  obtain ⟨t', ht'⟩ : ∃ t', t' = Curve.make (.line ![0, -3, 0] ![6, -3, 0]) true (1 / 6) (√27 / 6) := ⟨_, rfl⟩
  obtain ⟨T, hT⟩ : ∃ T : ℝ → V3, T = fun s => ![1 + (√27 - 1) * s, -3, 0] := ⟨_, rfl⟩
  have T0 : ∀ s, T s 0 = 1 + (√27 - 1) * s := by intro s; rw [hT]; rfl
  have T1 : ∀ s, T s 1 = -3 := by intro s; rw [hT]; rfl
  have hpi := pi_pos
  have hr : √((1 : ℝ) ^ 2 + (-3) ^ 2) = √10 := by norm_num
  have hang := angleCheck_pi (p := ![1, -3, 0]) (by norm_num) (by norm_num)
  have hang7 := angleCheck_pi (p := ![√7, -3, 0]) (by simpa using h7p) (by norm_num)
  simp only [angleCheck, Matrix.cons_val_one, Matrix.cons_val_zero] at hang hang7
  have hact : t'.active = true := by rw [ht', line_act]
  have hupd : t'.updateLengths = t' := by rw [ht', line_upd]
  have htooth : ToothOk curveOps t' T π √10 (arctan2 (-3) 1) := by
    refine ⟨hact, hupd, ?_, ?_, ?_, ?_, hpi, le_rfl,
      by positivity, ?_, ?_, by linarith [hang.2], by linarith [hang.1], ?_⟩
    · change 0 < t'.length
      rw [ht', line_trim, flat_dir, flat_norm]
      have : √27 / 6 - 1 / 6 ≠ 0 := by
        intro e
        linarith
      positivity
    · intro s _ _
      change t'.eval s = _
      rw [ht', line_eval, hT]
      congr 1
      apply V3.ext3 <;> simp <;> ring
    · rw [hT]
      refine Continuous.continuousOn ?_
      refine continuous_pi fun i => ?_
      fin_cases i <;> simp <;> fun_prop
    · intro i _ e
      have := congrFun e 0
      rw [T0, T0] at this
      simp [linspace] at this
      linarith
    · rw [T0, ← hr]
      have := polar_cos 1 (-3)
      rw [this]; ring
    · rw [T1, ← hr]
      exact (polar_sin 1 (-3)).symm
    · rw [T0]; linarith
  obtain ⟨e1, -⟩ := trimTip_hit (o := curveOps) (tooth := bar) (pitch := π) (hS ▸ (tiring_honest _ _).1) s6.symm rfl (by
      intro p hp
      change (circ 6).eval u6 = some p at hp
      rw [m6] at hp
      rw [← Option.some.inj hp]
      norm_num)
  have e1' : trimTip curveOps S bar (circ 6) 0 π = some t := by
    rw [e1]
    change bar.setEndOn (√27 / 6) = some t
    rw [bar, lineC, line_setEnd, ht]
    norm_num
  have e2 : trimRoot curveOps S t (circ 4) 0 π = some t' := by
    rw [trimRoot, if_neg (lt_irrefl _)]
    dsimp only
    rw [show (curveOps.eval t) = t.eval from rfl, s4, s4']
    simp only [Bool.false_eq_true, if_false, hfar, or_self, false_and]
    rw [show ∀ n g, findCurvePlaneIntersect S t.eval n g = ⟨false, 1 / √27⟩ from fun _ _ => by rw [hS]; rfl]
    dsimp only
    rw [show ∀ f g, S.minimize1 f g = ⟨false, 0⟩ from fun _ _ => by rw [hS]; rfl,
      if_neg (by dsimp only; rw [not_lt]; positivity)]
    change t.setStartOn (1 / √27) = some t'
    rw [ht, line_setStart, ht']
    congr 2
    field_simp
    ring
  obtain ⟨P, hP, f, -⟩ := close_facts hE htooth 6 4 8 ORIGIN
  refine ⟨S, P, hS ▸ (tiring_honest _ _).1, hS ▸ (tiring_honest _ _).2, ⟨√7 / 6, u4, _, by positivity, by linarith, ?_, m4, ?_⟩,
    ?_, _, (f.ends htooth).1, ?_⟩
  · rw [bar_eval]
    congr 1
    apply V3.ext3 <;> simp
    ring
  · simp only [Matrix.cons_val_one, Matrix.cons_val_zero]
    linarith [hang7.2]
  · rw [trimReferenceProfile, e1', Option.bind_some, e2, Option.bind_some, hP]
  · rw [axisDist_flipY, axisDist, T0, T1]
    norm_num

end Verif
