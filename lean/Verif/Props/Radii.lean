import Verif.Props.TrimEx2
import Verif.Props.Profile

/-! # Property C106: the finished profile lies between the root and the tip circle -/

namespace Verif

open Real Set

/-- The distance from the axis of the gear. -/
noncomputable def axisDist (p : V3) : ℝ := √(p 0 ^ 2 + p 1 ^ 2)

theorem axisDist_flipY (p : V3) : axisDist (flipY p) = axisDist p := by simp [axisDist, flipY]

theorem axisDist_Rz (a : ℝ) (p : V3) : axisDist (app (Rz a) p) = axisDist p := by
  rw [axisDist, axisDist, Rz_app]
  congr 1
  simp only [Matrix.cons_val_zero, Matrix.cons_val_one]
  nlinarith [sin_sq_add_cos_sq a]

theorem axisDist_norm (p m : V3) (h0 : m 0 = 0) (h1 : m 1 = 0) (h2 : p 2 = m 2) : norm3 (p - m) = axisDist p := by
  rw [norm3, axisDist]
  congr 1
  simp [dot, h0, h1, h2]
  ring

/-- The arcs that close the profile keep their distance from the axis. -/
theorem closingArc_dist {asEuler : M3 → ℝ × ℝ × ℝ} (hE : EulerOk asEuler) {p q y : V3} {R : ℝ} {c : Curve}
    (h : closingArc asEuler p q y R = some c) (hfar : 1 / 10 ^ 10 < norm3 (p - q)) (hz : p 2 = q 2)
    (hd : axisDist p = axisDist q) (s : ℝ) :
    ∃ x, c.eval s = some x ∧ axisDist x = axisDist p ∧ x 2 = p 2 := by
  rw [closingArc, if_pos hfar] at h
  obtain ⟨m, hm⟩ : ∃ m, m = midOnAxis p q := ⟨_, rfl⟩
  rw [← hm] at h
  have m0 : m 0 = 0 := by rw [hm]; simp [midOnAxis, mulV]
  have m1 : m 1 = 0 := by rw [hm]; simp [midOnAxis, mulV]
  have m2 : m 2 = p 2 := by
    rw [hm]
    simp [midOnAxis, mulV, OUT, ← hz]
    ring
  have hw : cross (p - m) (q - m) ≠ 0 := by
    intro e
    rw [arcFrom2PointCenter, e] at h
    have : normalizeVector (0 : V3) = none := by
      rw [normalizeVector, if_pos (norm3_eq_zero.2 rfl)]
    rw [this] at h
    split at h
    · simp_all
    · cases h
  obtain ⟨c', h1, -, -, -, h5, -⟩ := c49_two_points hE p q m 0 true (by
    rw [axisDist_norm p m m0 m1 m2.symm, axisDist_norm q m m0 m1 (by rw [← hz, m2]), hd]) hw
  rw [h] at h1
  cases Option.some.inj h1
  obtain ⟨x, e1, e2, e3⟩ := h5 s
  have c0 : cross (p - m) (q - m) 0 = 0 := by simp [cross, m2, ← hz]
  have c1 : cross (p - m) (q - m) 1 = 0 := by simp [cross, m2, ← hz]
  have c2 : cross (p - m) (q - m) 2 ≠ 0 := by
    intro e
    apply hw
    apply V3.ext3
    · exact c0
    · exact c1
    · exact e
  have x2 : x 2 = m 2 := by
    rw [dot, c0, c1] at e3
    simp only [mul_zero, zero_add, Pi.sub_apply] at e3
    rcases mul_eq_zero.1 e3 with e | e
    · linarith
    · exact absurd e c2
  refine ⟨x, e1, ?_, by rw [x2, m2]⟩
  rw [← axisDist_norm x m m0 m1 x2, e2, axisDist_norm p m m0 m1 m2.symm]

section
variable {α : Type} {o : CurveOps α} {asEuler : M3 → ℝ × ℝ × ℝ} {tooth : α} {T : ℝ → V3} {pitch r θ : ℝ}

/-- **C106.** If the distance of the tooth curve from the axis stays between `lo` and `hi`, so does that of the
whole profile. The tip arc has everywhere the distance of the tooth's tip end, the root arc that of the tooth's
root end. -/
theorem c106_band (hE : EulerOk asEuler) (h : ToothOk o tooth T pitch r θ) (rA rD rO : ℝ) (centerO : V3)
    (lo hi : ℝ) (hb : ∀ s, 0 ≤ s → s ≤ 1 → lo ≤ axisDist (T s) ∧ axisDist (T s) ≤ hi) :
    ∃ P, closeProfile o asEuler tooth rA rD rO centerO pitch = some P ∧
      (∀ s, 0 ≤ s → s ≤ 1 → ∃ p, chainEval (sumOps o curveOps) (P.chain o) s = some p ∧
        lo ≤ axisDist p ∧ axisDist p ≤ hi) ∧
      (P.ra.active = true → ∀ s, ∃ p, P.ra.eval s = some p ∧ axisDist p = axisDist (T 1)) ∧
      (P.rd.active = true → ∀ s, ∃ p, P.rd.eval s = some p ∧ axisDist p = axisDist (T 0)) := by
  obtain ⟨P, hP, f, -, -, -, -, -, ha, hd⟩ := close_facts hE h rA rD rO centerO
  have hra : P.ra.active = true → ∀ s, ∃ p, P.ra.eval s = some p ∧ axisDist p = axisDist (T 1) := by
    intro hact s
    rcases f.ra with ⟨hg, -⟩ | ⟨-, hi⟩
    · obtain ⟨x, e1, e2, -⟩ := closingArc_dist hE ha hg (by simp [flipY]) (axisDist_flipY _).symm s
      exact ⟨x, e1, e2⟩
    · rw [hi] at hact; cases hact
  have hrd : P.rd.active = true → ∀ s, ∃ p, P.rd.eval s = some p ∧ axisDist p = axisDist (T 0) := by
    intro hact s
    have e : axisDist (rootStart T pitch) = axisDist (T 0) := by rw [rootStart, axisDist_Rz, axisDist_flipY]
    rcases f.rd with ⟨hg, -⟩ | ⟨-, hi⟩
    · obtain ⟨x, e1, e2, -⟩ := closingArc_dist hE hd hg (by simp [rootStart, Rz_app, flipY]) e s
      exact ⟨x, e1, e2.trans e⟩
    · rw [hi] at hact; cases hact
  refine ⟨P, hP, fun s h0 h1 => ?_, hra, hrd⟩
  have hall := f.allPos h
  have hL : 0 < chainLen (sumOps o curveOps) (P.chain o) := by
    rw [f.chain_eq] at hall ⊢
    exact chainLen_pos (x := [Sum.inr P.rd]) (a := .inl tooth) (y := [.inr P.ra, .inr P.mirror]) hall h.active
  obtain ⟨k, σ, a, e, hk, hact, s0, s1, -⟩ := c43_lookup _ hall.nonNeg hL s h0 h1
  have hev : chainEval (sumOps o curveOps) (P.chain o) s = (sumOps o curveOps).eval a σ := by
    rw [chainEval, e]
    simp [hk]
  rw [hev]
  have hm : a ∈ P.chain o := List.mem_of_getElem? hk
  rw [f.chain_eq] at hm
  simp only [List.mem_cons, List.not_mem_nil, or_false] at hm
  rcases hm with rfl | rfl | rfl | rfl
  · obtain ⟨p, e1, e2⟩ := hrd hact σ
    exact ⟨p, e1, e2 ▸ hb 0 le_rfl zero_le_one⟩
  · exact ⟨_, h.eval σ s0 s1, hb σ s0 s1⟩
  · obtain ⟨p, e1, e2⟩ := hra hact σ
    exact ⟨p, e1, e2 ▸ hb 1 zero_le_one le_rfl⟩
  · obtain ⟨u, u0, u1, e1⟩ := f.mirrorMem σ s0 s1
    exact ⟨_, e1, by rw [axisDist_flipY]; exact hb u u0 u1⟩

theorem trimTip_hit {S : ScalarSolvers} (hS : Honest S) {rA : Curve} {sol : Solved (ℝ × ℝ)}
    (hsol : sol = findCurveIntersect S.toSolvers (o.eval tooth) rA.eval (9 / 10, -pitch / 8 / rA.length) .equality)
    (hok : sol.success = true) (hmid : ∀ p, rA.eval sol.x.2 = some p → p 1 < 0) :
    trimTip o S tooth rA 0 pitch = o.setEnd tooth sol.x.1 ∧
      ∃ p, o.eval tooth sol.x.1 = some p ∧ rA.eval sol.x.2 = some p := by
  obtain ⟨p, hp, hq⟩ := intersect_success hS (hsol ▸ hok)
  rw [← hsol] at hp hq
  refine ⟨?_, p, hp, hq⟩
  rw [trimTip, if_neg (lt_irrefl _)]
  dsimp only
  rw [← hsol, if_pos hok, if_pos ⟨Or.inl hok, p, hp, hmid p hq⟩]

theorem trimRoot_hit {S : ScalarSolvers} (hS : Honest S) {rD : Curve} {sol : Solved (ℝ × ℝ)}
    (hsol : sol = findCurveIntersect S.toSolvers (o.eval tooth) rD.eval (3 / 10, -pitch / 2 / rD.length) .equality)
    (hok : sol.success = true) (hmid : ∀ p, rD.eval sol.x.2 = some p → -pitch / 2 < arctan2 (p 1) (p 0)) :
    trimRoot o S tooth rD 0 pitch = o.setStart tooth sol.x.1 ∧
      ∃ p, o.eval tooth sol.x.1 = some p ∧ rD.eval sol.x.2 = some p := by
  obtain ⟨p, hp, hq⟩ := intersect_success hS (hsol ▸ hok)
  rw [← hsol] at hp hq
  refine ⟨?_, p, hp, hq⟩
  rw [trimRoot, if_neg (lt_irrefl _)]
  dsimp only
  rw [← hsol, if_pos hok, if_pos ⟨Or.inl hok, p, hp, hmid p hq⟩]

/-- **C106, trimmed (partial).** Without fillets the trimmed and closed profile of a tooth that meets the tip and
the root circle on its own side of the middle planes, and whose distance from the axis grows from root to tip,
lies between the two circles and reaches both: its tip arc is on the tip circle, its root arc on the root
circle. Missing: solver calls that fail, teeth that do not meet the circles, fillets. -/
theorem c106_trimmed_partial {Good : α → Prop} (hl : Lawful o Good) (hE : EulerOk asEuler) (S : ScalarSolvers)
    (hS : Honest S) (hg : Good tooth) (rA rD : Curve) (RA RD rO : ℝ) (centerO : V3)
    (hA : ∀ u p, rA.eval u = some p → axisDist p = RA) (hD : ∀ u p, rD.eval u = some p → axisDist p = RD)
    (sol : Solved (ℝ × ℝ)) (hsol : sol = findCurveIntersect S.toSolvers (o.eval tooth) rA.eval
      (9 / 10, -pitch / 8 / rA.length) .equality) (hok : sol.success = true)
    (hmid : ∀ p, rA.eval sol.x.2 = some p → p 1 < 0)
    (t : α) (ht : o.setEnd tooth sol.x.1 = some t)
    (sol2 : Solved (ℝ × ℝ)) (hsol2 : sol2 = findCurveIntersect S.toSolvers (o.eval t) rD.eval
      (3 / 10, -pitch / 2 / rD.length) .equality) (hok2 : sol2.success = true)
    (hmid2 : ∀ p, rD.eval sol2.x.2 = some p → -pitch / 2 < arctan2 (p 1) (p 0))
    (t' : α) (ht' : o.setStart t sol2.x.1 = some t')
    (h : ToothOk o t' T pitch r θ) (hmono : MonotoneOn (fun s => axisDist (T s)) (Icc 0 1)) :
    ∃ P, trimReferenceProfile o asEuler S tooth rA rD RA RD rO centerO 0 0 pitch = some P ∧
      (∀ s, 0 ≤ s → s ≤ 1 → ∃ p, chainEval (sumOps o curveOps) (P.chain o) s = some p ∧
        RD ≤ axisDist p ∧ axisDist p ≤ RA) ∧
      (∃ s p, 0 ≤ s ∧ s ≤ 1 ∧ o.eval P.tooth s = some p ∧ axisDist p = RA) ∧
      (∃ s p, 0 ≤ s ∧ s ≤ 1 ∧ o.eval P.tooth s = some p ∧ axisDist p = RD) ∧
      (P.ra.active = true → ∀ s, ∃ p, P.ra.eval s = some p ∧ axisDist p = RA) ∧
      (P.rd.active = true → ∀ s, ∃ p, P.rd.eval s = some p ∧ axisDist p = RD) := by
  obtain ⟨e1, p, hp, hp'⟩ := trimTip_hit (o := o) hS hsol hok hmid
  obtain ⟨_, f1, f2, -, f4, -⟩ := hl.fin tooth _ p hg hp
  rw [ht] at f1
  cases Option.some.inj f1
  obtain ⟨e2, q, hq, hq'⟩ := trimRoot_hit (o := o) hS hsol2 hok2 hmid2
  obtain ⟨_, g1, -, -, g4, g5⟩ := hl.start t _ q f2 hq
  rw [ht'] at g1
  cases Option.some.inj g1
  have d0 : axisDist (T 0) = RD := by
    rw [h.eval 0 le_rfl zero_le_one] at g4
    rw [Option.some.inj g4]; exact hD _ q hq'
  have d1 : axisDist (T 1) = RA := by
    rw [h.eval 1 zero_le_one le_rfl, f4] at g5
    rw [Option.some.inj g5]; exact hA _ p hp'
  obtain ⟨P, hP, b1, b2, b3⟩ := c106_band hE h RA RD rO centerO RD RA (by
    intro s s0 s1
    rw [← d0, ← d1]
    exact ⟨hmono ⟨le_rfl, zero_le_one⟩ ⟨s0, s1⟩ s0, hmono ⟨s0, s1⟩ ⟨zero_le_one, le_rfl⟩ s1⟩)
  obtain ⟨P', hP', f, -⟩ := close_facts hE h RA RD rO centerO
  rw [hP] at hP'
  cases Option.some.inj hP'
  refine ⟨P, ?_, b1, ⟨1, T 1, zero_le_one, le_rfl, ?_, d1⟩, ⟨0, T 0, le_rfl, zero_le_one, ?_, d0⟩, ?_, ?_⟩
  · rw [trimReferenceProfile, e1, ht, Option.bind_some, e2, ht', Option.bind_some, hP]
  · rw [f.tooth_eq]; exact h.eval 1 zero_le_one le_rfl
  · rw [f.tooth_eq]; exact h.eval 0 le_rfl zero_le_one
  · intro hact s
    obtain ⟨x, x1, x2⟩ := b2 hact s
    exact ⟨x, x1, x2.trans d1⟩
  · intro hact s
    obtain ⟨x, x1, x2⟩ := b3 hact s
    exact ⟨x, x1, x2.trans d0⟩

end

theorem axisDist_circ {R : ℝ} (hR : 0 ≤ R) (u : ℝ) (p : V3) (h : (circ R).eval u = some p) : axisDist p = R := by
  rw [circ_eval] at h
  rw [← Option.some.inj h, axisDist, sqrt_eq_iff_mul_self_eq (by positivity) hR]
  simp only [Matrix.cons_val_zero, Matrix.cons_val_one]
  nlinarith [sin_sq_add_cos_sq (2 * π * u)]

open scoped Classical in
/-- Solvers that know two answers. -/
noncomputable def knowingTwo (x1 x2 : V3) : ScalarSolvers where
  root cost _ := if cost x1 = some 0 then ⟨true, x1⟩ else if cost x2 = some 0 then ⟨true, x2⟩ else ⟨false, 0⟩
  minimize _ _ := ⟨false, (0, 0)⟩
  root1 _ _ := ⟨false, 0⟩
  minimize1 _ _ := ⟨false, 0⟩

theorem knowingTwo_honest (x1 x2 : V3) : Honest (knowingTwo x1 x2) := by
  constructor
  · intro cost guess h
    simp only [knowingTwo] at h ⊢
    split_ifs at h ⊢ with h1 h2
    · exact h1
    · exact h2
  · intro cost guess h
    cases h

/-- C106 for the straight tooth `y = -3`, the root circle of radius 4 and the tip circle of radius 6. -/
theorem c106_case : ∃ (asEuler : M3 → ℝ × ℝ × ℝ) (S : ScalarSolvers) (P : RefProfile Curve), EulerOk asEuler ∧ Honest S ∧
    trimReferenceProfile curveOps asEuler S bar (circ 6) (circ 4) 6 4 8 ORIGIN 0 0 π = some P ∧
    ∀ s, 0 ≤ s → s ≤ 1 → ∃ p, chainEval (sumOps curveOps curveOps) (P.chain curveOps) s = some p ∧
      4 ≤ axisDist p ∧ axisDist p ≤ 6 := by
  obtain ⟨asEuler, hE⟩ := eulerOk_exists
  have h7p : 0 < √7 := sqrt_pos.2 (by norm_num)
  have h7 : √7 ^ 2 = 7 := sq_sqrt (by norm_num)
  have h27p : 0 < √27 := sqrt_pos.2 (by norm_num)
  have h27 : √27 ^ 2 = 27 := sq_sqrt (by norm_num)
  have h27l : √27 < 6 := by nlinarith
  have h727 : √7 < √27 := sqrt_lt_sqrt (by norm_num) (by norm_num)
  obtain ⟨u6, hu6⟩ : ∃ u, u = -arcsin (3 / 6) / (2 * π) := ⟨_, rfl⟩
  obtain ⟨u4, hu4⟩ : ∃ u, u = -arcsin (3 / 4) / (2 * π) := ⟨_, rfl⟩
  obtain ⟨-, m6⟩ := flat_meets hu6 (x := √27) (by norm_num) h27p (by norm_num) h27l.le (by rw [h27]; norm_num)
  obtain ⟨-, m4⟩ := flat_meets hu4 (x := √7) (by norm_num) h7p (by norm_num) (by linarith) (by rw [h7]; norm_num)
  obtain ⟨t, ht⟩ : ∃ t, t = Curve.make (.line ![0, -3, 0] ![6, -3, 0]) true 0 (√27 / 6) := ⟨_, rfl⟩
  have hte : ∀ s, t.eval s = some ![√27 * s, -3, 0] := by
    intro s
    rw [ht, line_eval]
    congr 1
    apply V3.ext3 <;> simp <;> ring
  obtain ⟨S, hS⟩ : ∃ S, S = knowingTwo ![√27 / 6, u6, 0] ![√7 / √27, u4, 0] := ⟨_, rfl⟩
  have s6 : findCurveIntersect S.toSolvers (curveOps.eval bar) (circ 6).eval (9 / 10, -π / 8 / (circ 6).length)
      .equality = ⟨true, (√27 / 6, u6)⟩ := by
    have : curveDiff bar.eval (circ 6).eval (√27 / 6) u6 = some 0 := by
      rw [curveDiff_intro (bar_eval _) m6]
      congr 1
      apply V3.ext3 <;> simp
      ring
    rw [hS, findCurveIntersect]
    simp only [knowingTwo]
    rw [if_pos (by exact this)]
    rfl
  have s4 : findCurveIntersect S.toSolvers (curveOps.eval t) (circ 4).eval (3 / 10, -π / 2 / (circ 4).length)
      .equality = ⟨true, (√7 / √27, u4)⟩ := by
    have no : curveDiff t.eval (circ 4).eval (√27 / 6) u6 ≠ some 0 := by
      intro e
      obtain ⟨p, e1, e2⟩ := curveDiff_zero e
      rw [hte] at e1
      have hy := congrFun (Option.some.inj e1) 1
      rw [circ_eval] at m6 e2
      have a := congrFun (Option.some.inj m6) 1
      have b := congrFun (Option.some.inj e2) 1
      simp only [Matrix.cons_val_one, Matrix.cons_val_zero] at a b hy
      linarith
    have yes : curveDiff t.eval (circ 4).eval (√7 / √27) u4 = some 0 := by
      rw [curveDiff_intro (hte _) m4]
      congr 1
      apply V3.ext3 <;> simp
      field_simp
      ring
    rw [hS, findCurveIntersect]
    simp only [knowingTwo]
    rw [if_neg (by exact no), if_pos (by exact yes)]
    rfl
  obtain ⟨t', ht'⟩ : ∃ t', t' = Curve.make (.line ![0, -3, 0] ![6, -3, 0]) true (√7 / 6) (√27 / 6) := ⟨_, rfl⟩
  obtain ⟨T, hT⟩ : ∃ T : ℝ → V3, T = fun s => ![√7 + (√27 - √7) * s, -3, 0] := ⟨_, rfl⟩
  have T0 : ∀ s, T s 0 = √7 + (√27 - √7) * s := by intro s; rw [hT]; rfl
  have T1 : ∀ s, T s 1 = -3 := by intro s; rw [hT]; rfl
  have hpi := pi_pos
  have hr : √(√7 ^ 2 + (-3) ^ 2) = 4 := by
    rw [h7, show (7 : ℝ) + (-3) ^ 2 = 4 ^ 2 by norm_num, sqrt_sq (by norm_num)]
  have hang := angleCheck_pi (p := ![√7, -3, 0]) (by simpa using h7p) (by norm_num)
  simp only [angleCheck, Matrix.cons_val_one, Matrix.cons_val_zero] at hang
  have hact : t'.active = true := by rw [ht', line_act]
  have hupd : t'.updateLengths = t' := by rw [ht', line_upd]
  have htooth : ToothOk curveOps t' T π 4 (arctan2 (-3) √7) := by
    refine ⟨hact, hupd, ?_, ?_, ?_, ?_, hpi, le_rfl,
      by norm_num, ?_, ?_, by linarith [hang.2], by linarith [hang.1], ?_⟩
    · change 0 < t'.length
      rw [ht', line_trim, flat_dir, flat_norm]
      have : √27 / 6 - √7 / 6 ≠ 0 := by
        intro e
        linarith
      positivity
    · intro s _ _
      change t'.eval s = _
      rw [ht', line_eval, hT]
      congr 1
      apply V3.ext3 <;> simp <;> ring
    · rw [hT]
      refine Continuous.continuousOn ?_
      refine continuous_pi fun i => ?_
      fin_cases i <;> simp <;> fun_prop
    · intro i _ e
      have := congrFun e 0
      rw [T0, T0] at this
      simp [linspace] at this
      linarith
    · rw [T0, ← hr]
      have := polar_cos √7 (-3)
      rw [this]; ring
    · rw [T1, ← hr]
      exact (polar_sin √7 (-3)).symm
    · rw [T0]; linarith
  obtain ⟨P, h1, h2, -⟩ := c106_trimmed_partial (o := curveOps) (tooth := bar) (pitch := π) curve_lawful hE S
    (hS ▸ knowingTwo_honest _ _) (lineC_fresh _ _) (circ 6) (circ 4) 6 4 8 ORIGIN
    (fun u p => axisDist_circ (by norm_num) u p) (fun u p => axisDist_circ (by norm_num) u p) _ s6.symm rfl (by
      intro p hp
      change (circ 6).eval u6 = some p at hp
      rw [m6] at hp
      rw [← Option.some.inj hp]
      norm_num) t (by
      change bar.setEndOn (√27 / 6) = some t
      rw [bar, lineC, line_setEnd, ht]
      norm_num) _ s4.symm rfl (by
      intro p hp
      change (circ 4).eval u4 = some p at hp
      rw [m4] at hp
      rw [← Option.some.inj hp]
      simp only [Matrix.cons_val_one, Matrix.cons_val_zero]
      linarith [hang.2]) t' (by
      change t.setStartOn (√7 / √27) = some t'
      rw [ht, line_setStart, ht']
      congr 2
      field_simp
      ring) htooth (by
      intro a ha b hb hab
      simp only [axisDist, T0, T1]
      apply sqrt_le_sqrt
      have : 0 ≤ (√27 - √7) * a := mul_nonneg (by linarith) ha.1
      have : (√27 - √7) * a ≤ (√27 - √7) * b := mul_le_mul_of_nonneg_left hab (by linarith)
      gcongr)
  exact ⟨asEuler, S, P, hE, hS ▸ knowingTwo_honest _ _, h1, h2⟩

end Verif
