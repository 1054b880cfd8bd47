import Verif.Model.Trim
import Verif.Props.Fillet
import Verif.Props.Arc2

/-! # Properties C103, C104, C105: trimming the tooth curve and its fillets -/

namespace Verif

open Real

/-- What the solvers' `success` flags are taken to mean: the equation holds at the answer. Nothing is assumed
about unsuccessful answers, nor about `minimize`. -/
structure Honest (S : ScalarSolvers) : Prop where
  root : ∀ cost guess, (S.root cost guess).success = true → cost (S.root cost guess).x = some 0
  root1 : ∀ cost guess, (S.root1 cost guess).success = true → cost (S.root1 cost guess).x = some 0

theorem curveDiff_zero {f1 f2 : ℝ → Option V3} {t1 t2 : ℝ} (h : curveDiff f1 f2 t1 t2 = some 0) :
    ∃ p, f1 t1 = some p ∧ f2 t2 = some p := by
  rw [curveDiff] at h
  split at h
  · rename_i p q hp hq
    exact ⟨p, hp, by rw [hq, sub_eq_zero.1 (Option.some.inj h)]⟩
  · cases h

/-- A successful intersection is a common point. -/
theorem intersect_success {S : ScalarSolvers} (hS : Honest S) {f1 f2 : ℝ → Option V3} {guess : ℝ × ℝ}
    (h : (findCurveIntersect S.toSolvers f1 f2 guess .equality).success = true) :
    ∃ p, f1 (findCurveIntersect S.toSolvers f1 f2 guess .equality).x.1 = some p ∧
      f2 (findCurveIntersect S.toSolvers f1 f2 guess .equality).x.2 = some p :=
  curveDiff_zero (hS.root _ _ h)

section
variable {α : Type} {o : CurveOps α} {Good : α → Prop}

/-! ### C105 -/

/-- **C105, tip (partial: when the first solver call succeeds).** Without a tip fillet the tooth curve is cut
where it meets the tip circle; if that is beyond the middle of the tooth, it is cut at the middle plane
instead. The root end is kept. -/
theorem c105_tip_partial (hl : Lawful o Good) (S : ScalarSolvers) (hS : Honest S) (tooth : α) (hg : Good tooth)
    (rA : Curve) (pitch : ℝ)
    (sol : Solved (ℝ × ℝ)) (hsol : sol = findCurveIntersect S.toSolvers (o.eval tooth) rA.eval
      (9 / 10, -pitch / 8 / rA.length) .equality) (hok : sol.success = true)
    (hmid : (∀ p, rA.eval sol.x.2 = some p → p 1 < 0) ∨
      (findCurvePlaneIntersect S (o.eval tooth) UP 1).success = true) :
    ∃ t p σ, trimTip o S tooth rA 0 pitch = some t ∧ Good t ∧ o.active t = o.active tooth ∧
      o.eval t 0 = o.eval tooth 0 ∧ o.eval t 1 = some p ∧ o.eval tooth σ = some p ∧
      (rA.eval sol.x.2 = some p ∧ p 1 < 0 ∨ p 1 = 0 ∧ ∀ q, rA.eval sol.x.2 = some q → 0 ≤ q 1) := by
  obtain ⟨p, hp, hq⟩ := intersect_success hS (hsol ▸ hok)
  rw [← hsol] at hp hq
  have hsol' : (if sol.success = true then sol else findCurveIntersect S.toSolvers (o.eval tooth) rA.eval
    (9 / 10, -pitch / 8 / rA.length) .minDistance) = sol := if_pos hok
  rw [trimTip, if_neg (lt_irrefl _)]
  dsimp only
  rw [← hsol, hsol']
  by_cases hy : p 1 < 0
  · rw [if_pos ⟨Or.inl hok, p, hp, hy⟩]
    obtain ⟨t, q1, q2, q3, q4, q5⟩ := hl.fin tooth _ p hg hp
    exact ⟨t, p, _, q1, q2, q3, q5, q4, hp, Or.inl ⟨hq, hy⟩⟩
  · rw [if_neg]
    · have hm := hS.root1 _ _ (hmid.resolve_left fun hall => hy (hall p hq))
      rw [Option.map_eq_some_iff] at hm
      obtain ⟨m, hm, hz⟩ := hm
      obtain ⟨t, q1, q2, q3, q4, q5⟩ := hl.fin tooth _ m hg hm
      refine ⟨t, m, _, q1, q2, q3, q5, q4, hm, Or.inr ⟨?_, fun q hq' => ?_⟩⟩
      · simpa [dot, UP, ORIGIN] using hz
      · rw [hq] at hq'
        rw [← Option.some.inj hq']
        exact not_lt.1 hy
    · rintro ⟨-, p', hp', hy'⟩
      rw [hp] at hp'
      rw [Option.some.inj hp'] at hy
      exact hy hy'

/-- **C105, root (partial: when the first solver call succeeds).** Without a root fillet the tooth curve is cut
where it meets the root circle; if that is beyond the middle of the gap, it is cut at the middle plane of the
gap, or at the later place where it is nearest to the axis. The tip end is kept. -/
theorem c105_root_partial (hl : Lawful o Good) (S : ScalarSolvers) (hS : Honest S) (tooth : α) (hg : Good tooth)
    (rD : Curve) (pitch : ℝ)
    (sol : Solved (ℝ × ℝ)) (hsol : sol = findCurveIntersect S.toSolvers (o.eval tooth) rD.eval
      (3 / 10, -pitch / 2 / rD.length) .equality) (hok : sol.success = true)
    (hmid : (∀ p, rD.eval sol.x.2 = some p → -pitch / 2 < arctan2 (p 1) (p 0)) ∨
      ∀ guess, (findCurvePlaneIntersect S (o.eval tooth) (app (Rz (-pitch / 2)) UP) guess).success = true)
    (hdef : ∀ s, ∃ p, o.eval tooth s = some p) :
    ∃ t p σ, trimRoot o S tooth rD 0 pitch = some t ∧ Good t ∧ o.active t = o.active tooth ∧
      o.eval t 1 = o.eval tooth 1 ∧ o.eval t 0 = some p ∧ o.eval tooth σ = some p ∧
      (rD.eval sol.x.2 = some p ∧ -pitch / 2 < arctan2 (p 1) (p 0) ∨
        (∀ q, rD.eval sol.x.2 = some q → arctan2 (q 1) (q 0) ≤ -pitch / 2) ∧
        (dot p (app (Rz (-pitch / 2)) UP) = 0 ∨
        ∃ τ q guess, τ < σ ∧ o.eval tooth τ = some q ∧ dot q (app (Rz (-pitch / 2)) UP) = 0 ∧
          σ = (S.minimize1 (fun t => (o.eval tooth t).map fun p => √(p 0 ^ 2 + p 1 ^ 2)) guess).x)) := by
  obtain ⟨p, hp, hq⟩ := intersect_success hS (hsol ▸ hok)
  rw [← hsol] at hp hq
  rw [trimRoot, if_neg (lt_irrefl _)]
  dsimp only
  rw [← hsol, if_pos hok]
  by_cases hy : -pitch / 2 < arctan2 (p 1) (p 0)
  · rw [if_pos ⟨Or.inl hok, p, hp, hy⟩]
    obtain ⟨t, q1, q2, q3, q4, q5⟩ := hl.start tooth _ p hg hp
    exact ⟨t, p, _, q1, q2, q3, q5, q4, hp, Or.inl ⟨hq, hy⟩⟩
  · have hy' : ∀ q, rD.eval sol.x.2 = some q → arctan2 (q 1) (q 0) ≤ -pitch / 2 := by
      intro q hq'
      rw [hq] at hq'
      rw [← Option.some.inj hq']
      exact not_lt.1 hy
    rw [if_neg]
    · rw [if_pos (Or.inl hok)]
      obtain ⟨mid, hmidd⟩ : ∃ mid, mid = findCurvePlaneIntersect S (o.eval tooth)
        (rotateVector UP (-pitch / 2)) sol.x.1 := ⟨_, rfl⟩
      have hm := hS.root1 _ _ (hmid.resolve_left (fun hall => hy (hall p hq)) sol.x.1)
      rw [Option.map_eq_some_iff] at hm
      obtain ⟨m, hm, hz⟩ := hm
      change o.eval tooth (findCurvePlaneIntersect S (o.eval tooth) (rotateVector UP (-pitch / 2)) sol.x.1).x =
        some m at hm
      rw [← hmidd] at hm ⊢
      have hz' : dot m (app (Rz (-pitch / 2)) UP) = 0 := by
        rwa [show m - ORIGIN = m by rw [ORIGIN]; apply V3.ext3 <;> simp] at hz
      split_ifs with hb
      · obtain ⟨b, hbe⟩ := hdef (S.minimize1 (fun t => (o.eval tooth t).map fun p => √(p 0 ^ 2 + p 1 ^ 2)) mid.x).x
        obtain ⟨t, q1, q2, q3, q4, q5⟩ := hl.start tooth _ b hg hbe
        exact ⟨t, b, _, q1, q2, q3, q5, q4, hbe,
          Or.inr ⟨hy', Or.inr ⟨mid.x, m, mid.x, hb, hm, hz', rfl⟩⟩⟩
      · obtain ⟨t, q1, q2, q3, q4, q5⟩ := hl.start tooth _ m hg hm
        exact ⟨t, m, _, q1, q2, q3, q5, q4, hm, Or.inr ⟨hy', Or.inl hz'⟩⟩
    · rintro ⟨-, p', hp', hy'⟩
      rw [hp] at hp'
      rw [Option.some.inj hp'] at hy
      exact hy hy'

end

/-! ### C103 -/

/-- Putting an active curve before a trimmed chain. -/
theorem join_before {l x y : List Curve} {a a' arc : Curve} {p : V3} (h : AllPos curveOps l)
    (hm : Meets curveOps l) (hg : ∀ b ∈ l, b.active = true → b.kind.Sampled ∧ b.updateLengths = b)
    (hl : l = x ++ a :: y) (ha : a.active = true) (ha' : a'.active = true)
    (hga : a'.kind.Sampled ∧ a'.updateLengths = a') (e1 : a'.eval 1 = a.eval 1) (e0 : a'.eval 0 = some p)
    (harc : arc.active = true) (hgarc : arc.kind.Sampled ∧ arc.updateLengths = arc)
    (earc : arc.eval 1 = some p) (hlen : 0 < arc.length) :
    chainInsert curveOps (a' :: y) 0 arc = arc :: a' :: y ∧ Meets curveOps (arc :: a' :: y) ∧
      (0 < a'.length → AllPos curveOps (arc :: a' :: y) ∧
        chainEval curveOps (arc :: a' :: y) 0 = arc.eval 0 ∧
        chainEval curveOps (arc :: a' :: y) 1 = chainEval curveOps l 1) := by
  have ca : curveOps.active a = true := ha
  have ca' : curveOps.active a' = true := ha'
  have carc : curveOps.active arc = true := harc
  refine ⟨?_, ?_, fun hp => ?_⟩
  · rw [chainInsert]
    apply chainUpdate_eq curve_lawful
    intro m hmem hact
    simp only [List.take_zero, List.drop_zero, List.nil_append, List.mem_cons] at hmem
    rcases hmem with rfl | rfl | hmem
    · exact hgarc
    · exact hga
    · exact hg m (by rw [hl]; simp [hmem]) hact
  · rw [meets_iff] at hm ⊢
    rw [hl, List.filter_append, List.filter_cons_of_pos ca] at hm
    rw [List.filter_cons_of_pos carc, List.filter_cons_of_pos ca']
    have c2 := (List.isChain_append.1 hm).2.1
    rw [List.isChain_cons] at c2
    rw [List.isChain_cons, List.isChain_cons]
    refine ⟨?_, ?_, c2.2⟩
    · intro v hv
      simp only [List.head?_cons, Option.mem_def, Option.some.injEq] at hv
      subst hv
      exact earc.trans e0.symm
    · intro v hv
      exact Eq.trans e1 (c2.1 v hv)
  · have hall : AllPos curveOps (arc :: a' :: y) := by
      intro m hmem hact
      simp only [List.mem_cons] at hmem
      rcases hmem with rfl | rfl | hmem
      · exact hlen
      · exact hp
      · exact h m (by rw [hl]; simp [hmem]) hact
    refine ⟨hall, chainEval_zero_find hall (a := arc) (by simp [carc]), ?_⟩
    rcases hc : y.reverse.find? curveOps.active with _ | c
    · rw [chainEval_one_find hall (a := a') (by simp [List.find?_append, hc, ca']),
        chainEval_one_find h (a := a) (by rw [hl]; simp [List.find?_append, hc, ca])]
      exact e1
    · rw [chainEval_one_find hall (a := c) (by simp [List.find?_append, hc]),
        chainEval_one_find h (a := c) (by rw [hl]; simp [List.find?_append, hc])]

/-- Putting an active curve after a trimmed chain. -/
theorem join_after {l x y : List Curve} {a a' arc : Curve} {p : V3} (h : AllPos curveOps l)
    (hm : Meets curveOps l) (hg : ∀ b ∈ l, b.active = true → b.kind.Sampled ∧ b.updateLengths = b)
    (hl : l = x ++ a :: y) (ha : a.active = true) (ha' : a'.active = true)
    (hga : a'.kind.Sampled ∧ a'.updateLengths = a') (e1 : a'.eval 0 = a.eval 0) (e0 : a'.eval 1 = some p)
    (harc : arc.active = true) (hgarc : arc.kind.Sampled ∧ arc.updateLengths = arc)
    (earc : arc.eval 0 = some p) (hlen : 0 < arc.length) :
    chainAppend curveOps (x ++ [a']) arc = (x ++ [a']) ++ [arc] ∧ Meets curveOps ((x ++ [a']) ++ [arc]) ∧
      (0 < a'.length → AllPos curveOps ((x ++ [a']) ++ [arc]) ∧
        chainEval curveOps ((x ++ [a']) ++ [arc]) 1 = arc.eval 1 ∧
        chainEval curveOps ((x ++ [a']) ++ [arc]) 0 = chainEval curveOps l 0) := by
  have ca : curveOps.active a = true := ha
  have ca' : curveOps.active a' = true := ha'
  have carc : curveOps.active arc = true := harc
  refine ⟨?_, ?_, fun hp => ?_⟩
  · rw [chainAppend]
    apply chainUpdate_eq curve_lawful
    intro m hmem hact
    simp only [List.mem_append, List.mem_singleton] at hmem
    rcases hmem with (hmem | rfl) | rfl
    · exact hg m (by rw [hl]; simp [hmem]) hact
    · exact hga
    · exact hgarc
  · rw [meets_iff] at hm ⊢
    rw [hl, List.filter_append, List.filter_cons_of_pos ca] at hm
    rw [List.filter_append, List.filter_append, List.filter_cons_of_pos carc, List.filter_cons_of_pos ca',
      List.filter_nil]
    have c1 := List.isChain_append.1 hm
    rw [List.isChain_append, List.isChain_append]
    refine ⟨⟨c1.1, List.IsChain.singleton _, ?_⟩, List.IsChain.singleton _, ?_⟩
    · intro u hu v hv
      simp only [List.head?_cons, Option.mem_def, Option.some.injEq] at hv
      subst hv
      exact (c1.2.2 u hu a (by simp)).trans e1.symm
    · intro u hu v hv
      simp only [List.head?_cons, Option.mem_def, Option.some.injEq] at hv
      simp only [List.getLast?_append, List.getLast?_singleton, Option.some_or, Option.mem_def,
        Option.some.injEq] at hu
      subst hu hv
      exact e0.trans earc.symm
  · have hall : AllPos curveOps ((x ++ [a']) ++ [arc]) := by
      intro m hmem hact
      simp only [List.mem_append, List.mem_singleton] at hmem
      rcases hmem with (hmem | rfl) | rfl
      · exact h m (by rw [hl]; simp [hmem]) hact
      · exact hp
      · exact hlen
    refine ⟨hall, chainEval_one_find hall (a := arc) (by simp [carc]), ?_⟩
    rcases hc : x.find? curveOps.active with _ | c
    · rw [chainEval_zero_find hall (a := a') (by simp [List.find?_append, hc, ca']),
        chainEval_zero_find h (a := a) (by rw [hl]; simp [List.find?_append, hc, ca])]
      exact e1
    · rw [chainEval_zero_find hall (a := c) (by simp [List.find?_append, hc]),
        chainEval_zero_find h (a := c) (by rw [hl]; simp [List.find?_append, hc])]

/-- The loop returns the first successful attempt. -/
theorem firstSuccess_at {attempt : ℝ → Option (Curve × ℝ × ℝ × Bool)} {g : ℝ} {c : Curve} {t1 t2 : ℝ}
    (h : attempt g = some (c, t1, t2, true)) (post : List ℝ) :
    ∀ (pre : List ℝ), (∀ g' ∈ pre, ∀ r, attempt g' = some r → r.2.2.2 ≠ true) →
      firstSuccess attempt (pre ++ g :: post) = some (c, t1, t2, true)
  | [], _ => by
    cases post with
    | nil => exact h
    | cons g2 gs => rw [List.nil_append, firstSuccess, h]; simp
  | g' :: pre, hpre => by
    have ih := firstSuccess_at h post pre fun g'' hg'' => hpre g'' (by simp [hg''])
    rw [List.cons_append, firstSuccess]
    · rw [ih]
      split
      · rename_i c t1 t2 h1
        exact absurd rfl (hpre g' (by simp) _ h1)
      · rfl
    · simp

/-- The same for the three guesses of `apply_fillet`. -/
theorem firstSuccess_three {attempt : ℝ → Option (Curve × ℝ × ℝ × Bool)} {r g : ℝ} {c : Curve} {t1 t2 : ℝ}
    (hr : 0 < r) (hgm : g ∈ [1 / 2 * r, 1 * r, 3 / 2 * r]) (h : attempt g = some (c, t1, t2, true))
    (hpre : ∀ g' ∈ [1 / 2 * r, 1 * r, 3 / 2 * r], g' < g → ∀ q, attempt g' = some q → q.2.2.2 ≠ true) :
    firstSuccess attempt [1 / 2 * r, 1 * r, 3 / 2 * r] = some (c, t1, t2, true) := by
  have hmem := hgm
  simp only [List.mem_cons, List.not_mem_nil, or_false] at hgm
  rcases hgm with rfl | rfl | rfl
  · exact firstSuccess_at h [1 * r, 3 / 2 * r] [] (by simp)
  · refine firstSuccess_at h [3 / 2 * r] [1 / 2 * r] fun g' hg' => ?_
    rw [List.mem_singleton.1 hg']
    exact hpre _ (by simp) (by linarith)
  · refine firstSuccess_at h [] [1 / 2 * r, 1 * r] fun g' hg' => ?_
    simp only [List.mem_cons, List.not_mem_nil, or_false] at hg'
    rcases hg' with rfl | rfl
    · exact hpre _ (by simp) (by linarith)
    · exact hpre _ (by simp) (by linarith)

/-- The parameters `(t1, t2)` of the contact points that the solver reports for a start `(s1, s2)`. -/
noncomputable def contactParams (S : Solvers) (f1 f2 : ℝ → Option V3) (r : ℝ) (start : ℝ × ℝ) : ℝ × ℝ :=
  (start.1 - (S.root (tangentCost f1 f2 r start) 0).x 0, start.2 + (S.root (tangentCost f1 f2 r start) 0).x 1)

/-- A successful tangent arc with honest solvers. -/
theorem tangentArc_success {asEuler : M3 → ℝ × ℝ × ℝ} (hE : EulerOk asEuler) {S : ScalarSolvers}
    (hS : Honest S) {f1 f2 : ℝ → Option V3} {r : ℝ} (hr : 0 < r) {start : ℝ × ℝ}
    (hok : (S.root (tangentCost f1 f2 r start) 0).success = true) :
    ∃ arc p1 p2 d1 d2, calcTangentArc asEuler S.toSolvers f1 f2 r start .equality =
        some (arc, (contactParams S.toSolvers f1 f2 r start).1, (contactParams S.toSolvers f1 f2 r start).2, true) ∧
      f1 (contactParams S.toSolvers f1 f2 r start).1 = some p1 ∧
      f2 (contactParams S.toSolvers f1 f2 r start).2 = some p2 ∧
      unitTangent f1 (contactParams S.toSolvers f1 f2 r start).1 = some d1 ∧
      unitTangent f2 (contactParams S.toSolvers f1 f2 r start).2 = some d2 ∧ SmoothArc arc p1 p2 d1 d2 r ∧
      arc.kind.Sampled ∧ arc.updateLengths = arc := by
  have h := hS.root _ _ hok
  rw [tangentCost, Option.map_eq_some_iff] at h
  obtain ⟨⟨c, c'⟩, hc, he⟩ := h
  cases sub_eq_zero.1 he
  obtain ⟨arc, p1, p2, d1, d2, ha, h1, h2, h3, h4, h5⟩ := arcBetween_smooth hE hr hc
  refine ⟨arc, p1, p2, d1, d2, ?_, h1, h2, h3, h4, h5, arcBetween_fresh ha⟩
  rw [calcTangentArc]
  dsimp only
  rw [ha, hok]
  rfl

theorem tangentArc_flag {asEuler : M3 → ℝ × ℝ × ℝ} {S : Solvers} {f1 f2 : ℝ → Option V3} {r : ℝ}
    {start : ℝ × ℝ} {q : Curve × ℝ × ℝ × Bool}
    (h : calcTangentArc asEuler S f1 f2 r start .equality = some q) (hq : q.2.2.2 = true) :
    (S.root (tangentCost f1 f2 r start) 0).success = true := by
  rw [calcTangentArc, Option.map_eq_some_iff] at h
  obtain ⟨arc, -, rfl⟩ := h
  exact hq

/-- **C103, root.** The root fillet in the ordinary case: the tooth meets the root circle within the half pitch,
one of the three attempts succeeds, and the first successful one has its contact points on the chain and within
the half pitch. Then the result is the fillet arc followed by the trimmed tooth. The arc has the requested
radius, starts on the root circle in the circle's direction and ends on the tooth in the tooth's direction. The
pieces are connected, and the tip end is kept if the trimmed member keeps a positive length. -/
theorem c103_root_partial {asEuler : M3 → ℝ × ℝ × ℝ} (hE : EulerOk asEuler) (S : ScalarSolvers) (hS : Honest S)
    (l : List Curve) (h : AllPos curveOps l) (hm : Meets curveOps l) (hL : 0 < chainLen curveOps l)
    (hg : ∀ a ∈ l, a.active = true → a.kind.Sampled ∧ a.updateLengths = a) (pitch : ℝ) (target : Curve) (r : ℝ)
    (hr : 0 < r) (sol : Solved (ℝ × ℝ))
    (hsol : sol = findCurveIntersect S.toSolvers (chainEval curveOps l) target.eval
      (1 / 2, -pitch / (2 * π) / 4 * (101 / 100)) .equality)
    (hok : sol.success = true) (hin : ∃ q, target.eval sol.x.2 = some q ∧ angleCheck pitch q)
    (start : ℝ → ℝ × ℝ)
    (hstart : ∀ g, start g = (sol.x.2 - g / target.length, sol.x.1 + g / chainLen curveOps l))
    (g : ℝ) (hgm : g ∈ [1 / 2 * r, 1 * r, 3 / 2 * r])
    (hs : (S.root (tangentCost target.eval (chainEval curveOps l) r (start g)) 0).success = true)
    (hfirst : ∀ g' ∈ [1 / 2 * r, 1 * r, 3 / 2 * r], g' < g →
      (S.root (tangentCost target.eval (chainEval curveOps l) r (start g')) 0).success = false)
    (t : ℝ × ℝ) (ht : t = contactParams S.toSolvers target.eval (chainEval curveOps l) r (start g))
    (hgood : 0 ≤ t.2 ∧ t.2 ≤ 1 ∧
      (∀ p, target.eval t.1 = some p → angleCheck pitch p) ∧
      ∀ p, chainEval curveOps l t.2 = some p → angleCheck pitch p) :
    ∃ arc after x a a' p1 p2 d1 d2,
      applyFillet asEuler S.toSolvers l pitch target r true = some (arc :: after) ∧
      chainSetStart curveOps l t.2 false = some after ∧ after.head? = some a' ∧ l = x ++ a :: after.tail ∧
      a'.eval 1 = a.eval 1 ∧ a'.eval 0 = some p2 ∧
      target.eval t.1 = some p1 ∧ chainEval curveOps l t.2 = some p2 ∧
      unitTangent target.eval t.1 = some d1 ∧ unitTangent (chainEval curveOps l) t.2 = some d2 ∧
      SmoothArc arc p1 p2 d1 d2 r ∧ angleCheck pitch p1 ∧ angleCheck pitch p2 ∧
      Meets curveOps (arc :: after) ∧
      (0 < a'.length → AllPos curveOps (arc :: after) ∧ chainEval curveOps (arc :: after) 0 = some p1 ∧
        chainEval curveOps (arc :: after) 1 = chainEval curveOps l 1) := by
  obtain ⟨attempt, hatt⟩ : ∃ attempt : ℝ → Option (Curve × ℝ × ℝ × Bool), attempt = fun g =>
    calcTangentArc asEuler S.toSolvers target.eval (chainEval curveOps l) r
      (sol.x.2 - g / target.length, sol.x.1 + g / chainLen curveOps l) .equality := ⟨_, rfl⟩
  have hatt' : ∀ g, attempt g = calcTangentArc asEuler S.toSolvers target.eval (chainEval curveOps l) r
      (start g) .equality := by intro g; rw [hatt, hstart]
  obtain ⟨arc, p1, p2, d1, d2, hc, h1, h2, h3, h4, h5, h6⟩ := tangentArc_success hE hS hr hs
  obtain ⟨t0, t1, k1, k2⟩ := hgood
  rw [← ht] at hc h1 h2 h3 h4
  have e1 := k1 p1 h1
  have e2 := k2 p2 h2
  have q3 := firstSuccess_three (attempt := attempt) hr hgm ((hatt' g).trans hc) (by
    intro g' hg' hlt q hq hflag
    rw [hatt'] at hq
    have := tangentArc_flag hq hflag
    rw [hfirst g' hg' hlt] at this
    cases this)
  obtain ⟨x, a, y, a', u1, u2, u3, u4, u5, u6, u7, -⟩ :=
    setStart_shape curve_lawful h hL hg t0 t1 h2
  obtain ⟨c, θ, g0, g1, g2, g3, g4, g5, g6, -⟩ := id h5
  obtain ⟨j1, j2, j3⟩ := join_before h hm hg u1 u3 u4 u5 u6 u7 g3 h6 g6 (h5.pos hr)
  refine ⟨arc, a' :: y, x, a, a', p1, p2, d1, d2, ?_, u2, rfl, by simpa using u1, u6, u7, h1,
    h2, h3, h4, h5, e1, e2, j2, fun hp => ?_⟩
  · rw [applyFillet]
    dsimp only
    rw [← hsol, if_pos ⟨hok, hin⟩, if_pos rfl, ← hatt, q3]
    dsimp only
    rw [if_pos ⟨⟨p1, g5, e1⟩, p2, g6, e2⟩, u2, Option.map_some, j1]
  · obtain ⟨j4, j5, j6⟩ := j3 hp
    exact ⟨j4, j5.trans g5, j6⟩

/-- **C103, tip.** The same for the tip fillet: the trimmed tooth followed by the arc, which leaves the tooth in
the tooth's direction and ends on the tip circle in the circle's direction; the root end is kept. -/
theorem c103_tip_partial {asEuler : M3 → ℝ × ℝ × ℝ} (hE : EulerOk asEuler) (S : ScalarSolvers) (hS : Honest S)
    (l : List Curve) (h : AllPos curveOps l) (hm : Meets curveOps l) (hL : 0 < chainLen curveOps l)
    (hg : ∀ a ∈ l, a.active = true → a.kind.Sampled ∧ a.updateLengths = a) (pitch : ℝ) (target : Curve) (r : ℝ)
    (hr : 0 < r) (sol : Solved (ℝ × ℝ))
    (hsol : sol = findCurveIntersect S.toSolvers (chainEval curveOps l) target.eval
      (1 / 2, -pitch / (2 * π) / 4 * (101 / 100)) .equality)
    (hok : sol.success = true) (hin : ∃ q, target.eval sol.x.2 = some q ∧ angleCheck pitch q)
    (start : ℝ → ℝ × ℝ)
    (hstart : ∀ g, start g = (sol.x.1 - g / chainLen curveOps l, sol.x.2 + g / target.length))
    (g : ℝ) (hgm : g ∈ [1 / 2 * r, 1 * r, 3 / 2 * r])
    (hs : (S.root (tangentCost (chainEval curveOps l) target.eval r (start g)) 0).success = true)
    (hfirst : ∀ g' ∈ [1 / 2 * r, 1 * r, 3 / 2 * r], g' < g →
      (S.root (tangentCost (chainEval curveOps l) target.eval r (start g')) 0).success = false)
    (t : ℝ × ℝ) (ht : t = contactParams S.toSolvers (chainEval curveOps l) target.eval r (start g))
    (hgood : 0 < t.1 ∧ t.1 ≤ 1 ∧
      (∀ p, chainEval curveOps l t.1 = some p → angleCheck pitch p) ∧
      ∀ p, target.eval t.2 = some p → angleCheck pitch p) :
    ∃ arc before y a a' p1 p2 d1 d2,
      applyFillet asEuler S.toSolvers l pitch target r false = some (before ++ [arc]) ∧
      chainSetEnd curveOps l t.1 false = some before ∧ before.getLast? = some a' ∧
      l = before.dropLast ++ a :: y ∧ a'.eval 0 = a.eval 0 ∧ a'.eval 1 = some p1 ∧
      chainEval curveOps l t.1 = some p1 ∧ target.eval t.2 = some p2 ∧
      unitTangent (chainEval curveOps l) t.1 = some d1 ∧ unitTangent target.eval t.2 = some d2 ∧
      SmoothArc arc p1 p2 d1 d2 r ∧ angleCheck pitch p1 ∧ angleCheck pitch p2 ∧
      Meets curveOps (before ++ [arc]) ∧
      (0 < a'.length → AllPos curveOps (before ++ [arc]) ∧ chainEval curveOps (before ++ [arc]) 1 = some p2 ∧
        chainEval curveOps (before ++ [arc]) 0 = chainEval curveOps l 0) := by
  obtain ⟨attempt, hatt⟩ : ∃ attempt : ℝ → Option (Curve × ℝ × ℝ × Bool), attempt = fun g =>
    calcTangentArc asEuler S.toSolvers (chainEval curveOps l) target.eval r
      (sol.x.1 - g / chainLen curveOps l, sol.x.2 + g / target.length) .equality := ⟨_, rfl⟩
  have hatt' : ∀ g, attempt g = calcTangentArc asEuler S.toSolvers (chainEval curveOps l) target.eval r
      (start g) .equality := by intro g; rw [hatt, hstart]
  obtain ⟨arc, p1, p2, d1, d2, hc, h1, h2, h3, h4, h5, h6⟩ := tangentArc_success hE hS hr hs
  obtain ⟨t0, t1, k1, k2⟩ := hgood
  rw [← ht] at hc h1 h2 h3 h4
  have e1 := k1 p1 h1
  have e2 := k2 p2 h2
  have q3 := firstSuccess_three (attempt := attempt) hr hgm ((hatt' g).trans hc) (by
    intro g' hg' hlt q hq hflag
    rw [hatt'] at hq
    have := tangentArc_flag hq hflag
    rw [hfirst g' hg' hlt] at this
    cases this)
  obtain ⟨x, a, y, a', u1, u2, u3, u4, u5, u6, u7, -⟩ :=
    setEnd_shape curve_lawful h hL hg t0 t1 h1
  obtain ⟨c, θ, g0, g1, g2, g3, g4, g5, g6, -⟩ := id h5
  obtain ⟨j1, j2, j3⟩ := join_after h hm hg u1 u3 u4 u5 u6 u7 g3 h6 g5 (h5.pos hr)
  refine ⟨arc, x ++ [a'], y, a, a', p1, p2, d1, d2, ?_, u2, by simp, by simpa using u1, u6,
    u7, h1, h2, h3, h4, h5, e1, e2, j2, fun hp => ?_⟩
  · rw [applyFillet]
    dsimp only
    rw [← hsol, if_pos ⟨hok, hin⟩, if_neg Bool.false_ne_true, ← hatt, q3]
    dsimp only
    rw [if_pos ⟨⟨p1, g5, e1⟩, p2, g6, e2⟩, u2, Option.map_some, j1]
  · obtain ⟨j4, j5, j6⟩ := j3 hp
    exact ⟨j4, j5.trans g6, j6⟩

/-! ### C104 -/

/-- Halving an arc: the trimmed arc runs over the second or the first half. Its reported length is still that of
the whole arc (see C94). -/
theorem arc_halves (r a : ℝ) (c : V3) (M : M3) (arc : Curve) (h : arc = .make (.arc r a c M) true 0 1) :
    (∃ d, arc.setStartOn (1 / 2) = some d ∧ d.active = true ∧ d.length = arc.length ∧
      (∀ s, d.eval s = arc.eval (1 / 2 + s / 2)) ∧ d.kind.Sampled ∧ d.updateLengths = d) ∧
    ∃ d, arc.setEndOn (1 / 2) = some d ∧ d.active = true ∧ d.length = arc.length ∧
      (∀ s, d.eval s = arc.eval (s / 2)) ∧ d.kind.Sampled ∧ d.updateLengths = d := by
  have hk : ∀ f n, CurveKind.arc r a c M ≠ .generic f n := by intro f n h; cases h
  have e : arc = (⟨.arc r a c M, true, 0, 1, 0, Lookup.default⟩ : Curve).updateLengths := by
    rw [h, Curve.make, if_pos rfl]
  have es : ∀ s, arc.s2t s = some s := by
    intro s
    rw [e, s2t_line_arc _ hk]
    simp
  have ev : ∀ s, arc.eval s = some ((CurveKind.arc r a c M).fn s) := by
    intro s; rw [h]; exact make_eval _ hk true s
  have hsam : ∀ t0 t1 : ℝ, ({ arc with t0 := t0, t1 := t1 } : Curve).updateLengths.kind.Sampled := by
    intro t0 t1
    rw [updateLengths_kind]
    change arc.kind.Sampled
    rw [e, updateLengths_kind]
    trivial
  have hev : ∀ t0 t1 s, ({ arc with t0 := t0, t1 := t1 } : Curve).updateLengths.eval s =
      some ((CurveKind.arc r a c M).fn (t0 + (t1 - t0) * s)) := by
    intro t0 t1 s
    have hkind : arc.kind = .arc r a c M := by rw [e, updateLengths_kind]
    rw [Curve.eval, s2t_line_arc _ (by rw [hkind]; exact hk), updateLengths_kind, Option.map_some]
    dsimp only
    rw [hkind]
  have hlen : ∀ t0 t1 : ℝ, ({ arc with t0 := t0, t1 := t1 } : Curve).updateLengths.length = arc.length := by
    intro t0 t1
    rw [e]; rfl
  have hact : ∀ t0 t1 : ℝ, ({ arc with t0 := t0, t1 := t1 } : Curve).updateLengths.active = true := by
    intro t0 t1
    rw [e]; rfl
  have h0 : arc.t0 = 0 := by rw [e]; rfl
  have h1 : arc.t1 = 1 := by rw [e]; rfl
  refine ⟨⟨({ arc with t0 := 1 / 2, t1 := arc.t1 } : Curve).updateLengths, ?_, hact _ _, hlen _ _, ?_, hsam _ _,
    updateLengths_idem _⟩, ⟨({ arc with t0 := arc.t0, t1 := 1 / 2 } : Curve).updateLengths, ?_, hact _ _,
    hlen _ _, ?_, hsam _ _, updateLengths_idem _⟩⟩
  · rw [Curve.setStartOn, es]; rfl
  · intro s
    rw [hev, ev, h1]
    congr 2; ring
  · rw [Curve.setEndOn, es]; rfl
  · intro s
    rw [hev, ev, h0]
    congr 2; ring

theorem rodrigues_add {n v : V3} (hn : dot n n = 1) (hv : dot n v = 0) (a b : ℝ) :
    rodrigues n a (rodrigues n b v) = rodrigues n (a + b) v := by
  have e : ∀ x, rodrigues n x v = cos x • v + sin x • cross n v := by
    intro x; rw [rodrigues, hv]; module
  have hp : dot n (rodrigues n b v) = 0 := by rw [dot_axis_rodrigues hn, hv]
  rw [rodrigues, hp, e b, e (a + b), cross_add_right, cross_smul_right, cross_smul_right, cross_cross_right, hn,
    hv, cos_add, sin_add]
  module

/-- An arc whose ends are mirror images of each other crosses the mirror plane at its middle, at a right angle,
and its centre is in that plane. -/
theorem half_geometry {n v c N : V3} {r θ : ℝ} (hn : dot n n = 1) (hv : dot n v = 0) (hvr : norm3 v = r)
    (hr : 0 < r) (h0 : 0 < θ) (h1 : θ < π) (hN : dot N N = 1)
    (hsym : c + v = mirrorFunc N 0 (c + rodrigues n θ v)) :
    dot c N = 0 ∧ dot (c + rodrigues n (θ / 2) v) N = 0 ∧
      ∃ k : ℝ, k ≠ 0 ∧ cross n (rodrigues n (θ / 2) v) = k • N := by
  obtain ⟨m, hm⟩ : ∃ m, m = rodrigues n (θ / 2) v := ⟨_, rfl⟩
  have hm' : m = cos (θ / 2) • v + sin (θ / 2) • cross n v := by
    rw [hm, rodrigues, hv]; module
  have hnm : cross n m = cos (θ / 2) • cross n v - sin (θ / 2) • v := by
    rw [hm', cross_add_right, cross_smul_right, cross_smul_right, cross_cross_right, hn, hv]
    module
  have hs := sin_sq_add_cos_sq (θ / 2)
  have hv' : v = cos (θ / 2) • m - sin (θ / 2) • cross n m := by
    rw [hnm, hm']
    have : (1 : ℝ) • v = (sin (θ / 2) ^ 2 + cos (θ / 2) ^ 2) • v := by rw [hs]
    rw [one_smul] at this
    nth_rw 1 [this]
    module
  have hw : rodrigues n θ v = cos (θ / 2) • m + sin (θ / 2) • cross n m := by
    have e1 : cos θ = cos (θ / 2) ^ 2 - sin (θ / 2) ^ 2 := by
      rw [← cos_two_mul']; congr 1; ring
    have e2 : sin θ = 2 * sin (θ / 2) * cos (θ / 2) := by
      rw [← sin_two_mul]; congr 1; ring
    rw [rodrigues, hv, e1, e2, hnm, hm']
    module
  rw [← hm]
  have hsin : 0 < sin (θ / 2) := sin_pos_of_pos_of_lt_pi (by linarith) (by linarith)
  obtain ⟨h, hh⟩ : ∃ h, h = dot (c + rodrigues n θ v) N := ⟨_, rfl⟩
  have hsym' : c + v = c + rodrigues n θ v - (2 * h) • N := by
    rw [hsym, mirrorFunc]
    rw [sub_zero, add_zero, ← hh]
  have hdiff : sin (θ / 2) • cross n m = h • N := by
    have e : (2 : ℝ) • (sin (θ / 2) • cross n m) = (2 : ℝ) • (h • N) := by
      have : rodrigues n θ v - v = (2 * h) • N := by
        have : rodrigues n θ v - v = (c + rodrigues n θ v) - (c + v) := by abel
        rw [this, hsym']; abel
      nth_rw 2 [hv'] at this
      rw [hw] at this
      calc (2 : ℝ) • (sin (θ / 2) • cross n m) = cos (θ / 2) • m + sin (θ / 2) • cross n m -
            (cos (θ / 2) • m - sin (θ / 2) • cross n m) := by module
        _ = _ := by rw [this]; module
    exact smul_right_injective V3 (two_ne_zero) e
  have hmm : dot m m = r ^ 2 := by
    rw [← norm3_mul_self, hm, norm3_rodrigues hn, hvr]; ring
  have hmn : dot n m = 0 := by
    rw [hm', dot_add_right, dot_smul_right, dot_smul_right, hv, dot_cross_left]; ring
  have hk : cross n m = (h / sin (θ / 2)) • N := by
    have : (sin (θ / 2))⁻¹ • (sin (θ / 2) • cross n m) = (sin (θ / 2))⁻¹ • (h • N) := by rw [hdiff]
    rw [smul_smul, smul_smul, inv_mul_cancel₀ hsin.ne', one_smul] at this
    rw [this]; congr 1; field_simp
  have hh0 : h ≠ 0 := by
    intro e
    rw [e, zero_div, zero_smul] at hk
    have h3 : dot (cross n m) (cross n m) = r ^ 2 := by
      rw [dot_cross_self, hn, hmm, hmn]; ring
    rw [hk, dot_zero_right] at h3
    have : 0 < r ^ 2 := by positivity
    linarith
  have hmN : dot m N = 0 := by
    have : dot m (cross n m) = 0 := dot_cross_right _ _
    rw [hk, dot_smul_right] at this
    rcases mul_eq_zero.1 this with e | e
    · exact absurd e (div_ne_zero hh0 hsin.ne')
    · exact e
  have hcN : dot c N = 0 := by
    have e1 : dot (c + v) N = -h := by
      rw [hsym', dot_sub_left, ← hh, dot_smul_left, hN]; ring
    have e2 : dot (c + v) N + dot (c + rodrigues n θ v) N = 2 * dot c N + 2 * cos (θ / 2) * dot m N := by
      rw [hw]
      nth_rw 1 [hv']
      simp only [dot_add_left, dot_sub_left, dot_smul_left]
      ring
    rw [e1, ← hh, hmN] at e2
    linarith
  exact ⟨hcN, by rw [dot_add_left, hcN, hmN, add_zero], h / sin (θ / 2), div_ne_zero hh0 hsin.ne', hk⟩

/-- The arc between two places whose centres coincide, with its parametrisation. -/
theorem arcBetween_turn {asEuler : M3 → ℝ × ℝ × ℝ} (hE : EulerOk asEuler) {f1 f2 : ℝ → Option V3}
    {r t1 t2 : ℝ} (hr : 0 < r) {c : V3} (h : calcCenters f1 f2 r t1 t2 = some (c, c)) :
    ∃ arc p1 p2 d1 d2 n θ, arcBetween asEuler f1 f2 r t1 t2 = some arc ∧ f1 t1 = some p1 ∧ f2 t2 = some p2 ∧
      unitTangent f1 t1 = some d1 ∧ unitTangent f2 t2 = some d2 ∧ SmoothArc arc p1 p2 d1 d2 r ∧
      norm3 (p1 - c) = r ∧ dot n n = 1 ∧ dot n (p1 - c) = 0 ∧ 0 < θ ∧ θ < π ∧
      (∀ s, arc.eval s = some (c + rodrigues n (θ * s) (p1 - c))) ∧ cross n (p2 - c) = r • d2 ∧
      cross n (p1 - c) = r • d1 ∧ ∃ a M, arc = .make (.arc r a c M) true 0 1 := by
  obtain ⟨p1, p2, d1, d2, h1, h2, h3, h4, hw, e⟩ := calcCenters_some h
  obtain ⟨arc, harc, hs, hn, n, θ, k1, k2, k3, k4, k5, k6, k7⟩ := smoothArc_of_center hE hr
    (unitTangent_unit h3) (unitTangent_unit h4) hw c (congrArg Prod.fst e) (congrArg Prod.snd e)
  refine ⟨arc, p1, p2, d1, d2, n, θ, ?_, h1, h2, h3, h4, hs, hn, k1, k2, k3, k4, k5, k6, k7, ?_⟩
  · rw [arcBetween, h, h1, h2]
    have : (1 / 2 : ℝ) • (c + c) = c := by module
    simp only [this]
    exact harc
  · rw [arcFrom2PointCenter] at harc
    split at harc
    · rw [← Option.some.inj harc, hn]
      exact ⟨_, _, rfl⟩
    · cases harc

theorem planeNormal_unit (a : ℝ) : dot (app (Rz a) UP) (app (Rz a) UP) = 1 := by
  rw [(IsRot.Rz a).dot_app]; simp [dot, UP]

theorem normalizeVector_one {N : V3} (h : dot N N = 1) : normalizeVector N = some N := by
  have hn : norm3 N = 1 := norm3_eq_of_dot zero_le_one (by rw [h]; ring)
  have hN : N ≠ 0 := by
    rintro rfl
    rw [dot_zero_right] at h
    norm_num at h
  rw [normalizeVector_some hN, hn, inv_one, one_smul]

/-- The mirrored and reversed copy of the tooth that `apply_fillet` uses where the fillet does not fit between
the teeth: `N` is the normal of the plane in the middle of the gap or of the tooth. -/
noncomputable def mirrorTooth (l : List Curve) (N : V3) : Curve :=
  (transformedCurve (mirrorFunc N 0) (fun t => (chainEval curveOps l t).getD 0) (l.any Curve.active)).reverse

/-- **C104, root.** Where the tooth does not meet the root circle within the half pitch, the root fillet is half
of an arc that is tangent to the tooth and to the mirror image of the tooth: if the solver's answer is
symmetric, the new tooth starts in the middle plane of the gap, at a right angle to it, and so continues
smoothly into its mirror image. The arc has the requested radius, its centre is in that plane, and it ends on
the tooth in the tooth's direction. The tip end is kept. -/
theorem c104_root_partial {asEuler : M3 → ℝ × ℝ × ℝ} (hE : EulerOk asEuler) (S : ScalarSolvers) (hS : Honest S)
    (l : List Curve) (h : AllPos curveOps l) (hm : Meets curveOps l) (hL : 0 < chainLen curveOps l)
    (hg : ∀ a ∈ l, a.active = true → a.kind.Sampled ∧ a.updateLengths = a) (pitch : ℝ) (target : Curve) (r : ℝ)
    (hr : 0 < r) (sol : Solved (ℝ × ℝ))
    (hsol : sol = findCurveIntersect S.toSolvers (chainEval curveOps l) target.eval
      (1 / 2, -pitch / (2 * π) / 4 * (101 / 100)) .equality)
    (hno : sol.success = false ∨ ∀ q, target.eval sol.x.2 = some q → ¬ angleCheck pitch q)
    (N : V3) (hN : N = app (Rz (-pitch / 2)) UP) (start : ℝ × ℝ)
    (hstart : start = (1 - r / chainLen curveOps l, r / chainLen curveOps l))
    (hs : (S.root (tangentCost (mirrorTooth l N).eval (chainEval curveOps l) r start) 0).success = true)
    (t : ℝ × ℝ) (ht : t = contactParams S.toSolvers (mirrorTooth l N).eval (chainEval curveOps l) r start)
    (ht2 : 0 ≤ t.2 ∧ t.2 ≤ 1)
    (hsym : (mirrorTooth l N).eval t.1 = (chainEval curveOps l t.2).map (mirrorFunc N 0)) :
    ∃ (arc : Curve) (after x : List Curve) (a a' : Curve) (p0 p2 d2 center : V3) (v k : ℝ),
      applyFillet asEuler S.toSolvers l pitch target r true = some (arc :: after) ∧
      chainSetStart curveOps l t.2 false = some after ∧ after.head? = some a' ∧ l = x ++ a :: after.tail ∧
      a'.eval 1 = a.eval 1 ∧ a'.eval 0 = some p2 ∧ chainEval curveOps l t.2 = some p2 ∧
      unitTangent (chainEval curveOps l) t.2 = some d2 ∧
      arc.eval 0 = some p0 ∧ dot p0 N = 0 ∧ arc.eval 1 = some p2 ∧ dot center N = 0 ∧
      (∀ s, ∃ p, arc.eval s = some p ∧ norm3 (p - center) = r) ∧ v ≠ 0 ∧ 0 < k ∧
      HasDerivAt (fun s => (arc.eval s).getD 0) (v • N) 0 ∧
      HasDerivAt (fun s => (arc.eval s).getD 0) (k • d2) 1 ∧
      Meets curveOps (arc :: after) ∧
      (0 < a'.length → AllPos curveOps (arc :: after) ∧ chainEval curveOps (arc :: after) 0 = some p0 ∧
        chainEval curveOps (arc :: after) 1 = chainEval curveOps l 1) := by
  have hNN : dot N N = 1 := by rw [hN]; exact planeNormal_unit _
  have hroot := hS.root _ _ hs
  rw [tangentCost, Option.map_eq_some_iff] at hroot
  obtain ⟨⟨c, c'⟩, hc, he⟩ := hroot
  cases sub_eq_zero.1 he
  obtain ⟨arc, p1, p2, d1, d2, n, θ, ha, h1, h2, h3, h4, h5, k1, k2, k3, k4, k5, k6, k7, k8, A, M, hA⟩ :=
    arcBetween_turn hE hr hc
  change (mirrorTooth l N).eval (contactParams S.toSolvers (mirrorTooth l N).eval (chainEval curveOps l) r
    start).1 = some p1 at h1
  change chainEval curveOps l (contactParams S.toSolvers (mirrorTooth l N).eval (chainEval curveOps l) r
    start).2 = some p2 at h2
  change unitTangent (chainEval curveOps l) (contactParams S.toSolvers (mirrorTooth l N).eval
    (chainEval curveOps l) r start).2 = some d2 at h4
  rw [← ht] at h1 h2 h4
  rw [h1, h2, Option.map_some] at hsym
  have hp12 := Option.some.inj hsym
  obtain ⟨x, a, y, a', u1, u2, u3, u4, u5, u6, u7, -⟩ :=
    setStart_shape curve_lawful h hL hg ht2.1 ht2.2 h2
  obtain ⟨_, θ', g0, g1, g2, g3, g4, g5, g6, -⟩ := id h5
  have hend : rodrigues n θ (p1 - c) = p2 - c := by
    have := k6 1
    rw [g6, mul_one] at this
    rw [Option.some.inj this]; abel
  obtain ⟨w1, w2, κ, w3, w4⟩ := half_geometry (c := c) (N := N) k2 k3 k1 hr k4 k5 hNN (by
    rw [hend, add_sub_cancel, add_sub_cancel]; exact hp12)
  obtain ⟨⟨d, b1, b2, b3, b4, b5⟩, -⟩ := arc_halves r A c M arc hA
  have hd : ∀ s, d.eval s = some (c + rodrigues n (θ * (1 / 2 + s / 2)) (p1 - c)) := fun s => (b4 s).trans (k6 _)
  have hd1 : d.eval 1 = some p2 := by rw [b4 1, ← g6]; norm_num
  have hder : ∀ s, HasDerivAt (fun s => (d.eval s).getD 0)
      ((θ / 2) • cross n (rodrigues n (θ * (1 / 2 + s / 2)) (p1 - c))) s := by
    intro s
    have e : (fun s => (d.eval s).getD 0) = fun s => c + rodrigues n (θ / 2 * s)
        (rodrigues n (θ / 2) (p1 - c)) := by
      funext s
      rw [hd s, Option.getD_some, rodrigues_add k2 k3]
      congr 2; ring
    have := hasDerivAt_rodrigues (v := rodrigues n (θ / 2) (p1 - c)) k2
      (by rw [dot_axis_rodrigues k2, k3]) c (θ / 2) s
    rw [e]
    rw [rodrigues_add k2 k3] at this
    rw [show θ * (1 / 2 + s / 2) = θ / 2 * s + θ / 2 by ring]
    exact this
  obtain ⟨j1, j2, j3⟩ := join_before h hm hg u1 u3 u4 u5 u6 u7 b2 b5 hd1 (by rw [b3]; exact h5.pos hr)
  have hd0 : d.eval 0 = some (c + rodrigues n (θ / 2) (p1 - c)) := by
    rw [hd 0]; congr 3; ring
  refine ⟨d, a' :: y, x, a, a', c + rodrigues n (θ / 2) (p1 - c), p2, d2, c, θ / 2 * κ, θ / 2 * r, ?_, u2, rfl,
    by simpa using u1, u6, u7, h2, h4, hd0, w2, hd1, w1, ?_, ?_, by positivity, ?_, ?_, j2, fun hp => ?_⟩
  · have hsharp : sharpFillet asEuler S.toSolvers l pitch r true = some (d :: a' :: y) := by
      rw [sharpFillet]
      simp only [if_true]
      rw [mirroredCurve, rotateVector, ← hN, normalizeVector_one hNN, Option.map_some]
      dsimp only
      rw [zero_add, ← hstart, ORIGIN_eq]
      change (calcTangentArc asEuler S.toSolvers (mirrorTooth l N).eval (chainEval curveOps l) r start .equality).bind
        _ = _
      rw [calcTangentArc]
      dsimp only
      rw [ha, Option.map_some, Option.bind_some]
      dsimp only
      rw [b1, Option.bind_some]
      change (chainSetStart curveOps l (contactParams S.toSolvers (mirrorTooth l N).eval (chainEval curveOps l) r
        start).2 false).map _ = _
      rw [← ht, u2, Option.map_some, j1]
    rw [applyFillet]
    dsimp only
    rw [← hsol, if_neg, hsharp]
    rintro ⟨o1, q, o2, o3⟩
    rcases hno with o | o
    · rw [o] at o1; cases o1
    · exact o q o2 o3
  · intro s
    refine ⟨_, hd s, ?_⟩
    rw [add_sub_cancel_left, norm3_rodrigues k2, k1]
  · exact mul_ne_zero (by positivity) w3
  · have := hder 0
    rw [show θ * (1 / 2 + 0 / 2) = θ / 2 by ring, w4, smul_smul] at this
    exact this
  · have := hder 1
    rw [show θ * (1 / 2 + 1 / 2) = θ by ring, hend, k7, smul_smul] at this
    exact this
  · obtain ⟨j4, j5, j6⟩ := j3 hp
    exact ⟨j4, j5.trans hd0, j6⟩

/-- **C104, tip.** The same for the tip: the new tooth ends in the middle plane of the tooth, at a right angle to
it, after an arc that leaves the tooth in the tooth's direction. The root end is kept. -/
theorem c104_tip_partial {asEuler : M3 → ℝ × ℝ × ℝ} (hE : EulerOk asEuler) (S : ScalarSolvers) (hS : Honest S)
    (l : List Curve) (h : AllPos curveOps l) (hm : Meets curveOps l) (hL : 0 < chainLen curveOps l)
    (hg : ∀ a ∈ l, a.active = true → a.kind.Sampled ∧ a.updateLengths = a) (pitch : ℝ) (target : Curve) (r : ℝ)
    (hr : 0 < r) (sol : Solved (ℝ × ℝ))
    (hsol : sol = findCurveIntersect S.toSolvers (chainEval curveOps l) target.eval
      (1 / 2, -pitch / (2 * π) / 4 * (101 / 100)) .equality)
    (hno : sol.success = false ∨ ∀ q, target.eval sol.x.2 = some q → ¬ angleCheck pitch q) (start : ℝ × ℝ)
    (hstart : start = (1 - r / chainLen curveOps l, r / chainLen curveOps l))
    (hs : (S.root (tangentCost (chainEval curveOps l) (mirrorTooth l UP).eval r start) 0).success = true)
    (t : ℝ × ℝ) (ht : t = contactParams S.toSolvers (chainEval curveOps l) (mirrorTooth l UP).eval r start)
    (ht1 : 0 < t.1 ∧ t.1 ≤ 1)
    (hsym : (mirrorTooth l UP).eval t.2 = (chainEval curveOps l t.1).map (mirrorFunc UP 0)) :
    ∃ (arc : Curve) (before y : List Curve) (a a' : Curve) (p0 p1 d1 center : V3) (v k : ℝ),
      applyFillet asEuler S.toSolvers l pitch target r false = some (before ++ [arc]) ∧
      chainSetEnd curveOps l t.1 false = some before ∧ before.getLast? = some a' ∧
      l = before.dropLast ++ a :: y ∧ a'.eval 0 = a.eval 0 ∧ a'.eval 1 = some p1 ∧
      chainEval curveOps l t.1 = some p1 ∧ unitTangent (chainEval curveOps l) t.1 = some d1 ∧
      arc.eval 0 = some p1 ∧ arc.eval 1 = some p0 ∧ p0 1 = 0 ∧ center 1 = 0 ∧
      (∀ s, ∃ p, arc.eval s = some p ∧ norm3 (p - center) = r) ∧ v ≠ 0 ∧ 0 < k ∧
      HasDerivAt (fun s => (arc.eval s).getD 0) (k • d1) 0 ∧
      HasDerivAt (fun s => (arc.eval s).getD 0) (v • UP) 1 ∧
      Meets curveOps (before ++ [arc]) ∧
      (0 < a'.length → AllPos curveOps (before ++ [arc]) ∧ chainEval curveOps (before ++ [arc]) 1 = some p0 ∧
        chainEval curveOps (before ++ [arc]) 0 = chainEval curveOps l 0) := by
  have hNN : dot UP UP = 1 := by simp [dot, UP]
  have hup : ∀ p : V3, dot p UP = p 1 := by intro p; simp [dot, UP]
  have hroot := hS.root _ _ hs
  rw [tangentCost, Option.map_eq_some_iff] at hroot
  obtain ⟨⟨c, c'⟩, hc, he⟩ := hroot
  cases sub_eq_zero.1 he
  obtain ⟨arc, p1, p2, d1, d2, n, θ, ha, h1, h2, h3, h4, h5, k1, k2, k3, k4, k5, k6, k7, k8, A, M, hA⟩ :=
    arcBetween_turn hE hr hc
  change chainEval curveOps l (contactParams S.toSolvers (chainEval curveOps l) (mirrorTooth l UP).eval r
    start).1 = some p1 at h1
  change (mirrorTooth l UP).eval (contactParams S.toSolvers (chainEval curveOps l) (mirrorTooth l UP).eval r
    start).2 = some p2 at h2
  change unitTangent (chainEval curveOps l) (contactParams S.toSolvers (chainEval curveOps l)
    (mirrorTooth l UP).eval r start).1 = some d1 at h3
  rw [← ht] at h1 h2 h3
  rw [h1, h2, Option.map_some] at hsym
  have hp12 : p1 = mirrorFunc UP 0 p2 := by rw [Option.some.inj hsym, c51_involution _ _ _ hNN]
  obtain ⟨x, a, y, a', u1, u2, u3, u4, u5, u6, u7, -⟩ :=
    setEnd_shape curve_lawful h hL hg ht1.1 ht1.2 h1
  obtain ⟨_, θ', g0, g1, g2, g3, g4, g5, g6, -⟩ := id h5
  have hend : rodrigues n θ (p1 - c) = p2 - c := by
    have := k6 1
    rw [g6, mul_one] at this
    rw [Option.some.inj this]; abel
  obtain ⟨w1, w2, κ, w3, w4⟩ := half_geometry (c := c) (N := UP) k2 k3 k1 hr k4 k5 hNN (by
    rw [hend, add_sub_cancel, add_sub_cancel]; exact hp12)
  obtain ⟨-, d, b1, b2, b3, b4, b5⟩ := arc_halves r A c M arc hA
  have hd : ∀ s, d.eval s = some (c + rodrigues n (θ / 2 * s) (p1 - c)) := by
    intro s; rw [b4, k6]; congr 3; ring
  have hd0 : d.eval 0 = some p1 := by rw [b4 0, ← g5]; norm_num
  have hder : ∀ s, HasDerivAt (fun s => (d.eval s).getD 0)
      ((θ / 2) • cross n (rodrigues n (θ / 2 * s) (p1 - c))) s := by
    intro s
    have e : (fun s => (d.eval s).getD 0) = fun s => c + rodrigues n (θ / 2 * s) (p1 - c) := by
      funext s
      rw [hd s, Option.getD_some]
    rw [e]
    exact hasDerivAt_rodrigues k2 k3 c (θ / 2) s
  obtain ⟨j1, j2, j3⟩ := join_after h hm hg u1 u3 u4 u5 u6 u7 b2 b5 hd0 (by rw [b3]; exact h5.pos hr)
  have hd1 : d.eval 1 = some (c + rodrigues n (θ / 2) (p1 - c)) := by
    rw [hd 1, mul_one]
  refine ⟨d, x ++ [a'], y, a, a', c + rodrigues n (θ / 2) (p1 - c), p1, d1, c, θ / 2 * κ, θ / 2 * r, ?_, u2,
    by simp, by simpa using u1, u6, u7, h1, h3, hd0, hd1, (hup _).symm.trans w2, (hup _).symm.trans w1, ?_, ?_,
    by positivity, ?_, ?_, j2, fun hp => ?_⟩
  · have hsharp : sharpFillet asEuler S.toSolvers l pitch r false = some ((x ++ [a']) ++ [d]) := by
      rw [sharpFillet]
      simp only [Bool.false_eq_true, if_false]
      rw [mirroredCurve, normalizeVector_one hNN, Option.map_some]
      dsimp only
      rw [zero_add, ← hstart, ORIGIN_eq]
      change (calcTangentArc asEuler S.toSolvers (chainEval curveOps l) (mirrorTooth l UP).eval r start .equality).bind
        _ = _
      rw [calcTangentArc]
      dsimp only
      rw [ha, Option.map_some, Option.bind_some]
      dsimp only
      rw [b1, Option.bind_some]
      change (chainSetEnd curveOps l (contactParams S.toSolvers (chainEval curveOps l) (mirrorTooth l UP).eval r
        start).1 false).map _ = _
      rw [← ht, u2, Option.map_some, j1]
    rw [applyFillet]
    dsimp only
    rw [← hsol, if_neg, hsharp]
    rintro ⟨o1, q, o2, o3⟩
    rcases hno with o | o
    · rw [o] at o1; cases o1
    · exact o q o2 o3
  · intro s
    refine ⟨_, hd s, ?_⟩
    rw [add_sub_cancel_left, norm3_rodrigues k2, k1]
  · exact mul_ne_zero (by positivity) w3
  · have := hder 0
    rw [mul_zero, show rodrigues n 0 (p1 - c) = p1 - c by simp [rodrigues], k8, smul_smul] at this
    exact this
  · have := hder 1
    rw [mul_one, w4, smul_smul] at this
    exact this
  · obtain ⟨j4, j5, j6⟩ := j3 hp
    exact ⟨j4, j5.trans hd1, j6⟩

end Verif
