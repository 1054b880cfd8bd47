import Verif.Props.Trim
import Verif.Props.ChainQuery

/-!
# More on C101 and C105: which solver answers are used, and where
-/

namespace Verif

open Real

/-- **C101, attempts.** If one of the three starts leads to a success, a successful answer is used. -/
theorem c101_attempts (S : Solvers) (f : ℝ → Option V3) (length radius : ℝ) (start : ℝ × ℝ)
    (h : ∃ g ∈ [0, ![radius / length, radius / length, 0], ![DELTA, DELTA, 0]],
      (S.root (tangentCost f f radius start) g).success = true) :
    ∃ g, filletRoot S f length radius start = S.root (tangentCost f f radius start) g ∧
      (filletRoot S f length radius start).success = true := by
  rw [filletRoot]
  by_cases h1 : (S.root (tangentCost f f radius start) 0).success = true
  · rw [if_pos h1, if_pos h1]; exact ⟨0, rfl, h1⟩
  · rw [if_neg h1]
    by_cases h2 : (S.root (tangentCost f f radius start) ![radius / length, radius / length, 0]).success = true
    · rw [if_pos h2]; exact ⟨_, rfl, h2⟩
    · rw [if_neg h2]
      obtain ⟨g, hg, hs⟩ := h
      simp only [List.mem_cons, List.not_mem_nil, or_false] at hg
      rcases hg with rfl | rfl | rfl
      · exact absurd hs h1
      · exact absurd hs h2
      · exact ⟨_, rfl, hs⟩

/-- A solver that succeeds at the second start only. -/
example : ∃ S : Solvers, (∃ g ∈ [0, ![(1 : ℝ) / 2, 1 / 2, 0], ![DELTA, DELTA, 0]],
    (S.root (tangentCost (fun _ => none) (fun _ => none) 1 (0, 0)) g).success = true) ∧
    (S.root (tangentCost (fun _ => none) (fun _ => none) 1 (0, 0)) 0).success = false := by
  classical
  refine ⟨⟨fun _ g => ⟨decide (g = ![1 / 2, 1 / 2, 0]), g⟩, fun _ g => ⟨false, g⟩⟩, ⟨![1 / 2, 1 / 2, 0], by simp, ?_⟩, ?_⟩
  · simp
  · rw [decide_eq_false_iff_not]
    intro e; have := congrFun e 0; norm_num at this

/-- **C101, `fillet_at_index`.** The starting positions lie a radius after and before the end of the member with that
index; a negative index counts from the last member. -/
theorem c101_index (asEuler : M3 → ℝ × ℝ × ℝ) (S : Solvers) (l : List Curve) (radius : ℝ) (h : AllPos curveOps l)
    (i : ℕ) (a : Curve) (ha : l[i]? = some a) (hact : a.active = true) (index : ℤ)
    (hi : index = i ∨ index = (i : ℤ) - l.length) :
    ∃ loc, filletAtIndex asEuler S l radius index = filletAtLocations asEuler S l radius
        (loc + radius / chainLen curveOps l, loc - radius / chainLen curveOps l) ∧
      chainEval curveOps l loc = a.eval 1 := by
  have hlt := (List.getElem?_eq_some_iff.1 ha).1
  have hL := chainLen_pos_of h ⟨a, List.mem_of_getElem? ha, hact⟩
  have hmod : (index % (l.length : ℤ)).toNat = i := by
    have : index % (l.length : ℤ) = i := by
      rcases hi with rfl | rfl
      · exact Int.emod_eq_of_lt (by omega) (by omega)
      · rw [Int.sub_emod_right]; exact Int.emod_eq_of_lt (by omega) (by omega)
    rw [this]; simp
  refine ⟨portion curveOps l (i + 1), ?_, join_value h hL ha hact⟩
  rw [filletAtIndex, if_neg (by omega), hmod, fillet]

/-- The corner of two lines, by the first index and by a negative one. -/
example : ∃ (l : List Curve) (a : Curve), AllPos curveOps l ∧ l[0]? = some a ∧ a.active = true ∧ l.length = 2 ∧
    (-2 : ℤ) = ((0 : ℕ) : ℤ) - l.length :=
  ⟨_, _, c108_case.1, rfl, lineC_active _ _, rfl, by simp⟩

section
variable {α : Type} {o : CurveOps α} {Good : α → Prop}

/-- **C105, tip, when both solver calls fail (partial).** The last answer is used exactly if the two points are closer than
1e-5 and the tooth's point lies before the middle of the tooth; otherwise the tooth is cut at the answer of the plane
search. -/
theorem c105_tolerance_partial (hl : Lawful o Good) (S : ScalarSolvers) (tooth : α) (hg : Good tooth) (rA : Curve)
    (pitch : ℝ) (s1 s2 : Solved (ℝ × ℝ))
    (h1 : s1 = findCurveIntersect S.toSolvers (o.eval tooth) rA.eval (9 / 10, -pitch / 8 / rA.length) .equality)
    (h2 : s2 = findCurveIntersect S.toSolvers (o.eval tooth) rA.eval (9 / 10, -pitch / 8 / rA.length) .minDistance)
    (f1 : s1.success = false) (f2 : s2.success = false) (p q m : V3) (hp : o.eval tooth s2.x.1 = some p)
    (hq : rA.eval s2.x.2 = some q)
    (hm : o.eval tooth (findCurvePlaneIntersect S (o.eval tooth) UP 1).x = some m) :
    ∃ t, trimTip o S tooth rA 0 pitch = some t ∧ o.eval t 0 = o.eval tooth 0 ∧
      (norm3 (p - q) < 1 / 100000 ∧ p 1 < 0 → o.eval t 1 = some p) ∧
      (¬ (norm3 (p - q) < 1 / 100000 ∧ p 1 < 0) → o.eval t 1 = some m) := by
  have hclose : isClose (o.eval tooth) rA.eval s2.x ↔ norm3 (p - q) < 1 / 100000 := by
    have hd : curveDiff (o.eval tooth) rA.eval s2.x.1 s2.x.2 = some (p - q) := by rw [curveDiff, hp, hq]
    rw [isClose, hd]
    constructor
    · rintro ⟨d, e, hn⟩; rw [← Option.some.inj e] at hn; norm_num at hn ⊢; exact hn
    · intro hn; exact ⟨_, rfl, by norm_num at hn ⊢; exact hn⟩
  rw [trimTip, if_neg (lt_irrefl _)]
  dsimp only
  rw [← h1, ← h2, show (if s1.success = true then s1 else s2) = s2 by rw [f1]; simp]
  by_cases hc : norm3 (p - q) < 1 / 100000 ∧ p 1 < 0
  · rw [if_pos ⟨Or.inr (hclose.2 hc.1), p, hp, hc.2⟩]
    obtain ⟨t, q1, -, -, q4, q5⟩ := hl.fin tooth _ p hg hp
    exact ⟨t, q1, q5, fun _ => q4, fun h => absurd hc h⟩
  · rw [if_neg]
    · obtain ⟨t, q1, -, -, q4, q5⟩ := hl.fin tooth _ m hg hm
      exact ⟨t, q1, q5, fun h => absurd h hc, fun _ => q4⟩
    · rintro ⟨hs, p', hp', hy⟩
      rw [hp] at hp'
      rw [← Option.some.inj hp'] at hy
      rw [f2] at hs
      exact hc ⟨hclose.1 (hs.resolve_left (by simp)), hy⟩

end

/-- Solvers that always give up at zero; a tooth that starts 1e-6 away from the tip curve is cut there. -/
theorem c105_tolerance_case : ∃ (S : ScalarSolvers) (tooth rA t : Curve) (p : V3),
    tooth = lineC ![1, -1 / 1000000, 0] UP ∧ tooth.eval 0 = some p ∧
    trimTip curveOps S tooth rA 0 1 = some t ∧ t.eval 1 = some p := by
  obtain ⟨S, hS⟩ : ∃ S : ScalarSolvers, S = ⟨⟨fun _ _ => ⟨false, 0⟩, fun _ _ => ⟨false, 0⟩⟩,
    fun _ _ => ⟨false, 0⟩, fun _ _ => ⟨false, 0⟩⟩ := ⟨_, rfl⟩
  obtain ⟨t, h1, -, h3, -⟩ := c105_tolerance_partial curve_lawful S (lineC ![1, -1 / 1000000, 0] UP)
    (lineC_fresh _ _) (lineC RIGHT UP) 1 ⟨false, 0⟩ ⟨false, 0⟩ (by rw [hS]; rfl) (by rw [hS]; rfl) rfl rfl
    _ _ _ (lineC_eval _ _ 0) (lineC_eval _ _ 0) (by rw [hS]; exact lineC_eval _ _ 0)
  refine ⟨S, _, _, t, _, rfl, lineC_eval _ _ 0, h1, h3 ⟨?_, ?_⟩⟩
  · have : (1 - (0 : ℝ)) • ![1, -1 / 1000000, 0] + (0 : ℝ) • UP - ((1 - (0 : ℝ)) • RIGHT + (0 : ℝ) • UP) =
        ![0, -1 / 1000000, 0] := by apply V3.ext3 <;> simp [RIGHT]
    rw [this, norm3, sqrt_lt' (by norm_num)]
    simp [dot]; norm_num
  · simp; norm_num

end Verif
