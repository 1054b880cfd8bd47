import Verif.Props.TrimEx
import Verif.Props.Radii

/-!
# C150: on which side of the reference circle a fillet lies

The root fillet of `apply_fillet` (gggears_core.py:230-339) fills the corner outside the root circle, the tip fillet rounds
the corner inside the tip circle.
-/

namespace Verif

open Real

/-- A point at distance `r` from a centre at distance `C` from the axis. -/
theorem axisDist_near {p c : V3} {r C : ℝ} (hr : 0 ≤ r) (hC : 0 ≤ C) (hz : p 2 = c 2) (hp : norm3 (p - c) = r)
    (hc : c 0 ^ 2 + c 1 ^ 2 = C ^ 2) : |C - r| ≤ axisDist p ∧ axisDist p ≤ C + r := by
  have h1 : (p 0 - c 0) ^ 2 + (p 1 - c 1) ^ 2 = r ^ 2 := by
    have := norm3_mul_self (p - c)
    rw [hp] at this
    simp only [dot, Pi.sub_apply, hz] at this
    nlinarith [this]
  have h2 : (c 0 * (p 0 - c 0) + c 1 * (p 1 - c 1)) ^ 2 ≤ (C * r) ^ 2 := by
    rw [mul_pow, ← hc, ← h1]
    nlinarith [sq_nonneg (c 0 * (p 1 - c 1) - c 1 * (p 0 - c 0))]
  have h3 := abs_le_of_sq_le_sq' h2 (mul_nonneg hC hr)
  have h4 : p 0 ^ 2 + p 1 ^ 2 = C ^ 2 + 2 * (c 0 * (p 0 - c 0) + c 1 * (p 1 - c 1)) + r ^ 2 := by
    rw [← hc, ← h1]; ring
  rw [axisDist]
  constructor
  · apply le_sqrt_of_sq_le
    rw [sq_abs, h4]
    nlinarith [h3.1]
  · rw [sqrt_le_left (by positivity), h4]
    nlinarith [h3.2]

/-- The centre of an arc whose end is on a circle about the axis and runs along it. -/
theorem SmoothArc.beside {arc : Curve} {p1 p2 d1 d2 : V3} {r : ℝ} (h : SmoothArc arc p1 p2 d1 d2 r)
    (e1 : d1 2 = 0) (e2 : d2 2 = 0) {k : ℝ} (hk : k = d1 0 * d2 1 - d1 1 * d2 0) (hk0 : k ≠ 0) :
    ∃ c : V3, (∀ s, ∃ p, arc.eval s = some p ∧ norm3 (p - c) = r ∧ p 2 = c 2) ∧
      c = p1 + (r * (k / |k|)) • ![-d1 1, d1 0, 0] ∧ c = p2 + (r * (k / |k|)) • ![-d2 1, d2 0, 0] := by
  have hX : cross d1 d2 = ![0, 0, k] := by
    apply V3.ext3 <;> simp [e1, e2, hk]
  have hN : norm3 (![0, 0, k] : V3) = |k| := norm3_eq_of_dot (abs_nonneg _) (by simp [dot]; ring_nf)
  obtain ⟨c, θ, -, -, -, -, -, -, -, hall, -, -, hc1, hc2⟩ := h
  rw [hX, hN] at hc1 hc2
  refine ⟨c, fun s => ?_, ?_, ?_⟩
  · obtain ⟨p, q1, q2, q3⟩ := hall s
    refine ⟨p, q1, q2, ?_⟩
    rw [hX] at q3
    simp only [dot] at q3
    simp at q3
    rcases q3 with q3 | q3
    · linarith
    · exact absurd q3 hk0
  · rw [hc1]
    apply V3.ext3 <;> simp [e1] <;> ring
  · rw [hc2]
    apply V3.ext3 <;> simp [e2] <;> ring

/-- **C150, root.** In the situation of C103, with a tooth that where the fillet ends runs in the plane of
the gear and away from the axis, the root fillet lies outside the root circle, no further from it than its diameter: no material is taken from the
rim below the root circle. -/
theorem c150_root {asEuler : M3 → ℝ × ℝ × ℝ} (hE : EulerOk asEuler) (S : ScalarSolvers) (hS : Honest S)
    (l : List Curve) (h : AllPos curveOps l) (hm : Meets curveOps l) (hL : 0 < chainLen curveOps l)
    (hg : ∀ a ∈ l, a.active = true → a.kind.Sampled ∧ a.updateLengths = a) (pitch R r : ℝ) (hR : 0 < R)
    (hr : 0 < r) (sol : Solved (ℝ × ℝ))
    (hsol : sol = findCurveIntersect S.toSolvers (chainEval curveOps l) (circ R).eval
      (1 / 2, -pitch / (2 * π) / 4 * (101 / 100)) .equality)
    (hok : sol.success = true) (hin : ∃ q, (circ R).eval sol.x.2 = some q ∧ angleCheck pitch q)
    (start : ℝ → ℝ × ℝ)
    (hstart : ∀ g, start g = (sol.x.2 - g / (circ R).length, sol.x.1 + g / chainLen curveOps l))
    (g : ℝ) (hgm : g ∈ [1 / 2 * r, 1 * r, 3 / 2 * r])
    (hs : (S.root (tangentCost (circ R).eval (chainEval curveOps l) r (start g)) 0).success = true)
    (hfirst : ∀ g' ∈ [1 / 2 * r, 1 * r, 3 / 2 * r], g' < g →
      (S.root (tangentCost (circ R).eval (chainEval curveOps l) r (start g')) 0).success = false)
    (t : ℝ × ℝ) (ht : t = contactParams S.toSolvers (circ R).eval (chainEval curveOps l) r (start g))
    (hgood : 0 ≤ t.2 ∧ t.2 ≤ 1 ∧
      (∀ p, (circ R).eval t.1 = some p → angleCheck pitch p) ∧
      ∀ p, chainEval curveOps l t.2 = some p → angleCheck pitch p)
    (hplane : ∀ d, unitTangent (chainEval curveOps l) t.2 = some d → d 2 = 0)
    (hout : ∀ p d, (circ R).eval t.1 = some p → unitTangent (chainEval curveOps l) t.2 = some d →
      0 < p 0 * d 0 + p 1 * d 1) :
    ∃ arc after, applyFillet asEuler S.toSolvers l pitch (circ R) r true = some (arc :: after) ∧
      ∀ s, ∃ p, arc.eval s = some p ∧ p 2 = 0 ∧ R ≤ axisDist p ∧ axisDist p ≤ R + 2 * r := by
  obtain ⟨arc, after, x, a, a', p1, p2, d1, d2, k1, -, -, -, -, -, k7, k8, k9, k10, k11, -⟩ :=
    c103_root_partial hE S hS l h hm hL hg pitch (circ R) r hr sol hsol hok hin start hstart g hgm hs hfirst t ht hgood
  have hpos := hout p1 d2 k7 k10
  have hd2 := hplane d2 k10
  rw [circ_eval] at k7
  rw [circ_tangent hR] at k9
  obtain ⟨C, hC⟩ : ∃ C, C = cos (2 * π * t.1) := ⟨_, rfl⟩
  obtain ⟨Z, hZ⟩ : ∃ Z, Z = sin (2 * π * t.1) := ⟨_, rfl⟩
  have hCZ : C ^ 2 + Z ^ 2 = 1 := by rw [hC, hZ]; exact cos_sq_add_sin_sq _
  rw [← hC, ← hZ] at k7 k9
  cases Option.some.inj k7
  cases Option.some.inj k9
  simp at hpos
  have hk : -Z * d2 1 - C * d2 0 < 0 := by
    have : R * (C * d2 0 + Z * d2 1) = R * C * d2 0 + R * Z * d2 1 := by ring
    rw [← this] at hpos
    have := pos_of_mul_pos_right hpos hR.le
    linarith
  obtain ⟨c, q1, q2, -⟩ := k11.beside (by simp) hd2 (k := -Z * d2 1 - C * d2 0) (by simp) hk.ne
  rw [abs_of_neg hk, div_neg, div_self hk.ne] at q2
  have c0 : c 0 = (R + r) * C := by rw [q2]; simp; ring
  have c1 : c 1 = (R + r) * Z := by rw [q2]; simp; ring
  have c2 : c 2 = 0 := by rw [q2]; simp
  refine ⟨arc, after, k1, fun s => ?_⟩
  obtain ⟨p, e1, e2, e3⟩ := q1 s
  obtain ⟨w1, w2⟩ := axisDist_near (C := R + r) hr.le (by positivity) e3 e2 (by rw [c0, c1]; linear_combination (R + r) ^ 2 * hCZ)
  rw [add_sub_cancel_right, abs_of_pos hR] at w1
  exact ⟨p, e1, e3.trans c2, w1, by linarith⟩

/-- **C150, tip.** The same for the tip fillet with a radius of at most the tip radius: it lies inside the tip circle, no
further from it than its diameter. -/
theorem c150_tip {asEuler : M3 → ℝ × ℝ × ℝ} (hE : EulerOk asEuler) (S : ScalarSolvers) (hS : Honest S)
    (l : List Curve) (h : AllPos curveOps l) (hm : Meets curveOps l) (hL : 0 < chainLen curveOps l)
    (hg : ∀ a ∈ l, a.active = true → a.kind.Sampled ∧ a.updateLengths = a) (pitch R r : ℝ) (hrR : r ≤ R)
    (hr : 0 < r) (sol : Solved (ℝ × ℝ))
    (hsol : sol = findCurveIntersect S.toSolvers (chainEval curveOps l) (circ R).eval
      (1 / 2, -pitch / (2 * π) / 4 * (101 / 100)) .equality)
    (hok : sol.success = true) (hin : ∃ q, (circ R).eval sol.x.2 = some q ∧ angleCheck pitch q)
    (start : ℝ → ℝ × ℝ)
    (hstart : ∀ g, start g = (sol.x.1 - g / chainLen curveOps l, sol.x.2 + g / (circ R).length))
    (g : ℝ) (hgm : g ∈ [1 / 2 * r, 1 * r, 3 / 2 * r])
    (hs : (S.root (tangentCost (chainEval curveOps l) (circ R).eval r (start g)) 0).success = true)
    (hfirst : ∀ g' ∈ [1 / 2 * r, 1 * r, 3 / 2 * r], g' < g →
      (S.root (tangentCost (chainEval curveOps l) (circ R).eval r (start g')) 0).success = false)
    (t : ℝ × ℝ) (ht : t = contactParams S.toSolvers (chainEval curveOps l) (circ R).eval r (start g))
    (hgood : 0 < t.1 ∧ t.1 ≤ 1 ∧
      (∀ p, chainEval curveOps l t.1 = some p → angleCheck pitch p) ∧
      ∀ p, (circ R).eval t.2 = some p → angleCheck pitch p)
    (hplane : ∀ d, unitTangent (chainEval curveOps l) t.1 = some d → d 2 = 0)
    (hout : ∀ p d, (circ R).eval t.2 = some p → unitTangent (chainEval curveOps l) t.1 = some d →
      0 < p 0 * d 0 + p 1 * d 1) :
    ∃ before arc, applyFillet asEuler S.toSolvers l pitch (circ R) r false = some (before ++ [arc]) ∧
      ∀ s, ∃ p, arc.eval s = some p ∧ p 2 = 0 ∧ R - 2 * r ≤ axisDist p ∧ axisDist p ≤ R := by
  have hR : 0 < R := hr.trans_le hrR
  obtain ⟨arc, before, y, a, a', p1, p2, d1, d2, k1, -, -, -, -, -, k7, k8, k9, k10, k11, -⟩ :=
    c103_tip_partial hE S hS l h hm hL hg pitch (circ R) r hr sol hsol hok hin start hstart g hgm hs hfirst t ht hgood
  have hpos := hout p2 d1 k8 k9
  have hd1 := hplane d1 k9
  rw [circ_eval] at k8
  rw [circ_tangent hR] at k10
  obtain ⟨C, hC⟩ : ∃ C, C = cos (2 * π * t.2) := ⟨_, rfl⟩
  obtain ⟨Z, hZ⟩ : ∃ Z, Z = sin (2 * π * t.2) := ⟨_, rfl⟩
  have hCZ : C ^ 2 + Z ^ 2 = 1 := by rw [hC, hZ]; exact cos_sq_add_sin_sq _
  rw [← hC, ← hZ] at k8 k10
  cases Option.some.inj k8
  cases Option.some.inj k10
  simp at hpos
  have hk : 0 < d1 0 * C - d1 1 * (-Z) := by
    have : R * (C * d1 0 + Z * d1 1) = R * C * d1 0 + R * Z * d1 1 := by ring
    rw [← this] at hpos
    have := pos_of_mul_pos_right hpos hR.le
    linarith
  obtain ⟨c, q1, -, q2⟩ := k11.beside hd1 (by simp) (k := d1 0 * C - d1 1 * (-Z)) (by simp) hk.ne'
  rw [abs_of_pos hk, div_self hk.ne'] at q2
  have c0 : c 0 = (R - r) * C := by rw [q2]; simp; ring
  have c1 : c 1 = (R - r) * Z := by rw [q2]; simp; ring
  have c2 : c 2 = 0 := by rw [q2]; simp
  refine ⟨before, arc, k1, fun s => ?_⟩
  obtain ⟨p, e1, e2, e3⟩ := q1 s
  obtain ⟨w1, w2⟩ := axisDist_near (C := R - r) hr.le (by linarith) e3 e2 (by rw [c0, c1]; linear_combination (R - r) ^ 2 * hCZ)
  exact ⟨p, e1, e3.trans c2, by linarith [le_abs_self (R - r - r)], by linarith⟩

/-- C150 for the straight tooth `y = -3`, the root circle of radius 4 and the fillet radius 1. -/
theorem c150_root_case {asEuler : M3 → ℝ × ℝ × ℝ} (hE : EulerOk asEuler) : ∃ (S : ScalarSolvers) (arc : Curve)
    (after : List Curve), Honest S ∧
    applyFillet asEuler S.toSolvers (flat (-3)) π (circ 4) 1 true = some (arc :: after) ∧
    ∀ s, ∃ p, arc.eval s = some p ∧ p 2 = 0 ∧ 4 ≤ axisDist p ∧ axisDist p ≤ 4 + 2 * 1 := by
  have h7 : √7 < 3 := by rw [sqrt_lt' (by norm_num)]; norm_num
  have h7p : 0 < √7 := sqrt_pos.2 (by norm_num)
  obtain ⟨u, hu⟩ : ∃ u, u = -arcsin (3 / 4) / (2 * π) := ⟨_, rfl⟩
  obtain ⟨w, hw⟩ : ∃ w, w = -arcsin (4 / 5) / (2 * π) := ⟨_, rfl⟩
  obtain ⟨m1, m2⟩ := flat_meets hu (x := √7) (by norm_num) h7p (by norm_num) (by linarith)
    (by rw [sq_sqrt (by norm_num)]; norm_num)
  obtain ⟨L, hL⟩ : ∃ L, L = (circ 4).length := ⟨_, rfl⟩
  obtain ⟨xI, hxI⟩ : ∃ xI : V3, xI = ![√7 / 6, u, 0] := ⟨_, rfl⟩
  obtain ⟨xF, hxF⟩ : ∃ xF : V3, xF = ![u - 1 / 2 * 1 / L - w, 1 / 2 - (√7 / 6 + 1 / 2 * 1 / 6), 0] := ⟨_, rfl⟩
  have I0 : xI 0 = √7 / 6 := by rw [hxI]; rfl
  have I1 : xI 1 = u := by rw [hxI]; rfl
  have F0 : xF 0 = u - 1 / 2 * 1 / L - w := by rw [hxF]; rfl
  have F1 : xF 1 = 1 / 2 - (√7 / 6 + 1 / 2 * 1 / 6) := by rw [hxF]; rfl
  obtain ⟨a1, a2, a3, a4⟩ := flat_facts (-3)
  have hint := knowing_intersect (xI := xI) (xF := xF) (f1 := chainEval curveOps (flat (-3)))
    (f2 := (circ 4).eval) (a := 1 / 2) (b := -π / (2 * π) / 4 * (101 / 100)) (by norm_num)
    (by rw [I0, I1]; exact m1)
  have p2 : chainEval curveOps (flat (-3)) (1 / 2) = some ![3, -3, 0] := by
    rw [flat_eval _ (by norm_num) (by norm_num)]; norm_num
  obtain ⟨p1, d1⟩ := circ_at hw (R := 4) (by norm_num)
  have d2 := flat_tangent (-3) (s := 1 / 2) (by norm_num) (by norm_num)
  have hcost : tangentCost (circ 4).eval (chainEval curveOps (flat (-3))) 1
      (u - 1 / 2 * 1 / L, √7 / 6 + 1 / 2 * 1 / 6) xF = some 0 := by
    rw [tangentCost]
    simp only [F0, F1]
    rw [show u - 1 / 2 * 1 / L - (u - 1 / 2 * 1 / L - w) = w by ring,
      show √7 / 6 + 1 / 2 * 1 / 6 + (1 / 2 - (√7 / 6 + 1 / 2 * 1 / 6)) = 1 / 2 by ring,
      root_centers hw (by norm_num) (by norm_num), Option.map_some]
    norm_num
  have hroot := knowing_root (xI := xI) hcost
  have ht : ((w, 1 / 2) : ℝ × ℝ) = contactParams (knowing xI xF).toSolvers (circ 4).eval
      (chainEval curveOps (flat (-3))) 1 (u - 1 / 2 * 1 / L, √7 / 6 + 1 / 2 * 1 / 6) := by
    rw [contactParams, hroot]
    simp only [F0, F1]
    ring_nf
  obtain ⟨arc, after, r1, r2⟩ :=
    c150_root hE (knowing xI xF) (knowing_honest _ _) _ a1 a2 a3 a4 π 4 1 (by norm_num) one_pos _ hint.symm rfl
      (by
        refine ⟨_, (by rw [I1]; exact m2), angleCheck_pi ?_ ?_⟩
        · simp [h7p]
        · simp)
      (fun g => (u - g / L, √7 / 6 + g / 6)) (by intro g; rw [I0, I1, hL, flat_len]) (1 / 2 * 1) (by simp)
      (by rw [hroot]) (by
        intro g' hg' hlt
        simp only [List.mem_cons, List.not_mem_nil, or_false] at hg'
        rcases hg' with rfl | rfl | rfl <;> norm_num at hlt)
      (w, 1 / 2) ht (by
        refine ⟨by norm_num, by norm_num, ?_, ?_⟩
        · intro p hp
          rw [p1] at hp
          rw [← Option.some.inj hp]
          exact angleCheck_pi (by norm_num) (by norm_num)
        · intro p hp
          change chainEval curveOps (flat (-3)) (1 / 2) = some p at hp
          rw [p2] at hp
          rw [← Option.some.inj hp]
          exact angleCheck_pi (by norm_num) (by norm_num))
      (by
        intro d hd
        change unitTangent (chainEval curveOps (flat (-3))) (1 / 2) = some d at hd
        rw [d2] at hd
        rw [← Option.some.inj hd]; simp)
      (by
        intro p d hp hd
        change unitTangent (chainEval curveOps (flat (-3))) (1 / 2) = some d at hd
        rw [p1] at hp
        rw [d2] at hd
        rw [← Option.some.inj hd, ← Option.some.inj hp]; norm_num)
  exact ⟨knowing xI xF, arc, after, knowing_honest _ _, r1, r2⟩

/-- C150 for the straight tooth `y = -5`, the tip circle of radius 6 and the fillet radius 1. -/
theorem c150_tip_case {asEuler : M3 → ℝ × ℝ × ℝ} (hE : EulerOk asEuler) : ∃ (S : ScalarSolvers) (arc : Curve)
    (before : List Curve), Honest S ∧
    applyFillet asEuler S.toSolvers (flat (-5)) π (circ 6) 1 false = some (before ++ [arc]) ∧
    ∀ s, ∃ p, arc.eval s = some p ∧ p 2 = 0 ∧ 6 - 2 * 1 ≤ axisDist p ∧ axisDist p ≤ 6 := by
  have h7 : √11 < 4 := by rw [sqrt_lt' (by norm_num)]; norm_num
  have h7p : 0 < √11 := sqrt_pos.2 (by norm_num)
  obtain ⟨u, hu⟩ : ∃ u, u = -arcsin (5 / 6) / (2 * π) := ⟨_, rfl⟩
  obtain ⟨w, hw⟩ : ∃ w, w = -arcsin (4 / 5) / (2 * π) := ⟨_, rfl⟩
  obtain ⟨m1, m2⟩ := flat_meets hu (x := √11) (by norm_num) h7p (by norm_num) (by linarith)
    (by rw [sq_sqrt (by norm_num)]; norm_num)
  obtain ⟨L, hL⟩ : ∃ L, L = (circ 6).length := ⟨_, rfl⟩
  obtain ⟨xI, hxI⟩ : ∃ xI : V3, xI = ![√11 / 6, u, 0] := ⟨_, rfl⟩
  obtain ⟨xF, hxF⟩ : ∃ xF : V3, xF = ![√11 / 6 - 1 / 2 * 1 / 6 - 1 / 2, w - (u + 1 / 2 * 1 / L), 0] := ⟨_, rfl⟩
  have I0 : xI 0 = √11 / 6 := by rw [hxI]; rfl
  have I1 : xI 1 = u := by rw [hxI]; rfl
  have F0 : xF 0 = √11 / 6 - 1 / 2 * 1 / 6 - 1 / 2 := by rw [hxF]; rfl
  have F1 : xF 1 = w - (u + 1 / 2 * 1 / L) := by rw [hxF]; rfl
  obtain ⟨a1, a2, a3, a4⟩ := flat_facts (-5)
  have hint := knowing_intersect (xI := xI) (xF := xF) (f1 := chainEval curveOps (flat (-5)))
    (f2 := (circ 6).eval) (a := 1 / 2) (b := -π / (2 * π) / 4 * (101 / 100)) (by norm_num)
    (by rw [I0, I1]; exact m1)
  have p2 : chainEval curveOps (flat (-5)) (1 / 2) = some ![3, -5, 0] := by
    rw [flat_eval _ (by norm_num) (by norm_num)]; norm_num
  obtain ⟨p1, d1⟩ := circ_at hw (R := 6) (by norm_num)
  have d2 := flat_tangent (-5) (s := 1 / 2) (by norm_num) (by norm_num)
  have hcost : tangentCost (chainEval curveOps (flat (-5))) (circ 6).eval 1
      (√11 / 6 - 1 / 2 * 1 / 6, u + 1 / 2 * 1 / L) xF = some 0 := by
    rw [tangentCost]
    simp only [F0, F1]
    rw [show √11 / 6 - 1 / 2 * 1 / 6 - (√11 / 6 - 1 / 2 * 1 / 6 - 1 / 2) = 1 / 2 by ring,
      show u + 1 / 2 * 1 / L + (w - (u + 1 / 2 * 1 / L)) = w by ring,
      tip_centers hw (by norm_num) (by norm_num), Option.map_some]
    norm_num
  have hroot := knowing_root (xI := xI) hcost
  have ht : ((1 / 2, w) : ℝ × ℝ) = contactParams (knowing xI xF).toSolvers (chainEval curveOps (flat (-5)))
      (circ 6).eval 1 (√11 / 6 - 1 / 2 * 1 / 6, u + 1 / 2 * 1 / L) := by
    rw [contactParams, hroot]
    simp only [F0, F1]
    ring_nf
  obtain ⟨before, arc, r1, r2⟩ :=
    c150_tip hE (knowing xI xF) (knowing_honest _ _) _ a1 a2 a3 a4 π 6 1 (by norm_num) one_pos _ hint.symm rfl
      (by
        refine ⟨_, (by rw [I1]; exact m2), angleCheck_pi ?_ ?_⟩
        · simp [h7p]
        · simp)
      (fun g => (√11 / 6 - g / 6, u + g / L)) (by intro g; rw [I0, I1, hL, flat_len]) (1 / 2 * 1) (by simp)
      (by rw [hroot]) (by
        intro g' hg' hlt
        simp only [List.mem_cons, List.not_mem_nil, or_false] at hg'
        rcases hg' with rfl | rfl | rfl <;> norm_num at hlt)
      (1 / 2, w) ht (by
        refine ⟨by norm_num, by norm_num, ?_, ?_⟩
        · intro p hp
          change chainEval curveOps (flat (-5)) (1 / 2) = some p at hp
          rw [p2] at hp
          rw [← Option.some.inj hp]
          exact angleCheck_pi (by norm_num) (by norm_num)
        · intro p hp
          rw [p1] at hp
          rw [← Option.some.inj hp]
          exact angleCheck_pi (by norm_num) (by norm_num))
      (by
        intro d hd
        change unitTangent (chainEval curveOps (flat (-5))) (1 / 2) = some d at hd
        rw [d2] at hd
        rw [← Option.some.inj hd]; simp)
      (by
        intro p d hp hd
        change unitTangent (chainEval curveOps (flat (-5))) (1 / 2) = some d at hd
        rw [p1] at hp
        rw [d2] at hd
        rw [← Option.some.inj hd, ← Option.some.inj hp]; norm_num)
  exact ⟨knowing xI xF, arc, before, knowing_honest _ _, r1, r2⟩

end Verif
