import Verif.Lemmas.Bezier
import Verif.Spec.Bezier
import Mathlib.Analysis.Calculus.IteratedDeriv.Defs
import Mathlib.Analysis.Calculus.Deriv.Inv
import Mathlib.Analysis.Calculus.FDeriv.Add
import Mathlib.LinearAlgebra.AffineSpace.AffineMap

/-! # Properties C01–C07: Bezier and rational Bezier curves -/

namespace Verif

section
variable {E : Type*} [AddCommGroup E] [Module ℝ E]

theorem bern_eq (n k : ℕ) (t : ℝ) :
    Spec.bern n k t = (n.choose k : ℝ) * t ^ k * (1 - t) ^ (n - k) := by
  simp [Spec.bern, bernsteinPolynomial]

theorem bezier_eq_spec (t : ℝ) (pts : List E) : bezier t pts = Spec.bezierCurve pts t := by
  simp only [bezier, Spec.bezierCurve, bern_eq]

/-- **C01.** Both evaluators return the Bezier curve of the control points, hence agree. -/
theorem c01_evaluators_agree (t : ℝ) (pts : List E) (h : pts ≠ []) :
    bezierdc t pts = some (bezier t pts) := by
  rw [bezierdc_eq_dc t pts h, bezier_eq_dc t pts h]

/-- **C01.** … and that value is the textbook curve. -/
theorem c01_evaluators_correct (t : ℝ) (pts : List E) (h : pts ≠ []) :
    bezierdc t pts = some (Spec.bezierCurve pts t) ∧ bezier t pts = Spec.bezierCurve pts t := by
  rw [c01_evaluators_agree t pts h, bezier_eq_spec]; exact ⟨rfl, rfl⟩

/-- Concrete case for C01: a cubic at `t = 1/2`. -/
example : bezierdc (1 / 2) [(0 : ℝ), 1, 3, 2] = some (7 / 4) := by
  norm_num [bezierdc, dcStep]

/-- **C02.** The curve starts at the first control point … -/
theorem c02_start (pts : List E) (h : pts ≠ []) : bezierdc 0 pts = some (pts.head h) := by
  rw [bezierdc_eq_dc 0 pts h, dc_zero]
  cases pts with
  | nil => exact absurd rfl h
  | cons a l => simp

/-- **C02.** … ends at the last one … -/
theorem c02_end (pts : List E) (h : pts ≠ []) : bezierdc 1 pts = some (pts.getLast h) := by
  have hpos : 0 < pts.length := List.length_pos_iff.2 h
  rw [bezierdc_eq_dc 1 pts h, dc_one, List.getLast_eq_getElem]
  simp only [zero_add, List.getD_eq_getElem?_getD]
  rw [List.getElem?_eq_getElem (by omega)]; rfl

/-- **C02.** … and stays in the convex hull of the control points. -/
theorem c02_hull (t : ℝ) (h0 : 0 ≤ t) (h1 : t ≤ 1) (pts : List E) (h : pts ≠ []) :
    ∃ p, bezierdc t pts = some p ∧ p ∈ convexHull ℝ {x | x ∈ pts} := by
  have hpos : 0 < pts.length := List.length_pos_iff.2 h
  refine ⟨_, bezierdc_eq_dc t pts h, ?_⟩
  refine dc_mem_convex (convex_convexHull ℝ _) t h0 h1 _ _ _ fun k hk => ?_
  apply subset_convexHull
  simp only [zero_add, List.getD_eq_getElem?_getD]
  rw [List.getElem?_eq_getElem (by omega)]
  exact List.getElem_mem _

/-- Concrete case for C02. -/
example : bezierdc 0 [(5 : ℝ), 1, 3] = some 5 ∧ bezierdc 1 [(5 : ℝ), 1, 3] = some 3 :=
  ⟨by simpa using c02_start [(5 : ℝ), 1, 3] (by simp), by simpa using c02_end [(5 : ℝ), 1, 3] (by simp)⟩

theorem weighted_length (pts : List E) (ws : List ℝ) (h : ws.length = pts.length) :
    (weighted pts ws).length = pts.length := by
  simp [weighted, h]

theorem weighted_getD (pts : List E) (ws : List ℝ) (h : ws.length = pts.length) (j : ℕ) :
    (weighted pts ws).getD j 0 = ws.getD j 0 • pts.getD j 0 := by
  simp only [weighted, List.getD_eq_getElem?_getD, List.getElem?_zipWith]
  by_cases hj : j < pts.length
  · simp [List.getElem?_eq_getElem hj, List.getElem?_eq_getElem (h ▸ hj : j < ws.length)]
  · simp [List.getElem?_eq_none (not_lt.1 hj), List.getElem?_eq_none (h ▸ not_lt.1 hj : ws.length ≤ j)]

/-- `nurbezier` in terms of the recursion. -/
theorem nurbezier_eq_dc (t : ℝ) (pts : List E) (ws : List ℝ) (h : ws.length = pts.length)
    (hne : pts ≠ []) :
    nurbezier t pts ws =
      if dc t (pts.length - 1) (fun j => ws.getD j 0) 0 = 0 then none
      else some ((dc t (pts.length - 1) (fun j => ws.getD j 0) 0)⁻¹ •
        dc t (pts.length - 1) (fun j => ws.getD j 0 • pts.getD j 0) 0) := by
  have hpos : 0 < pts.length := List.length_pos_iff.2 hne
  have hw : ws ≠ [] := by rintro rfl; simp at h; omega
  have hwp : weighted pts ws ≠ [] := by
    intro e; have := weighted_length pts ws h; rw [e] at this; simp at this; omega
  rw [nurbezier, if_pos h, bezierdc_eq_dc t _ hwp, bezierdc_eq_dc t _ hw, weighted_length pts ws h, h]
  simp only [weighted_getD pts ws h]

theorem nurbezier_mismatch (t : ℝ) (pts : List E) (ws : List ℝ) (h : ws.length ≠ pts.length) :
    nurbezier t pts ws = none := by rw [nurbezier, if_neg h]

/-- **C03.** Rational Bezier evaluation commutes with every affine map of the control points.
The two sides are equal as results, including the undefined cases. -/
theorem c03_affine_invariance {F : Type*} [AddCommGroup F] [Module ℝ F] (f : E →ᵃ[ℝ] F) (t : ℝ)
    (pts : List E) (ws : List ℝ) :
    nurbezier t (pts.map f) ws = (nurbezier t pts ws).map f := by
  by_cases h : ws.length = pts.length
  swap
  · rw [nurbezier_mismatch _ _ _ h, nurbezier_mismatch _ _ _ (by simpa using h)]; rfl
  by_cases hne : pts = []
  · subst hne; simp [nurbezier, weighted, bezierdc_nil]
  have hpos : 0 < pts.length := List.length_pos_iff.2 hne
  rw [nurbezier_eq_dc t pts ws h hne, nurbezier_eq_dc t (pts.map f) ws (by simpa using h)
    (by simpa using hne)]
  rw [List.length_map]
  split_ifs with hw
  · rfl
  · simp only [Option.map_some]
    congr 1
    set W := dc t (pts.length - 1) (fun j => ws.getD j 0) 0 with hW
    have e : dc t (pts.length - 1) (fun j => ws.getD j 0 • (pts.map f).getD j 0) 0 =
        f.linear (dc t (pts.length - 1) (fun j => ws.getD j 0 • pts.getD j 0) 0) + W • f 0 := by
      rw [hW, ← dc_map, ← dc_smul_const, ← dc_add]
      apply dc_congr
      intro k hk
      have hk' : k < pts.length := by omega
      have hf : f pts[k] = f.linear pts[k] + f 0 := by
        have := f.map_vadd 0 pts[k]
        simpa using this
      simp only [zero_add, List.getD_eq_getElem?_getD, List.getElem?_map,
        List.getElem?_eq_getElem hk', Option.map_some, Option.getD_some, map_smul]
      rw [hf, smul_add]
    rw [e, smul_add, smul_smul, inv_mul_cancel₀ hw, one_smul, ← map_smul]
    have := f.map_vadd 0 (W⁻¹ • dc t (pts.length - 1) (fun j => ws.getD j 0 • pts.getD j 0) 0)
    simpa using this.symm

/-- Concrete case for C03: weights `1,2,1`, affine map `x ↦ 3x + 1`. -/
example : nurbezier (1 / 2) [(0 : ℝ), 1, 3] [1, 2, 1] = some (7 / 6) := by
  norm_num [nurbezier, weighted, bezierdc, dcStep]

/-- **C04.** Reversing control points and weights reverses the direction of travel. -/
theorem c04_reverse (t : ℝ) (pts : List E) (ws : List ℝ) :
    nurbezier t pts.reverse ws.reverse = nurbezier (1 - t) pts ws := by
  by_cases h : ws.length = pts.length
  swap
  · rw [nurbezier_mismatch _ _ _ h, nurbezier_mismatch _ _ _ (by simpa using h)]
  by_cases hne : pts = []
  · subst hne; simp [nurbezier, weighted, bezierdc_nil]
  have hpos : 0 < pts.length := List.length_pos_iff.2 hne
  rw [nurbezier_eq_dc (1 - t) pts ws h hne, nurbezier_eq_dc t pts.reverse ws.reverse (by simpa using h)
    (by simpa using hne)]
  rw [List.length_reverse]
  have e1 : dc t (pts.length - 1) (fun j => ws.reverse.getD j 0) 0 =
      dc (1 - t) (pts.length - 1) (fun j => ws.getD j 0) 0 := by
    have := dc_reverse t (pts.length - 1) (fun j => ws.getD j 0) (pts.length - 1) 0 (by omega)
    rw [show pts.length - 1 - 0 - (pts.length - 1) = 0 by omega] at this
    rw [← this]
    apply dc_congr
    intro k hk
    simp only [zero_add, List.getD_eq_getElem?_getD]
    rw [List.getElem?_reverse (by omega), h]
  have e2 : dc t (pts.length - 1) (fun j => ws.reverse.getD j 0 • pts.reverse.getD j 0) 0 =
      dc (1 - t) (pts.length - 1) (fun j => ws.getD j 0 • pts.getD j 0) 0 := by
    have := dc_reverse t (pts.length - 1) (fun j => ws.getD j 0 • pts.getD j 0)
      (pts.length - 1) 0 (by omega)
    rw [show pts.length - 1 - 0 - (pts.length - 1) = 0 by omega] at this
    rw [← this]
    apply dc_congr
    intro k hk
    simp only [zero_add, List.getD_eq_getElem?_getD]
    rw [List.getElem?_reverse (by omega), List.getElem?_reverse (by omega), h]
  rw [e1, e2]

/-- Concrete case for C04, with different values at `t` and `1 - t`. -/
example : nurbezier (1 / 4) [(0 : ℝ), 1] [1, 2] = some (2 / 5) ∧
    nurbezier (3 / 4) [(0 : ℝ), 1].reverse [(1 : ℝ), 2].reverse = some (2 / 5) := by
  norm_num [nurbezier, weighted, bezierdc, dcStep]

end

section
variable {E : Type*} [NormedAddCommGroup E] [NormedSpace ℝ E]

omit [NormedSpace ℝ E] in
theorem diffs_length (l : List E) : (diffs l).length = l.length - 1 := by simp [diffs]

omit [NormedSpace ℝ E] in
theorem diffs_getElem (l : List E) (i : ℕ) (h : i + 1 < l.length) :
    (diffs l)[i]'(by rw [diffs_length]; omega) = l[i + 1] - l[i] := by
  simp [diffs]

omit [NormedSpace ℝ E] in
theorem diffs_getD (l : List E) (i : ℕ) (h : i + 1 < l.length) :
    (diffs l).getD i 0 = l.getD (i + 1) 0 - l.getD i 0 := by
  have h' : i < (diffs l).length := by rw [diffs_length]; omega
  simp only [List.getD_eq_getElem?_getD]
  rw [List.getElem?_eq_getElem h', List.getElem?_eq_getElem h, List.getElem?_eq_getElem (by omega)]
  simp [diffs_getElem l i h]

/-- Derivative of a Bezier curve, on lists. -/
theorem bezier_hasDerivAt (l : List E) (h : 2 ≤ l.length) (t : ℝ) :
    HasDerivAt (fun s => bezier s l) (bezier t ((diffs l).map fun p => ((l.length : ℝ) - 1) • p)) t := by
  have hne : l ≠ [] := by rintro rfl; simp at h
  have hne2 : ((diffs l).map fun p => ((l.length : ℝ) - 1) • p) ≠ [] := by
    intro e
    have := congrArg List.length e
    simp [diffs_length] at this; omega
  obtain ⟨m, hm⟩ : ∃ m, l.length = m + 2 := ⟨l.length - 2, by omega⟩
  have h1 := dc_hasDerivAt m (fun j => l.getD j 0) 0 t
  have e1 : (fun s => bezier s l) = fun s => dc s (m + 1) (fun j => l.getD j 0) 0 := by
    funext s; rw [bezier_eq_dc s l hne, hm]; rfl
  rw [e1]
  refine h1.congr_deriv ?_
  rw [bezier_eq_dc t _ hne2, ← dc_smul]
  rw [List.length_map, diffs_length, hm]
  rw [show m + 2 - 1 - 1 = m by omega]
  apply dc_congr
  intro k hk
  have hk2 : k < (diffs l).length := by rw [diffs_length]; omega
  have := diffs_getD l k (by omega)
  simp only [zero_add]
  rw [← this]
  simp only [List.getD_eq_getElem?_getD, List.getElem?_map, List.getElem?_eq_getElem hk2,
    Option.map_some, Option.getD_some]
  congr 1
  push_cast; ring

theorem diffLoop_length (l : List E) (n : ℕ) : (diffLoop l.length l n).length = l.length - n := by
  induction n with
  | zero => simp [diffLoop]
  | succ n ih => simp [diffLoop, diffs_length, ih]; omega

/-- **C05.** `bezier_diff_t` returns the exact `n`-th derivative for every order below the
number of control points. -/
theorem c05_exact_derivative_partial (pts : List E) (n : ℕ) (hn : n < pts.length) (t : ℝ) :
    bezierDiffT t pts n = .point (iteratedDeriv n (fun s => Spec.bezierCurve pts s) t) := by
  have key : ∀ n, n < pts.length → iteratedDeriv n (fun s => bezier s pts) =
      fun s => bezier s (diffLoop pts.length pts n) := by
    intro n
    induction n with
    | zero => intro _; rw [iteratedDeriv_zero]; rfl
    | succ n ih =>
      intro h
      rw [iteratedDeriv_succ, ih (by omega)]
      funext s
      have hl := diffLoop_length pts n
      have := (bezier_hasDerivAt (diffLoop pts.length pts n) (by omega) s).deriv
      rw [this, diffLoop, hl]
      congr 1
      apply List.map_congr_left
      intro p _
      congr 1
      rw [Nat.cast_sub (by omega)]
  have hl := diffLoop_length pts n
  have hne : diffLoop pts.length pts n ≠ [] := by
    intro e; rw [e] at hl; simp at hl; omega
  have e : (fun s => Spec.bezierCurve pts s) = fun s => bezier s pts := by
    funext s; rw [bezier_eq_spec]
  rw [bezierDiffT, if_neg (by omega), c01_evaluators_agree t _ hne, e, key n hn]

/-- **C05, error branch.** At order equal to the number of control points the call raises,
although the derivative exists and is zero. -/
theorem c05_violated_at_length (pts : List E) (h : pts ≠ []) (t : ℝ) :
    bezierDiffT t pts pts.length = .raised ∧
      iteratedDeriv pts.length (fun s => Spec.bezierCurve pts s) t = 0 := by
  have hpos : 0 < pts.length := List.length_pos_iff.2 h
  constructor
  · have hl := diffLoop_length pts pts.length
    have : diffLoop pts.length pts pts.length = [] := by
      apply List.eq_nil_of_length_eq_zero; omega
    rw [bezierDiffT, if_neg (by omega), this, bezierdc_nil]
  · obtain ⟨m, hm⟩ : ∃ m, pts.length = m + 1 := ⟨pts.length - 1, by omega⟩
    have h1 : iteratedDeriv m (fun s => Spec.bezierCurve pts s) =
        fun _ => (diffLoop pts.length pts m).getD 0 0 := by
      funext s
      have := c05_exact_derivative_partial pts m (by omega) s
      have hl := diffLoop_length pts m
      have hne : diffLoop pts.length pts m ≠ [] := by
        intro e; rw [e] at hl; simp at hl; omega
      rw [bezierDiffT, if_neg (by omega), bezierdc_eq_dc s _ hne] at this
      simp only [DiffResult.point.injEq] at this
      rw [← this, hl, hm, show m + 1 - m - 1 = 0 by omega]
      rfl
    rw [hm, iteratedDeriv_succ, h1, deriv_const]

/-- **C05, beyond.** Above that order an array of zero *control points* is returned, not a point. -/
theorem c05_violated_above_length (pts : List E) (n : ℕ) (h : pts.length < n) (t : ℝ) :
    bezierDiffT t pts n = .block (List.replicate pts.length 0) := by
  rw [bezierDiffT, if_pos h]

/-- **C05 is violated.** The full statement fails, e.g. for the second derivative of a segment. -/
theorem c05_violated : ¬ ∀ (pts : List ℝ) (n : ℕ) (t : ℝ), pts ≠ [] → 1 ≤ n →
    bezierDiffT t pts n = .point (iteratedDeriv n (fun s => Spec.bezierCurve pts s) t) := by
  intro h
  have h1 := h [0, 1] [(0 : ℝ), 1].length 0 (by simp) (by simp)
  rw [(c05_violated_at_length [(0 : ℝ), 1] (by simp) 0).1] at h1
  cases h1

/-- Concrete case for C05: first derivative of a parabola. -/
example : bezierDiffT (1 / 2) [(0 : ℝ), 1, 4] 1 = .point 4 := by
  norm_num [bezierDiffT, diffLoop, diffs, bezierdc, dcStep]

/-! ### Rational curves -/

theorem ne_nil_of_pos {X : Type*} (l : List X) (h : 0 < l.length) : l ≠ [] :=
  List.length_pos_iff.1 h


omit [NormedAddCommGroup E] [NormedSpace ℝ E] in
theorem spec_weight_eq (cp : List (ℝ × E)) (t : ℝ) :
    Spec.weight cp t = Spec.bezierCurve (cp.map Prod.fst) t := by
  simp only [Spec.weight, Spec.bezierCurve]
  rw [← Equiv.sum_comp (finCongr (List.length_map (as := cp) Prod.fst).symm)]
  simp

theorem spec_num_eq (cp : List (ℝ × E)) (t : ℝ) :
    ∑ k : Fin cp.length, (Spec.bern (cp.length - 1) k t * cp[k].1) • cp[k].2 =
      Spec.bezierCurve (weighted (cp.map Prod.snd) (cp.map Prod.fst)) t := by
  have hl : (weighted (cp.map Prod.snd) (cp.map Prod.fst)).length = cp.length := by
    rw [weighted_length _ _ (by simp)]; simp
  simp only [Spec.bezierCurve]
  rw [← Equiv.sum_comp (finCongr hl.symm)]
  refine Finset.sum_congr rfl fun k _ => ?_
  simp [weighted, mul_smul]
  rfl

/-- The model's `nurbezier` is the textbook rational curve wherever the weight is non-zero. -/
theorem nurbezier_eq_spec (cp : List (ℝ × E)) (hne : cp ≠ []) (t : ℝ) (hw : Spec.weight cp t ≠ 0) :
    nurbezier t (cp.map Prod.snd) (cp.map Prod.fst) = some (Spec.rationalCurve cp t) := by
  have hl := weighted_length (cp.map Prod.snd) (cp.map Prod.fst) (by simp)
  have hne1 : cp.map Prod.fst ≠ [] := by simpa using hne
  have hne2 : weighted (cp.map Prod.snd) (cp.map Prod.fst) ≠ [] := by
    intro e; rw [e] at hl; simp at hl; exact hne (List.eq_nil_of_length_eq_zero hl.symm)
  rw [nurbezier, if_pos (by simp), (c01_evaluators_correct t _ hne1).1,
    (c01_evaluators_correct t _ hne2).1]
  simp only
  rw [← spec_weight_eq, if_neg hw, Spec.rationalCurve, spec_num_eq]

theorem spec_bezier_hasDerivAt (l : List E) (h : 2 ≤ l.length) (t : ℝ) :
    HasDerivAt (fun s => Spec.bezierCurve l s)
      (Spec.bezierCurve ((diffs l).map fun p => ((l.length : ℝ) - 1) • p) t) t := by
  have := bezier_hasDerivAt l h t
  simpa only [bezier_eq_spec] using this

/-- **C06.** `nurbezier_diff_t` returns the velocity of the rational Bezier curve. -/
theorem c06_velocity (cp : List (ℝ × E)) (h : 2 ≤ cp.length) (t : ℝ) (hw : Spec.weight cp t ≠ 0) :
    ∃ v, nurbezierDiffT t (cp.map Prod.snd) (cp.map Prod.fst) = some v ∧
      HasDerivAt (fun s => Spec.rationalCurve cp s) v t := by
  obtain ⟨P, hP⟩ : ∃ P, P = weighted (cp.map Prod.snd) (cp.map Prod.fst) := ⟨_, rfl⟩
  obtain ⟨W, hW⟩ : ∃ W, W = cp.map Prod.fst := ⟨_, rfl⟩
  have hPl : P.length = cp.length := by rw [hP, weighted_length _ _ (by simp)]; simp
  have hWl : W.length = cp.length := by simp [hW]
  have dP := spec_bezier_hasDerivAt P (by omega) t
  have dW := spec_bezier_hasDerivAt W (by omega) t
  rw [hPl] at dP
  rw [hWl] at dW
  have hw' : Spec.bezierCurve W t ≠ 0 := by rwa [spec_weight_eq, ← hW] at hw
  have e : (fun s => Spec.rationalCurve cp s) =
      fun s => (Spec.bezierCurve W s)⁻¹ • Spec.bezierCurve P s := by
    funext s; rw [Spec.rationalCurve, spec_num_eq, spec_weight_eq, ← hP, ← hW]
  have hd := (dW.fun_inv hw').fun_smul dP
  rw [← e] at hd
  refine ⟨_, ?_, hd⟩
  · rw [nurbezierDiffT, if_pos (by simp)]
    simp only [List.length_map]
    rw [← hP, ← hW]
    rw [(c01_evaluators_correct t P (ne_nil_of_pos _ (by omega))).1,
      (c01_evaluators_correct t W (ne_nil_of_pos _ (by omega))).1,
      (c01_evaluators_correct t ((diffs P).map _) (ne_nil_of_pos _ (by simp [diffs_length]; omega))).1,
      (c01_evaluators_correct t ((diffs W).map _) (ne_nil_of_pos _ (by simp [diffs_length]; omega))).1]
    simp only
    rw [if_neg hw']
    congr 1
    simp only [smul_eq_mul]
    rw [smul_sub, smul_smul, smul_smul, sub_eq_add_neg, ← neg_smul]
    congr 2
    · field_simp
    · rw [div_eq_inv_mul]; ring

/-- **C06, error branch.** With one control point the call raises instead of returning 0. -/
theorem c06_single_point_raises (t w : ℝ) (p : E) : nurbezierDiffT t [p] [w] = none := by
  simp [nurbezierDiffT, weighted, diffs, bezierdc]

/-- Concrete case for C06: the hypotheses hold for a genuinely rational curve. -/
example : Spec.weight [((1 : ℝ), (0 : ℝ)), (2, 1), (1, 3)] (1 / 2) = 3 / 2 := by
  rw [spec_weight_eq, ← bezier_eq_spec]
  have := c01_evaluators_agree (1 / 2) [(1 : ℝ), 2, 1] (by simp)
  norm_num [bezierdc, dcStep] at this
  simpa using this.symm

/-! ### Sensitivities -/

theorem set_getD {X : Type*} (l : List X) (k : ℕ) (hk : k < l.length) (a d : X) (j : ℕ) :
    (l.set k a).getD j d = if j = k then a else l.getD j d := by
  simp only [List.getD_eq_getElem?_getD]
  by_cases h : j = k
  · subst h; simp [hk]
  · rw [List.getElem?_set_ne (Ne.symm h), if_neg h]

/-- Value of the `k`-th unit array: the Bernstein basis function. -/
theorem bezierdc_unit (t : ℝ) (n k : ℕ) (hk : k < n) :
    bezierdc t ((List.replicate n (0 : ℝ)).set k 1) = some (Spec.bern (n - 1) k t) := by
  have hne : (List.replicate n (0 : ℝ)).set k 1 ≠ [] := by
    intro e; have := congrArg List.length e; simp at this; omega
  rw [(c01_evaluators_correct t _ hne).1]
  congr 1
  have hl : ((List.replicate n (0 : ℝ)).set k 1).length = n := by simp
  rw [Spec.bezierCurve, ← Equiv.sum_comp (finCongr hl.symm)]
  rw [Finset.sum_eq_single (⟨k, hk⟩ : Fin n)]
  · simp
  · intro b _ hb
    have : k ≠ b := fun e => hb (Fin.ext e.symm)
    simp [this]
  · simp

/-- **C07 (points).** `nurbezier_diff_points` is the exact derivative with respect to the
`k`-th control point: the curve point moves by `c` times any displacement of that point. -/
theorem c07_points (cp : List (ℝ × E)) (k : ℕ) (hk : k < cp.length) (t : ℝ)
    (hw : Spec.weight cp t ≠ 0) :
    ∃ c, nurbezierDiffPoints t (cp.map Prod.fst) k = some c ∧
      ∀ q : E, HasFDerivAt (fun p => Spec.rationalCurve (cp.set k (cp[k].1, p)) t)
        (c • ContinuousLinearMap.id ℝ E) q := by
  have hne : cp.map Prod.fst ≠ [] := by
    intro e; have := congrArg List.length e; simp at this; subst this; simp at hk
  refine ⟨Spec.bern (cp.length - 1) k t * cp[k].1 / Spec.weight cp t, ?_, ?_⟩
  · rw [nurbezierDiffPoints]
    simp only [List.length_map]
    rw [bezierdc_unit t cp.length k hk, (c01_evaluators_correct t _ hne).1, ← spec_weight_eq]
    simp [List.getElem?_eq_getElem hk, hw]
  · intro q
    have hl : ∀ p : E, (cp.set k (cp[k].1, p)).length = cp.length := by simp
    have e : (fun p => Spec.rationalCurve (cp.set k (cp[k].1, p)) t) = fun p =>
        (Spec.bern (cp.length - 1) k t * cp[k].1 / Spec.weight cp t) • p +
          (Spec.weight cp t)⁻¹ • ∑ j ∈ Finset.univ.erase (⟨k, hk⟩ : Fin cp.length),
            (Spec.bern (cp.length - 1) j t * cp[j].1) • cp[j].2 := by
      funext p
      have ew : Spec.weight (cp.set k (cp[k].1, p)) t = Spec.weight cp t := by
        rw [spec_weight_eq, spec_weight_eq]
        congr 1
        rw [List.map_set]
        apply List.ext_getElem
        · simp
        · intro i h1 h2
          rw [List.getElem_set]
          split_ifs with hik
          · subst hik; simp
          · rfl
      rw [Spec.rationalCurve, ew, ← Equiv.sum_comp (finCongr (hl p).symm),
        ← Finset.add_sum_erase _ _ (Finset.mem_univ (⟨k, hk⟩ : Fin cp.length)), smul_add, smul_smul]
      congr 1
      · simp [div_eq_inv_mul]
      · congr 1
        refine Finset.sum_congr rfl fun j hj => ?_
        have : k ≠ j := fun e => (Finset.ne_of_mem_erase hj) (Fin.ext e.symm)
        simp [this]
    rw [e]
    exact ((hasFDerivAt_id q).const_smul _).add_const _

/-- **C07 (weights).** `nurbezier_diff_weights` is the exact derivative with respect to the
`k`-th weight. -/
theorem c07_weights (cp : List (ℝ × E)) (k : ℕ) (hk : k < cp.length) (t : ℝ)
    (hw : Spec.weight cp t ≠ 0) :
    ∃ v, nurbezierDiffWeights t (cp.map Prod.snd) (cp.map Prod.fst) k = some v ∧
      HasDerivAt (fun w => Spec.rationalCurve (cp.set k (w, cp[k].2)) t) v cp[k].1 := by
  have hne : cp ≠ [] := by rintro rfl; simp at hk
  have hne1 : cp.map Prod.fst ≠ [] := by simpa using hne
  set b := Spec.bern (cp.length - 1) k t with hb
  set W := Spec.weight cp t with hW
  refine ⟨(b / W) • cp[k].2 - (b / W) • Spec.rationalCurve cp t, ?_, ?_⟩
  · rw [nurbezierDiffWeights, nurbezier_eq_spec cp hne t hw]
    simp only [List.length_map]
    rw [bezierdc_unit t cp.length k hk, (c01_evaluators_correct t _ hne1).1, ← spec_weight_eq]
    simp [List.getElem?_eq_getElem hk, hw, ← hW, ← hb]
  · have hl : ∀ w : ℝ, (cp.set k (w, cp[k].2)).length = cp.length := by simp
    set N := ∑ j : Fin cp.length, (Spec.bern (cp.length - 1) j t * cp[j].1) • cp[j].2 with hN
    have ew : ∀ w, Spec.weight (cp.set k (w, cp[k].2)) t = W + b * (w - cp[k].1) := by
      intro w
      rw [hW, Spec.weight, Spec.weight, ← Equiv.sum_comp (finCongr (hl w).symm),
        ← Finset.add_sum_erase _ _ (Finset.mem_univ (⟨k, hk⟩ : Fin cp.length)),
        ← Finset.add_sum_erase Finset.univ (fun j : Fin cp.length =>
          Spec.bern (cp.length - 1) j t * cp[j].1) (Finset.mem_univ (⟨k, hk⟩ : Fin cp.length))]
      have : ∑ x ∈ Finset.univ.erase (⟨k, hk⟩ : Fin cp.length),
          Spec.bern ((cp.set k (w, cp[k].2)).length - 1) (finCongr (hl w).symm x) t *
            (cp.set k (w, cp[k].2))[finCongr (hl w).symm x].1 =
          ∑ x ∈ Finset.univ.erase (⟨k, hk⟩ : Fin cp.length),
            Spec.bern (cp.length - 1) x t * cp[x].1 := by
        refine Finset.sum_congr rfl fun j hj => ?_
        have : k ≠ j := fun e => (Finset.ne_of_mem_erase hj) (Fin.ext e.symm)
        simp [this]
      rw [this]
      simp [hb]; ring
    have en : ∀ w, ∑ j : Fin (cp.set k (w, cp[k].2)).length,
        (Spec.bern ((cp.set k (w, cp[k].2)).length - 1) j t * (cp.set k (w, cp[k].2))[j].1) •
          (cp.set k (w, cp[k].2))[j].2 = N + (b * (w - cp[k].1)) • cp[k].2 := by
      intro w
      rw [hN, ← Equiv.sum_comp (finCongr (hl w).symm),
        ← Finset.add_sum_erase _ _ (Finset.mem_univ (⟨k, hk⟩ : Fin cp.length)),
        ← Finset.add_sum_erase Finset.univ (fun j : Fin cp.length =>
          (Spec.bern (cp.length - 1) j t * cp[j].1) • cp[j].2)
          (Finset.mem_univ (⟨k, hk⟩ : Fin cp.length))]
      have : ∑ x ∈ Finset.univ.erase (⟨k, hk⟩ : Fin cp.length),
          (Spec.bern ((cp.set k (w, cp[k].2)).length - 1) (finCongr (hl w).symm x) t *
            (cp.set k (w, cp[k].2))[finCongr (hl w).symm x].1) •
            (cp.set k (w, cp[k].2))[finCongr (hl w).symm x].2 =
          ∑ x ∈ Finset.univ.erase (⟨k, hk⟩ : Fin cp.length),
            (Spec.bern (cp.length - 1) x t * cp[x].1) • cp[x].2 := by
        refine Finset.sum_congr rfl fun j hj => ?_
        have : k ≠ j := fun e => (Finset.ne_of_mem_erase hj) (Fin.ext e.symm)
        simp [this]
      rw [this]
      simp [hb]; module
    have e : (fun w => Spec.rationalCurve (cp.set k (w, cp[k].2)) t) = fun w =>
        (W + b * (w - cp[k].1))⁻¹ • (N + (b * (w - cp[k].1)) • cp[k].2) := by
      funext w; rw [Spec.rationalCurve, ew, en]
    rw [e]
    have d0 : HasDerivAt (fun w : ℝ => b * (w - cp[k].1)) b cp[k].1 := by
      simpa using ((hasDerivAt_id cp[k].1).sub_const cp[k].1).const_mul b
    have d1 : HasDerivAt (fun w : ℝ => W + b * (w - cp[k].1)) b cp[k].1 := d0.const_add W
    have d2 := (d0.smul_const cp[k].2).const_add N
    have hW0 : W + b * (cp[k].1 - cp[k].1) ≠ 0 := by simpa using hw
    refine ((d1.fun_inv hW0).smul d2).congr_deriv ?_
    simp only [sub_self, mul_zero, add_zero, zero_smul]
    rw [Spec.rationalCurve, ← hN, ← hW, smul_smul, smul_smul, sub_eq_add_neg, ← neg_smul]
    congr 2
    · rw [div_eq_inv_mul]
    · field_simp

/-- Concrete case for C07. -/
example : nurbezierDiffWeights (1 / 2) [(0 : ℝ), 1] [1, 3] 1 = some (1 / 16) := by
  norm_num [nurbezierDiffWeights, nurbezier, weighted, bezierdc, dcStep, List.replicate]

end

end Verif
