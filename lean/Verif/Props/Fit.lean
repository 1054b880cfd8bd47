import Verif.Model.Fit
import Verif.Spec.Fit
import Verif.Props.Bezier2
import Mathlib.Analysis.Calculus.Deriv.Prod
import Mathlib.Algebra.BigOperators.Field
import Mathlib.Analysis.Calculus.Deriv.Polynomial

/-! # Properties C11, C12, C77: curve and surface fits -/

namespace Verif

open Finset Filter Topology

theorem optSeq_eq_some {α : Type*} {n : ℕ} {f : Fin n → Option α} {g : Fin n → α}
    (h : ∀ k, f k = some (g k)) : optSeq f = some g := by
  classical
  have h' : ∀ k, (f k).isSome := fun k => by rw [h k]; rfl
  rw [optSeq, dif_pos h']
  congr 1
  funext k
  simp [h k]

/-! ### C11: end points and packing -/

section C11
variable {D n N : ℕ} {T : ℕ → Fin D → ℝ}

theorem fitPoints_zero (hn : 2 ≤ n) (x : ℕ → ℝ) : fitPoints D n N T x 0 = T 0 := by
  rw [fitPoints, if_neg (by omega), if_neg (by omega)]

theorem fitPoints_last (x : ℕ → ℝ) : fitPoints D n N T x (n - 1) = T (N - 1) := by
  rw [fitPoints, if_neg (by omega), if_pos rfl]

theorem fitWeights_zero (x : ℕ → ℝ) : fitWeights D n x 0 = 1 := by
  rw [fitWeights, if_neg (by omega)]

theorem fitWeights_last (x : ℕ → ℝ) : fitWeights D n x (n - 1) = 1 := by
  rw [fitWeights, if_neg (by omega)]

/-- A rational curve starts at its first point and ends at its last one if the end weights are not 0. -/
theorem nurbezier_ends {E : Type*} [AddCommGroup E] [Module ℝ E] {n : ℕ} (hn : 2 ≤ n) (p : Fin n → E)
    (w : Fin n → ℝ) (h0 : w ⟨0, by omega⟩ ≠ 0) (h1 : w ⟨n - 1, by omega⟩ ≠ 0) :
    nurbezier 0 (List.ofFn p) (List.ofFn w) = some (p ⟨0, by omega⟩) ∧
      nurbezier 1 (List.ofFn p) (List.ofFn w) = some (p ⟨n - 1, by omega⟩) := by
  have hne : (List.ofFn fun i => w i • p i) ≠ [] := by
    intro e; have := congrArg List.length e; simp at this; omega
  have hne' : (List.ofFn w) ≠ [] := by
    intro e; have := congrArg List.length e; simp at this; omega
  constructor
  · rw [nurbezier, if_pos (by simp), weighted_ofFn, c02_start _ hne, c02_start _ hne']
    have e1 : (List.ofFn fun i => w i • p i).head hne = w ⟨0, by omega⟩ • p ⟨0, by omega⟩ := by
      rw [List.head_eq_getElem]; simp
    have e2 : (List.ofFn w).head hne' = w ⟨0, by omega⟩ := by
      rw [List.head_eq_getElem]; simp
    rw [e1, e2]
    simp only
    rw [if_neg h0, smul_smul, inv_mul_cancel₀ h0, one_smul]
  · rw [nurbezier, if_pos (by simp), weighted_ofFn, c02_end _ hne, c02_end _ hne']
    have e1 : (List.ofFn fun i => w i • p i).getLast hne = w ⟨n - 1, by omega⟩ • p ⟨n - 1, by omega⟩ := by
      rw [List.getLast_eq_getElem]; simp
    have e2 : (List.ofFn w).getLast hne' = w ⟨n - 1, by omega⟩ := by
      rw [List.getLast_eq_getElem]; simp
    rw [e1, e2]
    simp only
    rw [if_neg h1, smul_smul, inv_mul_cancel₀ h1, one_smul]

/-- **C11.** Whatever vector `x` the optimiser returns, the fitted curve exists at both ends, starts at the
first target and ends at the last one. -/
theorem c11_ends_pinned (D n N : ℕ) (hn : 2 ≤ n) (T : ℕ → Fin D → ℝ) (x : ℕ → ℝ) :
    nurbezier 0 (fitNurbPoints D n N T x).1 (fitNurbPoints D n N T x).2 = some (T 0) ∧
      nurbezier 1 (fitNurbPoints D n N T x).1 (fitNurbPoints D n N T x).2 = some (T (N - 1)) := by
  have := nurbezier_ends hn (fun k : Fin n => fitPoints D n N T x k)
    (fun k : Fin n => fitWeights D n x k) (by simp [fitWeights_zero])
    (by simp [fitWeights_last])
  simpa [fitPoints_zero hn, fitPoints_last, fitNurbPoints] using this

/-- The number of control points and weights is the requested one. -/
theorem c11_count (D n N : ℕ) (T : ℕ → Fin D → ℝ) (x : ℕ → ℝ) :
    (fitNurbPoints D n N T x).1.length = n ∧ (fitNurbPoints D n N T x).2.length = n := by
  simp [fitNurbPoints]

/-- **C11.** Packing a triple and unpacking it gives it back, if its ends are the pinned ones. -/
theorem c11_unpack_pack (D n N : ℕ) (hn : 2 ≤ n) (hN : 2 ≤ N) (T : ℕ → Fin D → ℝ)
    (P : ℕ → Fin D → ℝ) (P' : ℕ → ℕ → ℝ) (hP' : ∀ k (j : Fin D), P' k j = P k j) (w t : ℕ → ℝ)
    (hP0 : P 0 = T 0) (hP1 : P (n - 1) = T (N - 1)) (hw0 : w 0 = 1) (hw1 : w (n - 1) = 1)
    (ht0 : t 0 = 0) (ht1 : t (N - 1) = 1) :
    (∀ k < n, fitPoints D n N T (fitPack D n P' w t) k = P k) ∧
      (∀ k < n, fitWeights D n (fitPack D n P' w t) k = w k) ∧
      ∀ i < N, fitT D n N (fitPack D n P' w t) i = t i := by
  refine ⟨fun k hk => ?_, fun k hk => ?_, fun i hi => ?_⟩
  · rw [fitPoints]
    split_ifs with h1 h2
    · funext j
      have hj := j.2
      have hb : D * (k - 1) + (j : ℕ) < D * (n - 2) := by
        calc D * (k - 1) + (j : ℕ) < D * (k - 1) + D := by omega
          _ = D * (k - 1 + 1) := by ring
          _ ≤ D * (n - 2) := Nat.mul_le_mul_left _ (by omega)
      rw [fitPack, if_pos hb, Nat.mul_add_div (by omega), Nat.mul_add_mod, Nat.div_eq_of_lt hj,
        Nat.mod_eq_of_lt hj, add_zero, show k - 1 + 1 = k by omega, hP']
    · rw [h2, hP1]
    · rw [show k = 0 by omega, hP0]
  · rw [fitWeights]
    split_ifs with h1
    · have e : (D + 1) * (n - 2) = D * (n - 2) + (n - 2) := by ring
      rw [fitPack, if_neg (by omega), if_pos (by omega)]
      congr 1; omega
    · rcases Nat.lt_or_ge k 1 with h | h
      · rw [show k = 0 by omega, hw0]
      · rw [show k = n - 1 by omega, hw1]
  · rw [fitT]
    split_ifs with h1 h2
    · rw [h1, ht1]
    · rw [h2, ht0]
    · have e : (D + 1) * (n - 2) = D * (n - 2) + (n - 2) := by ring
      rw [fitPack, if_neg (by omega), if_neg (by omega)]
      congr 1; omega

/-- **C11.** Unpacking a vector and packing it again gives back every entry of the vector. -/
theorem c11_pack_unpack (D n N : ℕ) (T : ℕ → Fin D → ℝ) (x : ℕ → ℝ) (i : ℕ)
    (hi : i < fitLen D n N) :
    fitPack D n (fun k j => if h : j < D then fitPoints D n N T x k ⟨j, h⟩ else 0)
      (fitWeights D n x) (fitT D n N x) i = x i := by
  have e : (D + 1) * (n - 2) = D * (n - 2) + (n - 2) := by ring
  rw [fitLen] at hi
  rw [fitPack]
  by_cases h1 : i < D * (n - 2)
  · have hD : 0 < D := by
      rcases Nat.eq_zero_or_pos D with h | h
      · subst h; simp at h1
      · exact h
    rw [if_pos h1]
    have hd : i / D < n - 2 := (Nat.div_lt_iff_lt_mul hD).2 (by rwa [mul_comm])
    have hd2 : 1 ≤ i / D + 1 ∧ i / D + 1 < n - 1 := by
      generalize i / D = a at hd ⊢; omega
    rw [dif_pos (Nat.mod_lt _ hD), fitPoints, if_pos hd2]
    simp only [Nat.add_sub_cancel]
    rw [Nat.div_add_mod]
  rw [if_neg h1]
  by_cases h2 : i < (D + 1) * (n - 2)
  · rw [if_pos h2, fitWeights, if_pos (by omega)]
    congr 1; omega
  · rw [if_neg h2, fitT, if_neg (by omega), if_neg (by omega)]
    congr 1; omega

/-- Concrete case for C11: a planar fit with three control points and three targets on a corner. The packed
vector has four entries; the middle control point, its weight and the middle parameter come from it. -/
example : let T : ℕ → Fin 2 → ℝ := fun i => if i = 0 then ![0, 0] else if i = 1 then ![1, 0] else ![1, 1]
    let x : ℕ → ℝ := fun i => if i = 0 then 3 else if i = 1 then 4 else if i = 2 then 5 else 1 / 2
    fitLen 2 3 3 = 4 ∧ fitNurbPoints 2 3 3 T x = ([![0, 0], ![3, 4], ![1, 1]], [1, 5, 1]) ∧
      fitT 2 3 3 x 1 = 1 / 2 := by
  refine ⟨rfl, ?_, ?_⟩
  · simp only [fitNurbPoints, Prod.mk.injEq]
    constructor
    · simp [List.ofFn_succ, fitPoints]
      ext j; fin_cases j <;> simp
    · simp [List.ofFn_succ, fitWeights]
  · simp [fitT]

end C11

/-! ### C12: the gradient of the curve fit -/

section C12
variable {E : Type*} [NormedAddCommGroup E] [NormedSpace ℝ E]

theorem bern_hasDerivAt (n k : ℕ) (t : ℝ) :
    HasDerivAt (fun s => Spec.bern n k s) ((bernsteinPolynomial ℝ n k).derivative.eval t) t :=
  (bernsteinPolynomial ℝ n k).hasDerivAt t

/-- Textbook rational curve of `n` weighted points. -/
noncomputable def ratCurve {n : ℕ} (p : Fin n → E) (w : Fin n → ℝ) (t : ℝ) : E :=
  (∑ k : Fin n, Spec.bern (n - 1) k t * w k)⁻¹ • ∑ k : Fin n, (Spec.bern (n - 1) k t * w k) • p k

omit [NormedAddCommGroup E] [NormedSpace ℝ E] in
theorem ofFn_fst {n : ℕ} (p : Fin n → E) (w : Fin n → ℝ) :
    (List.ofFn fun k => (w k, p k)).map Prod.fst = List.ofFn w := by
  rw [List.map_ofFn]; rfl

omit [NormedAddCommGroup E] [NormedSpace ℝ E] in
theorem ofFn_snd {n : ℕ} (p : Fin n → E) (w : Fin n → ℝ) :
    (List.ofFn fun k => (w k, p k)).map Prod.snd = List.ofFn p := by
  rw [List.map_ofFn]; rfl

theorem weight_ofFn {n : ℕ} (p : Fin n → E) (w : Fin n → ℝ) (t : ℝ) :
    Spec.weight (List.ofFn fun k => (w k, p k)) t = ∑ k : Fin n, Spec.bern (n - 1) k t * w k := by
  rw [spec_weight_eq, ofFn_fst, spec_bezier_ofFn]
  simp

theorem rationalCurve_ofFn {n : ℕ} (p : Fin n → E) (w : Fin n → ℝ) (t : ℝ) :
    Spec.rationalCurve (List.ofFn fun k => (w k, p k)) t = ratCurve p w t := by
  rw [Spec.rationalCurve, spec_num_eq, ofFn_fst, ofFn_snd, weighted_ofFn, spec_bezier_ofFn, weight_ofFn,
    ratCurve]
  simp only [mul_smul]

theorem diffPoints_ofFn {n : ℕ} (w : Fin n → ℝ) (t : ℝ) (k : Fin n)
    (hw : ∑ k : Fin n, Spec.bern (n - 1) k t * w k ≠ 0) :
    nurbezierDiffPoints t (List.ofFn w) k =
      some (Spec.bern (n - 1) k t * w k / ∑ k : Fin n, Spec.bern (n - 1) k t * w k) := by
  have hne' : (List.ofFn w) ≠ [] := by
    intro e; have := congrArg List.length e; simp at this; have := k.2; omega
  rw [nurbezierDiffPoints, List.length_ofFn, bezierdc_unit t n k k.2, (c01_evaluators_correct t _ hne').1,
    spec_bezier_ofFn]
  simp only [smul_eq_mul]
  simp [hw]

theorem diffWeights_ofFn {n : ℕ} (p : Fin n → E) (w : Fin n → ℝ) (t : ℝ) (k : Fin n)
    (hw : ∑ k : Fin n, Spec.bern (n - 1) k t * w k ≠ 0) :
    nurbezierDiffWeights t (List.ofFn p) (List.ofFn w) k =
      some ((Spec.bern (n - 1) k t / ∑ k : Fin n, Spec.bern (n - 1) k t * w k) • p k -
        (Spec.bern (n - 1) k t / ∑ k : Fin n, Spec.bern (n - 1) k t * w k) • ratCurve p w t) := by
  have hne' : (List.ofFn w) ≠ [] := by
    intro e; have := congrArg List.length e; simp at this; have := k.2; omega
  rw [nurbezierDiffWeights, nurbezier_ofFn (by have := k.2; omega) p w t hw, List.length_ofFn,
    bezierdc_unit t n k k.2, (c01_evaluators_correct t _ hne').1, spec_bezier_ofFn]
  simp only [smul_eq_mul]
  simp [hw, ratCurve]

/-- The three sensitivities together: velocity of a curve whose parameter, points and weights all move. -/
theorem ratCurve_hasDerivAt {n : ℕ} (hn : 2 ≤ n) (p : ℝ → Fin n → E) (w : ℝ → Fin n → ℝ) (t : ℝ → ℝ)
    (p' : Fin n → E) (w' : Fin n → ℝ) (t' h : ℝ) (hp : ∀ k, HasDerivAt (fun s => p s k) (p' k) h)
    (hwd : ∀ k, HasDerivAt (fun s => w s k) (w' k) h) (ht : HasDerivAt t t' h)
    (hw : ∑ k : Fin n, Spec.bern (n - 1) k (t h) * w h k ≠ 0) :
    ∃ v, nurbezierDiffT (t h) (List.ofFn (p h)) (List.ofFn (w h)) = some v ∧
      HasDerivAt (fun s => ratCurve (p s) (w s) (t s))
        (t' • v + ∑ k : Fin n, (Spec.bern (n - 1) k (t h) * w h k /
            ∑ k : Fin n, Spec.bern (n - 1) k (t h) * w h k) • p' k +
          ∑ k : Fin n, w' k • ((Spec.bern (n - 1) k (t h) / ∑ k : Fin n, Spec.bern (n - 1) k (t h) * w h k) • p h k -
            (Spec.bern (n - 1) k (t h) / ∑ k : Fin n, Spec.bern (n - 1) k (t h) * w h k) •
              ratCurve (p h) (w h) (t h))) h := by
  obtain ⟨v, hv, hd⟩ := c06_velocity (List.ofFn fun k => (w h k, p h k)) (by simpa using hn) (t h)
    (by rw [weight_ofFn]; exact hw)
  rw [ofFn_fst, ofFn_snd] at hv
  refine ⟨v, hv, ?_⟩
  simp only [rationalCurve_ofFn] at hd
  obtain ⟨b, hb⟩ : ∃ b : Fin n → ℝ, b = fun k : Fin n => Spec.bern (n - 1) k (t h) := ⟨_, rfl⟩
  obtain ⟨β, hβ⟩ : ∃ β : Fin n → ℝ, β = fun k : Fin n =>
    (bernsteinPolynomial ℝ (n - 1) k).derivative.eval (t h) := ⟨_, rfl⟩
  have hbk : ∀ k : Fin n, Spec.bern (n - 1) k (t h) = b k := fun k => by rw [hb]
  -- the velocity in the parameter alone
  have d0 : HasDerivAt (fun s => ratCurve (p h) (w h) s)
      ((-(∑ k, β k * w h k) / (∑ k, b k * w h k) ^ 2) • ∑ k, (b k * w h k) • p h k +
        (∑ k, b k * w h k)⁻¹ • ∑ k, (β k * w h k) • p h k) (t h) := by
    have h1 : HasDerivAt (fun s => ∑ k : Fin n, Spec.bern (n - 1) k s * w h k) (∑ k, β k * w h k) (t h) := by
      refine HasDerivAt.fun_sum fun k _ => ?_
      rw [hβ]; exact (bern_hasDerivAt _ _ _).mul_const _
    have h2 : HasDerivAt (fun s => ∑ k : Fin n, (Spec.bern (n - 1) k s * w h k) • p h k)
        (∑ k, (β k * w h k) • p h k) (t h) := by
      refine HasDerivAt.fun_sum fun k _ => ?_
      rw [hβ]; exact ((bern_hasDerivAt _ _ _).mul_const _).smul_const _
    have := (h1.fun_inv hw).fun_smul h2
    simp only [hbk] at this
    rw [add_comm]
    exact this
  have hv' := hd.unique d0
  have h1 : HasDerivAt (fun s => ∑ k : Fin n, Spec.bern (n - 1) k (t s) * w s k)
      (∑ k, (β k * t' * w h k + b k * w' k)) h := by
    refine HasDerivAt.fun_sum fun k _ => ?_
    rw [hβ, hb]; exact ((bern_hasDerivAt _ _ _).comp h ht).mul (hwd k)
  have h2 : HasDerivAt (fun s => ∑ k : Fin n, (Spec.bern (n - 1) k (t s) * w s k) • p s k)
      (∑ k, ((b k * w h k) • p' k + (β k * t' * w h k + b k * w' k) • p h k)) h := by
    refine HasDerivAt.fun_sum fun k _ => ?_
    rw [hβ, hb]; exact (((bern_hasDerivAt _ _ _).comp h ht).mul (hwd k)).smul (hp k)
  have h3 := (h1.fun_inv hw).fun_smul h2
  refine h3.congr_deriv ?_
  simp only [hbk] at hw ⊢
  rw [hv', ratCurve]
  simp only [hbk]
  obtain ⟨W, hW⟩ : ∃ W, W = ∑ k, b k * w h k := ⟨_, rfl⟩
  obtain ⟨A, hA⟩ : ∃ A, A = ∑ k, β k * w h k := ⟨_, rfl⟩
  obtain ⟨B, hB⟩ : ∃ B, B = ∑ k, b k * w' k := ⟨_, rfl⟩
  obtain ⟨N0, hN0⟩ : ∃ N0, N0 = ∑ k, (b k * w h k) • p h k := ⟨_, rfl⟩
  obtain ⟨Np, hNp⟩ : ∃ Np, Np = ∑ k, (β k * w h k) • p h k := ⟨_, rfl⟩
  obtain ⟨Nw, hNw⟩ : ∃ Nw, Nw = ∑ k, (b k * w' k) • p h k := ⟨_, rfl⟩
  obtain ⟨Nq, hNq⟩ : ∃ Nq, Nq = ∑ k, (b k * w h k) • p' k := ⟨_, rfl⟩
  have e1 : ∑ k, (β k * t' * w h k + b k * w' k) = t' * A + B := by
    rw [hA, hB, Finset.mul_sum, ← Finset.sum_add_distrib]
    exact Finset.sum_congr rfl fun k _ => by ring
  have e2 : ∑ k, ((b k * w h k) • p' k + (β k * t' * w h k + b k * w' k) • p h k) =
      Nq + t' • Np + Nw := by
    rw [hNq, hNp, hNw, Finset.smul_sum, ← Finset.sum_add_distrib, ← Finset.sum_add_distrib]
    exact Finset.sum_congr rfl fun k _ => by module
  have e3 : ∑ k, (b k * w h k / W) • p' k = W⁻¹ • Nq := by
    rw [hNq, Finset.smul_sum]
    exact Finset.sum_congr rfl fun k _ => by rw [smul_smul, div_eq_inv_mul]
  have e4 : ∑ k, w' k • ((b k / W) • p h k - (b k / W) • (W⁻¹ • N0)) =
      W⁻¹ • Nw - (B / W) • (W⁻¹ • N0) := by
    rw [hNw, hB, Finset.smul_sum, Finset.sum_div, Finset.sum_smul, ← Finset.sum_sub_distrib]
    refine Finset.sum_congr rfl fun k _ => ?_
    rw [smul_sub]
    congr 1
    · rw [smul_smul, smul_smul]; congr 1; field_simp
    · rw [smul_smul (w' k)]; congr 1; ring
  rw [← hW, ← hN0, ← hA, ← hNp, e1, e2, e3, e4]
  rw [← hW] at hw
  match_scalars <;> field_simp <;> ring

/-! #### Index bookkeeping -/

theorem sum_fin_mid {n : ℕ} (hn : 2 ≤ n) (f : ℕ → ℝ) (h0 : f 0 = 0) (h1 : f (n - 1) = 0) :
    ∑ k : Fin n, f k = ∑ a ∈ range (n - 2), f (a + 1) := by
  obtain ⟨m, rfl⟩ : ∃ m, n = m + 2 := ⟨n - 2, by omega⟩
  rw [Fin.sum_univ_eq_sum_range, Finset.sum_range_succ', h0, add_zero, Finset.sum_range_succ,
    show m + 1 = m + 2 - 1 by omega, h1, add_zero]
  rfl

theorem sum_range_mul' (a q : ℕ) (f : ℕ → ℝ) :
    ∑ i ∈ range (a * q), f i = ∑ k ∈ range a, ∑ j : Fin q, f (k * q + j) := by
  induction a with
  | zero => simp
  | succ a ih =>
    rw [Nat.succ_mul, Finset.sum_range_add, ih, Finset.sum_range_succ,
      Fin.sum_univ_eq_sum_range (fun j => f (a * q + j))]

variable {D n N : ℕ} {T : ℕ → Fin D → ℝ}

/-- Derivative of the control points along a direction `d` of the packed vector. -/
def dirPoints (D n : ℕ) (d : ℕ → ℝ) (k : ℕ) : Fin D → ℝ :=
  if 1 ≤ k ∧ k < n - 1 then fun j => d (D * (k - 1) + j) else 0

/-- The same for the weights. -/
def dirWeights (D n : ℕ) (d : ℕ → ℝ) (k : ℕ) : ℝ :=
  if 1 ≤ k ∧ k < n - 1 then d (D * (n - 2) + k - 1) else 0

/-- The same for the parameters. -/
def dirT (D n N : ℕ) (d : ℕ → ℝ) (i : ℕ) : ℝ :=
  if i = N - 1 then 0 else if i = 0 then 0 else d ((D + 1) * (n - 2) + (i - 1))

theorem fitPoints_line (x d : ℕ → ℝ) (h : ℝ) (k : ℕ) :
    fitPoints D n N T (x + h • d) k = fitPoints D n N T x k + h • dirPoints D n d k := by
  rw [fitPoints, fitPoints, dirPoints]
  split_ifs <;> simp <;> rfl

theorem fitWeights_line (x d : ℕ → ℝ) (h : ℝ) (k : ℕ) :
    fitWeights D n (x + h • d) k = fitWeights D n x k + h * dirWeights D n d k := by
  rw [fitWeights, fitWeights, dirWeights]
  split_ifs <;> simp

theorem fitT_line (x d : ℕ → ℝ) (h : ℝ) (i : ℕ) :
    fitT D n N (x + h • d) i = fitT D n N x i + h * dirT D n N d i := by
  rw [fitT, fitT, dirT]
  split_ifs <;> simp

/-- Weight function of the fitted curve at its `i`-th parameter. -/
noncomputable def fitDenom (D n N : ℕ) (x : ℕ → ℝ) (i : ℕ) : ℝ :=
  ∑ k : Fin n, Spec.bern (n - 1) k (fitT D n N x i) * fitWeights D n x k

theorem fitRow_eq (hn : 2 ≤ n) (x : ℕ → ℝ) (i : ℕ) (hw : fitDenom D n N x i ≠ 0) :
    ∃ v, nurbezierDiffT (fitT D n N x i) (List.ofFn fun k : Fin n => fitPoints D n N T x k)
        (List.ofFn fun k : Fin n => fitWeights D n x k) = some v ∧
      fitRow D n N T x i = some ⟨T i - ratCurve (fun k : Fin n => fitPoints D n N T x k)
          (fun k : Fin n => fitWeights D n x k) (fitT D n N x i),
        fun k => -(Spec.bern (n - 1) k (fitT D n N x i) * fitWeights D n x k / fitDenom D n N x i),
        fun k => -((Spec.bern (n - 1) k (fitT D n N x i) / fitDenom D n N x i) • fitPoints D n N T x k -
          (Spec.bern (n - 1) k (fitT D n N x i) / fitDenom D n N x i) •
            ratCurve (fun k : Fin n => fitPoints D n N T x k)
          (fun k : Fin n => fitWeights D n x k) (fitT D n N x i)), -v⟩ := by
  obtain ⟨v, hv, -⟩ := c06_velocity (List.ofFn fun k : Fin n => (fitWeights D n x k, fitPoints D n N T x k))
    (by simpa using hn) (fitT D n N x i) (by rw [weight_ofFn]; exact hw)
  rw [ofFn_fst, ofFn_snd] at hv
  refine ⟨v, hv, ?_⟩
  rw [fitRow, nurbezier_ofFn (by omega) _ _ _ hw, hv,
    optSeq_eq_some fun k => diffPoints_ofFn _ _ k hw,
    optSeq_eq_some fun k => diffWeights_ofFn _ _ _ k hw]
  rfl

theorem fitPack_sum (hn : 2 ≤ n) (hN : 2 ≤ N) (dp : ℕ → ℕ → ℝ) (dw dt d : ℕ → ℝ) :
    ∑ i ∈ range (fitLen D n N), fitPack D n dp dw dt i * d i =
      (∑ k : Fin n, ∑ j : Fin D, dp k j * dirPoints D n d k j) +
        (∑ k : Fin n, dw k * dirWeights D n d k) + ∑ i : Fin N, dt i * dirT D n N d i := by
  have e : (D + 1) * (n - 2) = (n - 2) * D + (n - 2) := by ring
  have e' : D * (n - 2) = (n - 2) * D := by ring
  rw [fitLen, e, Finset.sum_range_add, Finset.sum_range_add, sum_range_mul']
  rw [sum_fin_mid hn (fun k => ∑ j : Fin D, dp k j * dirPoints D n d k j)
      (by simp [dirPoints]) (by simp [dirPoints]),
    sum_fin_mid hn (fun k => dw k * dirWeights D n d k) (by simp [dirWeights]) (by simp [dirWeights]),
    sum_fin_mid hN (fun i => dt i * dirT D n N d i) (by simp [dirT]) (by simp [dirT])]
  congr 1
  congr 1
  · refine Finset.sum_congr rfl fun k hk => Finset.sum_congr rfl fun j _ => ?_
    have hk := Finset.mem_range.1 hk
    have hj := j.2
    have hb : k * D + (j : ℕ) < D * (n - 2) := by
      calc k * D + (j : ℕ) < k * D + D := by omega
        _ = D * (k + 1) := by ring
        _ ≤ D * (n - 2) := Nat.mul_le_mul_left _ (by omega)
    rw [fitPack, if_pos hb, mul_comm k D, Nat.mul_add_div (by omega), Nat.mul_add_mod,
      Nat.div_eq_of_lt hj, Nat.mod_eq_of_lt hj, add_zero, dirPoints, if_pos (by omega)]
    rfl
  · refine Finset.sum_congr rfl fun k hk => ?_
    have hk := Finset.mem_range.1 hk
    rw [fitPack, if_neg (by omega), if_pos (by omega), dirWeights, if_pos (by omega), e']
    congr 2
    omega
  · refine Finset.sum_congr rfl fun k hk => ?_
    have hk := Finset.mem_range.1 hk
    rw [fitPack, if_neg (by omega), if_neg (by omega), dirT, if_neg (by omega), if_neg (by omega), e]
    congr 2
    omega

/-- Rate of change of half a sum of squares. -/
theorem sumSq_hasDerivAt (T : Fin N → Fin D → ℝ) {S : Fin N → ℝ → Fin D → ℝ} {v : Fin N → Fin D → ℝ}
    {τ : Fin N → ℝ} {c : Fin N → Fin n → ℝ} {π : Fin n → Fin D → ℝ} {ω : Fin n → ℝ}
    {g : Fin N → Fin n → Fin D → ℝ}
    (hS : ∀ i, HasDerivAt (S i) (τ i • v i + ∑ k, c i k • π k + ∑ k, ω k • g i k) 0) :
    HasDerivAt (fun h => (∑ i, ∑ j, (T i j - S i h j) ^ 2) / 2)
      ((∑ k, ∑ j, (∑ i, -c i k * (T i j - S i 0 j)) * π k j) +
        (∑ k, (∑ i, ∑ j, (T i j - S i 0 j) * -g i k j) * ω k) +
        ∑ i, (∑ j, (T i j - S i 0 j) * -v i j) * τ i) 0 := by
  have hF := (HasDerivAt.fun_sum (u := Finset.univ) fun (i : Fin N) _ =>
    HasDerivAt.fun_sum (u := Finset.univ) fun (j : Fin D) _ =>
      (((hasDerivAt_pi.1 (hS i) j).const_sub (T i j)
        ).fun_pow 2)).div_const (2 : ℝ)
  refine hF.congr_deriv ?_
  obtain ⟨R, hR⟩ : ∃ R : Fin N → Fin D → ℝ, ∀ i j, T i j - S i 0 j = R i j := ⟨_, fun _ _ => rfl⟩
  simp only [hR]
  have e1 : ∑ k, ∑ j, (∑ i, -c i k * R i j) * π k j = ∑ i, ∑ j, ∑ k, -c i k * R i j * π k j := by
    simp only [Finset.sum_mul]
    rw [Finset.sum_comm]
    conv_lhs => enter [2, j]; rw [Finset.sum_comm]
    rw [Finset.sum_comm]
  have e2 : ∑ k, (∑ i, ∑ j, R i j * -g i k j) * ω k = ∑ i, ∑ j, ∑ k, R i j * -g i k j * ω k := by
    simp only [Finset.sum_mul]
    rw [Finset.sum_comm]
    refine Finset.sum_congr rfl fun i _ => ?_
    rw [Finset.sum_comm]
  have e3 : ∑ i, (∑ j, R i j * -v i j) * τ i = ∑ i, ∑ j, R i j * -v i j * τ i := by
    simp only [Finset.sum_mul]
  rw [e1, e2, e3, ← Finset.sum_add_distrib, ← Finset.sum_add_distrib, Finset.sum_div]
  refine Finset.sum_congr rfl fun i _ => ?_
  rw [← Finset.sum_add_distrib, ← Finset.sum_add_distrib, Finset.sum_div]
  refine Finset.sum_congr rfl fun j _ => ?_
  simp only [Pi.add_apply, Pi.smul_apply, Finset.sum_apply, smul_eq_mul]
  have f1 : ∑ k, -c i k * R i j * π k j = -R i j * ∑ k, c i k * π k j := by
    rw [Finset.mul_sum]; exact Finset.sum_congr rfl fun k _ => by ring
  have f2 : ∑ k, R i j * -g i k j * ω k = -R i j * ∑ k, ω k * g i k j := by
    rw [Finset.mul_sum]; exact Finset.sum_congr rfl fun k _ => by ring
  rw [f1, f2]
  push_cast
  ring

/-- **C12, curve fit.** The vector handed to the optimiser next to the cost is its gradient: along every
direction `d` the cost changes at the rate `∑ J i * d i`. The cost itself is half the sum of the squared
residuals. -/
theorem c12_curve_fit (D n N : ℕ) (hn : 2 ≤ n) (hN : 2 ≤ N) (T : ℕ → Fin D → ℝ) (x : ℕ → ℝ)
    (hw : ∀ i < N, fitDenom D n N x i ≠ 0) :
    ∃ J, fitCost D n N T x = some
        (Spec.fitCost D n N T (fitPoints D n N T x) (fitWeights D n x) (fitT D n N x), J) ∧
      ∀ d : ℕ → ℝ, ∃ F : ℝ → ℝ,
        (∀ᶠ h in 𝓝 (0 : ℝ), (fitCost D n N T (x + h • d)).map Prod.fst = some (F h)) ∧
        HasDerivAt F (∑ i ∈ range (fitLen D n N), J i * d i) 0 := by
  have hrow : ∀ x : ℕ → ℝ, (∀ i < N, fitDenom D n N x i ≠ 0) → ∀ i : Fin N, _ := fun x hw i =>
    fitRow_eq (D := D) (n := n) (N := N) (T := T) hn x i (hw i i.2)
  choose v hv hr using hrow x hw
  have hc := optSeq_eq_some hr
  refine ⟨_, by rw [fitCost, hc, Option.map_some]; simp only [Spec.fitCost, rationalCurve_ofFn]; rfl, ?_⟩
  intro d
  refine ⟨fun h => (∑ i : Fin N, ∑ j : Fin D,
    (T i j - ratCurve (fun k : Fin n => fitPoints D n N T x k + h • dirPoints D n d k)
      (fun k : Fin n => fitWeights D n x k + h * dirWeights D n d k)
      (fitT D n N x i + h * dirT D n N d i) j) ^ 2) / 2, ?_, ?_⟩
  · have hev : ∀ᶠ h in 𝓝 (0 : ℝ), ∀ i : Fin N, fitDenom D n N (x + h • d) i ≠ 0 := by
      refine Filter.eventually_all.2 fun i => ?_
      have hcont : ContinuousAt (fun h : ℝ => fitDenom D n N (x + h • d) i) 0 := by
        simp only [fitDenom, fitWeights_line, fitT_line]
        refine Continuous.continuousAt ?_
        refine continuous_finset_sum _ fun k _ => ?_
        exact (Continuous.comp (g := fun s => Spec.bern (n - 1) k s)
          (continuous_iff_continuousAt.2 fun s => (bern_hasDerivAt _ _ s).continuousAt)
          (by fun_prop)).mul (by fun_prop)
      refine hcont.eventually_ne ?_
      simpa using hw i i.2
    filter_upwards [hev] with h hh
    choose v' hv' hr' using hrow (x + h • d) fun i hi => hh ⟨i, hi⟩
    rw [fitCost, optSeq_eq_some hr', Option.map_some, Option.map_some]
    simp only [fitPoints_line, fitWeights_line, fitT_line]
    rfl
  · have hS : ∀ i : Fin N, HasDerivAt (fun h : ℝ =>
        ratCurve (fun k : Fin n => fitPoints D n N T x k + h • dirPoints D n d k)
          (fun k : Fin n => fitWeights D n x k + h * dirWeights D n d k)
          (fitT D n N x i + h * dirT D n N d i))
        (dirT D n N d i • v i + ∑ k : Fin n, (Spec.bern (n - 1) k (fitT D n N x i) * fitWeights D n x k /
            fitDenom D n N x i) • dirPoints D n d k +
          ∑ k : Fin n, dirWeights D n d k •
            ((Spec.bern (n - 1) k (fitT D n N x i) / fitDenom D n N x i) • fitPoints D n N T x k -
            (Spec.bern (n - 1) k (fitT D n N x i) / fitDenom D n N x i) •
              ratCurve (fun k : Fin n => fitPoints D n N T x k)
                (fun k : Fin n => fitWeights D n x k) (fitT D n N x i))) 0 := by
      intro i
      obtain ⟨v', hv', hd'⟩ := ratCurve_hasDerivAt hn
        (fun (h : ℝ) (k : Fin n) => fitPoints D n N T x k + h • dirPoints D n d k)
        (fun (h : ℝ) (k : Fin n) => fitWeights D n x k + h * dirWeights D n d k)
        (fun h => fitT D n N x i + h * dirT D n N d i) (fun k => dirPoints D n d k)
        (fun k => dirWeights D n d k) (dirT D n N d i) 0
        (fun k => by simpa using ((hasDerivAt_id (0 : ℝ)).smul_const (dirPoints D n d k)).const_add (fitPoints D n N T x k))
        (fun k => by simpa using ((hasDerivAt_id (0 : ℝ)).mul_const (dirWeights D n d k)).const_add (fitWeights D n x k))
        (by simpa using ((hasDerivAt_id (0 : ℝ)).mul_const (dirT D n N d i)).const_add (fitT D n N x i))
        (by have := hw i i.2; simpa [fitDenom] using this)
      simp only [zero_smul, add_zero, zero_mul] at hv' hd'
      rw [hv i] at hv'
      obtain rfl := Option.some.inj hv'
      exact hd'
    have hF := sumSq_hasDerivAt (fun (i : Fin N) j => T i j) hS
    refine hF.congr_deriv ?_
    rw [fitPack_sum hn hN]
    simp only [Fin.is_lt, and_self, dif_pos, Fin.eta, zero_smul, zero_mul, add_zero]
    rfl

/-- The hypothesis of `c12_curve_fit` holds whenever the weights are positive and the parameters lie in the
unit interval, which is where the optimiser starts. -/
theorem fitDenom_ne_zero {D n N : ℕ} (hn : 2 ≤ n) (x : ℕ → ℝ) (i : ℕ)
    (hw : ∀ k : Fin n, 0 < fitWeights D n x k) (h0 : 0 ≤ fitT D n N x i) (h1 : fitT D n N x i ≤ 1) :
    fitDenom D n N x i ≠ 0 :=
  (weight_pos (by omega) (fun k : Fin n => fitWeights D n x k) hw _ h0 h1).ne'

/-- Concrete case for C12: a planar fit with three control points and four targets, at the packed vector
with all entries `1/2`. -/
example : ∀ i < 4, fitDenom 2 3 4 (fun _ => 1 / 2) i ≠ 0 := by
  intro i _
  refine fitDenom_ne_zero (by norm_num) _ _ (fun k => ?_) ?_ ?_
  · rw [fitWeights]; split_ifs <;> norm_num
  · rw [fitT]; split_ifs <;> norm_num
  · rw [fitT]; split_ifs <;> norm_num

end C12

end Verif
