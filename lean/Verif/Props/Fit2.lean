import Verif.Props.Fit

/-! # Properties C12 (surface fit), C77 -/

namespace Verif

open Finset Filter Topology

section
variable {q m o : ℕ} {T : ℕ → Fin q → ℝ}

/-- Derivative of the control rows along a direction `d` of the packed vector. -/
def dirSurf (q m : ℕ) (d : ℕ → ℝ) (k : ℕ) : Fin q → ℝ :=
  if 1 ≤ k ∧ k < m - 1 then fun j => d ((k - 1) * q + j) else 0

theorem surfPoints_line (x d : ℕ → ℝ) (h : ℝ) (k : ℕ) :
    surfPoints q m o T (x + h • d) k = surfPoints q m o T x k + h • dirSurf q m d k := by
  rw [surfPoints, surfPoints, dirSurf]
  split_ifs <;> simp <;> rfl

theorem surfT_line (x d : ℕ → ℝ) (h : ℝ) (i : ℕ) :
    surfT q m (x + h • d) i = surfT q m x i + h * d ((m - 2) * q + i) := by
  simp [surfT]

theorem diffP_get (t : ℝ) (m : ℕ) (k : Fin m) :
    ((bezierDiffP t m)[(k : ℕ)]?).bind id = some (Spec.bern (m - 1) k t) := by
  rw [bezierDiffP, List.getElem?_map, List.getElem?_range k.2]
  simp [bezierdc_unit t m k k.2]

theorem surfRow_eq (hm : 2 ≤ m) (x t : ℕ → ℝ) (i : ℕ) :
    surfRow q m o T x t i = some
      (T (i + 1) - ∑ k : Fin m, Spec.bern (m - 1) k (t i) • surfPoints q m o T x k,
        fun k : Fin m => -Spec.bern (m - 1) k (t i),
        -deriv (fun s => ∑ k : Fin m, Spec.bern (m - 1) k s • surfPoints q m o T x k) (t i)) := by
  have hne : (List.ofFn fun k : Fin m => surfPoints q m o T x k) ≠ [] := by
    intro e; have := congrArg List.length e; simp at this; omega
  rw [surfRow, (c01_evaluators_correct (t i) _ hne).1,
    c05_exact_derivative_partial _ 1 (by simp; omega) (t i),
    optSeq_eq_some fun k => diffP_get (t i) m k, iteratedDeriv_one]
  simp only [spec_bezier_ofFn]

theorem surfPack_sum (hm : 2 ≤ m) (dp : ℕ → ℕ → ℝ) (dt d : ℕ → ℝ) :
    ∑ i ∈ range (surfLen q m o), surfPack q m o dp dt i * d i =
      (∑ k : Fin m, ∑ j : Fin q, dp k j * dirSurf q m d k j) +
        ∑ i : Fin (o - 2), dt i * d ((m - 2) * q + i) := by
  have key : ∀ r, ∑ i ∈ range ((m - 2) * q + (o - 2) + r), surfPack q m o dp dt i * d i =
      (∑ k : Fin m, ∑ j : Fin q, dp k j * dirSurf q m d k j) +
        ∑ i : Fin (o - 2), dt i * d ((m - 2) * q + i) := by
    intro r
    rw [Finset.sum_range_add, Finset.sum_range_add, sum_range_mul',
      sum_fin_mid hm (fun k => ∑ j : Fin q, dp k j * dirSurf q m d k j)
        (by simp [dirSurf]) (by simp [dirSurf]),
      Fin.sum_univ_eq_sum_range (fun i => dt i * d ((m - 2) * q + i))]
    have e0 : ∑ x ∈ range r, surfPack q m o dp dt ((m - 2) * q + (o - 2) + x) *
        d ((m - 2) * q + (o - 2) + x) = 0 := by
      refine Finset.sum_eq_zero fun i _ => ?_
      rw [surfPack, if_neg (by omega), if_neg (by omega), zero_mul]
    rw [e0, add_zero]
    congr 1
    · refine Finset.sum_congr rfl fun k hk => Finset.sum_congr rfl fun j _ => ?_
      have hk := Finset.mem_range.1 hk
      have hj := j.2
      have hb : k * q + (j : ℕ) < (m - 2) * q := by
        calc k * q + (j : ℕ) < k * q + q := by omega
          _ = (k + 1) * q := by ring
          _ ≤ (m - 2) * q := Nat.mul_le_mul_right _ (by omega)
      rw [surfPack, if_pos hb, dirSurf, if_pos (by omega), Nat.mul_comm k q,
        Nat.mul_add_div (by omega), Nat.mul_add_mod, Nat.div_eq_of_lt hj, Nat.mod_eq_of_lt hj, add_zero,
        Nat.add_sub_cancel, Nat.mul_comm k q]
    · refine Finset.sum_congr rfl fun k hk => ?_
      have hk := Finset.mem_range.1 hk
      rw [surfPack, if_neg (by omega), if_pos (by omega)]
      congr 2
      omega
  have : surfLen q m o = (m - 2) * q + (o - 2) + (o - (o - 2)) := by rw [surfLen]; omega
  rw [this, key]

/-- Rate of change of a Bezier curve whose parameter and points move. -/
theorem bez_hasDerivAt (P Q : Fin m → Fin q → ℝ) (t τ : ℝ) :
    HasDerivAt (fun h : ℝ => ∑ k : Fin m, Spec.bern (m - 1) k (t + h * τ) • (P k + h • Q k))
      (τ • deriv (fun s => ∑ k : Fin m, Spec.bern (m - 1) k s • P k) t +
        ∑ k : Fin m, Spec.bern (m - 1) k t • Q k + ∑ k : Fin m, (0 : ℝ) • (0 : Fin q → ℝ)) 0 := by
  have hd : HasDerivAt (fun s => ∑ k : Fin m, Spec.bern (m - 1) k s • P k)
      (∑ k : Fin m, (bernsteinPolynomial ℝ (m - 1) k).derivative.eval t • P k) t :=
    HasDerivAt.fun_sum fun k _ => (bern_hasDerivAt _ _ _).smul_const _
  rw [hd.deriv]
  have ht : HasDerivAt (fun h : ℝ => t + h * τ) τ 0 := by
    simpa using ((hasDerivAt_id (0 : ℝ)).mul_const τ).const_add t
  have e : t + 0 * τ = t := by ring
  have hb : ∀ k : Fin m, HasDerivAt (fun h : ℝ => Spec.bern (m - 1) k (t + h * τ))
      ((bernsteinPolynomial ℝ (m - 1) k).derivative.eval t * τ) 0 := by
    intro k
    have h1 := bern_hasDerivAt (m - 1) k (t + 0 * τ)
    have h2 := HasDerivAt.comp (0 : ℝ) h1 ht
    rw [e] at h2
    exact h2
  have hP : ∀ k : Fin m, HasDerivAt (fun h : ℝ => P k + h • Q k) (Q k) 0 := by
    intro k
    simpa using ((hasDerivAt_id (0 : ℝ)).smul_const (Q k)).const_add (P k)
  have h3 := HasDerivAt.fun_sum (u := Finset.univ) fun k _ => (hb k).fun_smul (hP k)
  refine h3.congr_deriv ?_
  simp only [zero_mul, add_zero, zero_smul, Finset.sum_const_zero]
  rw [Finset.smul_sum, ← Finset.sum_add_distrib]
  exact Finset.sum_congr rfl fun k _ => by module

/-- **C12, surface fit.** What `solve_surface` hands to the optimiser next to the cost is exactly half of
the gradient of the cost. The cost itself is the sum of the squared residuals. -/
theorem c12_surface_fit_partial (q m o : ℕ) (hm : 2 ≤ m) (T : ℕ → Fin q → ℝ) (x : ℕ → ℝ) :
    ∃ J, surfCost q m o T x = some (Spec.surfCost q m o T (surfPoints q m o T x) (surfT q m x), J) ∧
      ∀ d : ℕ → ℝ, ∃ F : ℝ → ℝ, (∀ h, (surfCost q m o T (x + h • d)).map Prod.fst = some (F h)) ∧
        HasDerivAt F (2 * ∑ i ∈ range (surfLen q m o), J i * d i) 0 := by
  have hr := fun (x : ℕ → ℝ) => optSeq_eq_some fun i : Fin (o - 2) =>
    surfRow_eq (T := T) (q := q) (o := o) hm x (surfT q m x) i
  rw [surfCost, hr x, Option.map_some]
  refine ⟨_, congrArg some (Prod.ext_iff.2 ⟨?_, rfl⟩), ?_⟩
  · simp only [Spec.surfCost, spec_bezier_ofFn, pow_two, Pi.sub_apply]
  intro d
  have key := sumSq_hasDerivAt (n := m) (fun (i : Fin (o - 2)) (j : Fin q) => T (i + 1) j)
    (S := fun (i : Fin (o - 2)) (h : ℝ) => ∑ k : Fin m, Spec.bern (m - 1) k
      (surfT q m x i + h * d ((m - 2) * q + i)) • (surfPoints q m o T x k + h • dirSurf q m d k))
    fun i => bez_hasDerivAt (fun k => surfPoints q m o T x k) (fun k => dirSurf q m d k)
      (surfT q m x i) (d ((m - 2) * q + i))
  refine ⟨_, ?_, ((key.const_mul 2).congr_deriv ?_)⟩
  · intro h
    rw [surfCost, hr (x + h • d), Option.map_some, Option.map_some]
    simp only [surfPoints_line, surfT_line, pow_two, Pi.sub_apply]
    congr 1
    ring
  · rw [surfPack_sum hm]
    simp only [Fin.is_lt, and_self, dif_pos, Fin.eta, zero_smul, zero_mul, add_zero, Pi.sub_apply,
      Pi.neg_apply, mul_zero, Finset.sum_const_zero]

/-- The same for `solve_surface_fast`, whose sections are evenly spaced from 0 to 1. -/
theorem c12_surface_fit_fast_partial (q m o : ℕ) (hm : 2 ≤ m) (T : ℕ → Fin q → ℝ) (x : ℕ → ℝ) :
    ∃ J, surfCostFast q m o T x =
        some (Spec.surfCost q m o T (surfPoints q m o T x) (fun i => ((i : ℝ) + 1) / ((o : ℝ) - 1)), J) ∧
      ∀ d : ℕ → ℝ, ∃ F : ℝ → ℝ, (∀ h, (surfCostFast q m o T (x + h • d)).map Prod.fst = some (F h)) ∧
        HasDerivAt F (2 * ∑ i ∈ range (surfLen q m o), J i * d i) 0 := by
  have hr := fun (x : ℕ → ℝ) => optSeq_eq_some fun i : Fin (o - 2) =>
    surfRow_eq (T := T) (q := q) (o := o) hm x (surfTFast o) i
  rw [surfCostFast, hr x, Option.map_some]
  refine ⟨_, congrArg some (Prod.ext_iff.2 ⟨?_, rfl⟩), ?_⟩
  · simp only [Spec.surfCost, spec_bezier_ofFn, pow_two, Pi.sub_apply, surfTFast]
  intro d
  have key := sumSq_hasDerivAt (n := m) (fun (i : Fin (o - 2)) (j : Fin q) => T (i + 1) j)
    (S := fun (i : Fin (o - 2)) (h : ℝ) => ∑ k : Fin m, Spec.bern (m - 1) k
      (surfTFast o i + h * 0) • (surfPoints q m o T x k + h • dirSurf q m d k))
    fun i => bez_hasDerivAt (fun k => surfPoints q m o T x k) (fun k => dirSurf q m d k)
      (surfTFast o i) 0
  refine ⟨_, ?_, ((key.const_mul 2).congr_deriv ?_)⟩
  · intro h
    rw [surfCostFast, hr (x + h • d), Option.map_some, Option.map_some]
    simp only [surfPoints_line, pow_two, Pi.sub_apply, mul_zero, add_zero]
    congr 1
    ring
  · rw [surfPack_sum hm]
    simp only [Fin.is_lt, and_self, dif_pos, Fin.eta, zero_smul, zero_mul, add_zero, Pi.sub_apply,
      Pi.neg_apply, mul_zero, Finset.sum_const_zero]

end

/-- The state used as witness: one column, three control rows, three sections; targets 0, 1, 0. -/
def badTarget : ℕ → Fin 1 → ℝ := fun i _ => if i = 1 then 1 else 0

/-- **C12 violated.** The vector handed to the optimiser is not the gradient of the cost. -/
theorem c12_surface_fit_violated :
    ¬ ∀ (q m o : ℕ) (_ : 2 ≤ m) (T : ℕ → Fin q → ℝ) (x : ℕ → ℝ),
      ∃ c J, surfCost q m o T x = some (c, J) ∧
        ∀ d : ℕ → ℝ, ∃ F : ℝ → ℝ, (∀ h, (surfCost q m o T (x + h • d)).map Prod.fst = some (F h)) ∧
          HasDerivAt F (∑ i ∈ range (surfLen q m o), J i * d i) 0 := by
  intro H
  let x : ℕ → ℝ := fun i => if i = 1 then 1 / 2 else 0
  let d : ℕ → ℝ := fun i => if i = 0 then 1 else 0
  obtain ⟨c, J, hJ, hd⟩ := H 1 3 3 (by norm_num) badTarget x
  obtain ⟨J', hJ', hd'⟩ := c12_surface_fit_partial 1 3 3 (by norm_num) badTarget x
  have eJ : J = J' := by
    have := hJ.symm.trans hJ'
    simp only [Option.some.injEq, Prod.mk.injEq] at this
    exact this.2
  subst eJ
  obtain ⟨F, hF, dF⟩ := hd d
  obtain ⟨F', hF', dF'⟩ := hd' d
  have eF : F' = F := by
    funext h
    have := (hF' h).symm.trans (hF h)
    simpa using this
  subst eF
  have h0 : HasDerivAt F' 0 0 := by
    have := dF.unique dF'
    have e : ∑ i ∈ range (surfLen 1 3 3), J i * d i = 0 := by linarith
    rwa [e] at dF
  have hF2 : F' = fun h => (1 - h / 2) ^ 2 := by
    funext h
    obtain ⟨J2, hJ2, -⟩ := c12_surface_fit_partial 1 3 3 (by norm_num) badTarget (x + h • d)
    have := hF' h
    rw [hJ2, Option.map_some] at this
    have e := Option.some.inj this
    rw [← e]
    simp only [Spec.surfCost, ← bezier_eq_spec]
    have hp : (List.ofFn fun k : Fin 3 => surfPoints 1 3 3 badTarget (x + h • d) k) =
        [fun _ => 0, fun _ => h, fun _ => 0] := by
      simp [List.ofFn_succ, surfPoints, badTarget, x, d]
      exact ⟨rfl, rfl⟩
    have ht : surfT 1 3 (x + h • d) 0 = 1 / 2 := by simp [surfT, x, d]
    have hv := c01_evaluators_agree (1 / 2) [(fun _ => 0 : Fin 1 → ℝ), fun _ => h, fun _ => 0] (by simp)
    rw [hp]
    simp only [bezierdc, dcStep] at hv
    simp at hv
    simp [ht, badTarget]
    have hv0 := congrFun (Option.some.inj hv) 0
    rw [← hv0]
    simp
    ring
  have h1 : HasDerivAt (fun h : ℝ => (1 - h / 2) ^ 2) (-1) 0 := by
    have := (((hasDerivAt_id (0 : ℝ)).div_const 2).const_sub 1).fun_pow 2
    refine this.congr_deriv ?_
    norm_num
  rw [hF2] at h0
  have := h0.unique h1
  norm_num at this

/-- **C77.** The number of sections is at least the number of vertical control points, hence at least 2,
and with more than two control points it is more than 2, so that the end rows are not the only ones. -/
theorem c77_section_count (n : ℕ) (hn : 2 ≤ n) (r : ℝ) (hr : 1 ≤ r) :
    (n : ℤ) ≤ nZTweens n r ∧ 2 ≤ nZTweens n r ∧ (nZTweens n r = 2 ↔ n = 2) := by
  have hn' : (0 : ℝ) ≤ (n : ℝ) - 2 := by
    have : (2 : ℝ) ≤ n := by exact_mod_cast hn
    linarith
  have h1 : ((n : ℤ) - 2) ≤ ⌈((n : ℝ) - 2) * r⌉ := by
    rw [Int.le_ceil_iff]
    push_cast
    nlinarith
  have hz : (2 : ℤ) ≤ n := by exact_mod_cast hn
  refine ⟨by rw [nZTweens]; omega, by rw [nZTweens]; omega, ⟨fun h => ?_, fun h => ?_⟩⟩
  · rw [nZTweens] at h
    have : (n : ℤ) = 2 := by omega
    exact_mod_cast this
  · subst h
    simp [nZTweens]

/-- **C77.** It is the documented count: the two end sections and `ratio` sections per inner control
point, rounded up. -/
theorem c77_documented (n : ℕ) (r : ℝ) :
    ((n : ℝ) - 2) * r + 2 ≤ nZTweens n r ∧ (nZTweens n r : ℝ) < ((n : ℝ) - 2) * r + 3 := by
  rw [nZTweens]
  push_cast
  constructor
  · linarith [Int.le_ceil (((n : ℝ) - 2) * r)]
  · linarith [Int.ceil_lt_add_one (((n : ℝ) - 2) * r)]

/-- Concrete case for C77: the documentation's example, three points and a ratio of 3 give 5 sections. -/
example : nZTweens 3 3 = 5 := by norm_num [nZTweens]

end Verif
