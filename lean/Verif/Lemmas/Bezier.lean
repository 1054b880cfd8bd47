import Verif.Model.Bezier
import Mathlib.Analysis.Calculus.Deriv.Mul
import Mathlib.Analysis.Calculus.Deriv.Add
import Mathlib.Analysis.Calculus.Deriv.Pow
import Mathlib.Analysis.Convex.Combination
import Mathlib.Algebra.BigOperators.Fin
import Mathlib.Tactic.Module

/-! # Helper lemmas about Bezier evaluation -/

namespace Verif

section Alg
variable {E : Type*} [AddCommGroup E] [Module ℝ E]

/-- Recursive de Casteljau value of the points `p i, …, p (i+n)`. -/
noncomputable def dc (t : ℝ) : ℕ → (ℕ → E) → ℕ → E
  | 0, p, i => p i
  | n + 1, p, i => (1 - t) • dc t n p i + t • dc t n p (i + 1)

theorem dcStep_length (t : ℝ) (l : List E) : (dcStep t l).length = l.length - 1 := by
  simp [dcStep]

theorem dcStep_getElem (t : ℝ) (l : List E) (i : ℕ) (h : i + 1 < l.length) :
    (dcStep t l)[i]'(by rw [dcStep_length]; omega) = (1 - t) • l[i] + t • l[i + 1] := by
  simp [dcStep]

theorem dcIter_length (t : ℝ) (m : ℕ) (l : List E) :
    ((dcStep t)^[m] l).length = l.length - m := by
  induction m with
  | zero => simp
  | succ m ih => rw [Function.iterate_succ_apply', dcStep_length, ih]; omega

theorem dcIter_getElem (t : ℝ) (m : ℕ) (l : List E) (i : ℕ) (h : i + m < l.length) :
    ((dcStep t)^[m] l)[i]'(by rw [dcIter_length]; omega) = dc t m (fun j => l.getD j 0) i := by
  induction m generalizing i with
  | zero => simp [dc]; rw [List.getElem?_eq_getElem (by omega)]; rfl
  | succ m ih =>
    have e : (dcStep t)^[m + 1] l = dcStep t ((dcStep t)^[m] l) :=
      Function.iterate_succ_apply' ..
    have hl := dcIter_length t m l
    simp only [e]
    rw [dcStep_getElem _ _ _ (by omega), ih i (by omega), ih (i + 1) (by omega)]
    rfl

/-- The list implementation returns the recursive value. -/
theorem bezierdc_eq_dc (t : ℝ) (l : List E) (h : l ≠ []) :
    bezierdc t l = some (dc t (l.length - 1) (fun j => l.getD j 0) 0) := by
  have hpos : 0 < l.length := List.length_pos_iff.2 h
  have hl : ((dcStep t)^[l.length - 1] l).length = 1 := by rw [dcIter_length]; omega
  obtain ⟨a, ha⟩ := List.length_eq_one_iff.1 hl
  have := dcIter_getElem t (l.length - 1) l 0 (by omega)
  simp only [ha, List.getElem_cons_zero] at this
  rw [bezierdc, ha, this]

theorem bezierdc_nil (t : ℝ) : bezierdc t ([] : List E) = none := by
  simp [bezierdc]

theorem dc_shift (t : ℝ) (n : ℕ) (p : ℕ → E) (i j : ℕ) :
    dc t n (fun k => p (k + j)) i = dc t n p (i + j) := by
  induction n generalizing i with
  | zero => rfl
  | succ n ih => simp only [dc, ih]; rw [show i + 1 + j = i + j + 1 by omega]

theorem dc_congr (t : ℝ) (n : ℕ) (p q : ℕ → E) (i : ℕ) (h : ∀ k, k ≤ n → p (i + k) = q (i + k)) :
    dc t n p i = dc t n q i := by
  induction n generalizing i with
  | zero => exact h 0 le_rfl
  | succ n ih =>
    simp only [dc]
    rw [ih i (fun k hk => h k (by omega)), ih (i + 1) (fun k hk => by
      have := h (k + 1) (by omega); rwa [show i + (k + 1) = i + 1 + k by omega] at this)]

theorem dc_add (t : ℝ) (n : ℕ) (p q : ℕ → E) (i : ℕ) :
    dc t n (fun k => p k + q k) i = dc t n p i + dc t n q i := by
  induction n generalizing i with
  | zero => rfl
  | succ n ih => simp only [dc, ih]; module

theorem dc_sub (t : ℝ) (n : ℕ) (p q : ℕ → E) (i : ℕ) :
    dc t n (fun k => p k - q k) i = dc t n p i - dc t n q i := by
  induction n generalizing i with
  | zero => rfl
  | succ n ih => simp only [dc, ih]; module

theorem dc_smul (t : ℝ) (n : ℕ) (c : ℝ) (p : ℕ → E) (i : ℕ) :
    dc t n (fun k => c • p k) i = c • dc t n p i := by
  induction n generalizing i with
  | zero => rfl
  | succ n ih => simp only [dc, ih]; module

theorem dc_map {F : Type*} [AddCommGroup F] [Module ℝ F] (f : E →ₗ[ℝ] F) (t : ℝ) (n : ℕ)
    (p : ℕ → E) (i : ℕ) : dc t n (fun k => f (p k)) i = f (dc t n p i) := by
  induction n generalizing i with
  | zero => rfl
  | succ n ih => simp only [dc, ih, map_add, map_smul]

theorem dc_smul_const (t : ℝ) (n : ℕ) (w : ℕ → ℝ) (c : E) (i : ℕ) :
    dc t n (fun k => w k • c) i = dc t n w i • c := by
  induction n generalizing i with
  | zero => rfl
  | succ n ih => simp only [dc, ih, smul_eq_mul]; module

theorem dc_const (t : ℝ) (n : ℕ) (c : E) (i : ℕ) : dc t n (fun _ => c) i = c := by
  induction n generalizing i with
  | zero => rfl
  | succ n ih => simp only [dc, ih]; module

/-- de Casteljau equals the Bernstein sum. -/
theorem dc_eq_sum (t : ℝ) (n : ℕ) (p : ℕ → E) (i : ℕ) :
    dc t n p i =
      ∑ k ∈ Finset.range (n + 1), ((n.choose k : ℝ) * t ^ k * (1 - t) ^ (n - k)) • p (i + k) := by
  induction n generalizing i with
  | zero => simp [dc]
  | succ n ih =>
    simp only [dc, ih]
    rw [Finset.smul_sum, Finset.smul_sum]
    rw [Finset.sum_range_succ' _ (n + 1)]
    rw [Finset.sum_range_succ (fun k => (((n + 1).choose (k + 1) : ℝ) * t ^ (k + 1) *
      (1 - t) ^ (n + 1 - (k + 1))) • p (i + (k + 1))) n]
    rw [Finset.sum_range_succ' (fun k => (1 - t) • ((n.choose k : ℝ) * t ^ k *
      (1 - t) ^ (n - k)) • p (i + k)) n]
    rw [Finset.sum_range_succ (fun k => t • ((n.choose k : ℝ) * t ^ k *
      (1 - t) ^ (n - k)) • p (i + 1 + k)) n]
    have hs : ∀ k ∈ Finset.range n,
        (((n + 1).choose (k + 1) : ℝ) * t ^ (k + 1) * (1 - t) ^ (n + 1 - (k + 1))) • p (i + (k + 1))
        = (1 - t) • ((n.choose (k + 1) : ℝ) * t ^ (k + 1) * (1 - t) ^ (n - (k + 1))) • p (i + (k + 1))
        + t • ((n.choose k : ℝ) * t ^ k * (1 - t) ^ (n - k)) • p (i + 1 + k) := by
      intro k hk
      have hk : k < n := Finset.mem_range.1 hk
      rw [show i + 1 + k = i + (k + 1) by omega, smul_smul, smul_smul, ← add_smul]
      congr 1
      rw [Nat.choose_succ_succ, show n + 1 - (k + 1) = n - k by omega,
        show n - k = (n - (k + 1)) + 1 by omega]
      push_cast
      ring
    rw [Finset.sum_congr rfl hs, Finset.sum_add_distrib]
    simp only [Nat.choose_self, Nat.choose_zero_right, Nat.cast_one, pow_zero, one_mul, mul_one,
      Nat.sub_self, Nat.sub_zero, Nat.add_zero]
    rw [show i + 1 + n = i + (n + 1) by omega]
    module

theorem bezier_eq_dc (t : ℝ) (l : List E) (h : l ≠ []) :
    bezier t l = dc t (l.length - 1) (fun j => l.getD j 0) 0 := by
  have hpos : 0 < l.length := List.length_pos_iff.2 h
  rw [dc_eq_sum, show l.length - 1 + 1 = l.length by omega, ← Fin.sum_univ_eq_sum_range
    (fun k => (((l.length - 1).choose k : ℝ) * t ^ k * (1 - t) ^ (l.length - 1 - k)) •
      l.getD (0 + k) 0)]
  rw [bezier]
  refine Finset.sum_congr rfl fun k _ => ?_
  simp

end Alg

section Convex
variable {E : Type*} [AddCommGroup E] [Module ℝ E]

theorem dc_mem_convex {s : Set E} (hs : Convex ℝ s) (t : ℝ) (h0 : 0 ≤ t) (h1 : t ≤ 1) (n : ℕ)
    (p : ℕ → E) (i : ℕ) (h : ∀ k, k ≤ n → p (i + k) ∈ s) : dc t n p i ∈ s := by
  induction n generalizing i with
  | zero => exact h 0 le_rfl
  | succ n ih =>
    refine hs (ih i fun k hk => h k (by omega)) (ih (i + 1) fun k hk => ?_) (by linarith) h0
      (by ring)
    have := h (k + 1) (by omega)
    rwa [show i + (k + 1) = i + 1 + k by omega] at this

theorem dc_zero (n : ℕ) (p : ℕ → E) (i : ℕ) : dc 0 n p i = p i := by
  induction n generalizing i with
  | zero => rfl
  | succ n ih => simp [dc, ih]

theorem dc_one (n : ℕ) (p : ℕ → E) (i : ℕ) : dc 1 n p i = p (i + n) := by
  induction n generalizing i with
  | zero => rfl
  | succ n ih => simp [dc, ih]; congr 1; omega

/-- Reversal of the control sequence. -/
theorem dc_reverse (t : ℝ) (n : ℕ) (p : ℕ → E) (m i : ℕ) (h : i + n ≤ m) :
    dc t n (fun k => p (m - k)) i = dc (1 - t) n p (m - i - n) := by
  induction n generalizing i with
  | zero => simp [dc]
  | succ n ih =>
    simp only [dc]
    rw [ih i (by omega), ih (i + 1) (by omega)]
    rw [show m - i - n = m - i - (n + 1) + 1 by omega,
      show m - (i + 1) - n = m - i - (n + 1) by omega]
    rw [sub_sub_cancel, add_comm]

end Convex

section Deriv
variable {E : Type*} [NormedAddCommGroup E] [NormedSpace ℝ E]

theorem dc_hasDerivAt (n : ℕ) (p : ℕ → E) (i : ℕ) (t : ℝ) :
    HasDerivAt (fun s => dc s (n + 1) p i)
      (((n : ℝ) + 1) • dc t n (fun k => p (k + 1) - p k) i) t := by
  induction n generalizing i with
  | zero =>
    have h : HasDerivAt (fun s : ℝ => (1 - s) • p i + s • p (i + 1))
        ((-1 : ℝ) • p i + (1 : ℝ) • p (i + 1)) t :=
      (((hasDerivAt_id t).const_sub 1).smul_const _).add ((hasDerivAt_id t).smul_const _)
    refine HasDerivAt.congr_deriv (f := fun s => dc s (0 + 1) p i) h ?_
    change _ = (((0 : ℕ) : ℝ) + 1) • (p (i + 1) - p i)
    push_cast; module
  | succ n ih =>
    have h1 : HasDerivAt (fun s : ℝ => (1 - s)) (-1) t := (hasDerivAt_id t).const_sub 1
    have h := (h1.smul (ih i)).add ((hasDerivAt_id t).smul (ih (i + 1)))
    refine h.congr_deriv ?_
    have e : ∀ j, dc t (n + 1) (fun k => p (k + 1) - p k) j
        = dc t (n + 1) p (j + 1) - dc t (n + 1) p j := by
      intro j
      rw [dc_sub t (n + 1) (fun k => p (k + 1)) p j, dc_shift]
    have e2 := e i
    have e3 : dc t (n + 1) (fun k => p (k + 1) - p k) i =
      (1 - t) • dc t n (fun k => p (k + 1) - p k) i + t • dc t n (fun k => p (k + 1) - p k) (i + 1)
        := rfl
    push_cast
    rw [show ((n : ℝ) + 1 + 1) • dc t (n + 1) (fun k => p (k + 1) - p k) i =
      dc t (n + 1) (fun k => p (k + 1) - p k) i +
        ((n : ℝ) + 1) • dc t (n + 1) (fun k => p (k + 1) - p k) i by module]
    conv_rhs => enter [2]; rw [e3]
    rw [e2]
    simp only [id]
    module

end Deriv

end Verif
