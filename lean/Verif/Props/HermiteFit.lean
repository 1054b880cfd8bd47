import Verif.Props.Fit
import Verif.Props.Flank3
import Verif.Props.Arc
import Verif.Props.Chain
import Verif.Model.ProfileNurb
import Verif.Model.HermiteFit
import Verif.Lemmas.Hermite

/-! # Property C137: how close a fitted curve stays to its original, and what the fit is started with -/

namespace Verif

open Real Finset

/-- What a defined cost says about the curve and its distances to the targets. -/
theorem fitCost_rows {D n N : ℕ} {T : ℕ → Fin D → ℝ} {x : ℕ → ℝ} {v : ℝ} {G : ℕ → ℝ}
    (h : fitCost D n N T x = some (v, G)) : ∃ q : Fin N → Fin D → ℝ,
      (∀ i : Fin N, nurbezier (fitT D n N x i) (fitNurbPoints D n N T x).1 (fitNurbPoints D n N T x).2 = some (q i)) ∧
      v = (∑ i : Fin N, ∑ j : Fin D, (T i j - q i j) ^ 2) / 2 := by
  rw [fitCost, Option.map_eq_some_iff] at h
  obtain ⟨r, hr, h⟩ := h
  rw [optSeq] at hr
  split_ifs at hr with hs
  rw [Option.some.injEq] at hr
  have hrow : ∀ i : Fin N, fitRow D n N T x i = some (r i) := fun i => by
    rw [← hr]; simp
  refine ⟨fun i => T i - (r i).diff, fun i => ?_, ?_⟩
  · have h1 := hrow i
    rw [fitRow] at h1
    split at h1
    · rename_i s dp dw dt e1 e2 e3 e4
      rw [Option.some.injEq] at h1
      rw [fitNurbPoints, e1]
      dsimp only
      rw [← h1]
      simp
    · cases h1
  · rw [Prod.mk.injEq] at h
    rw [← h.1]
    simp

theorem linspace_unit (N i : ℕ) : linspace 0 1 (N - 1) i = (i : ℝ) / ((N - 1 : ℕ) : ℝ) := by simp [linspace]

/-- The rows of `initpoints` that are read: the ends are replaced by the first and the last target. -/
noncomputable def startPolygon (n N : ℕ) (T rows : ℕ → V3) (k : ℕ) : V3 :=
  if k = 0 then T 0 else if k + 1 = n then T (N - 1) else rows k

theorem start_unpack {n N : ℕ} (hn : 2 ≤ n) (hN : 2 ≤ N) (T rows : ℕ → V3) :
    (∀ k < n, fitPoints 3 n N T (fitStart 3 n N rows) k = startPolygon n N T rows k) ∧
      (∀ k < n, fitWeights 3 n (fitStart 3 n N rows) k = 1) ∧
      ∀ i < N, fitT 3 n N (fitStart 3 n N rows) i = (i : ℝ) / ((N - 1 : ℕ) : ℝ) := by
  have hN' : ((N - 1 : ℕ) : ℝ) ≠ 0 := Nat.cast_ne_zero.2 (by omega)
  have e : fitStart 3 n N rows = fitPack 3 n
      (fun k j => if h : j < 3 then startPolygon n N T rows k ⟨j, h⟩ else 0) (fun _ => 1) (linspace 0 1 (N - 1)) := by
    funext i
    rw [fitStart, fitPack, fitPack]
    split_ifs with h1
    · have : i / 3 + 1 + 1 ≠ n := by omega
      simp [startPolygon, this]
    all_goals rfl
  rw [e]
  have := c11_unpack_pack 3 n N hn hN T (startPolygon n N T rows)
    (fun k j => if h : j < 3 then startPolygon n N T rows k ⟨j, h⟩ else 0) (fun k j => by simp) (fun _ => 1)
    (linspace 0 1 (N - 1)) (by simp [startPolygon]) (by simp [startPolygon, show n - 1 ≠ 0 by omega, show n - 1 + 1 = n by omega])
    rfl rfl (by simp [linspace]) (by simp [linspace, hN'])
  simpa only [linspace_unit] using this

/-- The cost the optimiser is started on. -/
theorem start_cost {n N : ℕ} (hn : 2 ≤ n) (hN : 2 ≤ N) (T rows : ℕ → V3) :
    ∃ G, fitCost 3 n N T (fitStart 3 n N rows) = some ((∑ i : Fin N, norm3 (T i - Spec.bezierCurve
      (List.ofFn fun k : Fin n => startPolygon n N T rows k) ((i : ℝ) / ((N - 1 : ℕ) : ℝ))) ^ 2) / 2, G) := by
  obtain ⟨h1, h2, h3⟩ := start_unpack hn hN T rows
  have hN' : (0 : ℝ) < ((N - 1 : ℕ) : ℝ) := Nat.cast_pos.2 (by omega)
  have hu : ∀ i < N, 0 ≤ (i : ℝ) / ((N - 1 : ℕ) : ℝ) ∧ (i : ℝ) / ((N - 1 : ℕ) : ℝ) ≤ 1 := fun i hi =>
    ⟨by positivity, (div_le_one hN').2 (Nat.cast_le.2 (by omega))⟩
  obtain ⟨J, hJ, -⟩ := c12_curve_fit 3 n N hn hN T (fitStart 3 n N rows) fun i hi =>
    fitDenom_ne_zero hn _ _ (fun k => by rw [h2 k k.2]; norm_num) (by rw [h3 i hi]; exact (hu i hi).1)
      (by rw [h3 i hi]; exact (hu i hi).2)
  refine ⟨J, ?_⟩
  rw [hJ, Spec.fitCost]
  congr 3
  refine sum_congr rfl fun i _ => ?_
  rw [rationalCurve_ofFn, h3 i i.2, ratCurve, norm3_sq, spec_bezier_ofFn]
  have hs : ∑ k : Fin n, Spec.bern (n - 1) k ((i : ℝ) / ((N - 1 : ℕ) : ℝ)) *
      fitWeights 3 n (fitStart 3 n N rows) k = 1 := by
    rw [← bern_sum n (by omega) ((i : ℝ) / ((N - 1 : ℕ) : ℝ))]
    exact sum_congr rfl fun k _ => by rw [h2 k k.2, mul_one]
  rw [hs]
  have hp : ∑ k : Fin n, (Spec.bern (n - 1) k ((i : ℝ) / ((N - 1 : ℕ) : ℝ)) * fitWeights 3 n (fitStart 3 n N rows) k) •
      fitPoints 3 n N T (fitStart 3 n N rows) k = ∑ k : Fin n, Spec.bern (n - 1) k ((i : ℝ) / ((N - 1 : ℕ) : ℝ)) •
      startPolygon n N T rows k :=
    sum_congr rfl fun k _ => by rw [h2 k k.2, mul_one, h1 k k.2]
  rw [hp, inv_one, one_smul, Fin.sum_univ_three]
  simp only [dot, Pi.sub_apply]
  ring

/-- The samples of a fit whose optimiser did not make things worse. -/
theorem near_samples {n N : ℕ} (hn : 2 ≤ n) (hN : 2 ≤ N) (T rows : ℕ → V3) {opt : FitMinimizer}
    (ho : Spec.Descends opt) (i : ℕ) (hi : i < N) : ∃ τ q,
      nurbezier τ (fitNurbPoints 3 n N T (opt (fitCost 3 n N T) (fitStart 3 n N rows))).1
        (fitNurbPoints 3 n N T (opt (fitCost 3 n N T) (fitStart 3 n N rows))).2 = some q ∧
      norm3 (T i - q) ^ 2 ≤ ∑ i : Fin N, norm3 (T i - Spec.bezierCurve
        (List.ofFn fun k : Fin n => startPolygon n N T rows k) ((i : ℝ) / ((N - 1 : ℕ) : ℝ))) ^ 2 := by
  obtain ⟨G, hG⟩ := start_cost hn hN T rows
  obtain ⟨v, G', hv, hle⟩ := ho _ _ _ _ hG
  obtain ⟨q, hq, e⟩ := fitCost_rows hv
  refine ⟨_, q ⟨i, hi⟩, hq ⟨i, hi⟩, ?_⟩
  have h1 : norm3 (T i - q ⟨i, hi⟩) ^ 2 = ∑ j : Fin 3, (T i j - q ⟨i, hi⟩ j) ^ 2 := by
    rw [norm3_sq, Fin.sum_univ_three]
    simp only [dot, Pi.sub_apply]
    ring
  have h2 : ∑ j : Fin 3, (T i j - q ⟨i, hi⟩ j) ^ 2 ≤ ∑ i : Fin N, ∑ j : Fin 3, (T i j - q i j) ^ 2 :=
    single_le_sum (f := fun i : Fin N => ∑ j : Fin 3, (T i j - q i j) ^ 2)
      (fun i _ => sum_nonneg fun j _ => sq_nonneg _) (mem_univ (⟨i, hi⟩ : Fin N))
  rw [h1]
  linarith

/-- Only the inner samples have an error at the start. -/
theorem inner_sum {N : ℕ} (hN : 2 ≤ N) (f : ℕ → ℝ) {E : ℝ} (h0 : f 0 = 0) (h1 : f (N - 1) = 0) (hf : ∀ i < N, f i ≤ E) :
    ∑ i : Fin N, f i ≤ ((N : ℝ) - 2) * E := by
  rw [Fin.sum_univ_eq_sum_range (fun i => f i) N]
  obtain ⟨m, rfl⟩ : ∃ m, N = m + 2 := ⟨N - 2, by omega⟩
  rw [sum_range_succ, sum_range_succ', h0, show m + 1 = m + 2 - 1 by omega, h1, add_zero, add_zero]
  have : ∑ k ∈ range m, f (k + 1) ≤ ∑ _k ∈ range m, E :=
    sum_le_sum fun k hk => hf _ (by have := mem_range.1 hk; omega)
  rw [sum_const, card_range, nsmul_eq_mul] at this
  push_cast
  linarith

theorem bezier_three (a b c d : V3) (t : ℝ) (P : ℕ → V3) (h0 : P 0 = a) (h1 : P 1 = b) (h2 : P 2 = c) (h3 : P 3 = d) :
    Spec.bezierCurve (List.ofFn fun k : Fin 4 => P k) t =
      (1 - t) ^ 3 • a + (3 * t * (1 - t) ^ 2) • b + (3 * t ^ 2 * (1 - t)) • c + t ^ 3 • d := by
  rw [spec_bezier_ofFn]
  simp only [Fin.sum_univ_four, bern_eq, Fin.val_zero, Fin.val_one, Fin.val_two, h0, h1, h2,
    show ((3 : Fin 4) : ℕ) = 3 from rfl, h3]
  norm_num [Nat.choose]

theorem hermiteError_le {M e0 e1 t : ℝ} (hM : 0 ≤ M) (h0 : 0 ≤ e0) (h1 : 0 ≤ e1) (t0 : 0 ≤ t) (t1 : t ≤ 1) :
    Spec.hermiteError M e0 e1 t ≤ Spec.hermiteMax M e0 e1 := by
  have a : t * (1 - t) ^ 2 ≤ 4 / 27 := by nlinarith [mul_nonneg (by linarith : (0 : ℝ) ≤ 4 / 3 - t) (sq_nonneg (t - 1 / 3))]
  have b : t ^ 2 * (1 - t) ≤ 4 / 27 := by nlinarith [mul_nonneg (by linarith : (0 : ℝ) ≤ t + 1 / 3) (sq_nonneg (t - 2 / 3))]
  have c : t ^ 2 * (1 - t) ^ 2 ≤ 1 / 16 := by
    rw [← mul_pow, show (1 / 16 : ℝ) = (1 / 4) ^ 2 by norm_num]
    refine pow_le_pow_left₀ (mul_nonneg t0 (by linarith)) ?_ 2
    nlinarith [sq_nonneg (t - 1 / 2)]
  rw [Spec.hermiteError, Spec.hermiteMax]
  have := mul_le_mul_of_nonneg_left c hM
  have := mul_le_mul_of_nonneg_right a h0
  have := mul_le_mul_of_nonneg_right b h1
  linarith

theorem hermiteError_ends (M e0 e1 : ℝ) : Spec.hermiteError M e0 e1 0 = 0 ∧ Spec.hermiteError M e0 e1 1 = 0 := by
  simp [Spec.hermiteError]

theorem hermite_near {g g1 g2 g3 g4 : ℝ → V3} {M e0 e1 : ℝ} (hg : Spec.Smooth4 g g1 g2 g3 g4 M) {v0 v1 : V3}
    (h0 : norm3 (v0 - g1 0) ≤ e0) (h1 : norm3 (v1 - g1 1) ≤ e1) {t : ℝ} (t0 : 0 ≤ t) (t1 : t ≤ 1) :
    norm3 (g t - hermitePoly (g 0) (g 1) v0 v1 t) ≤ Spec.hermiteError M e0 e1 t := by
  have e : g t - hermitePoly (g 0) (g 1) v0 v1 t = (g t - hermitePoly (g 0) (g 1) (g1 0) (g1 1) t) +
      ((-(t * (1 - t) ^ 2)) • (v0 - g1 0) + (t ^ 2 * (1 - t)) • (v1 - g1 1)) := by
    have := hermitePoly_perturb (g 0) (g 1) v0 v1 (g1 0) (g1 1) t
    rw [sub_eq_iff_eq_add] at this
    rw [this]
    module
  have t1' : 0 ≤ 1 - t := by linarith
  rw [e]
  refine (norm3_add_le _ _).trans ?_
  have h2 := (norm3_add_le ((-(t * (1 - t) ^ 2)) • (v0 - g1 0)) ((t ^ 2 * (1 - t)) • (v1 - g1 1)))
  rw [norm3_smul, norm3_smul, abs_neg, abs_of_nonneg (by positivity : 0 ≤ t * (1 - t) ^ 2),
    abs_of_nonneg (by positivity : 0 ≤ t ^ 2 * (1 - t))] at h2
  have := hermite_vector hg t0 t1
  have := mul_le_mul_of_nonneg_left h0 (by positivity : 0 ≤ t * (1 - t) ^ 2)
  have := mul_le_mul_of_nonneg_left h1 (by positivity : 0 ≤ t ^ 2 * (1 - t))
  rw [Spec.hermiteError]
  linarith

theorem fitCount_ge {n : ℕ} (hn : 2 ≤ n) {ratio : ℝ} (hr : 0 ≤ ratio) : 2 ≤ fitCount n ratio := by
  have h : 0 ≤ ⌈((n : ℝ) - 2) * 2 * ratio⌉ := Int.ceil_nonneg (by
    have : (2 : ℝ) ≤ n := by exact_mod_cast hn
    have : 0 ≤ (n : ℝ) - 2 := by linarith
    positivity)
  rw [fitCount]
  omega

theorem sample_mem {N i : ℕ} (hN : 2 ≤ N) (hi : i < N) :
    0 ≤ linspace 0 1 (N - 1) i ∧ linspace 0 1 (N - 1) i ≤ 1 := by
  have hN' : (0 : ℝ) < ((N - 1 : ℕ) : ℝ) := Nat.cast_pos.2 (by omega)
  rw [linspace_unit]
  exact ⟨by positivity, (div_le_one hN').2 (Nat.cast_le.2 (by omega))⟩

theorem sample_ends {N : ℕ} (hN : 2 ≤ N) : linspace 0 1 (N - 1) 0 = 0 ∧ linspace 0 1 (N - 1) (N - 1) = 1 := by
  have hN' : ((N - 1 : ℕ) : ℝ) ≠ 0 := Nat.cast_ne_zero.2 (by omega)
  rw [linspace_unit, linspace_unit]
  exact ⟨by simp, div_self hN'⟩

/-- **C137, any start.** With an optimiser that never ends on a worse vector than it started on, every sample of the curve
lies on the fitted curve up to a distance whose square is at most the sum of the squared distances between the samples
and the Bezier curve the fit is started with. -/
theorem c137_never_worse (root : FitRoot) (opt : FitMinimizer) (ho : Spec.Descends opt) (n : ℕ) (hn : 2 ≤ n) (ratio : ℝ)
    (hr : 0 ≤ ratio) (init : Option (ℕ → V3)) (c : Curve) (rows : ℕ → V3)
    (hrows : startRows root n false init c = some rows)
    (hc : ∀ s, 0 ≤ s → s ≤ 1 → (c.eval s).isSome) :
    ∃ P W, fitCurve root opt n false ratio init c = some (P, W) ∧ P.length = n ∧ W.length = n ∧
      ∀ i < fitCount n ratio, ∀ p, c.eval (linspace 0 1 (fitCount n ratio - 1) i) = some p →
        ∃ τ q, nurbezier τ P W = some q ∧ norm3 (p - q) ^ 2 ≤ ∑ i : Fin (fitCount n ratio),
          norm3 (c.evalD (linspace 0 1 (fitCount n ratio - 1) i) - Spec.bezierCurve (List.ofFn fun k : Fin n =>
            if (k : ℕ) = 0 then c.evalD 0 else if (k : ℕ) + 1 = n then c.evalD 1 else rows k)
            (linspace 0 1 (fitCount n ratio - 1) i)) ^ 2 := by
  have hN := fitCount_ge hn hr
  obtain ⟨N, e⟩ : ∃ N, N = fitCount n ratio := ⟨_, rfl⟩
  have he : fitCurve root opt n false ratio init c = some (fitNurbPoints 3 n N (fitTarget c N)
      (opt (fitCost 3 n N (fitTarget c N)) (fitStart 3 n N rows))) := by
    rw [fitCurve, ← e]
    rw [← e] at hN
    dsimp only
    rw [if_pos fun i hi => hc _ (sample_mem hN hi).1 (sample_mem hN hi).2]
    rw [hrows]; simp
  rw [← e] at hN ⊢
  obtain ⟨x, hx⟩ : ∃ x, x = opt (fitCost 3 n N (fitTarget c N)) (fitStart 3 n N rows) := ⟨_, rfl⟩
  rw [← hx] at he
  refine ⟨(fitNurbPoints 3 n N (fitTarget c N) x).1, (fitNurbPoints 3 n N (fitTarget c N) x).2, he, (c11_count _ _ _ _ _).1, (c11_count _ _ _ _ _).2, fun i hi p hp => ?_⟩
  obtain ⟨τ, q, h1, h2⟩ := near_samples hn hN (fitTarget c N) rows ho i hi
  refine ⟨τ, q, hx ▸ h1, ?_⟩
  have hT : fitTarget c N i = p := by simp [fitTarget, Curve.evalD, hp]
  rw [hT] at h2
  refine h2.trans (le_of_eq ?_)
  simp only [fitTarget, startPolygon, (sample_ends hN).1, (sample_ends hN).2, linspace_unit]

theorem numericDiff_fn {f : ℝ → Option V3} {t delta : ℝ} {a b : V3} :
    (f (t + delta) = some a → f t = some b → numericDiff (.fn f) t 1 delta = some ((1 / delta : ℝ) • (a - b))) ∧
      (f t = some a → f (t - delta) = some b → numericDiff (.fn f) t (-1) delta = some ((1 / delta : ℝ) • (a - b))) := by
  constructor <;> intro h1 h2 <;> simp [numericDiff, PyFun.call, h1, h2]

/-- The rows of the cubic Hermite start. -/
theorem hermiteCubic_some {c : Curve} {p0 p3 v0 v1 : V3} (h0 : c.eval 0 = some p0) (h1 : c.eval 1 = some p3)
    (hv0 : c.derivative 0 1 (1 / 10000) 1 = some v0) (hv1 : c.derivative 1 (-1) (1 / 10000) 1 = some v1) :
    hermiteCubic c = some fun k => if k = 0 then p0 else if k = 1 then p0 + (1 / 3 : ℝ) • v0
      else if k = 2 then p3 - (1 / 3 : ℝ) • v1 else p3 := by
  rw [hermiteCubic, h0, h1, hv0, hv1]

theorem derivative_ends {c : Curve} (hc : ∀ s, 0 ≤ s → s ≤ 1 → (c.eval s).isSome) :
    c.derivative 0 1 (1 / 10000) 1 = some ((10000 : ℝ) • (c.evalD (1 / 10000) - c.evalD 0)) ∧
      c.derivative 1 (-1) (1 / 10000) 1 = some ((10000 : ℝ) • (c.evalD 1 - c.evalD (9999 / 10000))) := by
  have ev : ∀ s, 0 ≤ s → s ≤ 1 → c.eval s = some (c.evalD s) := fun s a b => by
    obtain ⟨p, hp⟩ := Option.isSome_iff_exists.1 (hc s a b)
    simp [Curve.evalD, hp]
  constructor
  · rw [Curve.derivative, numericDiff_fn.1 (by rw [zero_add]; exact ev _ (by norm_num) (by norm_num)) (ev 0 le_rfl zero_le_one)]
    norm_num
  · rw [Curve.derivative, numericDiff_fn.2 (ev 1 zero_le_one le_rfl) (by
      rw [show (1 : ℝ) - 1 / 10000 = 9999 / 10000 by norm_num]; exact ev _ (by norm_num) (by norm_num))]
    norm_num

/-- **C137, accuracy.** Let a curve be followed by a smooth curve `g` with the same ends: its points differ by at most `ε`, its
numerical end velocities by at most `e0` and `e1`. The default fit with four control points and an optimiser that never
ends on a worse vector passes every one of the `N` samples within `√(N - 2)` times `ε + M / 384 + 4 / 27 (e0 + e1)`, where
`M` bounds the fourth derivative of `g`. -/
theorem c137_accuracy (root : FitRoot) (opt : FitMinimizer) (ho : Spec.Descends opt) (ratio : ℝ) (hr : 0 ≤ ratio) (c : Curve)
    {g g1 g2 g3 g4 : ℝ → V3} {M ε e0 e1 : ℝ} (hg : Spec.Smooth4 g g1 g2 g3 g4 M) (hc0 : c.eval 0 = some (g 0))
    (hc1 : c.eval 1 = some (g 1)) (hε : ∀ s, 0 ≤ s → s ≤ 1 → ∃ p, c.eval s = some p ∧ norm3 (p - g s) ≤ ε)
    (hv0 : ∀ v, c.derivative 0 1 (1 / 10000) 1 = some v → norm3 (v - g1 0) ≤ e0)
    (hv1 : ∀ v, c.derivative 1 (-1) (1 / 10000) 1 = some v → norm3 (v - g1 1) ≤ e1) :
    ∃ P W, fitCurve root opt 4 false ratio none c = some (P, W) ∧ P.length = 4 ∧ W.length = 4 ∧
      ∀ i < fitCount 4 ratio, ∀ p, c.eval (linspace 0 1 (fitCount 4 ratio - 1) i) = some p →
        ∃ τ q, nurbezier τ P W = some q ∧
          norm3 (p - q) ≤ √((fitCount 4 ratio : ℝ) - 2) * (ε + Spec.hermiteMax M e0 e1) := by
  have hc : ∀ s, 0 ≤ s → s ≤ 1 → (c.eval s).isSome := fun s a b => by
    obtain ⟨p, hp, -⟩ := hε s a b; simp [hp]
  obtain ⟨d0, d1⟩ := derivative_ends hc
  have n0 := hv0 _ d0
  have n1 := hv1 _ d1
  obtain ⟨v0, hd0⟩ : ∃ v0, v0 = (10000 : ℝ) • (c.evalD (1 / 10000) - c.evalD 0) := ⟨_, rfl⟩
  obtain ⟨v1, hd1⟩ : ∃ v1, v1 = (10000 : ℝ) • (c.evalD 1 - c.evalD (9999 / 10000)) := ⟨_, rfl⟩
  rw [← hd0] at d0 n0
  rw [← hd1] at d1 n1
  obtain ⟨P, W, h1, h2, h3, h4⟩ := c137_never_worse root opt ho 4 (by norm_num) ratio hr none c _
    (by rw [startRows, initPoints, if_neg (by norm_num), if_pos rfl, hermiteCubic_some hc0 hc1 d0 d1]) hc
  refine ⟨P, W, h1, h2, h3, fun i hi p hp => ?_⟩
  obtain ⟨τ, q, h5, h6⟩ := h4 i hi p hp
  refine ⟨τ, q, h5, ?_⟩
  have hN := fitCount_ge (n := 4) (by norm_num) hr
  obtain ⟨N, hNe⟩ : ∃ N, N = fitCount 4 ratio := ⟨_, rfl⟩
  rw [← hNe] at hN h6 ⊢
  have hM : 0 ≤ M := (norm3_nonneg _).trans (hg.bound 0 le_rfl zero_le_one)
  have hε0 : 0 ≤ ε := by obtain ⟨p, -, h⟩ := hε 0 le_rfl zero_le_one; exact (norm3_nonneg _).trans h
  have he0 := (norm3_nonneg _).trans n0
  have he1 := (norm3_nonneg _).trans n1
  have hE : 0 ≤ ε + Spec.hermiteMax M e0 e1 := by rw [Spec.hermiteMax]; positivity
  have hH : ∀ t, Spec.bezierCurve (List.ofFn fun k : Fin 4 => if (k : ℕ) = 0 then c.evalD 0 else
      if (k : ℕ) + 1 = 4 then c.evalD 1 else if (k : ℕ) = 0 then g 0 else if (k : ℕ) = 1 then g 0 + (1 / 3 : ℝ) • v0
      else if (k : ℕ) = 2 then g 1 - (1 / 3 : ℝ) • v1 else g 1) t = hermitePoly (g 0) (g 1) v0 v1 t := fun t => by
    rw [bezier_three (g 0) (g 0 + (1 / 3 : ℝ) • v0) (g 1 - (1 / 3 : ℝ) • v1) (g 1) t (fun k => if k = 0 then c.evalD 0 else
      if k + 1 = 4 then c.evalD 1 else if k = 0 then g 0 else if k = 1 then g 0 + (1 / 3 : ℝ) • v0
      else if k = 2 then g 1 - (1 / 3 : ℝ) • v1 else g 1) (by simp [Curve.evalD, hc0]) (by simp) (by simp)
      (by simp [Curve.evalD, hc1]), hermitePoly]
  simp only [hH] at h6
  have hs := inner_sum hN (fun i => norm3 (c.evalD (linspace 0 1 (N - 1) i) -
    hermitePoly (g 0) (g 1) v0 v1 (linspace 0 1 (N - 1) i)) ^ 2) (E := (ε + Spec.hermiteMax M e0 e1) ^ 2)
    (by simp [(sample_ends hN).1, Curve.evalD, hc0, hermitePoly, norm3_eq_zero])
    (by simp [(sample_ends hN).2, Curve.evalD, hc1, hermitePoly, norm3_eq_zero]) fun i hi => by
      obtain ⟨s0, s1⟩ := sample_mem hN hi
      obtain ⟨p, hp, hpe⟩ := hε _ s0 s1
      have hp' : c.evalD (linspace 0 1 (N - 1) i) = p := by simp [Curve.evalD, hp]
      rw [hp']
      refine pow_le_pow_left₀ (norm3_nonneg _) ?_ 2
      rw [← sub_add_sub_cancel p (g (linspace 0 1 (N - 1) i))]
      refine (norm3_add_le _ _).trans (add_le_add hpe ?_)
      exact (hermite_near hg n0 n1 s0 s1).trans (hermiteError_le hM he0 he1 s0 s1)
  have hN2 : (0 : ℝ) ≤ (N : ℝ) - 2 := by
    have : (2 : ℝ) ≤ N := by exact_mod_cast hN
    linarith
  refine le_of_sq_le_sq ?_ (mul_nonneg (Real.sqrt_nonneg _) hE)
  rw [mul_pow, Real.sq_sqrt hN2]
  exact h6.trans hs

/-- The error of a one sided difference of a scalar function. -/
theorem diff_scalar {f f1 f2 : ℝ → ℝ} (d1 : ∀ t, 0 ≤ t → t ≤ 1 → HasDerivAt f (f1 t) t)
    (d2 : ∀ t, 0 ≤ t → t ≤ 1 → HasDerivAt f1 (f2 t) t) {K : ℝ} (hK : ∀ t, 0 ≤ t → t ≤ 1 → |f2 t| ≤ K) {δ : ℝ} (hδ : 0 < δ)
    (hδ1 : δ ≤ 1) : |f δ - f 0 - δ * f1 0| ≤ K * δ ^ 2 / 2 := by
  obtain ⟨k, hk⟩ : ∃ k, k = (f δ - f 0 - δ * f1 0) / δ ^ 2 := ⟨_, rfl⟩
  have hkd : f δ - f 0 - δ * f1 0 = k * δ ^ 2 := by rw [hk]; field_simp
  have e1 : ∀ s, 0 ≤ s → s ≤ 1 → HasDerivAt (fun s => f s - (f1 0 * s + k * s ^ 2)) (f1 s - (f1 0 + k * (2 * s))) s :=
    fun s a b => (d1 s a b).sub ((((hasDerivAt_id s).const_mul (f1 0)).add ((hasDerivAt_pow 2 s).const_mul k)).congr_deriv
      (by push_cast; ring))
  have e2 : ∀ s, 0 ≤ s → s ≤ 1 → HasDerivAt (fun s => f1 s - (f1 0 + k * (2 * s))) (f2 s - (0 + k * 2)) s :=
    fun s a b => (d2 s a b).sub ((hasDerivAt_const s (f1 0)).add ((((hasDerivAt_id s).const_mul 2).const_mul k).congr_deriv
      (by ring)))
  obtain ⟨a, a0, aδ, ha⟩ := rolle_on e1 le_rfl hδ1 hδ (by linear_combination -hkd)
  obtain ⟨b, b0, ba, hb⟩ := rolle_on e2 le_rfl (aδ.trans_le hδ1).le a0 (by rw [ha]; ring)
  have h2 := hK b b0.le (ba.trans (aδ.trans_le hδ1)).le
  rw [show f2 b = 2 * k by linarith, abs_mul, abs_two] at h2
  rw [hkd, abs_mul, abs_of_nonneg (sq_nonneg δ)]
  nlinarith [mul_le_mul_of_nonneg_right h2 (sq_nonneg δ)]

theorem diff_vector {g g1 g2 : ℝ → V3} (d1 : ∀ t, 0 ≤ t → t ≤ 1 → HasDerivAt g (g1 t) t)
    (d2 : ∀ t, 0 ≤ t → t ≤ 1 → HasDerivAt g1 (g2 t) t) {K : ℝ} (hK : ∀ t, 0 ≤ t → t ≤ 1 → norm3 (g2 t) ≤ K) {δ : ℝ}
    (hδ : 0 < δ) (hδ1 : δ ≤ 1) : norm3 (g δ - g 0 - δ • g1 0) ≤ K * δ ^ 2 / 2 := by
  obtain ⟨u, hu⟩ : ∃ u, u = g δ - g 0 - δ • g1 0 := ⟨_, rfl⟩
  have h := diff_scalar (fun t a b => hasDerivAt_dot u (d1 t a b)) (fun t a b => hasDerivAt_dot u (d2 t a b))
    (K := K * norm3 u) (fun t a b => by
      have h1 := dot_le_norm3 (g2 t) u
      have h2 := dot_le_norm3 (-g2 t) u
      rw [norm3_neg, dot_neg_left] at h2
      have := mul_le_mul_of_nonneg_right (hK t a b) (norm3_nonneg u)
      rw [abs_le]
      constructor <;> linarith) hδ hδ1
  rw [show dot (g δ) u - dot (g 0) u - δ * dot (g1 0) u = norm3 u ^ 2 by
    rw [norm3_sq]
    conv_rhs => rw [show dot u u = dot (g δ - g 0 - δ • g1 0) u by rw [← hu]]
    simp only [dot_sub_left, dot_smul_left], abs_of_nonneg (sq_nonneg _)] at h
  rw [← hu]
  have hK0 : 0 ≤ K := (norm3_nonneg _).trans (hK 0 le_rfl zero_le_one)
  rcases eq_or_lt_of_le (norm3_nonneg u) with h0 | h0
  · rw [← h0]; positivity
  · nlinarith

/-- **C137, smooth curves.** A curve whose points are those of a smooth `g` is fitted, at every sample, within `√(N - 2)`
times `M4 / 384 + M2 / 67500`, where `M2` and `M4` bound its second and fourth derivatives. -/
theorem c137_smooth (root : FitRoot) (opt : FitMinimizer) (ho : Spec.Descends opt) (ratio : ℝ) (hr : 0 ≤ ratio) (c : Curve)
    {g g1 g2 g3 g4 : ℝ → V3} {M2 M4 : ℝ} (hg : Spec.Smooth4 g g1 g2 g3 g4 M4)
    (h2 : ∀ t, 0 ≤ t → t ≤ 1 → norm3 (g2 t) ≤ M2) (hc : ∀ s, 0 ≤ s → s ≤ 1 → c.eval s = some (g s)) :
    ∃ P W, fitCurve root opt 4 false ratio none c = some (P, W) ∧
      ∀ i < fitCount 4 ratio, ∃ τ q, nurbezier τ P W = some q ∧
        norm3 (g (i / ((fitCount 4 ratio - 1 : ℕ) : ℝ)) - q) ≤ √((fitCount 4 ratio : ℝ) - 2) * (M4 / 384 + M2 / 67500) := by
  have hN := fitCount_ge (n := 4) (by norm_num) hr
  obtain ⟨d0, d1⟩ := derivative_ends (c := c) fun s a b => by simp [hc s a b]
  have ev : ∀ s, 0 ≤ s → s ≤ 1 → c.evalD s = g s := fun s a b => by simp [Curve.evalD, hc s a b]
  rw [ev _ (by norm_num) (by norm_num), ev _ (by norm_num) (by norm_num)] at d0 d1
  obtain ⟨P, W, h3, -, -, h4⟩ := c137_accuracy root opt ho ratio hr c (ε := 0) (e0 := M2 / 20000) (e1 := M2 / 20000) hg
    (hc 0 le_rfl zero_le_one) (hc 1 zero_le_one le_rfl) (fun s a b => ⟨_, hc s a b, by simp [norm3_eq_zero.2]⟩)
    (fun v hv => by
      rw [d0, Option.some.injEq] at hv
      have := diff_vector hg.d1 hg.d2 h2 (δ := 1 / 10000) (by norm_num) (by norm_num)
      rw [← hv, show (10000 : ℝ) • (g (1 / 10000) - g 0) - g1 0 =
        (10000 : ℝ) • (g (1 / 10000) - g 0 - (1 / 10000 : ℝ) • g1 0) by module, norm3_smul,
        abs_of_pos (by norm_num : (0 : ℝ) < 10000)]
      linarith)
    (fun v hv => by
      rw [d1, Option.some.injEq] at hv
      have hd : ∀ {a b : ℝ → V3}, (∀ t, 0 ≤ t → t ≤ 1 → HasDerivAt a (b t) t) → ∀ t, 0 ≤ t → t ≤ 1 →
          HasDerivAt (fun t => a (1 - t)) (-b (1 - t)) t := fun h t t0 t1 =>
        (h (1 - t) (by linarith) (by linarith)).comp_const_sub 1 t
      have := diff_vector (g := fun t => g (1 - t)) (g1 := fun t => -g1 (1 - t)) (g2 := fun t => g2 (1 - t)) (K := M2)
        (hd hg.d1) (fun t t0 t1 => (hd hg.d2 t t0 t1).neg.congr_deriv (neg_neg _))
        (fun t t0 t1 => h2 _ (by linarith) (by linarith)) (δ := 1 / 10000) (by norm_num) (by norm_num)
      rw [sub_zero, show (1 : ℝ) - 1 / 10000 = 9999 / 10000 by norm_num] at this
      rw [← hv, show (10000 : ℝ) • (g 1 - g (9999 / 10000)) - g1 1 =
        (-10000 : ℝ) • (g (9999 / 10000) - g 1 - (1 / 10000 : ℝ) • -g1 1) by module, norm3_smul,
        show |(-10000 : ℝ)| = 10000 by norm_num]
      linarith)
  refine ⟨P, W, h3, fun i hi => ?_⟩
  obtain ⟨τ, q, h5, h6⟩ := h4 i hi _ (hc _ (sample_mem hN hi).1 (sample_mem hN hi).2)
  refine ⟨τ, q, h5, ?_⟩
  rw [linspace_unit, Spec.hermiteMax, zero_add] at h6
  refine h6.trans (le_of_eq ?_)
  ring

/-- **C137, straight curves.** A curve run through with constant velocity is met exactly at every sample. -/
theorem c137_straight (root : FitRoot) (opt : FitMinimizer) (ho : Spec.Descends opt) (ratio : ℝ) (hr : 0 ≤ ratio) (c : Curve)
    (p v : V3) (hc : ∀ s, 0 ≤ s → s ≤ 1 → c.eval s = some (p + s • v)) :
    ∃ P W, fitCurve root opt 4 false ratio none c = some (P, W) ∧
      ∀ i < fitCount 4 ratio, ∃ τ, nurbezier τ P W = some (p + ((i : ℝ) / ((fitCount 4 ratio - 1 : ℕ) : ℝ)) • v) := by
  have hd : ∀ t, HasDerivAt (fun s : ℝ => p + s • v) v t := fun t => by
    simpa using ((hasDerivAt_id t).smul_const v).const_add p
  obtain ⟨P, W, h1, h2⟩ := c137_smooth root opt ho ratio hr c (g := fun s => p + s • v) (g1 := fun _ => v) (g2 := fun _ => 0)
    (g3 := fun _ => 0) (g4 := fun _ => 0) (M2 := 0) (M4 := 0)
    ⟨fun t _ _ => hd t, fun t _ _ => hasDerivAt_const _ _, fun t _ _ => hasDerivAt_const _ _,
      fun t _ _ => hasDerivAt_const _ _, fun t _ _ => by simp [norm3_eq_zero.2]⟩
    (fun t _ _ => by simp [norm3_eq_zero.2]) hc
  refine ⟨P, W, h1, fun i hi => ?_⟩
  obtain ⟨τ, q, h3, h4⟩ := h2 i hi
  refine ⟨τ, ?_⟩
  rw [h3]
  have : norm3 (p + ((i : ℝ) / ((fitCount 4 ratio - 1 : ℕ) : ℝ)) • v - q) = 0 :=
    le_antisymm (h4.trans (by simp)) (norm3_nonneg _)
  rw [norm3_eq_zero, sub_eq_zero] at this
  rw [this]

/-- **C137, arcs.** Arcs of any angle `a` and radius `r` (the code fits those of at least half a turn). -/
theorem c137_arc (root : FitRoot) (opt : FitMinimizer) (ho : Spec.Descends opt) (ratio : ℝ) (hr : 0 ≤ ratio) (r a : ℝ)
    (center : V3) (R : M3) (hR : IsRot R) (active : Bool) :
    ∃ P W, fitCurve root opt 4 false ratio none (Curve.make (.arc r a center R) active 0 1) = some (P, W) ∧
      ∀ i < fitCount 4 ratio, ∃ τ q, nurbezier τ P W = some q ∧
        norm3 (center + app R (r • ![cos (a * (i / ((fitCount 4 ratio - 1 : ℕ) : ℝ))),
          sin (a * (i / ((fitCount 4 ratio - 1 : ℕ) : ℝ))), 0]) - q) ≤
          √((fitCount 4 ratio : ℝ) - 2) * (|r| * a ^ 4 / 384 + |r| * a ^ 2 / 67500) := by
  have hd : ∀ k b t : ℝ, HasDerivAt (fun s => app R ((r * k) • ![cos (a * s + b), sin (a * s + b), 0]))
      (app R ((r * (k * a)) • ![cos (a * t + (b + π / 2)), sin (a * t + (b + π / 2)), 0])) t := fun k b t => by
    have e1 := hasDerivAt_cos_lin a b t
    have e2 := hasDerivAt_sin_lin a b t
    have c1 : cos (a * t + (b + π / 2)) = -sin (a * t + b) := by rw [← add_assoc, cos_add_pi_div_two]
    have c2 : sin (a * t + (b + π / 2)) = cos (a * t + b) := by rw [← add_assoc, sin_add_pi_div_two]
    rw [c1, c2]
    apply hasDerivAt_v3 <;> simp [app, Matrix.mulVec, dotProduct, Fin.sum_univ_three]
    all_goals
      refine (((e1.const_mul (r * k)).const_mul _).add ((e2.const_mul (r * k)).const_mul _)).congr_deriv ?_
      ring
  have hn : ∀ k b t : ℝ, norm3 (app R ((r * k) • ![cos (a * t + b), sin (a * t + b), 0])) = |r| * |k| := fun k b t => by
    apply norm3_eq_of_dot (by positivity)
    rw [hR.dot_app, mul_pow, sq_abs, sq_abs]
    simp [dot]
    linear_combination r ^ 2 * k ^ 2 * (sin_sq_add_cos_sq (a * t + b))
  have hev : ∀ s, (Curve.make (.arc r a center R) active 0 1).eval s =
      some (center + app R ((r * 1) • ![cos (a * s + 0), sin (a * s + 0), 0])) := fun s => by
    rw [make_eval _ (by intro f n h; cases h), CurveKind.fn, app_mul]
    congr 1
    rw [add_comm]
    congr 2
    apply V3.ext3 <;> simp [RIGHT] <;> ring
  obtain ⟨P, W, h1, h2⟩ := c137_smooth root opt ho ratio hr _
    (g := fun s => center + app R ((r * 1) • ![cos (a * s + 0), sin (a * s + 0), 0])) (M2 := |r| * a ^ 2)
    (M4 := |r| * a ^ 4)
    ⟨fun t _ _ => (hd 1 0 t).const_add center, fun t _ _ => hd _ _ t, fun t _ _ => hd _ _ t, fun t _ _ => hd _ _ t,
      fun t _ _ => le_of_eq ((hn _ _ _).trans (by
        rw [show 1 * a * a * a * a = a ^ 4 by ring, abs_of_nonneg (a := a ^ 4) (by positivity)]))⟩
    (fun t _ _ => le_of_eq ((hn _ _ _).trans (by rw [show 1 * a * a = a ^ 2 by ring, abs_of_nonneg (sq_nonneg a)])))
    (fun s _ _ => hev s)
  refine ⟨P, W, h1, fun i hi => ?_⟩
  obtain ⟨τ, q, h3, h4⟩ := h2 i hi
  exact ⟨τ, q, h3, by simpa only [mul_one, add_zero] using h4⟩

theorem spec_bezier_ends (l : List V3) (h : l ≠ []) :
    Spec.bezierCurve l 0 = l.head h ∧ Spec.bezierCurve l 1 = l.getLast h := by
  have h1 := c02_start l h
  have h2 := c02_end l h
  rw [(c01_evaluators_correct _ l h).1, Option.some.injEq] at h1 h2
  exact ⟨h1, h2⟩

/-- End velocities of a Bezier curve. -/
theorem bezier_velocity {n : ℕ} (hn : 2 ≤ n) (P : ℕ → V3) :
    HasDerivAt (fun s => Spec.bezierCurve (List.ofFn fun k : Fin n => P k) s) (((n : ℝ) - 1) • (P 1 - P 0)) 0 ∧
      HasDerivAt (fun s => Spec.bezierCurve (List.ofFn fun k : Fin n => P k) s)
        (((n : ℝ) - 1) • (P (n - 1) - P (n - 2))) 1 := by
  have hl : (List.ofFn fun k : Fin n => P k).length = n := by simp
  obtain ⟨l, el⟩ : ∃ l, l = List.ofFn fun k : Fin n => P k := ⟨_, rfl⟩
  rw [← el] at hl ⊢
  have hne : ((diffs l).map fun p => ((l.length : ℝ) - 1) • p) ≠ [] := by
    intro e; have := congrArg List.length e; simp [diffs_length, hl] at this; omega
  have hi : ∀ i (h : i < l.length), l[i] = P i := fun i h => by simp [el]
  clear el
  subst hl
  refine ⟨(spec_bezier_hasDerivAt l (by omega) 0).congr_deriv ?_, (spec_bezier_hasDerivAt l (by omega) 1).congr_deriv ?_⟩
  · rw [(spec_bezier_ends _ hne).1, List.head_eq_getElem, List.getElem_map]
    congr 1
    simp [diffs, hi]
  · rw [(spec_bezier_ends _ hne).2, List.getLast_eq_getElem, List.getElem_map]
    congr 1
    simp only [diffs, List.getElem_zipWith, List.getElem_tail, hi, List.length_map, List.length_zipWith, List.length_tail]
    congr 2 <;> omega

/-- **C137, end velocities of the start.** With four control points the curve the fit is started with leaves and arrives with
the numerical velocities of the original. With more of them it does so `(n - 1) / 3` times as fast. -/
theorem c137_velocity (root : FitRoot) (n : ℕ) (hn : 4 ≤ n) (c : Curve) (v0 v1 : V3)
    (hc : ∀ s, 0 ≤ s → s ≤ 1 → (c.eval s).isSome) (hv0 : c.derivative 0 1 (1 / 10000) 1 = some v0)
    (hv1 : c.derivative 1 (-1) (1 / 10000) 1 = some v1) :
    ∃ rows, initPoints root n false c = some rows ∧ c.eval 0 = some (rows 0) ∧ c.eval 1 = some (rows (n - 1)) ∧
      HasDerivAt (fun s => Spec.bezierCurve (List.ofFn fun k : Fin n => rows k) s) ((((n : ℝ) - 1) / 3) • v0) 0 ∧
      HasDerivAt (fun s => Spec.bezierCurve (List.ofFn fun k : Fin n => rows k) s) ((((n : ℝ) - 1) / 3) • v1) 1 := by
  obtain ⟨p0, h0⟩ := Option.isSome_iff_exists.1 (hc 0 le_rfl zero_le_one)
  obtain ⟨p3, h3⟩ := Option.isSome_iff_exists.1 (hc 1 zero_le_one le_rfl)
  have hh := hermiteCubic_some h0 h3 hv0 hv1
  obtain ⟨rows, hr, r0, r1, r2, r3⟩ : ∃ rows, initPoints root n false c = some rows ∧ rows 0 = p0 ∧
      rows 1 = p0 + (1 / 3 : ℝ) • v0 ∧ rows (n - 2) = p3 - (1 / 3 : ℝ) • v1 ∧ rows (n - 1) = p3 := by
    rw [initPoints, if_neg (by omega)]
    split_ifs with h4 h5
    · subst h4
      exact ⟨_, hh, by simp, by simp, by simp, by simp⟩
    · simp at h5; omega
    · refine ⟨_, by rw [hh, Option.map_some], ?_, ?_, ?_, ?_⟩
      · rw [spreadPoints, if_neg (by omega), if_neg (by omega), if_neg (by omega), if_neg (by omega), if_pos rfl]
      · rw [spreadPoints, if_neg (by omega), if_neg (by omega), if_pos rfl, if_neg (by omega), if_pos rfl]
      · rw [spreadPoints, if_neg (by omega), if_pos (by omega), if_neg (by omega), if_neg (by omega), if_pos rfl]
      · rw [spreadPoints, if_neg (by omega), if_neg (by omega), if_neg (by omega), if_pos (by omega)]
        simp
  obtain ⟨b0, b1⟩ := bezier_velocity (n := n) (by omega) rows
  refine ⟨rows, hr, by rw [r0, h0], by rw [r3, h3], b0.congr_deriv ?_, b1.congr_deriv ?_⟩
  · rw [r0, r1]; module
  · rw [r2, r3]; module

/-- **C137, three control points.** If the numerical end tangents of the curve meet and the root finder finds roots, the
middle point of the start lies on both of them. -/
theorem c137_quadratic (root : FitRoot) (hroot : Spec.FindsRoots root) (flat : Bool) (c : Curve) (v0 v1 p0 p2 : V3)
    (h0 : c.eval 0 = some p0) (h1 : c.eval 1 = some p2) (hv0 : c.derivative 0 1 (1 / 10000) 1 = some v0)
    (hv1 : c.derivative 1 (-1) (1 / 10000) 1 = some v1) (hmeet : ∃ a b : ℝ, p0 + a • v0 = p2 + b • v1) :
    ∃ rows, initPoints root 3 flat c = some rows ∧ rows 0 = p0 ∧ rows 2 = p2 ∧
      ∃ a b : ℝ, rows 1 = p0 + a • v0 ∧ rows 1 = p2 + b • v1 := by
  obtain ⟨a, b, hab⟩ := hmeet
  refine ⟨_, by rw [initPoints, if_pos rfl, hermiteQuadratic, h0, h1, hv0, hv1], by simp, by simp, ?_⟩
  obtain ⟨x, hx⟩ : ∃ x, x = root (fun x => p0 + x 0 • (1 / 3 : ℝ) • v0 - p2 - x 1 • (1 / 3 : ℝ) • v1) (fun _ => 1 / 2) :=
    ⟨_, rfl⟩
  have hz : p0 + x 0 • (1 / 3 : ℝ) • v0 - p2 - x 1 • (1 / 3 : ℝ) • v1 = 0 := by
    rw [hx]
    refine hroot (fun x => p0 + x 0 • (1 / 3 : ℝ) • v0 - p2 - x 1 • (1 / 3 : ℝ) • v1) _ ⟨![3 * a, 3 * b, 0], ?_⟩
    simp only [Matrix.cons_val]
    have : p0 + (3 * a) • (1 / 3 : ℝ) • v0 - p2 - (3 * b) • (1 / 3 : ℝ) • v1 = p0 + a • v0 - (p2 + b • v1) := by module
    rw [this, hab, sub_self]
  rw [← hx]
  refine ⟨x 0 / 3, x 1 / 3, ?_, ?_⟩
  · simp only [one_ne_zero, if_false, if_true]; module
  · simp only [one_ne_zero, if_false, if_true]
    rw [← sub_eq_zero, ← hz]; module

/-- **C137, flat fits.** With `force_2D` and three or four control points, a curve in the plane `z = h` gives a control polygon
in that plane with the ends of the curve, whatever the optimiser returns. -/
theorem c137_flat (root : FitRoot) (opt : FitMinimizer) (n : ℕ) (hn : n = 3 ∨ n = 4) (ratio : ℝ) (hr : 0 ≤ ratio) (c : Curve)
    (h : ℝ) (hc : ∀ s, 0 ≤ s → s ≤ 1 → ∃ p, c.eval s = some p ∧ p 2 = h) :
    ∃ P W, fitCurve root opt n true ratio none c = some (P, W) ∧ P.length = n ∧ W.length = n ∧ (∀ p ∈ P, p 2 = h) ∧
      nurbezier 0 P W = c.eval 0 ∧ nurbezier 1 P W = c.eval 1 := by
  have hN := fitCount_ge (n := n) (by omega) hr
  have hs : ∀ s, 0 ≤ s → s ≤ 1 → (c.eval s).isSome := fun s a b => by
    obtain ⟨p, hp, -⟩ := hc s a b; simp [hp]
  obtain ⟨d0, d1⟩ := derivative_ends hs
  obtain ⟨p0, h0, z0⟩ := hc 0 le_rfl zero_le_one
  obtain ⟨p3, h3, z3⟩ := hc 1 zero_le_one le_rfl
  obtain ⟨rows, hrows⟩ : ∃ rows, startRows root n true none c = some rows := by
    rw [startRows, initPoints]
    rcases hn with rfl | rfl
    · rw [if_pos rfl, hermiteQuadratic, h0, h3, d0, d1]; exact ⟨_, rfl⟩
    · rw [if_neg (by norm_num), if_pos rfl, hermiteCubic_some h0 h3 d0 d1]; exact ⟨_, rfl⟩
  obtain ⟨N, hNe⟩ : ∃ N, N = fitCount n ratio := ⟨_, rfl⟩
  rw [← hNe] at hN
  have hz : (∑ i : Fin N, fitTarget c N i 2) / N = h := by
    have : ∀ i : Fin N, fitTarget c N i 2 = h := fun i => by
      obtain ⟨p, hp, e⟩ := hc _ (sample_mem hN i.2).1 (sample_mem hN i.2).2
      simp [fitTarget, Curve.evalD, hp, e]
    simp only [this, sum_const, card_univ, Fintype.card_fin, nsmul_eq_mul]
    have : (N : ℝ) ≠ 0 := Nat.cast_ne_zero.2 (by omega)
    field_simp
  obtain ⟨x, hx⟩ : ∃ x, x = opt (fitCost 2 n N (fitTarget2 c N)) (fitStart 2 n N rows) := ⟨_, rfl⟩
  have he : fitCurve root opt n true ratio none c = some
      (List.ofFn fun k : Fin n => (![fitPoints 2 n N (fitTarget2 c N) x k 0, fitPoints 2 n N (fitTarget2 c N) x k 1, h] : V3),
        List.ofFn fun k : Fin n => fitWeights 2 n x k) := by
    rw [fitCurve, ← hNe]
    rw [if_pos fun i hi => hs _ (sample_mem hN hi).1 (sample_mem hN hi).2, hrows]
    simp only [Option.map_some, if_true, ← hx, fitNurbPoints, hz, List.map_ofFn]
    rfl
  have hends := nurbezier_ends (n := n) (by omega)
    (fun k : Fin n => (![fitPoints 2 n N (fitTarget2 c N) x k 0, fitPoints 2 n N (fitTarget2 c N) x k 1, h] : V3))
    (fun k : Fin n => fitWeights 2 n x k) (by simp [fitWeights_zero]) (by simp [fitWeights_last])
  refine ⟨_, _, he, by simp, by simp, fun p hp => ?_, ?_, ?_⟩
  · rw [List.mem_ofFn] at hp
    obtain ⟨k, rfl⟩ := hp
    simp
  · rw [hends.1, h0]
    have e0 : fitTarget c N 0 = p0 := by simp [fitTarget, (sample_ends hN).1, Curve.evalD, h0]
    congr 1
    rw [fitPoints_zero (by omega)]
    apply V3.ext3 <;> simp [fitTarget2, e0, z0]
  · rw [hends.2, h3]
    have e0 : fitTarget c N (N - 1) = p3 := by simp [fitTarget, (sample_ends hN).2, Curve.evalD, h3]
    congr 1
    simp only [fitPoints_last]
    apply V3.ext3 <;> simp [fitTarget2, e0, z3]

/-- **C137, flat fits with other numbers of control points.** `force_2D` with any number of control points other than three
and four raises for every curve, unless a start is given. -/
theorem c137_flat_violated : (∀ (root : FitRoot) (opt : FitMinimizer) (n : ℕ) (ratio : ℝ) (c : Curve), n ≠ 3 → n ≠ 4 →
      fitCurve root opt n true ratio none c = none) ∧
    ¬ ∀ (root : FitRoot) (opt : FitMinimizer) (n : ℕ) (c : Curve), 3 ≤ n →
      (∀ s, 0 ≤ s → s ≤ 1 → ∃ p, c.eval s = some p ∧ p 2 = 0) → (fitCurve root opt n true (3 / 2) none c).isSome := by
  have h : ∀ (root : FitRoot) (opt : FitMinimizer) (n : ℕ) (ratio : ℝ) (c : Curve), n ≠ 3 → n ≠ 4 →
      fitCurve root opt n true ratio none c = none := fun root opt n ratio c h3 h4 => by
    simp [fitCurve, startRows, initPoints, h3, h4]
  refine ⟨h, fun h' => ?_⟩
  have := h' (fun _ x => x) (fun _ x => x) 5 (lineC 0 RIGHT) (by norm_num) fun s _ _ =>
    ⟨_, lineC_eval 0 RIGHT s, by simp [RIGHT]⟩
  rw [h _ _ 5 _ _ (by norm_num) (by norm_num)] at this
  cases this

theorem lineC_velocity (p q : V3) : (lineC p q).derivative 0 1 (1 / 10000) 1 = some (q - p) ∧
    (lineC p q).derivative 1 (-1) (1 / 10000) 1 = some (q - p) := by
  have h : ∀ s, (lineC p q).evalD s = (1 - s) • p + s • q := fun s => by simp [Curve.evalD, lineC_eval]
  obtain ⟨h0, h1⟩ := derivative_ends (c := lineC p q) fun s _ _ => by simp [lineC_eval]
  rw [h0, h1]
  simp only [h]
  exact ⟨congrArg some (by module), congrArg some (by module)⟩

/-- **C137, the start doubles back.** Six or more control points for a straight line: the start visits a point beyond two
thirds of the line and then goes back to two thirds of it. -/
theorem c137_spread_violated (root : FitRoot) (n : ℕ) (hn : 6 ≤ n) (p q : V3) :
    ∃ rows, initPoints root n false (lineC p q) = some rows ∧
      (∃ s : ℝ, 2 / 3 < s ∧ rows (n - 3) = p + s • (q - p)) ∧ rows (n - 2) = p + (2 / 3 : ℝ) • (q - p) := by
  have e0 : (lineC p q).eval 0 = some p := by simp [lineC_eval]
  have e1 : (lineC p q).eval 1 = some q := by simp [lineC_eval]
  refine ⟨_, by rw [initPoints, if_neg (by omega), if_neg (by omega), if_neg (by simp; omega),
    hermiteCubic_some e0 e1 (lineC_velocity p q).1 (lineC_velocity p q).2, Option.map_some],
    ⟨1 / 3 + 2 / 3 * (((n : ℝ) - 4) / ((n : ℝ) - 3)), ?_, ?_⟩, ?_⟩
  · have : (6 : ℝ) ≤ n := by exact_mod_cast hn
    have h3 : (0 : ℝ) < (n : ℝ) - 3 := by linarith
    have : 1 / 2 < ((n : ℝ) - 4) / ((n : ℝ) - 3) := by rw [lt_div_iff₀ h3]; linarith
    linarith
  · rw [spreadPoints, if_pos (by omega), Nat.cast_sub (by omega)]
    simp only [one_ne_zero, if_false, if_true, show (3 : ℕ) ≠ 0 by norm_num, show (3 : ℕ) ≠ 1 by norm_num,
      show (3 : ℕ) ≠ 2 by norm_num]
    rw [show ((n : ℝ) - ((3 : ℕ) : ℝ) - 1) = (n : ℝ) - 4 by push_cast; ring]
    module
  · rw [spreadPoints, if_neg (by omega), if_pos (by omega), if_neg (by norm_num), if_neg (by norm_num), if_pos rfl]
    module

/-- **C137, five control points.** The start for five control points does not follow a straight line: its cost is not zero,
while the start for four has none. -/
theorem c137_five_violated (root : FitRoot) : ∃ rows4 rows5, initPoints root 4 false (lineC 0 RIGHT) = some rows4 ∧
    initPoints root 5 false (lineC 0 RIGHT) = some rows5 ∧
    ((fitCost 3 4 (fitCount 4 (3 / 2)) (fitTarget (lineC 0 RIGHT) (fitCount 4 (3 / 2)))
      (fitStart 3 4 (fitCount 4 (3 / 2)) rows4)).map Prod.fst = some 0) ∧
    ∃ v, 0 < v ∧ (fitCost 3 5 (fitCount 5 (3 / 2)) (fitTarget (lineC 0 RIGHT) (fitCount 5 (3 / 2)))
      (fitStart 3 5 (fitCount 5 (3 / 2)) rows5)).map Prod.fst = some v := by
  have e0 : (lineC 0 RIGHT).eval 0 = some 0 := by simp [lineC_eval]
  have e1 : (lineC 0 RIGHT).eval 1 = some RIGHT := by simp [lineC_eval]
  have ev : ∀ s, (lineC 0 RIGHT).evalD s = s • RIGHT := fun s => by simp [Curve.evalD, lineC_eval]
  have n4 : fitCount 4 (3 / 2) = 8 := by
    rw [fitCount, show ((4 : ℕ) : ℝ) - 2 = 2 by norm_num, show (2 : ℝ) * 2 * (3 / 2) = ((6 : ℤ) : ℝ) by norm_num,
      Int.ceil_intCast]
    rfl
  have n5 : fitCount 5 (3 / 2) = 11 := by
    rw [fitCount, show ((5 : ℕ) : ℝ) - 2 = 3 by norm_num, show (3 : ℝ) * 2 * (3 / 2) = ((9 : ℤ) : ℝ) by norm_num,
      Int.ceil_intCast]
    rfl
  have hh := hermiteCubic_some e0 e1 (lineC_velocity 0 RIGHT).1 (lineC_velocity 0 RIGHT).2
  obtain ⟨R, hR⟩ : ∃ R : ℕ → V3, R = fun k => if k = 0 then 0 else if k = 1 then 0 + (1 / 3 : ℝ) • (RIGHT - 0)
      else if k = 2 then RIGHT - (1 / 3 : ℝ) • (RIGHT - 0) else RIGHT := ⟨_, rfl⟩
  rw [← hR] at hh
  have R1 : R 1 = (1 / 3 : ℝ) • RIGHT := by rw [hR]; simp
  have R2 : R 2 = (2 / 3 : ℝ) • RIGHT := by
    rw [hR]; dsimp only
    rw [if_neg (by norm_num), if_neg (by norm_num), if_pos rfl]; module
  have R3 : R 3 = RIGHT := by
    rw [hR]; dsimp only
    rw [if_neg (by norm_num), if_neg (by norm_num), if_neg (by norm_num)]
  obtain ⟨T4, hT4⟩ : ∃ T, T = fitTarget (lineC 0 RIGHT) 8 := ⟨_, rfl⟩
  obtain ⟨T5, hT5⟩ : ∃ T, T = fitTarget (lineC 0 RIGHT) 11 := ⟨_, rfl⟩
  have t4 : ∀ i, T4 i = ((i : ℝ) / 7) • RIGHT := fun i => by rw [hT4, fitTarget, ev, linspace_unit]; norm_num
  have t5 : ∀ i, T5 i = ((i : ℝ) / 10) • RIGHT := fun i => by rw [hT5, fitTarget, ev, linspace_unit]; norm_num
  obtain ⟨G4, h4⟩ := start_cost (n := 4) (N := 8) (by norm_num) (by norm_num) T4 R
  obtain ⟨G5, h5⟩ := start_cost (n := 5) (N := 11) (by norm_num) (by norm_num) T5 (spreadPoints 5 R)
  refine ⟨R, spreadPoints 5 R, by rw [initPoints, if_neg (by norm_num), if_pos rfl, hh],
    by rw [initPoints, if_neg (by norm_num), if_neg (by norm_num), if_neg (by simp), hh, Option.map_some], ?_, ?_⟩
  · rw [n4, ← hT4, h4, Option.map_some]
    have hz : ∀ i : Fin 8, norm3 (T4 i - Spec.bezierCurve (List.ofFn fun k : Fin 4 => startPolygon 4 8 T4 R k)
        ((i : ℝ) / ((8 - 1 : ℕ) : ℝ))) ^ 2 = 0 := fun i => by
      rw [bezier_three 0 ((1 / 3 : ℝ) • RIGHT) ((2 / 3 : ℝ) • RIGHT) RIGHT _ (startPolygon 4 8 T4 R)
        (by simp [startPolygon, t4]) (by simp [startPolygon, R1]) (by simp [startPolygon, R2])
        (by simp [startPolygon, t4]), t4]
      rw [sq_eq_zero_iff, norm3_eq_zero, show ((8 - 1 : ℕ) : ℝ) = 7 by norm_num]
      module
    simp only [hz, sum_const_zero, zero_div]
  · refine ⟨_, ?_, by rw [n5, ← hT5, h5, Option.map_some]⟩
    refine div_pos (sum_pos' (fun i _ => sq_nonneg _) ⟨5, mem_univ _, ?_⟩) two_pos
    have : T5 (5 : Fin 11) - Spec.bezierCurve (List.ofFn fun k : Fin 5 => startPolygon 5 11 T5 (spreadPoints 5 R) k)
        (((5 : Fin 11) : ℕ) / ((11 - 1 : ℕ) : ℝ)) = (-1 / 16 : ℝ) • RIGHT := by
      rw [spec_bezier_ofFn, Fin.sum_univ_five]
      simp only [bern_eq]
      have c0 : startPolygon 5 11 T5 (spreadPoints 5 R) ((0 : Fin 5) : ℕ) = (0 : ℝ) • RIGHT := by simp [startPolygon, t5]
      have c1 : startPolygon 5 11 T5 (spreadPoints 5 R) ((1 : Fin 5) : ℕ) = (1 / 3 : ℝ) • RIGHT := by
        simp [startPolygon, spreadPoints, R1]
      have c2 : startPolygon 5 11 T5 (spreadPoints 5 R) ((2 : Fin 5) : ℕ) = (2 / 3 : ℝ) • RIGHT := by
        rw [startPolygon, if_neg (by decide), if_neg (by decide), spreadPoints, if_pos (by decide), R1, R3,
          show (((2 : Fin 5) : ℕ) : ℝ) = 2 by norm_num]
        norm_num
        module
      have c3 : startPolygon 5 11 T5 (spreadPoints 5 R) ((3 : Fin 5) : ℕ) = (2 / 3 : ℝ) • RIGHT := by
        rw [startPolygon, if_neg (by decide), if_neg (by decide), spreadPoints, if_neg (by decide), if_pos (by decide), R2]
      have c4 : startPolygon 5 11 T5 (spreadPoints 5 R) ((4 : Fin 5) : ℕ) = (1 : ℝ) • RIGHT := by
        rw [startPolygon, if_neg (by decide), if_pos (by decide), t5]; norm_num
      rw [c0, c1, c2, c3, c4, t5]
      simp only [smul_smul, ← add_smul, ← sub_smul]
      congr 1
      have v2 : ((2 : Fin 5) : ℕ) = 2 := rfl
      have v3 : ((3 : Fin 5) : ℕ) = 3 := rfl
      have v4 : ((4 : Fin 5) : ℕ) = 4 := rfl
      have v5 : ((5 : Fin 11) : ℕ) = 5 := rfl
      rw [v2, v3, v4, v5]
      norm_num [Nat.choose]
    rw [this, norm3_smul, norm3_eq_of_dot (v := RIGHT) zero_le_one (by simp [dot, RIGHT])]
    norm_num

/-- The fit without `force_2D` is the one of `Model/ProfileNurb.lean`, for the vector the optimiser returns here. -/
theorem c137_same_fit (root : FitRoot) (opt : FitMinimizer) (n : ℕ) (ratio : ℝ) (init : Option (ℕ → V3)) (c : Curve)
    (r : List V3 × List ℝ) (h : fitCurve root opt n false ratio init c = some r) :
    ∃ x, r = fitNurbOptim (fun _ _ _ => x) n ratio c := by
  rw [fitCurve] at h
  by_cases h1 : ∀ i < fitCount n ratio, (c.eval (linspace 0 1 (fitCount n ratio - 1) i)).isSome
  · rw [if_pos h1, Option.map_eq_some_iff] at h
    obtain ⟨rows, -, h⟩ := h
    exact ⟨_, h.symm⟩
  · rw [if_neg h1] at h; cases h

/-- **C137, given start.** A fit that is started on control points of the curve itself reproduces every sample exactly, with any
optimiser that never ends on a worse vector than it started on. -/
theorem c137_given (root : FitRoot) (opt : FitMinimizer) (ho : Spec.Descends opt) (n : ℕ) (hn : 2 ≤ n) (ratio : ℝ)
    (hr : 0 ≤ ratio) (rows : ℕ → V3) (c : Curve)
    (hc : ∀ s, 0 ≤ s → s ≤ 1 → c.eval s = some (Spec.bezierCurve (List.ofFn fun k : Fin n => rows k) s)) :
    ∃ P W, fitCurve root opt n false ratio (some rows) c = some (P, W) ∧ P.length = n ∧ W.length = n ∧
      ∀ i < fitCount n ratio, ∃ τ, nurbezier τ P W =
        some (Spec.bezierCurve (List.ofFn fun k : Fin n => rows k) (linspace 0 1 (fitCount n ratio - 1) i)) := by
  obtain ⟨P, W, h1, h2, h3, h4⟩ := c137_never_worse root opt ho n hn ratio hr (some rows) c rows rfl
    fun s a b => by rw [hc s a b]; rfl
  have hN := fitCount_ge hn hr
  have hl : (List.ofFn fun k : Fin n => rows k) ≠ [] := by
    intro h
    have := congrArg List.length h
    simp at this
    omega
  obtain ⟨e0, e1⟩ := spec_bezier_ends _ hl
  have r0 : c.evalD 0 = rows 0 := by
    rw [Curve.evalD, hc 0 le_rfl zero_le_one, Option.getD_some, e0, List.head_ofFn]
  have r1 : c.evalD 1 = rows (n - 1) := by
    rw [Curve.evalD, hc 1 zero_le_one le_rfl, Option.getD_some, e1, List.getLast_ofFn]
  have hrows : (fun k : Fin n => if (k : ℕ) = 0 then c.evalD 0 else if (k : ℕ) + 1 = n then c.evalD 1 else rows k) =
      fun k : Fin n => rows k := by
    funext k
    split_ifs with a b
    · rw [r0, a]
    · rw [r1, show n - 1 = (k : ℕ) by omega]
    · rfl
  refine ⟨P, W, h1, h2, h3, fun i hi => ?_⟩
  have hs : ∀ i < fitCount n ratio, c.eval (linspace 0 1 (fitCount n ratio - 1) i) =
      some (Spec.bezierCurve (List.ofFn fun k : Fin n => rows k) (linspace 0 1 (fitCount n ratio - 1) i)) := fun i hi =>
    hc _ (sample_mem hN hi).1 (sample_mem hN hi).2
  obtain ⟨τ, q, h5, h6⟩ := h4 i hi _ (hs i hi)
  rw [hrows, Finset.sum_eq_zero] at h6
  · refine ⟨τ, ?_⟩
    rw [h5, ← sub_eq_zero.1 (norm3_eq_zero.1 (pow_eq_zero_iff (two_ne_zero) |>.1 (le_antisymm h6 (sq_nonneg _))))]
  · intro k _
    rw [Curve.evalD, hs k k.2, Option.getD_some, sub_self, norm3_eq_zero.2 rfl]
    norm_num

/-- The hypothesis of `c137_given` holds for a straight line with four evenly spaced control points. -/
theorem c137_given_case (s : ℝ) : (lineC 0 RIGHT).eval s =
    some (Spec.bezierCurve (List.ofFn fun k : Fin 4 => (fun k : ℕ => ((k : ℝ) / 3) • RIGHT) k) s) := by
  rw [lineC_eval, bezier_three 0 ((1 / 3 : ℝ) • RIGHT) ((2 / 3 : ℝ) • RIGHT) RIGHT s (fun k : ℕ => ((k : ℝ) / 3) • RIGHT)
    (by simp) (by norm_num) (by norm_num) (by norm_num)]
  congr 1
  apply V3.ext3 <;> simp [RIGHT] <;> ring

/-- Concrete cases: the optimiser that gives up at once, a root finder, and a half circle. -/
theorem c137_case : Spec.Descends (fun _ x => x) ∧ (∃ root, Spec.FindsRoots root) ∧
    (∃ P W, fitCurve (fun _ x => x) (fun _ x => x) 4 false (3 / 2) none (Curve.make (.arc 1 π 0 1) true 0 1) = some (P, W) ∧
      P.length = 4) ∧ fitCount 4 (3 / 2) = 8 := by
  refine ⟨fun cost x v G h => ⟨v, G, h, le_rfl⟩, ?_, ?_, ?_⟩
  · classical
    refine ⟨fun f x => if h : ∃ y, f y = 0 then h.choose else x, fun f x h => ?_⟩
    dsimp only
    rw [dif_pos h]
    exact h.choose_spec
  · obtain ⟨P, W, h, hl, -⟩ := c137_never_worse (fun _ x => x) (fun _ x => x) (fun cost x v G h => ⟨v, G, h, le_rfl⟩) 4
      (by norm_num) (3 / 2) (by norm_num) none (Curve.make (.arc 1 π 0 1) true 0 1) _
      (by
        have hs : ∀ s, 0 ≤ s → s ≤ 1 → ((Curve.make (.arc 1 π 0 1) true 0 1).eval s).isSome := fun s _ _ => by
          rw [make_eval _ (by intro f n h; cases h)]; rfl
        rw [startRows, initPoints, if_neg (by norm_num), if_pos rfl,
          hermiteCubic_some (make_eval _ (by intro f n h; cases h) _ _) (make_eval _ (by intro f n h; cases h) _ _)
            (derivative_ends hs).1 (derivative_ends hs).2])
      fun s _ _ => by rw [make_eval _ (by intro f n h; cases h)]; rfl
    exact ⟨P, W, h, hl⟩
  · rw [fitCount, show ((4 : ℕ) : ℝ) - 2 = 2 by norm_num, show (2 : ℝ) * 2 * (3 / 2) = ((6 : ℤ) : ℝ) by norm_num,
      Int.ceil_intCast]
    rfl

end Verif
