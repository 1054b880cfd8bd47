import Verif.Spec.HermiteFit
import Mathlib.Analysis.Calculus.LocalExtr.Rolle
import Mathlib.Analysis.Calculus.Deriv.Pow
import Mathlib.Analysis.Calculus.Deriv.Mul
import Mathlib.Analysis.Calculus.Deriv.Add
import Mathlib.Analysis.Calculus.Deriv.Prod
import Mathlib.Tactic.LinearCombination
import Mathlib.Tactic.FieldSimp

/-! # The error of cubic Hermite interpolation -/

namespace Verif

open Set

theorem rolle_on {f f' : ℝ → ℝ} (hf : ∀ t, 0 ≤ t → t ≤ 1 → HasDerivAt f (f' t) t) {a b : ℝ} (ha : 0 ≤ a) (hb : b ≤ 1)
    (hab : a < b) (h : f a = f b) : ∃ c, a < c ∧ c < b ∧ f' c = 0 := by
  obtain ⟨c, hc, h0⟩ := exists_hasDerivAt_eq_zero hab
    (fun x hx => (hf x (ha.trans hx.1) (hx.2.trans hb)).continuousAt.continuousWithinAt) h
    fun x hx => hf x (ha.trans hx.1.le) (hx.2.le.trans hb)
  exact ⟨c, hc.1, hc.2, h0⟩

/-- A function with double zeros at both ends of the unit interval is bounded by its fourth derivative. -/
theorem hermite_scalar {h h1 h2 h3 h4 : ℝ → ℝ} {M : ℝ} (d1 : ∀ t, 0 ≤ t → t ≤ 1 → HasDerivAt h (h1 t) t)
    (d2 : ∀ t, 0 ≤ t → t ≤ 1 → HasDerivAt h1 (h2 t) t) (d3 : ∀ t, 0 ≤ t → t ≤ 1 → HasDerivAt h2 (h3 t) t)
    (d4 : ∀ t, 0 ≤ t → t ≤ 1 → HasDerivAt h3 (h4 t) t) (hM : ∀ t, 0 ≤ t → t ≤ 1 → |h4 t| ≤ M)
    (z0 : h 0 = 0) (z1 : h 1 = 0) (y0 : h1 0 = 0) (y1 : h1 1 = 0) {t : ℝ} (t0 : 0 ≤ t) (t1 : t ≤ 1) :
    |h t| ≤ M * (t ^ 2 * (1 - t) ^ 2) / 24 := by
  rcases eq_or_lt_of_le t0 with rfl | t0
  · simp [z0]
  rcases eq_or_lt_of_le t1 with rfl | t1
  · simp [z1]
  have hw : 0 < t ^ 2 * (1 - t) ^ 2 := by have := sub_pos.2 t1; positivity
  obtain ⟨k, hk⟩ : ∃ k, k = h t / (t ^ 2 * (1 - t) ^ 2) := ⟨_, rfl⟩
  have hkt : h t = k * (t ^ 2 * (1 - t) ^ 2) := by rw [hk]; field_simp
  have e1 : ∀ s, 0 ≤ s → s ≤ 1 → HasDerivAt (fun s => h s - k * (s ^ 2 - 2 * s ^ 3 + s ^ 4))
      (h1 s - k * (2 * s - 6 * s ^ 2 + 4 * s ^ 3)) s := fun s a b => by
    refine (d1 s a b).sub (((((hasDerivAt_pow 2 s).sub ((hasDerivAt_pow 3 s).const_mul 2)).add
      (hasDerivAt_pow 4 s)).const_mul k).congr_deriv ?_)
    push_cast; ring
  have e2 : ∀ s, 0 ≤ s → s ≤ 1 → HasDerivAt (fun s => h1 s - k * (2 * s - 6 * s ^ 2 + 4 * s ^ 3))
      (h2 s - k * (2 - 12 * s + 12 * s ^ 2)) s := fun s a b => by
    refine (d2 s a b).sub ((((((hasDerivAt_id s).const_mul 2).sub ((hasDerivAt_pow 2 s).const_mul 6)).add
      ((hasDerivAt_pow 3 s).const_mul 4)).const_mul k).congr_deriv ?_)
    push_cast; ring
  have e3 : ∀ s, 0 ≤ s → s ≤ 1 → HasDerivAt (fun s => h2 s - k * (2 - 12 * s + 12 * s ^ 2))
      (h3 s - k * (-12 + 24 * s)) s := fun s a b => by
    refine (d3 s a b).sub ((((((hasDerivAt_const s (2 : ℝ)).sub ((hasDerivAt_id s).const_mul 12)).add
      ((hasDerivAt_pow 2 s).const_mul 12)).const_mul k)).congr_deriv ?_)
    push_cast; ring
  have e4 : ∀ s, 0 ≤ s → s ≤ 1 → HasDerivAt (fun s => h3 s - k * (-12 + 24 * s)) (h4 s - k * 24) s := fun s a b => by
    refine (d4 s a b).sub ((((hasDerivAt_const s (-12 : ℝ)).add ((hasDerivAt_id s).const_mul 24)).const_mul k).congr_deriv ?_)
    ring
  obtain ⟨a, a0, at_, ha⟩ := rolle_on e1 le_rfl t1.le t0 (by rw [hkt, z0]; ring)
  obtain ⟨b, bt, b1, hb⟩ := rolle_on e1 t0.le le_rfl t1 (by rw [hkt, z1]; ring)
  obtain ⟨p, p0, pa, hp⟩ := rolle_on e2 le_rfl (at_.trans t1).le a0 (by rw [ha, y0]; ring)
  obtain ⟨q, qa, qb, hq⟩ := rolle_on e2 a0.le b1.le (at_.trans bt) (by rw [ha, hb])
  obtain ⟨r, rb, r1, hr⟩ := rolle_on e2 (t0.trans bt).le le_rfl b1 (by rw [hb, y1]; ring)
  obtain ⟨x, xp, xq, hx⟩ := rolle_on e3 p0.le (qb.trans b1).le (pa.trans qa) (by rw [hp, hq])
  obtain ⟨y, yq, yr, hy⟩ := rolle_on e3 (a0.trans qa).le r1.le (qb.trans rb) (by rw [hq, hr])
  obtain ⟨z, zx, zy, hz⟩ := rolle_on e4 (p0.trans xp).le (yr.trans r1).le (xq.trans yq) (by rw [hx, hy])
  have hM' := hM z (((p0.trans xp).trans zx).le) ((zy.trans (yr.trans r1)).le)
  have hk24 : h4 z = 24 * k := by linarith
  rw [hk24, abs_mul, abs_of_pos (by norm_num : (0 : ℝ) < 24)] at hM'
  rw [hkt, abs_mul, abs_of_pos hw]
  nlinarith [mul_le_mul_of_nonneg_right hM' hw.le]

theorem dot_le_norm3 (a b : V3) : dot a b ≤ norm3 a * norm3 b := by
  have h : dot a b ^ 2 ≤ (norm3 a * norm3 b) ^ 2 := by
    have := dot_cross_self a b
    have hc := dot_self_nonneg (cross a b)
    rw [mul_pow, norm3_sq, norm3_sq]
    linarith
  exact (le_abs_self _).trans (abs_le_of_sq_le_sq h (mul_nonneg (norm3_nonneg _) (norm3_nonneg _)))

theorem hasDerivAt_dot {g : ℝ → V3} {v : V3} {t : ℝ} (u : V3) (h : HasDerivAt g v t) :
    HasDerivAt (fun s => dot (g s) u) (dot v u) t := by
  rw [hasDerivAt_pi] at h
  simp only [dot]
  exact (((h 0).mul_const _).add ((h 1).mul_const _)).add ((h 2).mul_const _)

/-- The cubic with the given end points and end velocities. -/
noncomputable def hermitePoly (p0 p1 v0 v1 : V3) (t : ℝ) : V3 :=
  (1 - t) ^ 3 • p0 + (3 * t * (1 - t) ^ 2) • (p0 + (1 / 3 : ℝ) • v0) +
    (3 * t ^ 2 * (1 - t)) • (p1 - (1 / 3 : ℝ) • v1) + t ^ 3 • p1

theorem hermite_vector {g g1 g2 g3 g4 : ℝ → V3} {M : ℝ} (hg : Spec.Smooth4 g g1 g2 g3 g4 M) {t : ℝ} (t0 : 0 ≤ t)
    (t1 : t ≤ 1) : norm3 (g t - hermitePoly (g 0) (g 1) (g1 0) (g1 1) t) ≤ M * (t ^ 2 * (1 - t) ^ 2) / 24 := by
  obtain ⟨u, hu⟩ : ∃ u, u = g t - hermitePoly (g 0) (g 1) (g1 0) (g1 1) t := ⟨_, rfl⟩
  obtain ⟨A, hA⟩ : ∃ A, A = dot (g 0) u := ⟨_, rfl⟩
  obtain ⟨E, hE⟩ : ∃ E, E = dot (g 1) u := ⟨_, rfl⟩
  obtain ⟨B, hB⟩ : ∃ B, B = dot (g1 0) u := ⟨_, rfl⟩
  obtain ⟨F, hF⟩ : ∃ F, F = dot (g1 1) u := ⟨_, rfl⟩
  have hC : ∀ c0 c1 c2 c3 s : ℝ, HasDerivAt (fun s => c0 + c1 * s + c2 * s ^ 2 + c3 * s ^ 3)
      (c1 + 2 * c2 * s + 3 * c3 * s ^ 2 + 0 * s ^ 3) s := fun c0 c1 c2 c3 s => by
    refine ((((hasDerivAt_const s c0).add ((hasDerivAt_id s).const_mul c1)).add ((hasDerivAt_pow 2 s).const_mul c2)).add
      ((hasDerivAt_pow 3 s).const_mul c3)).congr_deriv ?_
    push_cast; ring
  obtain ⟨C, hCe⟩ : ∃ C, C = 3 * (E - A) - 2 * B - F := ⟨_, rfl⟩
  obtain ⟨D, hD⟩ : ∃ D, D = 2 * (A - E) + B + F := ⟨_, rfl⟩
  have key := hermite_scalar (M := M * norm3 u)
    (h := fun s => dot (g s) u - (A + B * s + C * s ^ 2 + D * s ^ 3))
    (h1 := fun s => dot (g1 s) u - (B + 2 * C * s + 3 * D * s ^ 2 + 0 * s ^ 3))
    (h2 := fun s => dot (g2 s) u - (2 * C + 2 * (3 * D) * s + 3 * 0 * s ^ 2 + 0 * s ^ 3))
    (h3 := fun s => dot (g3 s) u - (2 * (3 * D) + 2 * (3 * 0) * s + 3 * 0 * s ^ 2 + 0 * s ^ 3))
    (h4 := fun s => dot (g4 s) u - (2 * (3 * 0) + 2 * (3 * 0) * s + 3 * 0 * s ^ 2 + 0 * s ^ 3))
    (fun s a b => (hasDerivAt_dot u (hg.d1 s a b)).sub (hC A B C D s))
    (fun s a b => (hasDerivAt_dot u (hg.d2 s a b)).sub (hC _ _ _ _ s))
    (fun s a b => (hasDerivAt_dot u (hg.d3 s a b)).sub (hC _ _ _ _ s))
    (fun s a b => (hasDerivAt_dot u (hg.d4 s a b)).sub (hC _ _ _ _ s))
    (fun s a b => ?_) (by rw [hA]; ring) (by rw [← hE, hCe, hD]; ring)
    (by rw [hB]; ring) (by rw [← hF, hCe, hD]; ring) t0 t1
  · have e : dot (g t) u - (A + B * t + C * t ^ 2 + D * t ^ 3) =
        norm3 u ^ 2 := by
      rw [norm3_sq]
      conv_rhs => rw [show dot u u = dot (g t - hermitePoly (g 0) (g 1) (g1 0) (g1 1) t) u by rw [← hu]]
      simp only [hermitePoly, dot_sub_left, dot_add_left, dot_smul_left, ← hA, ← hB, ← hE, ← hF, hCe, hD]
      ring
    rw [e, abs_of_nonneg (sq_nonneg _)] at key
    rw [← hu]
    rcases eq_or_lt_of_le (norm3_nonneg u) with h | h
    · rw [← h]
      have hM : 0 ≤ M := (norm3_nonneg _).trans (hg.bound t t0 t1)
      positivity
    · nlinarith
  · rw [abs_le]
    have h1 := dot_le_norm3 (g4 s) u
    have h2 := dot_le_norm3 (-g4 s) u
    rw [norm3_neg, dot_neg_left] at h2
    have := mul_le_mul_of_nonneg_right (hg.bound s a b) (norm3_nonneg u)
    constructor <;> linarith

theorem hermitePoly_perturb (p0 p1 v0 v1 w0 w1 : V3) (t : ℝ) : hermitePoly p0 p1 v0 v1 t - hermitePoly p0 p1 w0 w1 t =
    (t * (1 - t) ^ 2) • (v0 - w0) - (t ^ 2 * (1 - t)) • (v1 - w1) := by
  simp only [hermitePoly]
  module

end Verif
