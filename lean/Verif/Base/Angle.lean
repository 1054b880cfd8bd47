import Verif.Base.Vec

/-! # Facts about `arctan2` -/

namespace Verif
open Real

theorem arctan2_mem (y x : ℝ) : -π < arctan2 y x ∧ arctan2 y x ≤ π := Complex.arg_mem_Ioc _

theorem norm_mk (x y : ℝ) : ‖(⟨x, y⟩ : ℂ)‖ = √(x ^ 2 + y ^ 2) := by
  rw [Complex.norm_def, Complex.normSq_mk]; congr 1; ring

theorem cos_arctan2 {x y : ℝ} (h : x ^ 2 + y ^ 2 ≠ 0) : cos (arctan2 y x) = x / √(x ^ 2 + y ^ 2) := by
  have hz : (⟨x, y⟩ : ℂ) ≠ 0 := by
    intro e
    have h1 := congrArg Complex.re e
    have h2 := congrArg Complex.im e
    simp at h1 h2
    apply h; rw [h1, h2]; ring
  rw [arctan2, Complex.cos_arg hz, norm_mk]

theorem sin_arctan2 (x y : ℝ) : sin (arctan2 y x) = y / √(x ^ 2 + y ^ 2) := by
  rw [arctan2, Complex.sin_arg, norm_mk]

/-- `(x, y)` has polar angle `arctan2 y x`. Holds at the origin too. -/
theorem polar_cos (x y : ℝ) : √(x ^ 2 + y ^ 2) * cos (arctan2 y x) = x := by
  by_cases h : x ^ 2 + y ^ 2 = 0
  · have hx : x = 0 := by nlinarith [sq_nonneg x, sq_nonneg y]
    rw [h, hx]; simp
  · have : √(x ^ 2 + y ^ 2) ≠ 0 := by
      intro e; rw [Real.sqrt_eq_zero (by positivity)] at e; exact h e
    rw [cos_arctan2 h]; field_simp

theorem polar_sin (x y : ℝ) : √(x ^ 2 + y ^ 2) * sin (arctan2 y x) = y := by
  by_cases h : x ^ 2 + y ^ 2 = 0
  · have hy : y = 0 := by nlinarith [sq_nonneg x, sq_nonneg y]
    rw [h, hy]; simp
  · have : √(x ^ 2 + y ^ 2) ≠ 0 := by
      intro e; rw [Real.sqrt_eq_zero (by positivity)] at e; exact h e
    rw [sin_arctan2]; field_simp

/-- The angle of a point given in polar form. -/
theorem arctan2_polar {r θ : ℝ} (hr : 0 < r) (h1 : -π < θ) (h2 : θ ≤ π) :
    arctan2 (r * sin θ) (r * cos θ) = θ := by
  have := Complex.arg_mul_cos_add_sin_mul_I hr (θ := θ) ⟨h1, h2⟩
  have e : (⟨r * cos θ, r * sin θ⟩ : ℂ) = r * (Complex.cos θ + Complex.sin θ * Complex.I) := by
    apply Complex.ext <;> simp [Complex.cos_ofReal_re, Complex.sin_ofReal_re]
  rw [arctan2, e, this]

theorem arctan2_nonneg {y x : ℝ} (h : 0 ≤ y) : 0 ≤ arctan2 y x := Complex.arg_nonneg_iff.2 h

/-- Polar angle up to whole turns. -/
theorem arctan2_polar_mod {r : ℝ} (hr : 0 < r) (θ : ℝ) :
    ∃ k : ℤ, arctan2 (r * sin θ) (r * cos θ) = θ + k * (2 * π) := by
  have hpi := Real.two_pi_pos
  refine ⟨-toIocDiv hpi (-π) θ, ?_⟩
  have hm := toIocMod_mem_Ioc hpi (-π) θ
  have e : toIocMod hpi (-π) θ = θ - toIocDiv hpi (-π) θ * (2 * π) := by
    rw [toIocMod, zsmul_eq_mul]
  have h := arctan2_polar hr (θ := toIocMod hpi (-π) θ) hm.1 (by have := hm.2; linarith)
  rw [e] at h
  have hc : cos (θ - toIocDiv hpi (-π) θ * (2 * π)) = cos θ := Real.cos_sub_int_mul_two_pi _ _
  have hs : sin (θ - toIocDiv hpi (-π) θ * (2 * π)) = sin θ := Real.sin_sub_int_mul_two_pi _ _
  rw [hc, hs] at h
  rw [h]; push_cast; ring

end Verif
