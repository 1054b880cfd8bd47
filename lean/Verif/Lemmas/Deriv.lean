import Verif.Base.Vec
import Mathlib.Analysis.SpecialFunctions.Trigonometric.Deriv
import Mathlib.Analysis.Calculus.Deriv.Prod
import Mathlib.Analysis.Calculus.Deriv.Mul
import Mathlib.Analysis.Calculus.Deriv.Add

/-! # Derivatives of curves in `V3` -/

namespace Verif

open Real

theorem hasDerivAt_v3 {f : ℝ → V3} {v : V3} {t : ℝ} (h0 : HasDerivAt (fun s => f s 0) (v 0) t)
    (h1 : HasDerivAt (fun s => f s 1) (v 1) t) (h2 : HasDerivAt (fun s => f s 2) (v 2) t) :
    HasDerivAt f v t := by
  rw [hasDerivAt_pi]
  intro i
  fin_cases i
  · exact h0
  · exact h1
  · exact h2

/-- Derivative of `cos (k s + c)`. -/
theorem hasDerivAt_cos_lin (k c t : ℝ) :
    HasDerivAt (fun s => cos (k * s + c)) (-(k * sin (k * t + c))) t := by
  have h : HasDerivAt (fun s => k * s + c) k t := by
    simpa using ((hasDerivAt_id t).const_mul k).add_const c
  exact h.cos.congr_deriv (by ring)

theorem hasDerivAt_sin_lin (k c t : ℝ) :
    HasDerivAt (fun s => sin (k * s + c)) (k * cos (k * t + c)) t := by
  have h : HasDerivAt (fun s => k * s + c) k t := by
    simpa using ((hasDerivAt_id t).const_mul k).add_const c
  exact h.sin.congr_deriv (by ring)

end Verif
