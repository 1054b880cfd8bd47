import Mathlib.Analysis.SpecialFunctions.Complex.Log

/-!
# Specification: number of turns around a point
-/

namespace Verif.Spec

open Real Set

/-- The curve `γ` over `[0, 1]` turns `m` times around `c` (counter-clockwise if `m` is positive): its direction seen from `c` has a
continuous angle that changes by `2 π m`. -/
def TurnsAround (γ : ℝ → ℂ) (c : ℂ) (m : ℤ) : Prop :=
  ∃ ρ θ : ℝ → ℝ, ContinuousOn θ (Icc 0 1) ∧
    (∀ t ∈ Icc (0 : ℝ) 1, 0 < ρ t ∧ γ t = c + ρ t * Complex.exp (θ t * Complex.I)) ∧ θ 1 - θ 0 = 2 * π * m

end Verif.Spec
