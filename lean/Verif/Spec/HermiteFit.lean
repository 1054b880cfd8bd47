import Verif.Base.Vec
import Mathlib.Analysis.Calculus.Deriv.Basic

/-! # Specification of how close a fitted curve stays to its original -/

namespace Verif.Spec

/-- A curve in space with four derivatives on the unit interval, the fourth bounded by `M`. -/
structure Smooth4 (g g1 g2 g3 g4 : ℝ → V3) (M : ℝ) : Prop where
  d1 : ∀ t, 0 ≤ t → t ≤ 1 → HasDerivAt g (g1 t) t
  d2 : ∀ t, 0 ≤ t → t ≤ 1 → HasDerivAt g1 (g2 t) t
  d3 : ∀ t, 0 ≤ t → t ≤ 1 → HasDerivAt g2 (g3 t) t
  d4 : ∀ t, 0 ≤ t → t ≤ 1 → HasDerivAt g3 (g4 t) t
  bound : ∀ t, 0 ≤ t → t ≤ 1 → norm3 (g4 t) ≤ M

/-- An optimiser that never ends on a worse vector than the one it was started on: wherever the cost is defined at the start
it is defined at the result and not larger. -/
def Descends (opt : ((ℕ → ℝ) → Option (ℝ × (ℕ → ℝ))) → (ℕ → ℝ) → ℕ → ℝ) : Prop :=
  ∀ (cost : (ℕ → ℝ) → Option (ℝ × (ℕ → ℝ))) (x : ℕ → ℝ) (v : ℝ) (G : ℕ → ℝ), cost x = some (v, G) →
    ∃ v' G', cost (opt cost x) = some (v', G') ∧ v' ≤ v

/-- A root finder that finds a root whenever there is one. -/
def FindsRoots (root : (V3 → V3) → V3 → V3) : Prop :=
  ∀ (f : V3 → V3) (x : V3), (∃ y, f y = 0) → f (root f x) = 0

/-- Error of the cubic through the ends and end velocities of a curve whose fourth derivative is at most `M`, when the end
velocities are known up to `e0` and `e1`. -/
noncomputable def hermiteError (M e0 e1 t : ℝ) : ℝ :=
  M * (t ^ 2 * (1 - t) ^ 2) / 24 + t * (1 - t) ^ 2 * e0 + t ^ 2 * (1 - t) * e1

/-- Its largest value over the unit interval is at most this number. -/
noncomputable def hermiteMax (M e0 e1 : ℝ) : ℝ := M / 384 + 4 / 27 * (e0 + e1)

end Verif.Spec
