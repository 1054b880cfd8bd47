import Verif.Base.Vec
import Mathlib.Data.Set.Basic
import Mathlib.Order.Interval.Set.Defs

/-! # Specification of paths without jumps -/

namespace Verif.Spec

open Set

/-- The path has a value everywhere on [0, 1], and no jump larger than `δ`: near every position all points are within
`δ` and any given margin. -/
def NoJump (e : ℝ → Option V3) (δ : ℝ) : Prop :=
  ∀ s ∈ Icc (0 : ℝ) 1, ∃ p, e s = some p ∧ ∀ ε > 0, ∃ η > 0, ∀ s' ∈ Icc (0 : ℝ) 1, |s' - s| < η →
    ∃ p', e s' = some p' ∧ norm3 (p' - p) < δ + ε

/-- The path has a jump of at least `δ`: arbitrarily near one position there are points about `δ` or more away. -/
def Jump (e : ℝ → Option V3) (δ : ℝ) : Prop :=
  ∃ s ∈ Icc (0 : ℝ) 1, ∃ p, e s = some p ∧ ∀ ε > 0, ∀ η > 0, ∃ s' ∈ Icc (0 : ℝ) 1, |s' - s| < η ∧
    ∃ p', e s' = some p' ∧ δ - ε < norm3 (p' - p)

end Verif.Spec
