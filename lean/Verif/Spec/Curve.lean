import Verif.Base.Vec
import Mathlib.Topology.ContinuousOn
import Mathlib.Topology.Order.OrderClosed

/-! # Specification notions for curves and chains -/

namespace Verif.Spec

open Set

/-- `e` is a curve: it has a value everywhere on [0, 1] and the value moves continuously. -/
def ContinuousCurve (e : ℝ → Option V3) : Prop :=
  ∃ g : ℝ → V3, ContinuousOn g (Icc 0 1) ∧ ∀ s, 0 ≤ s → s ≤ 1 → e s = some (g s)

/-- A curve that ends where it starts. -/
def ClosedCurve (e : ℝ → Option V3) : Prop := ContinuousCurve e ∧ ∃ p, e 0 = some p ∧ e 1 = some p

/-- A change of speed: a strictly increasing map of [0, 1] onto itself. -/
def Clock (ψ : ℝ → ℝ) : Prop := StrictMonoOn ψ (Icc 0 1) ∧ ψ '' Icc 0 1 = Icc 0 1

/-- `e` runs through the points of `f` in the same order, at its own speed. -/
def Runs (e : ℝ → Option V3) (f : ℝ → V3) : Prop :=
  ∃ ψ, Clock ψ ∧ ∀ s ∈ Icc (0 : ℝ) 1, e s = some (f (ψ s))

/-- The path meets itself at most in its two ends. -/
def Simple (f : ℝ → V3) : Prop :=
  ∀ x ∈ Icc (0 : ℝ) 1, ∀ y ∈ Icc (0 : ℝ) 1, x < y → ¬(x = 0 ∧ y = 1) → f x ≠ f y

/-- The points of a curve. -/
def trace (e : ℝ → Option V3) : Set V3 := {p | ∃ s ∈ Icc (0 : ℝ) 1, e s = some p}

end Verif.Spec
