import Verif.Spec.Curve

/-! # Specification: two curves with the same path -/

namespace Verif.Spec

open Set

/-- `e` runs through the points of `f` in the same order, perhaps at another speed. Both have a value everywhere. -/
def SamePath (e f : ℝ → Option V3) : Prop :=
  ∃ ψ, Clock ψ ∧ ∀ s ∈ Icc (0 : ℝ) 1, e s = f (ψ s) ∧ (e s).isSome

end Verif.Spec
