import Verif.Spec.Curve

/-! # Specification: a curve that is a piece of another one -/

namespace Verif.Spec

open Set

/-- `e` runs through the points of `f` between the parameters `a` and `b`, all of them, in the same order, each for one
parameter only, perhaps at another speed. -/
def Piece (e f : ℝ → Option V3) (a b : ℝ) : Prop :=
  ∃ φ : ℝ → ℝ, StrictMonoOn φ (Icc 0 1) ∧ φ '' Icc 0 1 = Icc a b ∧ ∀ s ∈ Icc (0 : ℝ) 1, e s = f (φ s)

end Verif.Spec
