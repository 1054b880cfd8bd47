import Verif.Model.Transform

/-! # Specification vocabulary for meshing

Nothing here refers to the meshing functions. -/

namespace Verif

open Real

/-- The direction `v` is seen at polar angle `δ` in the local frame of a gear with orientation
`M`: its components along the local x and y axes (columns 0 and 1 of `M`) are a positive multiple
of `(cos δ, sin δ)`. -/
def SeenAt (M : M3) (v : V3) (δ : ℝ) : Prop :=
  ∃ ρ : ℝ, 0 < ρ ∧ v 0 * M 0 0 + v 1 * M 1 0 + v 2 * M 2 0 = ρ * cos δ ∧
    v 0 * M 0 1 + v 1 * M 1 1 + v 2 * M 2 1 = ρ * sin δ

/-- `a` and `b` differ by a whole number. -/
def CongrOne (a b : ℝ) : Prop := ∃ n : ℤ, a = b + n

/-- Vector of the x-y plane at polar angle `a`. -/
noncomputable def polarVec (a : ℝ) : V3 := ![cos a, sin a, 0]

/-- The line through `p` and `q` is tangent to the circle around `c` with radius `r` in the plane
with normal `n`: both points lie in the plane, and the foot of the perpendicular from the centre
has distance `r`. -/
def TangentTo (p q c : V3) (r : ℝ) (n : V3) : Prop :=
  p ≠ q ∧ dot (p - c) n = 0 ∧ dot (q - c) n = 0 ∧
    ∃ s : ℝ, dot (p + s • (q - p) - c) (q - p) = 0 ∧ norm3 (p + s • (q - p) - c) = r

end Verif
