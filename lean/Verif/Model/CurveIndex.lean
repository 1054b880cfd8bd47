import Verif.Model.Curve
import Mathlib.Analysis.Complex.Basic

/-!
# Model of `curve_index`

`/repo/src/gggears/curve.py`, lines 1046-1069.
-/

namespace Verif

open Real

/-- The complex number a point of the plane is turned into, curve.py:1050 and 1053; the third coordinate is dropped. -/
def planar (p : V3) : ℂ := ⟨p 0, p 1⟩

open scoped Classical in
/-- `curve_index(curve, center, n_points)` for one centre, curve.py:1046-1055. The samples are `curve(k / n)` for `k < n`, `np.roll`
counts modulo `n`. `none`: a sample that is not defined, or one on the centre (NaN or infinity by division by zero). For an
array of centres (1057-1069) numpy does the same for each row. -/
noncomputable def curveIndex (f : ℝ → Option V3) (center : V3) (n : ℕ) : Option ℝ :=
  if ∀ k < n, ∃ p, f (k / n) = some p ∧ planar p ≠ planar center then
    let z : ℕ → ℂ := fun k => planar ((f (k / n)).getD 0)
    some (‖∑ k ∈ Finset.range n, (z ((k + 1) % n) - z ((k + (n - 1)) % n)) / 2 / (z k - planar center)‖ * 1 / (2 * π))
  else none

end Verif
