import Mathlib.RingTheory.Polynomial.Bernstein
import Mathlib.Data.Real.Basic

/-!
# Specification of Bezier and rational Bezier curves

Textbook definitions through Mathlib's Bernstein polynomials, independent of the model.
-/

namespace Verif.Spec

variable {E : Type*} [AddCommGroup E] [Module ℝ E]

/-- Bernstein basis value `B_{k,n}(t)`. -/
noncomputable def bern (n k : ℕ) (t : ℝ) : ℝ := (bernsteinPolynomial ℝ n k).eval t

/-- The Bezier curve with the given control points. -/
noncomputable def bezierCurve (pts : List E) (t : ℝ) : E :=
  ∑ k : Fin pts.length, bern (pts.length - 1) k t • pts[k]

/-- Weight function of a rational Bezier curve; control data are (weight, point) pairs. -/
noncomputable def weight (cp : List (ℝ × E)) (t : ℝ) : ℝ :=
  ∑ k : Fin cp.length, bern (cp.length - 1) k t * cp[k].1

/-- The rational Bezier curve with the given weighted control points. -/
noncomputable def rationalCurve (cp : List (ℝ × E)) (t : ℝ) : E :=
  (weight cp t)⁻¹ • ∑ k : Fin cp.length, (bern (cp.length - 1) k t * cp[k].1) • cp[k].2

/-- The rational tensor product surface of a net of weighted control points with `n` rows
and `m` columns. -/
noncomputable def rationalSurface (n m : ℕ) (w : Fin n → Fin m → ℝ) (p : Fin n → Fin m → E)
    (u v : ℝ) : E :=
  (∑ i : Fin n, ∑ j : Fin m, bern (n - 1) i u * bern (m - 1) j v * w i j)⁻¹ •
    ∑ i : Fin n, ∑ j : Fin m, (bern (n - 1) i u * bern (m - 1) j v * w i j) • p i j

end Verif.Spec
