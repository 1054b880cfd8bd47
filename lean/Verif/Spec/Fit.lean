import Verif.Spec.Bezier

/-! # Specification of the fitting costs -/

namespace Verif.Spec

/-- Half the sum of the squared distances between `N` targets in dimension `D` and the points of the
rational curve with `n` weighted control points at the parameters `t`. -/
noncomputable def fitCost (D n N : ℕ) (T : ℕ → Fin D → ℝ) (P : ℕ → Fin D → ℝ) (w t : ℕ → ℝ) : ℝ :=
  (∑ i : Fin N, ∑ j : Fin D,
    (T i j - rationalCurve (List.ofFn fun k : Fin n => (w k, P k)) (t i) j) ^ 2) / 2

/-- Sum of the squared distances between the inner rows of `T` and the points of the Bezier curve with `m`
control rows at the parameters `t`. -/
noncomputable def surfCost (q m o : ℕ) (T : ℕ → Fin q → ℝ) (P : ℕ → Fin q → ℝ) (t : ℕ → ℝ) : ℝ :=
  ∑ i : Fin (o - 2), ∑ j : Fin q,
    (T (i + 1) j - bezierCurve (List.ofFn fun k : Fin m => P k) (t i) j) ^ 2

end Verif.Spec
