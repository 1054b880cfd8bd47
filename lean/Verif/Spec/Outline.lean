import Verif.Base.Vec
import Verif.Spec.Curve

/-!
# Specification: outlines that do not cross themselves
-/

namespace Verif.Spec

/-- Copies of the curve `C`, the `k`-th turned by `k` pitches about the axis, are put together to an outline of `n` teeth.
The outline is closed: every copy ends where the next one starts, the last one where the first one starts. It is simple: no
point is visited twice. The end of a copy counts as the start of the next one. -/
structure SimpleOutline (C : ℝ → Option V3) (pitch : ℝ) (n : ℕ) : Prop where
  cont : ContinuousCurve C
  joins : ∃ a b, C 0 = some a ∧ C 1 = some b ∧
    (∀ k : ℕ, app (Rz (k * pitch)) b = app (Rz ((k + 1 : ℕ) * pitch)) a) ∧ app (Rz (n * pitch)) a = a
  simple : ∀ j k : ℕ, j < n → k < n → ∀ s t, 0 ≤ s → s < 1 → 0 ≤ t → t < 1 → ∀ p q, C s = some p → C t = some q →
    app (Rz (j * pitch)) p = app (Rz (k * pitch)) q → j = k ∧ s = t

/-- The flank `T` runs outwards and stays on its side of the gap's middle (half a pitch before the middle of the tooth) and of
the tooth's middle (angle 0). It may start in the middle of the gap and end in the middle of the tooth. -/
structure OutwardFlank (T : ℝ → V3) (pitch : ℝ) : Prop where
  off : 0 < T 0 0 ^ 2 + T 0 1 ^ 2
  root : -(pitch / 2) ≤ arctan2 (T 0 1) (T 0 0)
  grows : StrictMonoOn (fun s => T s 0 ^ 2 + T s 1 ^ 2) (Set.Icc 0 1)
  gap : ∀ s, 0 < s → s ≤ 1 → -(pitch / 2) < arctan2 (T s 1) (T s 0)
  tooth : ∀ s, 0 ≤ s → s < 1 → arctan2 (T s 1) (T s 0) < 0
  tip : arctan2 (T 1 1) (T 1 0) ≤ 0

end Verif.Spec
