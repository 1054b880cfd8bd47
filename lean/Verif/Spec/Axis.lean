import Verif.Base.Vec
import Mathlib.Analysis.SpecialFunctions.Trigonometric.Inverse

/-! # Specification: distance from a line and angle at the apex of a cone -/

namespace Verif.Spec

/-- The distance of the point `q` from the line through `c` along the unit vector `n`. -/
noncomputable def distToLine (c n q : V3) : ℝ := norm3 ((q - c) - dot (q - c) n • n)

/-- The angle at `apex` between the unit vector `n` and the point `q`. -/
noncomputable def angleAt (apex n q : V3) : ℝ := Real.arccos (dot (q - apex) n / norm3 (q - apex))

end Verif.Spec
