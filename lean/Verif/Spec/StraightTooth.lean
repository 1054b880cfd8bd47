import Verif.Base.Vec

/-! # Directions at the pitch point of a gear

The pitch point has the azimuth `φ`; the half angle of the pitch cone is `γ`. -/

namespace Verif.Spec

open Real

/-- From the apex to the pitch point. -/
noncomputable def dirRay (γ φ : ℝ) : V3 := ![sin γ * cos φ, sin γ * sin φ, -cos γ]

/-- Perpendicular to the pitch cone, from the root to the tip. -/
noncomputable def dirTip (γ φ : ℝ) : V3 := ![cos γ * cos φ, cos γ * sin φ, sin γ]

/-- Along the pitch circle. -/
noncomputable def dirRound (φ : ℝ) : V3 := ![-sin φ, cos φ, 0]

end Verif.Spec
