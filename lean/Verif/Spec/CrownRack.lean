import Verif.Base.Vec

/-! # Angles on the sphere of a conical gear -/

namespace Verif.Spec

/-- Height of a point over the plane z = 0, seen from the origin. -/
noncomputable def elevation (p : V3) : ℝ := Real.arcsin (p 2 / norm3 p)

/-- Angle between the axis of a gear and the line from its apex at height `a` on the axis to a point. `σ = 1`: the apex
is above the gear. -/
noncomputable def coneAngleOf (σ a : ℝ) (p : V3) : ℝ :=
  Real.arccos (σ * (a - p 2) / norm3 (p - ![0, 0, a]))

end Verif.Spec
