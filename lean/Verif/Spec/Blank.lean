import Verif.Base.Vec

/-! # What the blank of a bevel gear should be

The apex of the cones is at height `a` on the z axis; `σ = 1` if it is above the gear, `σ = -1` if below. -/

namespace Verif.Spec

/-- Distance from the apex. -/
noncomputable def apexDist (a : ℝ) (p : V3) : ℝ := √(p 0 ^ 2 + p 1 ^ 2 + (p 2 - a) ^ 2)

/-- How far a point is away from the apex along the axis, towards the gear. -/
def apexDepth (σ a : ℝ) (p : V3) : ℝ := σ * (a - p 2)

/-- Seen from the apex the point is at most `θ` away from the axis, `c = cos θ`. -/
def InCone (σ a c : ℝ) (p : V3) : Prop := c * apexDist a p ≤ apexDepth σ a p

/-- Inside the cone of the hub the blank lies between two planes, outside between the spheres about the apex. -/
def hubBlank (σ a c R0 R1 : ℝ) : Set V3 :=
  {p | (InCone σ a c p ∧ R1 * c ≤ apexDepth σ a p ∧ apexDepth σ a p ≤ R0 * c) ∨
    (¬InCone σ a c p ∧ R1 ≤ apexDist a p ∧ apexDist a p ≤ R0)}

/-- The part of the spherical shell within the cone of the outside ring. -/
def ringBlank (σ a c Rmin Rmax : ℝ) : Set V3 := {p | InCone σ a c p ∧ Rmin ≤ apexDist a p ∧ apexDist a p ≤ Rmax}

end Verif.Spec
