import Verif.Base.Vec
import Mathlib.Data.Multiset.AddSub

/-! # Specification: closed shells -/

namespace Verif.Spec

/-- A border curve of a face: a rational Bezier curve given by its control points and weights, or a circle about the `z`
axis with a radius at a height. -/
inductive Border
  | bezier (points : List V3) (weights : List ℝ)
  | circle (r z : ℝ)

/-- The faces, each given by the list of its border curves, close up: the borders fall into pairs of equal curves, so
every border of a face is shared with another one and none is left over. -/
def ClosedShell (faces : List (List Border)) : Prop := ∃ half : Multiset Border, (faces.flatten : Multiset Border) = half + half

end Verif.Spec
