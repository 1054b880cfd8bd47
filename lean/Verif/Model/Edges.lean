import Verif.Model.Arc
import Mathlib.Algebra.Order.ToIntervalMod

/-!
# Model of the CAD edges made from lines and arcs

`/repo/src/gggears/gggears_build123d.py:549-582` and the angles stored by `ArcCurve`
(`/repo/src/gggears/curve.py:1109-1213`). An edge is its set of points. What build123d makes of the arguments is
trusted: `bdIntrinsicXYZ`, `makeCircle`, `makeLine`.
-/

namespace Verif

open Real Set

/-- `ArcCurve`: the curve and the stored angles `_yaw`, `_pitch`, `_roll`, curve.py:1112-1126. -/
structure ArcObj where
  curve : Curve
  yaw : ℝ
  pitch : ℝ
  roll : ℝ

/-- `ArcCurve.__init__`, curve.py:1112-1128. -/
noncomputable def ArcObj.make (radius angle : ℝ) (center : V3) (yaw pitch roll : ℝ) (active : Bool) : ArcObj :=
  ⟨arcInit radius angle center yaw pitch roll active, yaw, pitch, roll⟩

/-- `from_2_point_center`, curve.py:1215-1234, with the stored angles. -/
noncomputable def ArcObj.from2PointCenter (asEuler : M3 → ℝ × ℝ × ℝ) (p0 p1 center : V3) : Option ArcObj :=
  match normalizeVector (p0 - center), normalizeVector (cross (p0 - center) (p1 - center)) with
  | some x, some z =>
    let y := cross z x
    let e := asEuler (colMat x y z)
    some (ArcObj.make (norm3 (p0 - center)) (angleBetween (p0 - center) (p1 - center)) center e.1 e.2.1 e.2.2 true)
  | _, _ => none

/-- Calls on an arc: `reverse`, `set_start_on`, `set_end_on` (curve.py:200-204, 258-266) and the setter `rotmat`
(curve.py:1208-1213). -/
inductive ArcOp
  | reverse
  | setStart (s : ℝ)
  | setEnd (s : ℝ)
  | setRotmat (R : M3)

/-- One call. The setter `rotmat` neither changes the range nor the length. -/
noncomputable def ArcOp.run (asEuler : M3 → ℝ × ℝ × ℝ) (a : ArcObj) : ArcOp → Option ArcObj
  | .reverse => some { a with curve := a.curve.reverse }
  | .setStart s => (a.curve.setStartOn s).map fun c => { a with curve := c }
  | .setEnd s => (a.curve.setEndOn s).map fun c => { a with curve := c }
  | .setRotmat R => match a.curve.kind with
    | .arc r ang m _ =>
      let e := asEuler R
      some ⟨{ a.curve with kind := .arc r ang m R }, e.1, e.2.1, e.2.2⟩
    | _ => none

/-- A history of calls. -/
noncomputable def ArcObj.run (asEuler : M3 → ℝ × ℝ × ℝ) (a : ArcObj) : List ArcOp → Option ArcObj
  | [] => some a
  | op :: ops => (op.run asEuler a).bind fun a' => a'.run asEuler ops

/-- Calls on a line: `reverse`, `set_start_on`, `set_end_on`, curve.py:200-204, 258-266. -/
inductive LineOp
  | reverse
  | setStart (s : ℝ)
  | setEnd (s : ℝ)

/-- A history of calls on a line. -/
noncomputable def lineRun (c : Curve) : List LineOp → Option Curve
  | [] => some c
  | .reverse :: ops => lineRun c.reverse ops
  | .setStart s :: ops => (c.setStartOn s).bind fun c' => lineRun c' ops
  | .setEnd s :: ops => (c.setEndOn s).bind fun c' => lineRun c' ops

/-- The rigid motion of `bd.Location(position, [d0, d1, d2], Intrinsic.XYZ)`, angles in degrees: the rotations about
the own axes x, then y, then z. -/
noncomputable def bdIntrinsicXYZ (position : V3) (d0 d1 d2 : ℝ) (p : V3) : V3 :=
  app (Rx (d0 * π / 180) * Ry (d1 * π / 180) * Rz (d2 * π / 180)) p + position

/-- The points of `bd.Edge.make_circle(radius, plane, start_angle, end_angle)`: counter-clockwise from the start angle
to the end angle, which the kernel takes modulo a full turn; equal angles give the full circle. `none`: the kernel
raises for a radius that is not positive. -/
noncomputable def makeCircle (radius : ℝ) (plane : V3 → V3) (start stop : ℝ) : Option (Set V3) :=
  if radius ≤ 0 then none else some {p | ∃ θ, start ≤ θ ∧ θ ≤ start + toIocMod (by norm_num : (0 : ℝ) < 360) 0 (stop - start) ∧
    p = plane ![radius * cos (θ * π / 180), radius * sin (θ * π / 180), 0]}

/-- The points of `bd.Edge.make_line(p, q)`. -/
def makeLine (p q : V3) : Set V3 := {x | ∃ u : ℝ, 0 ≤ u ∧ u ≤ 1 ∧ x = (1 - u) • p + u • q}

/-- The second half of `arc_to_b123d`, gggears_build123d.py:557-576. -/
noncomputable def ArcObj.circleEdge (a : ArcObj) : Option (Set V3) :=
  match a.curve.kind with
  | .arc r angle center _ =>
    let plane := bdIntrinsicXYZ center (a.roll * 180 / π) (a.pitch * 180 / π) (a.yaw * 180 / π)
    if angle < 0 then makeCircle r plane (angle * 180 / π) 0
    else makeCircle r plane 0 (angle * 180 / π)
  | _ => none

/-- `arc_to_b123d`, gggears_build123d.py:549-576. `none`: NaN or an exception. -/
noncomputable def ArcObj.toEdge (asEuler : M3 → ℝ × ℝ × ℝ) (a : ArcObj) : Option (Set V3) :=
  if (a.curve.t0, a.curve.t1) ≠ (0, 1) then
    match a.curve.kind, a.curve.eval 0, a.curve.eval 1 with
    | .arc _ _ center _, some p0, some p1 =>
      (ArcObj.from2PointCenter asEuler p0 p1 center).bind ArcObj.circleEdge
    | _, _, _ => none
  else a.circleEdge

/-- `line_to_b123d`, gggears_build123d.py:579-581: the edge between the attributes `p0` and `p1`. -/
def lineToEdge (c : Curve) : Option (Set V3) :=
  match c.kind with
  | .line p0 p1 => some (makeLine p0 p1)
  | _ => none

end Verif
