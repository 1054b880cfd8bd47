import Verif.Model.Curve
import Verif.Model.Bezier
import Verif.Model.Transform

/-!
# Model of the arc constructors and of the transformed curves

`/repo/src/gggears/curve.py`, lines 1072-1315 and 1463-1527. `asEuler` stands for scipy's
`Rotation.from_matrix(R).as_euler("zyx")`; it returns `(yaw, pitch, roll)`.
-/

namespace Verif

open Real

/-- `np.transpose(np.array([x, y, z]))`: the matrix with the columns `x`, `y`, `z`. -/
def colMat (x y z : V3) : M3 := !![x 0, y 0, z 0; x 1, y 1, z 1; x 2, y 2, z 2]

/-- `ArcCurve.__init__` with `gen_rotmat`, curve.py:1109-1133. -/
noncomputable def arcInit (radius angle : ℝ) (center : V3) (yaw pitch roll : ℝ) (active : Bool) :
    Curve :=
  .make (.arc radius angle center (eulerZYX yaw pitch roll)) active 0 1

/-- `from_2_point_center`, curve.py:1215-1234. `none`: `normalize_vector` divides by zero. -/
noncomputable def arcFrom2PointCenter (asEuler : M3 → ℝ × ℝ × ℝ) (p0 p1 center : V3)
    (revolutions : ℤ) (active : Bool) : Option Curve :=
  let r := norm3 (p0 - center)
  match normalizeVector (p0 - center), normalizeVector (cross (p0 - center) (p1 - center)) with
  | some x, some z =>
    let y := cross z x
    let R := colMat x y z
    let e := asEuler R
    some (arcInit r (angleBetween (p0 - center) (p1 - center) + revolutions * π * 2) center
      e.1 e.2.1 e.2.2 active)
  | _, _ => none

/-- `np.sign`. -/
noncomputable def npSign (x : ℝ) : ℝ := if x < 0 then -1 else if x = 0 then 0 else 1

/-- `from_2_point_curvature`, curve.py:1236-1259. `none`: division by zero. -/
noncomputable def arcFrom2PointCurvature (asEuler : M3 → ℝ × ℝ × ℝ) (p0 p1 : V3) (curvature : ℝ)
    (axis : V3) (revolutions : ℤ) (active : Bool) : Option Curve :=
  if curvature = 0 then none
  else
    let r := 1 / curvature
    let dp := if p1 - p0 = 0 then UP else (norm3 (p1 - p0))⁻¹ • (p1 - p0)
    match normalizeVector (axis - dot axis dp • dp) with
    | none => none
    | some ax =>
      let r := if |r| < norm3 (p1 - p0) / 2 then norm3 (p1 - p0) / 2 * npSign r else r
      let h := √(r ^ 2 - (norm3 (p1 - p0) / 2) ^ 2) * npSign r
      let center := (1 / 2 : ℝ) • (p0 + p1) - h • cross dp ax
      arcFrom2PointCenter asEuler p0 p1 center revolutions active

/-- `from_point_center_angle`, curve.py:1261-1279. `none`: `normalize_vector` divides by zero. -/
noncomputable def arcFromPointCenterAngle (asEuler : M3 → ℝ × ℝ × ℝ) (p0 center : V3) (angle : ℝ)
    (axis : V3) (active : Bool) : Option Curve :=
  let r := norm3 (p0 - center)
  match normalizeVector (p0 - center) with
  | none => none
  | some x =>
    match normalizeVector (cross axis x) with
    | none => none
    | some y =>
      let z := cross x y
      let R := colMat x y z
      let e := asEuler R
      some (arcInit r angle center e.1 e.2.1 e.2.2 active)

/-- The first column chosen by `from_radius_center_angle`, curve.py:1291-1296: the direction the start
angle is counted from. -/
noncomputable def arcRefDir (axis : V3) : V3 :=
  let x := cross UP axis
  if norm3 x = 0 then OUT else (norm3 x)⁻¹ • x

/-- `from_radius_center_angle`, curve.py:1281-1306. -/
noncomputable def arcFromRadiusCenterAngle (asEuler : M3 → ℝ × ℝ × ℝ) (radius : ℝ) (center : V3)
    (angleStart angleEnd : ℝ) (axis : V3) (active : Bool) : Curve :=
  let z := axis
  let x := arcRefDir axis
  let y := cross z x
  let R := colMat x y z
  let e := asEuler R
  arcInit radius (angleEnd - angleStart) center angleStart e.2.1 e.2.2 active

/-- `LineCurve.transform`, curve.py:1100-1103: a new line over the transformed defining points. -/
noncomputable def lineTransform (p0 p1 : V3) (active : Bool) (f : V3 → V3) : Curve :=
  .make (.line (f p0) (f p1)) active 0 1

/-- `ArcCurve.transform`, curve.py:1308-1315, with `axis` from 1188-1190. -/
noncomputable def arcTransform (asEuler : M3 → ℝ × ℝ × ℝ) (c : Curve) (f : V3 → V3) : Option Curve :=
  match c.kind, c.eval 0 with
  | .arc _ angle center rotmat, some q0 =>
    let p0 := f q0
    let center0 := f center
    let center2 := f (center + app rotmat OUT)
    match normalizeVector (center2 - center0) with
    | none => none
    | some axis2 => arcFromPointCenterAngle asEuler p0 center0 angle axis2 c.active
  | _, _ => none

/-- `TransformedCurve.__init__`, curve.py:1467-1488: a plain `Curve` over the curve calls (default of 21
length samples). The target is any callable curve. -/
noncomputable def transformedCurve (f : V3 → V3) (target : ℝ → V3) (active : Bool) : Curve :=
  .make (.generic (fun t => f (target t)) 20) active 0 1

/-- `mirror_func`, curve.py:1498-1508, for one point; `n` is the normalised plane normal. -/
noncomputable def mirrorFunc (n center p : V3) : V3 :=
  let p2 := p - center
  let h := dot p2 n
  p2 - (2 * h) • n + center

/-- `MirroredCurve.__init__`, curve.py:1494-1510. -/
noncomputable def mirroredCurve (target : ℝ → V3) (active : Bool) (planeNormal center : V3) :
    Option Curve :=
  (normalizeVector planeNormal).map fun n => transformedCurve (mirrorFunc n center) target active

/-- `rotate_func`, curve.py:1521-1525; `axis` is the normalised axis. -/
noncomputable def rotateFunc (angle : ℝ) (axis center p : V3) : V3 :=
  let p2 := p - center
  app (fromRotvec (angle • axis)) p2 + center

/-- `RotatedCurve.__init__`, curve.py:1516-1527. -/
noncomputable def rotatedCurve (target : ℝ → V3) (active : Bool) (angle : ℝ) (axis center : V3) :
    Option Curve :=
  (normalizeVector axis).map fun n => transformedCurve (rotateFunc angle n center) target active

end Verif
