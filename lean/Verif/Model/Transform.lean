import Verif.Base.Vec
import Mathlib.Data.Matrix.Block

/-!
# Model of the transform classes

`/repo/src/gggears/gggears_base_classes.py:47-254` and
`/repo/src/gggears/gggears_build123d.py:462-466, 507-516`.
-/

namespace Verif

open Matrix

/-- `TransformData`, gggears_base_classes.py:47-64. `Transform` (125-152) has the same fields
and the same method bodies, so one record models both. -/
@[ext] structure TransformData where
  center : V3
  orientation : M3
  scale : ℝ

/-- Default field values, gggears_base_classes.py:62-64. -/
def TransformData.default : TransformData := ⟨ORIGIN, 1, 1⟩

/-- `apply_transform(points, data)` for one point, gggears_base_classes.py:105-122:
`points @ data.orientation.transpose() * data.scale + data.center`. -/
def applyTransform (p : V3) (d : TransformData) : V3 :=
  d.scale • (p ᵥ* d.orientationᵀ) + d.center

/-- `TransformData.__mul__` / `Transform.__mul__` with a transform on the right,
gggears_base_classes.py:83-89 and 133-139. -/
def TransformData.mul (self other : TransformData) : TransformData where
  center := self.center + self.scale • (self.orientation *ᵥ other.center)
  orientation := self.orientation * other.orientation
  scale := self.scale * other.scale

/-- `TransformData.invert` / `Transform.invert`, gggears_base_classes.py:95-102 and 145-152.
`-inv_orient @ self.center * self.scale` parses as `((-inv_orient) @ center) * scale`. -/
noncomputable def TransformData.invert (self : TransformData) : TransformData :=
  let invOrient := self.orientationᵀ
  { center := self.scale • ((-invOrient) *ᵥ self.center)
    orientation := invOrient
    scale := 1 / self.scale }

/-- `TransformData.affine_matrix`, gggears_base_classes.py:78-81: `np.block` of
`[[orientation * scale, center], [0, 0, 0, 1]]`. Index `inl i` is row/column `i < 3`,
`inr ()` is row/column 3. -/
def TransformData.affineMatrix (self : TransformData) : Matrix (Fin 3 ⊕ Unit) (Fin 3 ⊕ Unit) ℝ :=
  Matrix.fromBlocks (self.scale • self.orientation) (Matrix.of fun i _ => self.center i) 0 1

/-- `GearTransformData`, gggears_base_classes.py:155-176; also `GearTransform` (221). -/
@[ext] structure GearTransform extends TransformData where
  angle : ℝ

/-- Default field values, gggears_base_classes.py:62-64, 176. -/
def GearTransform.default : GearTransform := ⟨TransformData.default, 0⟩

/-- `apply_gear_transform(points, data)` for one point, gggears_base_classes.py:212-218:
`points @ rot_z.transpose() @ data.orientation.transpose() * data.scale + data.center`. -/
noncomputable def applyGearTransform (p : V3) (d : GearTransform) : V3 :=
  d.scale • ((p ᵥ* (Rz d.angle)ᵀ) ᵥ* d.orientationᵀ) + d.center

/-- `GearTransformData.__mul__`, gggears_base_classes.py:188-194. -/
def GearTransform.dataMul (self other : GearTransform) : GearTransform where
  center := self.center + self.scale • (self.orientation *ᵥ other.center)
  orientation := self.orientation * other.orientation
  scale := self.scale * other.scale
  angle := self.angle + other.angle

/-- `GearTransformData.invert`, gggears_base_classes.py:200-209. -/
noncomputable def GearTransform.dataInvert (self : GearTransform) : GearTransform :=
  let invOrient := self.orientationᵀ
  let invAngle := Rz (-self.angle)
  { center := self.scale • (((-invOrient) * invAngle) *ᵥ self.center)
    orientation := invOrient
    scale := 1 / self.scale
    angle := -self.angle }

/-- `GearTransform.__mul__`, gggears_base_classes.py:228-239. -/
noncomputable def GearTransform.mul (self other : GearTransform) : GearTransform where
  center := self.center + self.scale • ((self.orientation * Rz self.angle) *ᵥ other.center)
  orientation := self.orientation * other.orientation
  scale := self.scale * other.scale
  angle := self.angle + other.angle

/-- `GearTransform.invert`, gggears_base_classes.py:245-254:
`-self.center @ inv_orient @ inv_angle / self.scale`. -/
noncomputable def GearTransform.invert (self : GearTransform) : GearTransform :=
  let invOrient := self.orientation
  let invAngle := Rz self.angle
  { center := (1 / self.scale) • (((-self.center) ᵥ* invOrient) ᵥ* invAngle)
    orientation := invOrientᵀ
    scale := 1 / self.scale
    angle := -self.angle }

/-- `GearTransformData.affine_matrix`, gggears_base_classes.py:178-186. -/
noncomputable def GearTransform.affineMatrix (self : GearTransform) :
    Matrix (Fin 3 ⊕ Unit) (Fin 3 ⊕ Unit) ℝ :=
  Matrix.fromBlocks (self.scale • (self.orientation * Rz self.angle))
    (Matrix.of fun i _ => self.center i) 0 1

/-- `Transform.__mul__` with a gear transform on the right, gggears_base_classes.py:133-139:
`isinstance(other, TransformData)` holds for gear transforms, the result is a plain
`Transform`. -/
def TransformData.mulGear (self : TransformData) (other : GearTransform) : TransformData :=
  self.mul other.toTransformData

/-- Matrix of extrinsic rotations about z, then y, then x by angles in radians. Both scipy's
`Rotation.from_euler("zyx", ·)` and build123d's `Extrinsic.ZYX`. -/
noncomputable def eulerZYX (a b c : ℝ) : M3 := Rx c * Ry b * Rz a

/-- The rigid motion of `bd.Location(position, [d0, d1, d2], Extrinsic.ZYX)`; angles in
degrees. Semantics of build123d, trusted. -/
noncomputable def bdLocation (position : V3) (d0 d1 d2 : ℝ) (p : V3) : V3 :=
  app (eulerZYX (d0 * Real.pi / 180) (d1 * Real.pi / 180) (d2 * Real.pi / 180)) p + position

/-- `transform2Location(transform)`, gggears_build123d.py:507-516. `euler` is the triple of
degrees returned by `as_euler("zyx", degrees=True)`. -/
noncomputable def transform2Location (euler : Fin 3 → ℝ) (transform : GearTransform) : V3 → V3 :=
  bdLocation transform.center (euler 0 + transform.angle * 180 / Real.pi) (euler 1) (euler 2)

/-- `apply_transform_part(part, transform)`, gggears_build123d.py:462-466, acting on a point of
the part: scale about the origin, then the location. -/
noncomputable def applyTransformPart (euler : Fin 3 → ℝ) (transform : GearTransform) (p : V3) : V3 :=
  transform2Location euler transform (transform.scale • p)

end Verif
