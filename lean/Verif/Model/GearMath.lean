import Verif.Base.Vec
import Verif.Model.Bezier
import Verif.Model.Transform
import Verif.Model.Coord

/-!
# Model of `/repo/src/gggears/gearmath.py`

Numerical root searches are a parameter `solve : (ℝ → ℝ) → ℝ`: the value returned by
`scipy.optimize.root` for the given residual function. Division by zero and NaN are `none`.
-/

namespace Verif

open Real

/-- `cone_angle_from_teeth(num_teeth_1, num_teeth_2, axis_angle)`, gearmath.py:8-35. `none`: the
square root of a negative number or a division by zero (numpy returns NaN). -/
noncomputable def coneAngleFromTeeth (n1 n2 axisAngle : ℝ) : Option (ℝ × ℝ) :=
  let cosfi := cos axisAngle
  let a := n1
  let b := n2
  let rad := (-(b ^ 2) - 2 * a * b * cosfi - a ^ 2 * cosfi) / (cosfi - 1)
  if cosfi - 1 = 0 ∨ rad < 0 ∨ a = 0 then none
  else
    let e := √rad
    let gamma2 := arctan (e / a)
    let gamma1 := π - axisAngle - gamma2
    some (gamma1 * 2, gamma2 * 2)

/-- The residual handed to the solver by `calc_involute_mesh_distance`, gearmath.py:78-102. -/
noncomputable def meshResidual (r1 r2 ang1 ang2 pitch2 : ℝ) (insideRing : Bool) (backlash : ℝ)
    (a : ℝ) : ℝ :=
  if insideRing then
    let d1 := r1 * |ang1|
    let d2 := r2 * |ang2|
    let blSign := sgn (d2 - d1)
    tan a - a + (d2 - d1 - backlash / 2 * blSign) / (r2 - r1)
  else
    let d1 := r1 * ang1
    let d2 := r2 * (pitch2 / 2 - ang2)
    a - tan a + (d1 - d2 + backlash / 2) / (r1 + r2)

/-- `calc_involute_mesh_distance`, gearmath.py:38-104. -/
noncomputable def calcInvoluteMeshDistance (solve : (ℝ → ℝ) → ℝ) (r1 r2 ang1 ang2 pitch2 : ℝ)
    (insideRing : Bool) (backlash : ℝ) : ℝ :=
  let sol := solve (meshResidual r1 r2 ang1 ang2 pitch2 insideRing backlash)
  if insideRing then (r2 - r1) / cos sol else (r1 + r2) / cos sol

/-- `backlash_from_ax_distance`, gearmath.py:107-156. `none`: arccos of a number outside
[-1, 1], or division by zero. -/
noncomputable def backlashFromAxDistance (distance r1 r2 ang1 ang2 pitch2 : ℝ)
    (insideRing : Bool) : Option ℝ :=
  if insideRing then
    let d1 := r1 * (-ang1)
    let d2 := r2 * (-ang2)
    if distance = 0 ∨ 1 < |(r2 - r1) / distance| then none
    else
      let a := arccos ((r2 - r1) / distance)
      some (d2 - d1 - (-tan a + a) * (r2 - r1))
  else
    let d1 := r1 * (-ang1)
    let d2 := r2 * (pitch2 / 2 + ang2)
    if distance = 0 ∨ 1 < |(r1 + r2) / distance| then none
    else
      let a := arccos ((r1 + r2) / distance)
      some (d2 - d1 - (-tan a + a) * (r1 + r2))

/-- `calc_nominal_mesh_distance`, gearmath.py:159-213. -/
noncomputable def calcNominalMeshDistance (rp1 rp2 x1 x2 module_ : ℝ) (ring1 ring2 : Bool) : ℝ :=
  let m2 : ℝ := if ring1 then -1 else 1
  let m1 : ℝ := if ring2 then -1 else 1
  rp1 * m1 + rp2 * m2 + x1 * m1 * module_ + x2 * m2 * module_

/-- `x_axis`, gggears_base_classes.py:66-68: the first column of the orientation. -/
def TransformData.xAxis (t : TransformData) : V3 := fun i => t.orientation i 0

/-- `z_axis`, gggears_base_classes.py:74-76: the third column of the orientation. -/
def TransformData.zAxis (t : TransformData) : V3 := fun i => t.orientation i 2

/-- `angle_of_vector_in_xy(v)`, function_generators.py:43-44. -/
noncomputable def angleOfVectorInXY (v : V3) : ℝ := arctan2 (v 1) (v 0)

/-- The direction from gear 1 to gear 2 used by `calc_mesh_angle`, gearmath.py:249-254. -/
noncomputable def centerDiffDir (g1 g2 : GearTransform) : V3 :=
  let diff := g2.center - g1.center
  if norm3 diff < 1 / 10 ^ 12 then g2.xAxis else (norm3 diff)⁻¹ • diff

/-- Contact directions, phase offset and phase sign of `calc_mesh_angle`, gearmath.py:256-270. -/
noncomputable def contactData (dir : V3) (ring1 ring2 : Bool) : V3 × V3 × ℝ × ℝ :=
  if ring1 then (dir, dir, 0, 1)
  else if ring2 then (-dir, -dir, 0, 1)
  else (dir, -dir, 1 / 2, -1)

/-- `calc_mesh_angle`, gearmath.py:216-286. `v @ orientation` is the vector–matrix product.
`x % 1` is `Int.fract x`. -/
noncomputable def calcMeshAngle (g1 g2 : GearTransform) (pitch1 pitch2 : ℝ)
    (ring1 ring2 : Bool) : ℝ :=
  let c := contactData (centerDiffDir g1 g2) ring1 ring2
  let angleOfOther := angleOfVectorInXY (Matrix.vecMul c.2.1 g2.orientation)
  let target := angleOfVectorInXY (Matrix.vecMul c.1 g1.orientation)
  let phaseOfOther := Int.fract ((g2.angle - angleOfOther) / pitch2)
  target + Int.fract (c.2.2.2 * phaseOfOther + c.2.2.1) * pitch1

/-- `angle_ref` of gearmath.py:336-344 and 387-395. -/
noncomputable def bevelAngleRef (gamma1 gamma2 R offset : ℝ) (ring1 ring2 : Bool) : ℝ :=
  if ring2 then gamma2 - gamma1 + offset / R
  else if ring1 then gamma2 - gamma1 - offset / R
  else gamma1 + gamma2 + offset / R

/-- `calc_mesh_orientation`, gearmath.py:289-351. `none`: normalising the zero vector. -/
noncomputable def calcMeshOrientation (cone1 cone2 R : ℝ) (g2 : GearTransform)
    (ring1 ring2 : Bool) (targetDir : V3) (offset : ℝ) : Option M3 :=
  let proj := targetDir - dot targetDir g2.zAxis • g2.zAxis
  let gamma1 := cone1 / 2
  let gamma2 := cone2 / 2
  let dirN := if norm3 proj < 1 / 10 ^ 12 then g2.xAxis else (norm3 proj)⁻¹ • proj
  if cone1 = 0 ∧ cone2 = 0 then some g2.orientation
  else
    match normalizeVector (cross dirN g2.zAxis) with
    | none => none
    | some ax =>
      some (fromRotvec (bevelAngleRef gamma1 gamma2 R offset ring1 ring2 • ax) * g2.orientation)

/-- `calc_bevel_gear_placement_vector`, gearmath.py:354-406. The unused `center_h_2` is left
out. -/
noncomputable def calcBevelGearPlacementVector (targetDir : V3) (cone1 cone2 : ConicData)
    (ring1 ring2 : Bool) (offset : ℝ) : Option V3 :=
  let R := cone1.R
  let angleRef := bevelAngleRef cone1.gamma cone2.gamma R offset ring1 ring2
  match normalizeVector (cross targetDir cone2.transform.zAxis) with
  | none => none
  | some ax =>
    let h1 := R * cos cone1.gamma
    some (cone2.center + app (fromRotvec (angleRef • ax)) ((-h1) • cone2.transform.zAxis))

end Verif
