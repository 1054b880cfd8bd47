import Verif.Base.Vec
import Verif.Model.Bezier
import Verif.Model.Coord

/-!
# Model of the flank generators

`/repo/src/gggears/function_generators.py:131-250, 621-679` and the tooth generators of
`/repo/src/gggears/gearteeth.py`. Only scalar parameters `t` are modelled.
-/

namespace Verif

open Real

/-- `involute_circle(t, r, angle, v_offs, z_offs)`, function_generators.py:131-143. -/
noncomputable def involuteCircle (t r angle : ℝ) (vOffs : V3) (zOffs : ℝ) : V3 :=
  let d := (r * t) • DOWN
  app (Rz (t + angle)) (r • RIGHT + d + vOffs) + zOffs • OUT

/-- The branch `C != 0` of `involute_sphere`, function_generators.py:161-183. `rot_chain` is
`rot_z * rot_y0 * rot_z0`; the unused `rot_chain2` is left out. The code is meant for
`|r| ≤ R`; outside that range numpy returns NaN. -/
noncomputable def involuteSphereCone (t r C angle : ℝ) (vOffs : V3) (zOffs : ℝ) : V3 :=
  let R := 1 / |C|
  let Csig := sgn C
  let phi := r / R * t
  let v1 := app (Ry (-π / 2 * Csig)) vOffs + R • RIGHT
  let beta := arcsin (r / R)
  let zCenter := (√(R ^ 2 - r ^ 2) * Csig) • OUT
  app (Rz (t + angle) * Ry ((π / 2 - beta) * Csig) * Rz (-phi)) v1 + zCenter + zOffs • OUT

/-- `involute_sphere(t, r, C, angle, v_offs, z_offs)`, function_generators.py:146-183. The
branch `C == 0` calls `involute_circle` without `z_offs`. -/
noncomputable def involuteSphere (t r C angle : ℝ) (vOffs : V3) (zOffs : ℝ) : V3 :=
  if C = 0 then involuteCircle t r angle vOffs 0
  else involuteSphereCone t r C angle vOffs zOffs

/-- `cycloid_circle(t, rb, rc, angle, v_offs, z_offs)`, function_generators.py:186-208. -/
noncomputable def cycloidCircle (t rb rc angle : ℝ) (vOffs : V3) (zOffs : ℝ) : V3 :=
  let beta := t * rb / rc
  let v0 := (rb + rc) • RIGHT
  let v1 := rc • LEFT + vOffs
  app (Rz (t + angle)) (v0 + app (Rz beta) v1) + zOffs • OUT

/-- `cycloid_cone(t, rb, rc, C, angle, v_offs, z_offs)`, function_generators.py:215-250.
`none`: the branch `C == 0` reads the undefined name `r` and raises `NameError`. The terms
`z_center * 0` are left out. -/
noncomputable def cycloidCone (t rb rc C angle : ℝ) (vOffs : V3) (zOffs : ℝ) : Option V3 :=
  if C = 0 then none
  else
    let R := 1 / |C|
    let Csig := sgn C
    let gamma1 := arcsin (rb / R)
    let gamma2 := arcsin (rc / R)
    let G := Ry (-Csig * (gamma1 + gamma2))
    let v0 := rb • RIGHT + app G (rc • RIGHT)
    let beta := t * rb / rc
    let v1 := app (Rz beta) (rc • LEFT + vOffs)
    let v3 := app G v1
    some (app (Rz (t + angle)) (v0 + v3) + zOffs • OUT)

/-- `octoid(t, base_rad, sphere_rad, alpha, angle, v_offs, z_offs)`,
function_generators.py:621-679. `v_offs` and `z_offs` are accepted and not used. -/
noncomputable def octoid (t baseRad sphereRad alpha angle : ℝ) (_vOffs : V3) (_zOffs : ℝ) : V3 :=
  let beta := arcsin (baseRad / sphereRad)
  let r := sphereRad
  let x := t * sin beta
  let R := -r / √(sin alpha ^ 2 * sin x ^ 2 + cos x ^ 2)
  let v0 := -(cos alpha ^ 2) * cos t * sin x * cos x
    + sin beta * sin alpha ^ 2 * sin t * sin x ^ 2
    + cos beta * sin alpha * cos alpha * sin t * sin x
    + sin beta * sin t * cos x ^ 2
  let v1 := cos alpha ^ 2 * sin t * sin x * cos x
    + sin beta * sin alpha ^ 2 * cos t * sin x ^ 2
    + cos beta * sin alpha * cos alpha * cos t * sin x
    + sin beta * cos t * cos x ^ 2
  let v2 := -(cos beta) * sin alpha ^ 2 * sin x ^ 2
    + sin beta * sin alpha * cos alpha * sin x
    - cos beta * cos x ^ 2
  let v : V3 := R • ![v0, v1, v2]
  let zshift := √(sphereRad ^ 2 - baseRad ^ 2)
  app (Rz (π / 2 + angle) * Ry π) v + zshift • OUT

/-- `ToothLimitParam`, gggears_base_classes.py:327-344. -/
structure ToothLimitParam where
  hA : ℝ := 1
  hD : ℝ := 1.2
  hO : ℝ := 2

/-- `ref_limits` stored by `InvoluteTooth.__init__`, gearteeth.py:22 (also `CycloidTooth`, 579,
and the generators of gggears_base_classes.py:497, 545). `none` is Python's `None`. -/
noncomputable def involuteToothLimits (arg : Option ToothLimitParam) : Option ToothLimitParam :=
  match arg with
  | some l => some l
  | none => some {}

/-- `ref_limits` stored by `InvoluteUndercutTooth.__init__`, gearteeth.py:142-144, statement by
statement: the conditional assignment is followed by an unconditional one. -/
noncomputable def involuteUndercutToothLimits (arg : Option ToothLimitParam) :
    Option ToothLimitParam :=
  let attr0 : Option ToothLimitParam := none
  let attr1 := if arg.isNone then some { hA := 1, hD := 1.2 } else attr0
  let _attr1 := attr1
  let attr2 := arg
  attr2

/-- `ref_limits` stored by `OctoidTooth.__init__`, gearteeth.py:217-220. -/
noncomputable def octoidToothLimits (arg : Option ToothLimitParam) : Option ToothLimitParam :=
  match arg with
  | none => some { hA := 1, hD := 1.2 }
  | some l => some l

/-- `ref_limits` stored by `OctoidUndercutTooth.__init__`, gearteeth.py:282-284. -/
noncomputable def octoidUndercutToothLimits (arg : Option ToothLimitParam) :
    Option ToothLimitParam :=
  let attr0 : Option ToothLimitParam := none
  let attr1 := if arg.isNone then some { hA := 1, hD := 1.2 } else attr0
  let _attr1 := attr1
  let attr2 := arg
  attr2

/-- The test of `InvoluteUndercutTooth.generate_tooth_curve`, gearteeth.py:149, which reads
`self.ref_limits.h_d`: `none` is the `AttributeError` on `None`. -/
noncomputable def undercutTest (baseRadius pitchRadius : ℝ) (limits : Option ToothLimitParam) :
    Option Prop :=
  match limits with
  | none => none
  | some l => some (baseRadius < pitchRadius - l.hD)

/-- The spur branch of `InvoluteTooth.generate_involute_curve`, gearteeth.py:43-66, up to the
trimming. `tSol` is the involute's own parameter at the crossing returned by
`find_curve_intersect`. The result is the base radius and the angle given to the involute. -/
noncomputable def spurInvolute (pitchIntersectAngle rp alpha tSol : ℝ) : ℝ × ℝ :=
  let r := rp * cos alpha
  let involuteAngle0 := angleBetween RIGHT (involuteCircle tSol r 0 ORIGIN 0)
  (r, -(pitchIntersectAngle + involuteAngle0))

/-- The bevel branch of `InvoluteTooth.generate_involute_curve`, gearteeth.py:74-107, up to the
trimming. `x` is the pair `base_res.x` returned by the root search. The result is
`(r, c_sphere, angle, z_offs)` of the spherical involute. -/
noncomputable def bevelInvolute (pitchIntersectAngle rp coneAngle : ℝ) (x : ℝ × ℝ) :
    ℝ × ℝ × ℝ × ℝ :=
  let gamma := coneAngle / 2
  let R := |rp / sin gamma|
  let Csph := 1 / R
  let p := involuteSphere x.1 x.2 Csph 0 ORIGIN 0
  let angle0 := angleBetween (mulV p ![1, 1, 0]) RIGHT
  (x.2, Csph * sgn gamma, -(pitchIntersectAngle + angle0), -(p 2) * sgn gamma)

/-- First component of `involute_angle_func`, gearteeth.py:88: the residual of "the point is at
radius rp". -/
noncomputable def bevelRadDiff (rp coneAngle : ℝ) (x : ℝ × ℝ) : ℝ :=
  let p0 := involuteSphere x.1 x.2 (1 / |rp / sin (coneAngle / 2)|) 0 ORIGIN 0
  p0 0 ^ 2 + p0 1 ^ 2 - rp ^ 2

/-- Octoid flank of `OctoidTooth.generate_octoid_curve` for conical gears, gearteeth.py:253-258
(also 340-345): the curve `t ↦ octoid(t, …)` before trimming. -/
noncomputable def octoidFlank (pitchIntersectAngle rp coneAngle alpha t : ℝ) : V3 :=
  let gamma := coneAngle / 2
  let R := |rp / sin gamma|
  let Csph := 1 / R
  octoid t rp (1 / Csph) alpha (-pitchIntersectAngle) ORIGIN 0

/-- `generate_undercut_curve`, cylindrical branch, gearteeth.py:499-506, before trimming. -/
noncomputable def undercutCurve (pitchRadius : ℝ) (refPoint : V3) (t : ℝ) : V3 :=
  involuteCircle t pitchRadius 0 (refPoint - pitchRadius • RIGHT) 0

/-- `generate_undercut_curve`, conical branch, gearteeth.py:508-521, before trimming. -/
noncomputable def undercutCurveCone (pitchRadius coneAngle : ℝ) (refPoint : V3) (t : ℝ) : V3 :=
  let gamma := coneAngle / 2
  let R := |pitchRadius / sin gamma|
  let Csph := 1 / R
  let vOffs := mulV (app (Ry (π / 2)) (refPoint - R • RIGHT)) ![1, 1, sgn gamma]
  involuteSphere t pitchRadius (Csph * sgn gamma) 0 vOffs 0

/-- End points of the cylindrical rack flank, gearteeth.py:409-416 and 454-461. -/
noncomputable def rackFlank (rp pitchIntersectAngle : ℝ) (limits : ToothLimitParam)
    (pressureAngle : ℝ) : V3 × V3 :=
  let pitchLenRef := rp * pitchIntersectAngle
  let p0 := rp • RIGHT + pitchLenRef • DOWN
  let direction := app (Rz pressureAngle) RIGHT
  let p1 := p0 + (limits.hA / direction 0) • direction
  let p2 := p0 - (limits.hD / direction 0) • direction
  (p2, p1)

/-- Rolling radii and base radius of the two cycloid curves of `CycloidTooth`,
gearteeth.py:586-600: lower curve then upper curve as functions of their own parameter. -/
noncomputable def cycloidFlankLower (pitchIntersectAngle rp rcIn t : ℝ) : V3 :=
  cycloidCircle t rp (-rcIn * rp) (-pitchIntersectAngle) ORIGIN 0

noncomputable def cycloidFlankUpper (pitchIntersectAngle rp rcOut t : ℝ) : V3 :=
  cycloidCircle t rp (rcOut * rp) (-pitchIntersectAngle) ORIGIN 0

end Verif
