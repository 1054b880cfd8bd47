import Verif.Model.Flank
import Verif.Model.Curve

/-!
# Model of the spherical flank curves and of the sphere they report

`/repo/src/gggears/curve.py`, lines 1352-1460: `SphericalInvoluteCurve` and `OctoidCurve` with their read-only
properties. The function of such a curve is a lambda that reads the attributes of the object at every call, so
that the attributes are kept apart from the state that trimming and reversing change.
-/

namespace Verif

open Real

/-- The attributes set by the constructors, curve.py:1367-1371 and 1423-1428 (`alpha` only for octoids). -/
structure SphereAttrs where
  r : ℝ := 1
  angle : ℝ := 0
  cSphere : ℝ := 1
  alpha : ℝ := 20 * π / 180
  vOffs : V3 := 0
  zOffs : ℝ := 0

/-- The lambda of `SphericalInvoluteCurve`, curve.py:1373-1380. -/
noncomputable def sphericalInvoluteFn (a : SphereAttrs) (t : ℝ) : V3 :=
  involuteSphere t a.r a.cSphere a.angle a.vOffs a.zOffs

/-- The lambda of `OctoidCurve`, curve.py:1430-1438, where `1 / self.c_sphere` is a number. -/
noncomputable def octoidCurveFn (a : SphereAttrs) (t : ℝ) : V3 :=
  octoid t a.r (1 / a.cSphere) a.alpha a.angle a.vOffs a.zOffs

/-- `SphericalInvoluteCurve(...)` and `OctoidCurve(...)`, curve.py:1372-1386 and 1429-1442, with the default of 21
length samples. -/
noncomputable def sphereCurve (fn : SphereAttrs → ℝ → V3) (a : SphereAttrs) (t0 t1 : ℝ) (active : Bool) : Curve :=
  .make (.generic (fn a) 20) active t0 t1

/-- Evaluation of a curve object in the state `c` whose attributes are now `a`: `__call__`, curve.py:86-96, applies the
lambda, which reads the attributes, to the parameter that the length table gives. -/
noncomputable def sphereCurveCall (fn : SphereAttrs → ℝ → V3) (a : SphereAttrs) (c : Curve) (s : ℝ) : Option V3 :=
  (c.s2t s).map (fn a)

/-- `R` of both classes, curve.py:1398-1400 and 1454-1456. `none`: division by zero. -/
noncomputable def SphereAttrs.sphereR (a : SphereAttrs) : Option ℝ :=
  if a.cSphere = 0 then none else some (1 / a.cSphere)

/-- `center` and `center_sphere` of both classes, curve.py:1388-1396 and 1444-1452. `none`: division by zero or the root
of a negative number. -/
noncomputable def SphereAttrs.center (a : SphereAttrs) : Option V3 :=
  a.sphereR.bind fun R =>
    if R ^ 2 < a.r ^ 2 then none else some ((√(R ^ 2 - a.r ^ 2) * sgn a.cSphere + a.zOffs) • OUT)

/-- `base_radius` of both classes, curve.py:1402-1404 and 1458-1460. -/
def SphereAttrs.baseRadius (a : SphereAttrs) : ℝ := a.r

end Verif
