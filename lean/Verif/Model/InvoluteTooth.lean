import Verif.Model.Trim
import Verif.Model.Flank

/-!
# Model of the involute tooth generator for spur gears

`/repo/src/gggears/gearteeth.py:34-72` (`InvoluteTooth.generate_tooth_curve` and `generate_involute_curve`, branch
`cone_angle == 0`). The solvers are parameters.
-/

namespace Verif

open Real

/-- `InvoluteCurve(r, t0=0, t1=2, angle=0)` with the default 21 samples, gearteeth.py:52-54 and curve.py:1319-1344. -/
noncomputable def baseInvolute (r : ℝ) : Curve := .make (.generic (fun t => involuteCircle t r 0 ORIGIN 0) 20) true 0 2

/-- The assignment to `involute_curve.angle`, gearteeth.py:63: the function reads the new angle, the table of lengths is kept. -/
noncomputable def turnedInvolute (r ang : ℝ) : Curve :=
  { baseInvolute r with kind := .generic (fun t => involuteCircle t r ang ORIGIN 0) 20 }

/-- `generate_involute_curve`, branch `cone_angle == 0`, gearteeth.py:50-72. The success of the two searches is not read. `none`:
a curve that cannot be evaluated. -/
noncomputable def involuteToothCurve (S : ScalarSolvers) (pia rp alpha : ℝ) : Option (List Curve) :=
  let r := rp * cos alpha
  let pitchCircle := arcInit rp (2 * π) ORIGIN 0 0 0 true
  let sol2 := findCurveIntersect S.toSolvers (baseInvolute r).eval pitchCircle.eval (1 / 2, 0) .equality
  ((baseInvolute r).eval sol2.x.1).bind fun p =>
    let inv := turnedInvolute r (-(pia + angleBetween RIGHT p))
    (inv.setEndOn (findCurvePlaneIntersect S inv.eval UP 1).x).bind fun inv =>
      (inv.eval 0).map fun q => chainUpdate curveOps [.make (.line ((1 / 2 : ℝ) • q) q) true 0 1, inv]

end Verif
