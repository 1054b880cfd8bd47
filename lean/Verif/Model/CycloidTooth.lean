import Verif.Model.Trim
import Verif.Model.Flank
import Verif.Model.LowerLimit

/-!
# Model of `CycloidTooth`

`/repo/src/gggears/gearteeth.py:565-628`, with `find_curve_nearest_point` (`/repo/src/gggears/curve.py:743-754`) and the two
cycloid curves (curve.py:1652-1736). The solvers are parameters.
-/

namespace Verif

open Real

open scoped Classical in
/-- The function of `lower_curve`, gearteeth.py:587-593 and 603-611. For a nonzero cone angle `C = 1 / R` is not 0, so
`cycloid_cone` does not raise; the value 0 stands for the excluded case. -/
noncomputable def cycloidLowerFn (pia rp coneAngle rcIn t : ℝ) : V3 :=
  if coneAngle = 0 then cycloidFlankLower pia rp rcIn t
  else (cycloidCone t rp (-rcIn * rp) (1 / (rp / sin (coneAngle / 2))) (-pia) ORIGIN 0).getD 0

open scoped Classical in
/-- The function of `upper_curve`, gearteeth.py:594-600 and 612-619. -/
noncomputable def cycloidUpperFn (pia rp coneAngle rcOut t : ℝ) : V3 :=
  if coneAngle = 0 then cycloidFlankUpper pia rp rcOut t
  else (cycloidCone t rp (rcOut * rp) (1 / (rp / sin (coneAngle / 2))) (-pia) ORIGIN 0).getD 0

/-- `lower_curve`, gearteeth.py:587-593 and 603-611; `Curve` takes 21 length samples by default (curve.py:61). -/
noncomputable def cycloidLower (pia rp coneAngle rcIn : ℝ) : Curve :=
  .make (.generic (cycloidLowerFn pia rp coneAngle rcIn) 20) true (-rcIn * π / 2) 0

/-- `upper_curve` as created, gearteeth.py:594-600 and 612-619. -/
noncomputable def cycloidUpper (pia rp coneAngle rcOut : ℝ) : Curve :=
  .make (.generic (cycloidUpperFn pia rp coneAngle rcOut) 20) true 0 (pia * 2)

/-- Squared distance from a point, the objective of curve.py:749; a curve that cannot be evaluated raises there. -/
noncomputable def distSq (f : ℝ → Option V3) (point : V3) (t : ℝ) : Option ℝ :=
  (f t).map fun p => dot (p - point) (p - point)

/-- `min(results, key=lambda res: res.fun)`, curve.py:754: the first result with the least value. -/
noncomputable def pickMin (key : ℝ → ℝ) (x : ℝ) (xs : List ℝ) : ℝ :=
  xs.foldl (fun b y => if key y < key b then y else b) x

/-- `find_curve_nearest_point`, curve.py:743-754. `none`: `min` of an empty list raises. `res.fun` is the objective at
`res.x`. -/
noncomputable def findCurveNearestPoint (S : ScalarSolvers) (f : ℝ → Option V3) (point : V3) (guesses : List ℝ) :
    Option ℝ :=
  match guesses.map fun g => (S.minimize1 (distSq f point) g).x with
  | [] => none
  | x :: xs => some (pickMin (fun t => (distSq f point t).getD 0) x xs)

/-- `generate_cycloid_curve`, gearteeth.py:585-628. `upper_curve.rb + upper_curve.rc` is `rp + rc_out * rp`. The success of
the search is not read. -/
noncomputable def cycloidToothCurve (S : ScalarSolvers) (pia rp coneAngle rcIn rcOut : ℝ) : Option (List Curve) :=
  let upper := cycloidUpper pia rp coneAngle rcOut
  (findCurveNearestPoint S upper.eval ((rp + rcOut * rp) • RIGHT) [1 / 10, 1 / 2, 9 / 10]).bind fun sol0 =>
    (upper.setEndOn (S.root1 (planeResidual upper.eval UP ORIGIN) sol0).x).map fun u =>
      chainUpdate curveOps [cycloidLower pia rp coneAngle rcIn, u]

end Verif
