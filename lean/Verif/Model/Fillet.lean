import Verif.Model.Arc
import Verif.Model.Chain

/-!
# Model of the tangent arcs (fillets)

`/repo/src/gggears/curve.py`, lines 641-664 and 948-1043. A curve or chain is represented by its call
operator `ℝ → Option V3`. scipy's `root` and `minimize` are parameters (`Solvers`): functions of the cost
function and the first guess. The chains are flat (their members are curves, not chains), so that
`get_curves` returns the members.
-/

namespace Verif

/-- The result of scipy's solvers: the flag `success` and the vector `x`. -/
structure Solved (β : Type) where
  success : Bool
  x : β

/-- scipy's `root` and `minimize`. -/
structure Solvers where
  root : (V3 → Option V3) → V3 → Solved V3
  minimize : (ℝ × ℝ → Option ℝ) → ℝ × ℝ → Solved (ℝ × ℝ)

/-- `IntersectMethod`, curve.py:693-695. -/
inductive IntersectMethod
  | equality
  | minDistance

/-- `normalize_vector(curve.derivative(t))`, curve.py:958 and 1003, with the defaults of `derivative`
(curve.py:206): the central difference over `DELTA`. `CurveChain` inherits it. -/
noncomputable def unitTangent (f : ℝ → Option V3) (t : ℝ) : Option V3 :=
  (numericDiff (.fn f) t 0 DELTA).bind normalizeVector

/-- `calc_centers`, curve.py:955-970 and 1000-1015. `none`: undefined points or tangents, or parallel
tangents (0/0). -/
noncomputable def calcCenters (f1 f2 : ℝ → Option V3) (radius t1 t2 : ℝ) : Option (V3 × V3) :=
  match f1 t1, f2 t2, unitTangent f1 t1, unitTangent f2 t2 with
  | some p1, some p2, some tan1, some tan2 =>
    let arcAxis := cross tan1 tan2
    let angle := norm3 arcAxis
    if angle = 0 then none
    else
      let arcAxis := angle⁻¹ • arcAxis
      let normal1 := cross tan1 arcAxis
      let normal2 := cross tan2 arcAxis
      some (p1 - radius • normal1, p2 - radius • normal2)
  | _, _, _, _ => none

/-- `cost_fun`, curve.py:972-976 and 1017-1022. -/
noncomputable def tangentCost (f1 f2 : ℝ → Option V3) (radius : ℝ) (start : ℝ × ℝ) (x : V3) : Option V3 :=
  let t1 := start.1 - x 0
  let t2 := start.2 + x 1
  (calcCenters f1 f2 radius t1 t2).map fun c => c.1 - c.2

/-- `cost_fun2`, curve.py:978-982. -/
noncomputable def tangentCost2 (f1 f2 : ℝ → Option V3) (radius : ℝ) (start : ℝ × ℝ) (x : ℝ × ℝ) : Option ℝ :=
  let t1 := start.1 - x.1
  let t2 := start.2 + x.2
  (calcCenters f1 f2 radius t1 t2).map fun c => dot (c.1 - c.2) (c.1 - c.2)

/-- curve.py:991-994 and 1036-1041: the arc about the mean of the two centres. -/
noncomputable def arcBetween (asEuler : M3 → ℝ × ℝ × ℝ) (f1 f2 : ℝ → Option V3) (radius t1 t2 : ℝ) :
    Option Curve :=
  match calcCenters f1 f2 radius t1 t2, f1 t1, f2 t2 with
  | some c, some p1, some p2 =>
    let center := (1 / 2 : ℝ) • (c.1 + c.2)
    arcFrom2PointCenter asEuler p1 p2 center 0 true
  | _, _, _ => none

/-- `calc_tangent_arc`, curve.py:948-995: the arc, `t1`, `t2` and the flag `success` of the solver. -/
noncomputable def calcTangentArc (asEuler : M3 → ℝ × ℝ × ℝ) (S : Solvers) (f1 f2 : ℝ → Option V3)
    (radius : ℝ) (start : ℝ × ℝ) (method : IntersectMethod) : Option (Curve × ℝ × ℝ × Bool) :=
  let sol : Solved (ℝ × ℝ) := match method with
    | .equality =>
      let s := S.root (tangentCost f1 f2 radius start) 0
      ⟨s.success, (s.x 0, s.x 1)⟩
    | .minDistance => S.minimize (tangentCost2 f1 f2 radius start) (0, 0)
  let t1 := start.1 - sol.x.1
  let t2 := start.2 + sol.x.2
  (arcBetween asEuler f1 f2 radius t1 t2).map fun arc => (arc, t1, t2, sol.success)

/-- The three attempts of `fillet_curve`, curve.py:1024-1032; the last answer is used even if it is not a
success. -/
noncomputable def filletRoot (S : Solvers) (f : ℝ → Option V3) (length radius : ℝ) (start : ℝ × ℝ) :
    Solved V3 :=
  let cost := tangentCost f f radius start
  let sol := S.root cost 0
  let sol := if sol.success then sol else S.root cost ![radius / length, radius / length, 0]
  if sol.success then sol else S.root cost ![DELTA, DELTA, 0]

/-- `fillet_curve`, curve.py:998-1043. -/
noncomputable def filletCurve (asEuler : M3 → ℝ × ℝ × ℝ) (S : Solvers) (f : ℝ → Option V3)
    (length radius : ℝ) (start : ℝ × ℝ) : Option (Curve × ℝ × ℝ) :=
  let sol := filletRoot S f length radius start
  let t1 := start.1 - sol.x 0
  let t2 := start.2 + sol.x 1
  (arcBetween asEuler f f radius t1 t2).map fun arc => (arc, t1, t2)

/-- `fillet_at_locations`, curve.py:641-651, on a flat chain. -/
noncomputable def filletAtLocations (asEuler : M3 → ℝ × ℝ × ℝ) (S : Solvers) (l : List Curve)
    (radius : ℝ) (locations : ℝ × ℝ) : Option (List Curve) :=
  (filletCurve asEuler S (chainEval curveOps l) (chainLen curveOps l) radius locations).bind fun r =>
    (chainSetEnd curveOps l r.2.1 false).bind fun curve1 =>
      (chainSetStart curveOps l r.2.2 false).map fun curve2 =>
        chainUpdate curveOps (curve1 ++ r.1 :: curve2)

/-- `fillet`, curve.py:653-660. -/
noncomputable def fillet (asEuler : M3 → ℝ × ℝ × ℝ) (S : Solvers) (l : List Curve) (radius location : ℝ) :
    Option (List Curve) :=
  filletAtLocations asEuler S l radius
    (location + radius / chainLen curveOps l, location - radius / chainLen curveOps l)

/-- `fillet_at_index`, curve.py:662-664, with `get_t_for_index` (curve.py:455-457): the end of the member
with that index, counted modulo the number of members. -/
noncomputable def filletAtIndex (asEuler : M3 → ℝ × ℝ × ℝ) (S : Solvers) (l : List Curve) (radius : ℝ)
    (index : ℤ) : Option (List Curve) :=
  if l.length = 0 then none
  else fillet asEuler S l radius (portion curveOps l ((index % l.length).toNat + 1))

end Verif
