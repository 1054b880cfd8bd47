import Verif.Base.Vec
import Mathlib.Data.Nat.Choose.Sum
import Mathlib.Algebra.Module.Basic
import Mathlib.Data.Real.Basic

/-!
# Bezier and rational Bezier evaluation

Model of `/repo/src/gggears/function_generators.py:308-545`.

Control points live in an arbitrary real vector space `E`: numpy broadcasting applies the
same code to scalars (weights), 3-vectors (points) and higher arrays. The parameter `t` is
one number; the array version of the Python code maps the same arithmetic over an axis.
Raised exceptions and undefined (division by zero) results are `none`.
-/

namespace Verif

variable {E : Type*} [AddCommGroup E] [Module ℝ E]

/-- `bezier(t, points)`, function_generators.py:308-315. `comb(d, k)` is the binomial
coefficient. The accumulation loop is a finite sum. -/
noncomputable def bezier (t : ℝ) (points : List E) : E :=
  let n := points.length
  let d := n - 1
  ∑ k : Fin n, ((Nat.choose d k : ℝ) * t ^ (k : ℕ) * (1 - t) ^ (d - (k : ℕ))) • points[k]

/-- `bezier_coeff(t, n)`, function_generators.py:318-322. -/
noncomputable def bezierCoeff (t : ℝ) (n : ℕ) : List ℝ :=
  (List.range n).map fun k => (Nat.choose (n - 1) k : ℝ) * t ^ k * (1 - t) ^ ((n - 1) - k)

/-- One pass of the loop body at function_generators.py:351:
`(1 - t) * points2[:, :-1] + t * points2[:, 1:]`. -/
noncomputable def dcStep (t : ℝ) (points : List E) : List E :=
  List.zipWith (fun a b => (1 - t) • a + t • b) points points.tail

/-- `bezierdc(t, points)`, function_generators.py:325-356. The loop runs `d - 1` times and
the remaining axis of length one is squeezed; squeezing an axis of another length raises. -/
noncomputable def bezierdc (t : ℝ) (points : List E) : Option E :=
  match (dcStep t)^[points.length - 1] points with
  | [p] => some p
  | _ => none

/-- `points * weights.reshape(n, 1)`, function_generators.py:371 and 397. -/
def weighted (points : List E) (weights : List ℝ) : List E :=
  List.zipWith (fun w p => w • p) weights points

/-- `nurbezier(t, points, weights)`, function_generators.py:369-379. `reshape` raises when the
number of weights differs from the number of points. Division by a zero weight is not a point. -/
noncomputable def nurbezier (t : ℝ) (points : List E) (weights : List ℝ) : Option E :=
  if weights.length = points.length then
    match bezierdc t (weighted points weights), bezierdc t weights with
    | some p, some w => if w = 0 then none else some (w⁻¹ • p)
    | _, _ => none
  else none

/-- `a[1:] - a[:-1]`. -/
def diffs (points : List E) : List E :=
  List.zipWith (fun a b => b - a) points points.tail

/-- What `bezier_diff_t` gives back: a point, an array of points (the zero block of line 386
has the shape of the whole control list), or an exception. -/
inductive DiffResult (E : Type*)
  | point (p : E)
  | block (ps : List E)
  | raised

/-- The loop at function_generators.py:387-388: after `k` passes of
`diffpoints = (d - k - 1) * (diffpoints[1:] - diffpoints[:-1])`. -/
noncomputable def diffLoop (d : ℕ) (points : List E) : ℕ → List E
  | 0 => points
  | k + 1 => (diffs (diffLoop d points k)).map fun p => ((d : ℝ) - k - 1) • p

/-- `bezier_diff_t(t, points, n)`, function_generators.py:382-391, for an array-like `t`. -/
noncomputable def bezierDiffT (t : ℝ) (points : List E) (n : ℕ) : DiffResult E :=
  let d := points.length
  if n > d then .block (List.replicate d 0)
  else match bezierdc t (diffLoop d points n) with
    | some p => .point p
    | none => .raised

/-- `nurbezier_diff_t(t, points, weights)`, function_generators.py:394-424. -/
noncomputable def nurbezierDiffT (t : ℝ) (points : List E) (weights : List ℝ) : Option E :=
  if weights.length = points.length then
    let n := points.length
    let wpoints := weighted points weights
    let diffpoints := (diffs wpoints).map fun p => ((n : ℝ) - 1) • p
    let diffweights := (diffs weights).map fun w => ((n : ℝ) - 1) * w
    match bezierdc t wpoints, bezierdc t weights, bezierdc t diffpoints,
        bezierdc t diffweights with
    | some pb, some wb, some dpb, some dwb =>
      if wb = 0 then none else some ((wb ^ 2)⁻¹ • (wb • dpb - dwb • pb))
    | _, _, _, _ => none
  else none

/-- `bezier_diff_p(t, n)`, function_generators.py:427-444: entry `k` is the curve of the
`k`-th unit array. -/
noncomputable def bezierDiffP (t : ℝ) (n : ℕ) : List (Option ℝ) :=
  (List.range n).map fun k => bezierdc t ((List.replicate n (0 : ℝ)).set k 1)

/-- `nurbezier_diff_points(t, n, weights)`, function_generators.py:447-463, entry `k`. -/
noncomputable def nurbezierDiffPoints (t : ℝ) (weights : List ℝ) (k : ℕ) : Option ℝ :=
  match bezierdc t ((List.replicate weights.length (0 : ℝ)).set k 1), weights[k]?,
      bezierdc t weights with
  | some b, some w, some wb => if wb = 0 then none else some (b * w / wb)
  | _, _, _ => none

/-- `nurbezier_diff_weights(t, points, weights)`, function_generators.py:466-493, entry `k`. -/
noncomputable def nurbezierDiffWeights (t : ℝ) (points : List E) (weights : List ℝ) (k : ℕ) :
    Option E :=
  match nurbezier t points weights, bezierdc t ((List.replicate points.length (0 : ℝ)).set k 1),
      bezierdc t weights, points[k]? with
  | some nb, some b, some wb, some p =>
    if wb = 0 then none else some ((b / wb) • p - (b / wb) • nb)
  | _, _, _, _ => none

/-- `nurbezier_surface(u, v, points, weights)`, function_generators.py:496-511. Rows are
evaluated at `v`, the results combined at `u`. -/
noncomputable def nurbezierSurface (u v : ℝ) (points : List (List E)) (weights : List (List ℝ)) :
    Option E :=
  match (List.zipWith (fun p w => nurbezier v p w) points weights).mapM id with
  | some q => nurbezier u q (weights.map fun w => bezier v w)
  | none => none

/-- `nurbezier_surface_2(u, v, points, weights)`, function_generators.py:514-525. The double
loop over `np.ndindex((n, m))` is a nested list map. -/
noncomputable def nurbezierSurface2 (u v : ℝ) (points : List (List E)) (weights : List (List ℝ)) :
    Option E :=
  let cn := bezierCoeff u points.length
  let rows := List.zipWith Prod.mk points weights
  let parts : List E := (List.zipWith (fun c (r : List E × List ℝ) =>
    (List.zipWith (fun cm (q : E × ℝ) => (q.2 * c * cm) • q.1)
      (bezierCoeff v r.1.length) (List.zipWith Prod.mk r.1 r.2)).sum) cn rows)
  let wts : List ℝ := (List.zipWith (fun c (r : List E × List ℝ) =>
    (List.zipWith (fun cm (w : ℝ) => w * c * cm)
      (bezierCoeff v r.1.length) r.2).sum) cn rows)
  if wts.sum = 0 then none else some (wts.sum⁻¹ • parts.sum)

/-- `normalize_vector(v)`, function_generators.py:23-24. Division by zero is `none`. -/
noncomputable def normalizeVector (v : V3) : Option V3 :=
  if norm3 v = 0 then none else some ((norm3 v)⁻¹ • v)

/-- `angle_between_vectors(v1, v2)`, function_generators.py:27-28. -/
noncomputable def angleBetween (v1 v2 : V3) : ℝ := arctan2 (norm3 (cross v1 v2)) (dot v1 v2)

/-- `calc_nurbezier_arc(p0, p2, center)`, function_generators.py:528-541: control points and
weights. `none` when the middle direction is undefined or the half angle has zero cosine. -/
noncomputable def calcNurbezierArc (p0 p2 center : V3) : Option (List V3 × List ℝ) :=
  let pmid := (1 / 2 : ℝ) • (p0 + p2)
  let h := angleBetween (p0 - center) (p2 - center) / 2
  let radius := (norm3 (p0 - center) + norm3 (p2 - center)) / 2
  match normalizeVector (pmid - center) with
  | none => none
  | some m =>
    if Real.cos h = 0 then none
    else
      let p1 := ((Real.sin h ^ 2 / Real.cos h + Real.cos h) * radius) • m + center
      some ([p0, p1, p2], [1, Real.cos h, 1])

/-- `calc_quadratic_bezier_interp(p0, p1, p2)`, function_generators.py:544-545. -/
def calcQuadraticBezierInterp (p0 p1 p2 : E) : List E := [p0, (4 : ℝ) • p1 - p0 - p2, p2]

end Verif
