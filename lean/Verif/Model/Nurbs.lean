import Verif.Base.Vec

/-!
# Model of `NURBSCurve` as a list of control point arrays

`/repo/src/gggears/curve.py`, lines 1530-1649. A member (`NurbCurve`) is its control point array and its
weight array; arrays are lists of rows. Aliasing between slices of one numpy array is not modelled: in
`enforce_continuity` the aliased rows are always written with the same value.
-/

namespace Verif

/-- `NurbCurve`: control points and weights, curve.py:1530-1544. -/
@[ext] structure Nurb (E : Type*) where
  points : List E
  weights : List ℝ

variable {E : Type*}

/-- `np.concatenate([a[:-1] for a in arrays])` followed by appending the last row of the last array: the
body of the getters `points` (curve.py:1570-1574) and `weights` (1585-1589). An empty list raises; here
it gives the empty list. -/
def flatRows {α : Type*} (ls : List (List α)) : List α :=
  ls.flatMap List.dropLast ++ ((ls.getLast?.bind List.getLast?).toList)

/-- `NURBSCurve.points`, curve.py:1570-1574. -/
def flatPoints (cs : List (Nurb E)) : List E := flatRows (cs.map Nurb.points)

/-- `NURBSCurve.weights`, curve.py:1585-1589. -/
def flatWeights (cs : List (Nurb E)) : List ℝ := flatRows (cs.map Nurb.weights)

/-- `NURBSCurve.knots`, curve.py:1591-1596: starts with 0 and appends `n_points - 1` to the last entry.
The accumulator is the last entry. -/
def knotsFrom : ℕ → List (Nurb E) → List ℕ
  | k, [] => [k]
  | k, c :: cs => k :: knotsFrom (c.points.length - 1 + k) cs

/-- `NURBSCurve.knots`. -/
def knots (cs : List (Nurb E)) : List ℕ := knotsFrom 0 cs

/-- `a[i:j]` for non-negative indices. -/
def slice {α : Type*} (a : List α) (i j : ℕ) : List α := (a.drop i).take (j - i)

/-- The loop of `from_points`, curve.py:1628-1635, over neighbouring knots. -/
def fromPointsLoop (points : List E) (weights : List ℝ) : List ℕ → List (Nurb E)
  | k0 :: k1 :: ks => ⟨slice points k0 (k1 + 1), slice weights k0 (k1 + 1)⟩ ::
      fromPointsLoop points weights (k1 :: ks)
  | _ => []

/-- `NURBSCurve.from_points`, curve.py:1623-1636; missing weights are ones. -/
def fromPoints (points : List E) (ks : List ℕ) (weights : Option (List ℝ)) : List (Nurb E) :=
  fromPointsLoop points (weights.getD (List.replicate points.length 1)) ks

/-- The loop of the `points` setter, curve.py:1580-1583, over the member indices; the knots are read
again in every iteration. -/
def setPointsLoop (new : List E) : List ℕ → List (Nurb E) → List (Nurb E)
  | [], cs => cs
  | k :: ks, cs =>
    let idx := (knots cs).getD k 0
    setPointsLoop new ks (cs.modify k fun c => { c with points := slice new idx (idx + c.points.length) })

/-- The `points` setter, curve.py:1576-1583. `none`: the shapes differ (`ValueError`). -/
def setPoints (cs : List (Nurb E)) (new : List E) : Option (List (Nurb E)) :=
  if new.length ≠ (flatPoints cs).length then none
  else some (setPointsLoop new (List.range cs.length) cs)

/-- `a[-1] = v`. -/
def setLast {α : Type*} (a : List α) (v : α) : List α := a.set (a.length - 1) v

/-- `a[0] = v`. -/
def setHead {α : Type*} (a : List α) (v : α) : List α := a.set 0 v

section
variable [AddCommGroup E] [Module ℝ E]

/-- `(x + y) / 2`. -/
noncomputable def half (x y : E) : E := (1 / 2 : ℝ) • (x + y)

/-- `a[-1]` and `b[0]` averaged; `0` stands for the IndexError on empty arrays, excluded by the
properties. -/
noncomputable def midRow (a b : List E) : E := half (a.getLast?.getD 0) (b.head?.getD 0)

/-- One step of `enforce_continuity`, curve.py:1600-1605, on the pair `curve1`, `curve2`. -/
noncomputable def joinStep (c1 c2 : Nurb E) : Nurb E × Nurb E :=
  let midpoints := midRow c1.points c2.points
  let midweights := midRow c1.weights c2.weights
  (⟨setLast c1.points midpoints, setLast c1.weights midweights⟩,
   ⟨setHead c2.points midpoints, setHead c2.weights midweights⟩)

/-- The loop of `enforce_continuity`, curve.py:1599-1605, over neighbouring members in order. -/
noncomputable def joinLoop : Nurb E → List (Nurb E) → List (Nurb E)
  | c, [] => [c]
  | c, d :: ds => (joinStep c d).1 :: joinLoop (joinStep c d).2 ds

/-- The closing part of `enforce_continuity`, curve.py:1606-1612. -/
noncomputable def joinEnds (cs : List (Nurb E)) : List (Nurb E) :=
  match cs.head?, cs.getLast? with
  | some a, some z =>
    let midpoints := midRow z.points a.points
    let midweights := midRow z.weights a.weights
    let cs := cs.modify (cs.length - 1) fun c =>
      ⟨setLast c.points midpoints, setLast c.weights midweights⟩
    cs.modify 0 fun c => ⟨setHead c.points midpoints, setHead c.weights midweights⟩
  | _, _ => cs

/-- `enforce_continuity`, curve.py:1598-1612. `isClosed` is the property `is_closed` (curve.py:689-691),
a function of the current state. -/
noncomputable def enforceContinuity (isClosed : List (Nurb E) → Bool) (cs : List (Nurb E)) :
    List (Nurb E) :=
  match cs with
  | [] => []
  | c :: ds =>
    let cs' := joinLoop c ds
    if isClosed cs' then joinEnds cs' else cs'

end

end Verif
