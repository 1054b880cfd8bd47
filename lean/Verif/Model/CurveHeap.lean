import Verif.Model.Curve
import Verif.Model.Convert
import Verif.Model.Flank

/-!
# Model of curve objects that refer to each other

`/repo/src/gggears/curve.py`, lines 53-344 (`Curve`), 1072-1528 (the classes of curves) and 1530-1555 (`NurbCurve`), with
`copy.deepcopy` as lines 240-250 use it. The other models treat a curve as a value. Here it is an object: its `function` is
either a method, a plain function that is called with `self.params`, or a lambda that captured an object when it was
created. `copy.deepcopy` copies attributes (with all objects they refer to) and binds methods to the copy, but it keeps
functions and lambdas as they are.

Simplifications: `ArcCurve` and `LineCurve` attributes are values (sharing of arrays is the subject of `SharedArgs` and
C73); the curves that take `function`, `params` or a callable transformation from the user have a fixed mathematical
function for it; the attributes of one class are set together.
-/

namespace Verif

/-- The attributes (and for `quot` the captured variables) from which the points of a curve are computed. Numbers are
positions of curve objects. `plain`: `Curve(function)`, curve.py:53; `line`: 1072-1080; `arc`: 1107-1138; `nurb`:
1534-1542; `involute`: 1319-1344; `spherical`: 1352-1387; `octoidal`: 1407-1443; `mapped`: `TransformedCurve` and its
subclasses, 1463-1528, with the value of its transformation; `sum`, `diff`, `scaled`, `quot`: 268-336. -/
inductive CurveShape
  | plain (f : ℝ → V3)
  | line (p0 p1 : V3)
  | arc (radius angle : ℝ) (center : V3) (rotmat : M3)
  | nurb (points : List V3) (weights : List ℝ)
  | involute (r angle : ℝ) (vOffs : V3) (zOffs : ℝ)
  | spherical (r angle c : ℝ) (vOffs : V3) (zOffs : ℝ)
  | octoidal (r angle c alpha : ℝ) (vOffs : V3) (zOffs : ℝ)
  | mapped (T : V3 → V3) (target : ℕ)
  | sum (a b : ℕ)
  | diff (a b : ℕ)
  | scaled (a : ℕ) (k : ℝ)
  | quot (a : ℕ) (k : ℝ)

/-- The classes whose `function` is a lambda that reads `self.…` of the object it was created for: curve.py:1335-1337,
1372-1380, 1427-1436, 1479. (The lambda of `quot`, curve.py:326, captured the operand and not an object with attributes.) -/
def CurveShape.captures : CurveShape → Bool
  | .involute .. => true
  | .spherical .. => true
  | .octoidal .. => true
  | .mapped .. => true
  | _ => false

/-- The curves that are called to compute a point. -/
def CurveShape.operands : CurveShape → List ℕ
  | .mapped _ t => [t]
  | .sum a b => [a, b]
  | .diff a b => [a, b]
  | .scaled a _ => [a]
  | .quot a _ => [a]
  | _ => []

/-- The class (and for results of arithmetic the function). -/
def CurveShape.cls : CurveShape → ℕ
  | .plain .. => 0
  | .line .. => 1
  | .arc .. => 2
  | .nurb .. => 3
  | .involute .. => 4
  | .spherical .. => 5
  | .octoidal .. => 6
  | .mapped .. => 7
  | .sum .. => 8
  | .diff .. => 9
  | .scaled .. => 10
  | .quot .. => 11

/-- A curve object: `owner` is the object that the lambda in `self.function` captured (only meaningful for the classes
with such a lambda). The other fields are the attributes of `Curve`, curve.py:66-80. -/
structure CurveCell where
  shape : CurveShape
  owner : ℕ
  active : Bool
  t0 : ℝ
  t1 : ℝ
  length : ℝ
  lookup : Lookup

/-- All curve objects in the order of their creation; a reference is a position. -/
abbrev CurveHeap := List CurveCell

/-- What calling `self.function` reads: the attributes of the captured object for the classes with a lambda, its own
otherwise. -/
def readShape (H : CurveHeap) (o : CurveCell) : CurveShape :=
  if o.shape.captures then ((H[o.owner]?).map CurveCell.shape).getD o.shape else o.shape

/-- The curve function and length computation of each class; `call j s` is `curve_j(s)`. -/
noncomputable def CurveShape.resolve (call : ℕ → ℝ → V3) : CurveShape → CurveKind
  | .plain f => .generic f 20
  | .line p0 p1 => .line p0 p1
  | .arc r a c M => .arc r a c M
  | .nurb points weights => .generic (nurbFn points weights) 20
  | .involute r angle v z => .generic (fun t => involuteCircle t r angle v z) 20
  | .spherical r angle c v z => .generic (fun t => involuteSphere t r c angle v z) 20
  | .octoidal r angle c alpha v z => .generic (fun t => octoid t r (1 / c) alpha angle v z) 20
  | .mapped T a => .generic (fun t => T (call a t)) 20
  | .sum a b => .generic (fun t => call a t + call b t) 20
  | .diff a b => .generic (fun t => call a t - call b t) 20
  | .scaled a k => .generic (fun t => k • call a t) 20
  | .quot a k => .generic (fun t => (1 / k) • call a t) 20

/-- The curve that object `i` is at this moment, as a value of the model of `Curve`. Operands are always older than the
curves that call them; the guard makes the recursion end on lists of cells that no program creates. -/
noncomputable def viewCurve (H : CurveHeap) (i : ℕ) : Option Curve :=
  match H[i]? with
  | none => none
  | some o =>
    some ⟨(readShape H o).resolve (fun j s => if j < i then ((viewCurve H j).map (·.evalD s)).getD 0 else 0),
      o.active, o.t0, o.t1, o.length, o.lookup⟩
termination_by i

/-- Range, length and lookup table as left behind by a method of `Curve`. -/
def CurveCell.store (o : CurveCell) (c : Curve) : CurveCell :=
  { o with t0 := c.t0, t1 := c.t1, length := c.length, lookup := c.lookup }

/-- Running a method that ends in writing range, length and table of object `i`. -/
def storeCurve (H : CurveHeap) (i : ℕ) (c : Option Curve) : Option CurveHeap :=
  match H[i]?, c with
  | some o, some c => some (H.set i (o.store c))
  | _, _ => none

/-- `active`, `t0` and `t1` that each constructor passes to `Curve.__init__`: curve.py:1075-1084, 1534-1539 (range [0, 1]),
1338-1340, 1381-1383 (as given), 1480-1482 (`active` of the target, the argument `active` is not used), 275-277, 290-292,
307-309, 327-329. -/
def ctorArgs (H : CurveHeap) (active : Bool) (t0 t1 : ℝ) : CurveShape → Option (Bool × ℝ × ℝ)
  | .plain _ | .involute .. | .spherical .. | .octoidal .. => some (active, t0, t1)
  | .line .. | .arc .. | .nurb .. => some (active, 0, 1)
  | .mapped _ a | .scaled a _ => (H[a]?).map fun o => (o.active, 0, 1)
  | .sum a b | .diff a b =>
    match H[a]?, H[b]? with
    | some o, some p => some (o.active && p.active, 0, 1)
    | _, _ => none
  | .quot a _ => (H[a]?).map fun o => (o.active, o.t0, o.t1)

/-- Constructing a curve: the new object captures itself; the lengths are computed if it is active, curve.py:53-88. -/
noncomputable def newCurve (H : CurveHeap) (s : CurveShape) (active : Bool) (t0 t1 : ℝ) : Option CurveHeap :=
  match ctorArgs H active t0 t1 s with
  | none => none
  | some (a, u, v) =>
    let H1 := H ++ [⟨s, H.length, a, u, v, 0, Lookup.default⟩]
    if a then storeCurve H1 H.length ((viewCurve H1 H.length).map Curve.updateLengths) else some H1

/-- The attributes of a copied object: references in attributes (`target_curve`, `params`) point to the copies, the operand
captured by the lambda of a quotient stays. -/
def CurveShape.moveRefs (n : ℕ) : CurveShape → CurveShape
  | .mapped T a => .mapped T (n + a)
  | .sum a b => .sum (n + a) (n + b)
  | .diff a b => .diff (n + a) (n + b)
  | .scaled a k => .scaled (n + a) k
  | s => s

/-- One object of a copy that is placed at `n + i`: bound methods are bound to the copy, lambdas keep what they captured. -/
def CurveCell.copied (n i : ℕ) (o : CurveCell) : CurveCell :=
  { o with shape := o.shape.moveRefs n, owner := if o.shape.captures then o.owner else n + i }

/-- `copy.deepcopy(curve)` (curve.py:240-250) for object `i`. For simplicity all objects up to `i` are copied, each once (the
memo of `deepcopy`), to the positions from `H.length` on; the copies of objects that `i` does not refer to are not reachable
for anyone. The result is object `H.length + i`. -/
def copyCurve (H : CurveHeap) (i : ℕ) : Option CurveHeap :=
  if i < H.length then some (H ++ (H.take (i + 1)).mapIdx (CurveCell.copied H.length)) else none

/-- `reverse`: curve.py:200-204, and 1544-1547 for a `NurbCurve`, which flips its points and weights and nothing else. -/
def CurveCell.reverse (o : CurveCell) : CurveCell :=
  match o.shape with
  | .nurb points weights => { o with shape := .nurb points.reverse weights.reverse }
  | _ => { o with t0 := o.t1, t1 := o.t0,
                  lookup := { o.lookup with t := fun i => o.lookup.t (o.lookup.n - i) } }

/-- What a user can do with curve objects. -/
inductive CurveAct
  /-- A constructor or arithmetic. -/
  | new (s : CurveShape) (active : Bool) (t0 t1 : ℝ)
  /-- `copy()`. -/
  | copy (i : ℕ)
  /-- Setting attributes of the class, e.g. `curve.r = 2`; also `NurbCurve.apply_transform`, curve.py:1553-1555. -/
  | assign (i : ℕ) (s : CurveShape)
  | setActive (i : ℕ) (b : Bool)
  | reverse (i : ℕ)
  | startOn (i : ℕ) (s : ℝ)
  | endOn (i : ℕ) (s : ℝ)
  | startAndEndOn (i : ℕ) (s0 s1 : ℝ)
  | updateLengths (i : ℕ)

/-- One step. `none`: an exception or a reference that does not exist. Attributes are set to values of the same class that
refer to older objects; the captured variables of a quotient cannot be set. -/
noncomputable def stepCurve (H : CurveHeap) : CurveAct → Option CurveHeap
  | .new s active t0 t1 => newCurve H s active t0 t1
  | .copy i => copyCurve H i
  | .assign i s => match H[i]? with
    | none => none
    | some o =>
      if s.cls = o.shape.cls ∧ s.cls ≠ 11 ∧ ∀ j ∈ s.operands, j < i then some (H.set i { o with shape := s }) else none
  | .setActive i b => (H[i]?).map fun o => H.set i { o with active := b }
  | .reverse i => (H[i]?).map fun o => H.set i o.reverse
  | .startOn i s => storeCurve H i ((viewCurve H i).bind (·.setStartOn s))
  | .endOn i s => storeCurve H i ((viewCurve H i).bind (·.setEndOn s))
  | .startAndEndOn i s0 s1 => storeCurve H i ((viewCurve H i).bind (·.setStartAndEndOn s0 s1))
  | .updateLengths i => storeCurve H i ((viewCurve H i).map Curve.updateLengths)

/-- A program. -/
noncomputable def runCurve (H : CurveHeap) : List CurveAct → Option CurveHeap
  | [] => some H
  | a :: P => (stepCurve H a).bind fun H1 => runCurve H1 P

end Verif
