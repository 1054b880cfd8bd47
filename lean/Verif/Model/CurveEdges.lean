import Verif.Model.Convert
import Verif.Model.Edges

/-!
# Model of `curve_to_edges`

`/repo/src/gggears/gggears_build123d.py`, lines 584-599, with `gen_splines` (492-505). The heap holds the `NurbCurve`
objects, as in `Model/Convert.lean`.
-/

namespace Verif

/-- Curves as `curve_to_edges` distinguishes them; `other` is any curve class without a branch of its own (involutes,
cycloids, …). A `NURBSCurve` is a `CurveChain` of `NurbCurve`s and takes the first branch. -/
inductive ExportObj
  | chain (members : List ExportObj) (flag : Bool)
  | nurb (ref : ℕ)
  | arc (a : ArcObj)
  | line (c : Curve)
  | moved (T : V3 → V3) (target : CurveObj) (own : Curve)
  | other (c : Curve)

/-- The same object for the conversion. -/
def ExportObj.obj : ExportObj → CurveObj
  | .chain ms flag => .chain (objs ms) flag
  | .nurb r => .nurb r
  | .arc a => .plain a.curve
  | .line c => .plain c
  | .moved T target own => .moved T target own
  | .other c => .plain c
where
  /-- The members. -/
  objs : List ExportObj → List CurveObj
    | [] => []
    | m :: ms => ExportObj.obj m :: objs ms

/-- `CurveChain.get_curves()`, curve.py:509-518: the curves at the leaves, active or not. -/
def ExportObj.getCurves : ExportObj → List ExportObj
  | .chain ms _ => members ms
  | o => [o]
where
  /-- The loop over the members. -/
  members : List ExportObj → List ExportObj
    | [] => []
    | m :: ms => ExportObj.getCurves m ++ members ms

/-- The results of `curve_to_edges`: an edge (its set of points) or a list of results. -/
inductive EdgeTree
  | edge (E : Set V3)
  | list (ts : List EdgeTree)

/-- All edges of a result in order. -/
def EdgeTree.edges : EdgeTree → List (Set V3)
  | .edge E => [E]
  | .list ts => all ts
where
  /-- The edges of the entries. -/
  all : List EdgeTree → List (Set V3)
    | [] => []
    | t :: ts => EdgeTree.edges t ++ all ts

/-- The points of `bd.Edge.make_bezier(*points, weights)`. That the kernel refuses fewer than two points or weights that are
not positive is not modelled. -/
def makeBezier (n : Nurb V3) : Set V3 := {p | ∃ t : ℝ, 0 ≤ t ∧ t ≤ 1 ∧ nurbezier t n.points n.weights = some p}

/-- `gen_splines` of a converted object, gggears_build123d.py:492-505: for a single `NurbCurve` an edge, for a `NURBSCurve`
the list of the edges of its active members. `none`: a dangling reference, which does not occur. -/
def genEdges (single : Bool) (refs : List ℕ) (h : NurbHeap) : Option EdgeTree :=
  match single, refs with
  | true, [r] => (h[r]?).map fun o => .edge (makeBezier o.nurb)
  | _, _ => (refs.mapM fun r => h[r]?).map fun os =>
      .list ((os.filter fun o => o.curve.active).map fun o => .edge (makeBezier o.nurb))

/-- Whether `convert_curve_nurbezier` returns a single `NurbCurve`: not for chains, nor for `TransformedCurve`s of them,
curve.py:912-945. -/
def CurveObj.single : CurveObj → Bool
  | .chain _ _ => false
  | .moved _ target _ => target.single
  | _ => true

/-- `curve_to_edges` of a curve that is no chain, gggears_build123d.py:587-599. `none`: an exception. -/
noncomputable def leafEdges (asEuler : M3 → ℝ × ℝ × ℝ) (fit : Curve → List V3 × List ℝ) :
    ExportObj → NurbHeap → Option (EdgeTree × NurbHeap)
  | .nurb r, h => (genEdges true [r] h).map fun t => (t, h)
  | .arc a, h => (a.toEdge asEuler).map fun E => (.list [.edge E], h)
  | .line c, h => (lineToEdge c).map fun E => (.list [.edge E], h)
  | .moved T target _, h => (convertCurve fit target true h).bind fun x =>
      (genEdges target.single x.1 (moveAll T x.1 x.2)).map fun t => (t, moveAll T x.1 x.2)
  | .other c, h => (convertCurve fit (.plain c) true h).bind fun x => (genEdges true x.1 x.2).map fun t => (t, x.2)
  | .chain _ _, _ => none

/-- The comprehension over the curves, gggears_build123d.py:586. -/
noncomputable def leavesEdges (asEuler : M3 → ℝ × ℝ × ℝ) (fit : Curve → List V3 × List ℝ) :
    List ExportObj → NurbHeap → Option (List EdgeTree × NurbHeap)
  | [], h => some ([], h)
  | m :: ms, h => (leafEdges asEuler fit m h).bind fun x =>
      (leavesEdges asEuler fit ms x.2).map fun y => (x.1 :: y.1, y.2)

/-- `curve_to_edges`, gggears_build123d.py:584-599: the edges and the `NurbCurve` objects afterwards. -/
noncomputable def curveToEdges (asEuler : M3 → ℝ × ℝ × ℝ) (fit : Curve → List V3 × List ℝ) (o : ExportObj)
    (h : NurbHeap) : Option (EdgeTree × NurbHeap) :=
  match o with
  | .chain _ _ => (leavesEdges asEuler fit o.getCurves h).map fun x => (.list x.1, x.2)
  | _ => leafEdges asEuler fit o h

end Verif
