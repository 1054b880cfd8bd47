import Verif.Model.Nurbs
import Verif.Model.Curve
import Verif.Model.Bezier

/-!
# Model of `convert_curve_nurbezier`

`/repo/src/gggears/curve.py`, lines 907-945, with the classes `NurbCurve` (1530-1554) and `TransformedCurve` (1463-1488).
`NurbCurve` objects live in a heap because the conversion hands out and changes existing ones.
-/

namespace Verif

/-- `NurbCurve.function`, curve.py:1541-1542. Where the value is undefined this is the origin; the properties are about
defined values. -/
noncomputable def nurbFn (points : List V3) (weights : List ℝ) (t : ℝ) : V3 := (nurbezier t points weights).getD 0

/-- A `NurbCurve` object: control points, weights and the part of a `Curve` (its function is `nurbFn` of the current
control points, its length table dates from the construction). -/
structure NurbObj where
  nurb : Nurb V3
  curve : Curve

/-- `NurbCurve.__init__`, curve.py:1534-1539; `lenght_approx_ndiv` is 21. -/
noncomputable def NurbObj.make (points : List V3) (weights : List ℝ) (active : Bool) : NurbObj :=
  ⟨⟨points, weights⟩, Curve.make (.generic (nurbFn points weights) 20) active 0 1⟩

/-- `NurbCurve.apply_transform`, curve.py:1553-1555: only the control points change. -/
noncomputable def NurbObj.applyTransform (T : V3 → V3) (o : NurbObj) : NurbObj :=
  ⟨⟨o.nurb.points.map T, o.nurb.weights⟩,
   { o.curve with kind := .generic (nurbFn (o.nurb.points.map T) o.nurb.weights) 20 }⟩

/-- The `NurbCurve` objects; a reference is a position. -/
abbrev NurbHeap := List NurbObj

/-- Curve objects as `convert_curve_nurbezier` distinguishes them. `plain` is any `Curve` that is none of the others (lines
and arcs by their kind). A `TransformedCurve` has its transformation, its target and its own range and length table. -/
inductive CurveObj
  | nurb (ref : ℕ)
  | plain (c : Curve)
  | moved (T : V3 → V3) (target : CurveObj) (own : Curve)
  | chain (members : List CurveObj) (flag : Bool)

/-- `active`: attribute of a curve (curve.py:66), or computed for a chain (curve.py:360-363). -/
def CurveObj.active (h : NurbHeap) : CurveObj → Bool
  | .nurb r => (h[r]?).elim false fun o => o.curve.active
  | .plain c => c.active
  | .moved _ _ own => own.active
  | .chain ms flag => flag && activeAny h ms
where
  /-- `any(curve.active for curve in curves)`. -/
  activeAny (h : NurbHeap) : List CurveObj → Bool
    | [] => false
    | m :: ms => CurveObj.active h m || activeAny h ms

/-- `curve(s)` for the objects that are not chains. A `TransformedCurve` maps `s` to its own parameter and evaluates the
target there, curve.py:1476-1488. -/
noncomputable def CurveObj.eval (h : NurbHeap) : CurveObj → ℝ → Option V3
  | .nurb r, s => (h[r]?).bind fun o => o.curve.eval s
  | .plain c, s => c.eval s
  | .moved T target own, s => (own.s2t s).bind fun t => (target.eval h t).map T
  | .chain _ _, _ => none

/-- `TransformedCurve.__init__`, curve.py:1467-1485: own range [0, 1], length table from the transformed target. -/
noncomputable def CurveObj.transformed (h : NurbHeap) (T : V3 → V3) (target : CurveObj) : CurveObj :=
  .moved T target (Curve.make (.generic (fun t => ((target.eval h t).map T).getD 0) 20) (target.active h) 0 1)

/-- `reverse` of a `TransformedCurve` (curve.py:200-204, inherited): its own range. Other objects are not needed. -/
noncomputable def CurveObj.reverseMoved : CurveObj → CurveObj
  | .moved T target own => .moved T target own.reverse
  | o => o

/-- Control points and weights for one `plain` curve, curve.py:932-942. `fit` is the result of `fit_nurb_optim`. `none`: an
exception. -/
noncomputable def convertPlain (fit : Curve → List V3 × List ℝ) (c : Curve) : Option (List V3 × List ℝ) :=
  match c.kind with
  | .line _ _ => match c.eval 0, c.eval 1 with
    | some p, some q => some ([p, q], [1, 1])
    | _, _ => none
  | .arc _ angle center _ =>
    if |angle| < Real.pi then match c.eval 0, c.eval 1 with
      | some p, some q => calcNurbezierArc p q center
      | _, _ => none
    else some (fit c)
  | .generic _ _ => some (fit c)

/-- `apply_transform` of a converted object: on each of its `NurbCurve`s in order (curve.py:1553-1555, 1636-1639). -/
noncomputable def moveAll (T : V3 → V3) (refs : List ℕ) (h : NurbHeap) : NurbHeap :=
  refs.foldl (fun h r => h.modify r (NurbObj.applyTransform T)) h

/-- `convert_curve_nurbezier(input_curve, skip_inactive)`, curve.py:907-945. The result is the list of the `NurbCurve`s in
order (one for a single curve; nested `NURBSCurve`s are flattened here) and the new heap. `skip_inactive` is not passed on
to the members. -/
noncomputable def convertCurve (fit : Curve → List V3 × List ℝ) :
    CurveObj → Bool → NurbHeap → Option (List ℕ × NurbHeap)
  | .nurb r, _, h => some ([r], h)
  | .moved T target _, _, h => (convertCurve fit target true h).map fun x => (x.1, moveAll T x.1 x.2)
  | .plain c, _, h => (convertPlain fit c).map fun x => ([h.length], h ++ [NurbObj.make x.1 x.2 c.active])
  | .chain ms _, skip, h => members ms skip h
where
  /-- The loop over the members, curve.py:915-920. -/
  members : List CurveObj → Bool → NurbHeap → Option (List ℕ × NurbHeap)
    | [], _, h => some ([], h)
    | m :: ms, skip, h =>
      if m.active h || !skip then
        (convertCurve fit m true h).bind fun x => (members ms skip x.2).map fun y => (x.1 ++ y.1, y.2)
      else members ms skip h

end Verif
