import Verif.Model.CurveHeap

/-!
# Which curve objects influence each other
-/

namespace Verif

/-- The object that a step changes; constructing and copying change none. -/
def CurveAct.object : CurveAct → Option ℕ
  | .new .. => none
  | .copy _ => none
  | .assign i _ => some i
  | .setActive i _ => some i
  | .reverse i => some i
  | .startOn i _ => some i
  | .endOn i _ => some i
  | .startAndEndOn i _ _ => some i
  | .updateLengths i => some i

/-- The object whose attributes a step sets. -/
def CurveAct.assigned : CurveAct → Option ℕ
  | .assign i _ => some i
  | _ => none

/-- `i` calls `k` when it computes a point: itself, its operands, their operands … -/
inductive Calls (H : CurveHeap) : ℕ → ℕ → Prop
  | self (i : ℕ) : Calls H i i
  | operand {i j k : ℕ} {o : CurveCell} : H[i]? = some o → j ∈ (readShape H o).operands → Calls H j k → Calls H i k

/-- `i` computes points from the attributes of `k`, captured by its own function or by that of a curve it calls. -/
def ReadsAttributes (H : CurveHeap) (i k : ℕ) : Prop :=
  ∃ (j : ℕ) (o : CurveCell), Calls H i j ∧ H[j]? = some o ∧ o.shape.captures = true ∧ o.owner = k

/-- What every heap of curves built by programs satisfies: curves refer to older ones, and a captured object exists and is
of the class of the lambda. -/
def FormedHeap (H : CurveHeap) : Prop :=
  ∀ (i : ℕ) (o : CurveCell), H[i]? = some o → o.owner ≤ i ∧ (∀ j ∈ o.shape.operands, j < i) ∧
    (o.shape.captures = true → ∃ w : CurveCell, H[o.owner]? = some w ∧ w.shape.cls = o.shape.cls)

/-- `i` is built from lines, arcs, NURBS pieces and plain functions by sums, differences and multiples. -/
inductive SelfContained (H : CurveHeap) : ℕ → Prop
  | mk {i : ℕ} {o : CurveCell} : H[i]? = some o → o.shape.captures = false → o.shape.cls ≠ 11 →
      (∀ j ∈ o.shape.operands, SelfContained H j) → SelfContained H i

/-- The full claim: a copy can be changed without any effect on older curves, and older curves can be changed without any
effect on the copy. -/
def CopyIndependent : Prop :=
  ∀ (H H1 H2 : CurveHeap) (i : ℕ) (P : List CurveAct), FormedHeap H → stepCurve H (.copy i) = some H1 →
    runCurve H1 P = some H2 →
    ((∀ a ∈ P, ∀ k, a.object = some k → H.length ≤ k) → ∀ n < H.length, viewCurve H2 n = viewCurve H n) ∧
    ((∀ a ∈ P, ∀ k, a.object = some k → k < H.length) → viewCurve H2 (H.length + i) = viewCurve H i)

end Verif
