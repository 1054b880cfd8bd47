import Verif.Model.Chain

/-!
# Model of the queries of `CurveChain`

`/repo/src/gggears/curve.py`: `get_curves` 477-495, `del_inactive_curves` 422-424, `continuity_list`, `is_continuous`,
`is_closed` 667-690. A member that cannot be evaluated counts as NaN: comparisons with it are false.
-/

namespace Verif

section
variable {α : Type} (o : CurveOps α)

/-- `np.linalg.norm(p - q) < DELTA / 100`. -/
noncomputable def nearPoints (p q : Option V3) : Bool :=
  match p, q with
  | some p, some q => decide (norm3 (p - q) < DELTA / 100)
  | _, _ => false

/-- Entry `k` of `continuity_list`, curve.py:674-682. -/
noncomputable def continuityEntry (l : List α) (k : ℕ) : Bool :=
  match l[k]?, l[(k + 1) % l.length]? with
  | some a, some b => nearPoints (o.eval a 1) (o.eval b 0) || !o.active a || !o.active b
  | _, _ => false

/-- `continuity_list`, curve.py:667-683. -/
noncomputable def continuityList (l : List α) : List Bool := (List.range l.length).map (continuityEntry o l)

/-- `is_continuous`, curve.py:685-687. -/
noncomputable def isContinuous (l : List α) : Bool := (continuityList o l).dropLast.all id

/-- `is_closed`, curve.py:689-690. -/
noncomputable def isClosedChain (l : List α) : Bool :=
  nearPoints (chainEval o l 0) (chainEval o l 1) && isContinuous o l

/-- `del_inactive_curves`, curve.py:422-424. -/
def delInactive (l : List α) : List α := l.filter fun a => o.active a

end

/-- Chains nested to a depth of at most `n`: a curve, or a chain of such. -/
def Nest : ℕ → Type
  | 0 => Curve
  | n + 1 => Chain (Nest n) ⊕ Curve

/-- Their operations. -/
noncomputable def nestOps : (n : ℕ) → CurveOps (Nest n)
  | 0 => curveOps
  | n + 1 => sumOps (chainOps (nestOps n)) curveOps

/-- What one member contributes to `get_curves`, curve.py:480-484. -/
def flatten : (n : ℕ) → Nest n → List Curve
  | 0, (c : Curve) => [c]
  | n + 1, (x : Chain (Nest n) ⊕ Curve) => match x with
    | .inl c => c.curves.flatMap (flatten n)
    | .inr c => [c]

/-- `get_curves()`, curve.py:477-484. -/
def getCurves (n : ℕ) (l : List (Nest n)) : List Curve := l.flatMap (flatten n)

/-- One pass of the loop of `get_curves(lerp_inactive=True)`, curve.py:487-494, at index `k`. `none`: a neighbour
cannot be evaluated. -/
noncomputable def lerpStep (l : List Curve) (k : ℕ) : Option (List Curve) :=
  match l[k]? with
  | none => none
  | some c =>
    if c.active then some l
    else match (l[(k + l.length - 1) % l.length]?).bind (·.eval 1), (l[(k + 1) % l.length]?).bind (·.eval 0) with
      | some p, some q => some (l.set k (Curve.make (.line p q) false 0 1))
      | _, _ => none

/-- The first `k` passes of the loop. -/
noncomputable def lerpLoop (l : List Curve) : ℕ → Option (List Curve)
  | 0 => some l
  | k + 1 => (lerpLoop l k).bind fun l' => lerpStep l' k

/-- `get_curves(lerp_inactive=True)` after the flattening, curve.py:486-495. -/
noncomputable def lerpInactive (l : List Curve) : Option (List Curve) := lerpLoop l l.length

end Verif
