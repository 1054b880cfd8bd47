import Verif.Model.Curve

/-!
# Model of `CurveChain`

`/repo/src/gggears/curve.py`, lines 347-690. A chain holds curves or further chains. The members are
therefore described by the operations the chain code calls on them (`CurveOps`); `curveOps` gives the
operations of `Curve`, `chainOps` those of a chain, so chains of chains of any depth are covered
(`sumOps` mixes both). Positions are scalars; the chain code maps its scalar function over arrays.
-/

namespace Verif

/-- The methods and attributes of a curve-like object used by `CurveChain`. `none` is an exception or a
NaN result. -/
structure CurveOps (α : Type) where
  active : α → Bool
  length : α → ℝ
  eval : α → ℝ → Option V3
  setStart : α → ℝ → Option α
  setEnd : α → ℝ → Option α
  setActive : Bool → α → α
  updateLengths : α → α

/-- A `CurveChain`: the list `curves` and the flag `_active`. -/
structure Chain (α : Type) where
  curves : List α
  flag : Bool

/-- The operations of `Curve`. -/
noncomputable def curveOps : CurveOps Curve where
  active := Curve.active
  length := Curve.length
  eval := Curve.eval
  setStart := Curve.setStartOn
  setEnd := Curve.setEndOn
  setActive b c := { c with active := b }
  updateLengths := Curve.updateLengths

section
variable {α : Type} (o : CurveOps α)

/-- An entry of `length_array`, curve.py:383-386. -/
noncomputable def CurveOps.len (a : α) : ℝ := if o.active a then o.length a else 0

/-- `np.sum(length_array)`, curve.py:388-390. -/
noncomputable def chainLen (l : List α) : ℝ := (l.map o.len).sum

/-- Cumulated length before member `k`. -/
noncomputable def preLen (l : List α) (k : ℕ) : ℝ := ((l.take k).map o.len).sum

/-- Entry `k` of `get_length_portions`, curve.py:459-463, for a non-zero total length. -/
noncomputable def portion (l : List α) (k : ℕ) : ℝ := preLen o l k / chainLen o l

/-- `np.searchsorted(P, s)` on an increasing array with `n` entries: the number of leading entries
below `s`. -/
noncomputable def searchLeft (P : ℕ → ℝ) (s : ℝ) : ℕ → ℕ
  | 0 => 0
  | n + 1 => if P n < s then n + 1 else searchLeft P s n

/-- `idx_active_min`, curve.py:400-407. -/
def activeMin (l : List α) : ℕ := l.findIdx o.active

/-- `idx_active_max + 1`, curve.py:409-420 (0 if no member is active). -/
def activeMaxSucc (l : List α) : ℕ := l.length - l.reverse.findIdx o.active

/-- `get_s_index`, curve.py:426-453. `none`: division by a zero total length, or no active member
(index error). -/
noncomputable def getSIndex (l : List α) (s : ℝ) : Option (ℕ × ℝ) :=
  if chainLen o l = 0 then none
  else
    let P := portion o l
    let r := searchLeft P s (l.length + 1)
    let r := if activeMaxSucc o l < r then activeMaxSucc o l else r
    let r := if r < activeMin o l + 1 then activeMin o l + 1 else r
    if l.length < r then none
    else some (r - 1, if P r - P (r - 1) ≠ 0 then (s - P (r - 1)) / (P r - P (r - 1)) else 1 / 2)

/-- `__call__` and `curve_list_eval`, curve.py:465-475. -/
noncomputable def chainEval (l : List α) (s : ℝ) : Option V3 :=
  (getSIndex o l s).bind fun p => l[p.1]?.bind fun a => o.eval a p.2

/-- `update_lengths`, curve.py:374-377. -/
def chainUpdate (l : List α) : List α := l.map fun a => if o.active a then o.updateLengths a else a

/-- The first half of `set_start_and_end_on` and the body of `set_start_on` before `update_lengths`,
curve.py:561-568 and 594-601. -/
noncomputable def startRaw (l : List α) (s : ℝ) (preserve : Bool) : Option (List α) :=
  (getSIndex o l s).bind fun p => l[p.1]?.bind fun a => (o.setStart a p.2).map fun a' =>
    (if preserve then (l.take p.1).map (o.setActive false) else []) ++ a' :: l.drop (p.1 + 1)

/-- The second half of `set_start_and_end_on` and the body of `set_end_on` before `update_lengths`,
curve.py:570-577 and 618-625. -/
noncomputable def endRaw (l : List α) (s : ℝ) (preserve : Bool) : Option (List α) :=
  (getSIndex o l s).bind fun p => l[p.1]?.bind fun a => (o.setEnd a p.2).map fun a' =>
    l.take p.1 ++ a' :: (if preserve then (l.drop (p.1 + 1)).map (o.setActive false) else [])

/-- `set_start_on`, curve.py:580-602. -/
noncomputable def chainSetStart (l : List α) (s : ℝ) (preserve : Bool) : Option (List α) :=
  (startRaw o l s preserve).map (chainUpdate o)

/-- `set_end_on`, curve.py:604-627. -/
noncomputable def chainSetEnd (l : List α) (s : ℝ) (preserve : Bool) : Option (List α) :=
  (endRaw o l s preserve).map (chainUpdate o)

/-- `set_start_and_end_on`, curve.py:547-578. -/
noncomputable def chainSetBoth (l : List α) (s0 s1 : ℝ) (preserve : Bool) : Option (List α) :=
  ((startRaw o l s0 preserve).bind fun l' => endRaw o l' s1 preserve).map (chainUpdate o)

/-- `cut`, curve.py:629-639 (the final `update_lengths` calls repeat the ones already done). -/
noncomputable def chainCut (l : List α) (s : ℝ) (preserve : Bool) : Option (List α × List α) :=
  (chainSetStart o l s preserve).bind fun b => (chainSetEnd o l s preserve).map fun a =>
    (chainUpdate o a, chainUpdate o b)

/-- `CurveChain(*curves, active)`, curve.py:350-353. -/
def Chain.make (l : List α) (active : Bool) : Chain α := ⟨chainUpdate o l, active⟩

/-- The operations of a chain as a member of another chain: `active` curve.py:361-368. -/
noncomputable def chainOps : CurveOps (Chain α) where
  active c := c.flag && c.curves.any o.active
  length c := chainLen o c.curves
  eval c s := chainEval o c.curves s
  setStart c s := (chainSetStart o c.curves s false).map fun l => { c with curves := l }
  setEnd c s := (chainSetEnd o c.curves s false).map fun l => { c with curves := l }
  setActive b c := { c with flag := b }
  updateLengths c := { c with curves := chainUpdate o c.curves }

/-- Members of two sorts in one list. -/
def sumOps {β : Type} (o' : CurveOps β) : CurveOps (α ⊕ β) where
  active := Sum.elim o.active o'.active
  length := Sum.elim o.length o'.length
  eval := Sum.elim o.eval o'.eval
  setStart := Sum.elim (fun a s => (o.setStart a s).map .inl) fun b s => (o'.setStart b s).map .inr
  setEnd := Sum.elim (fun a s => (o.setEnd a s).map .inl) fun b s => (o'.setEnd b s).map .inr
  setActive f := Sum.elim (fun a => .inl (o.setActive f a)) fun b => .inr (o'.setActive f b)
  updateLengths := Sum.elim (fun a => .inl (o.updateLengths a)) fun b => .inr (o'.updateLengths b)

end

/-! ### List operations -/

/-- An entry of the Python list `curves`: a curve, or the empty list object that `__delitem__`
stores. -/
inductive Slot (α : Type)
  | curve (a : α)
  | emptyList

/-- `__delitem__`, curve.py:506-507: stores `[]` at the index. -/
def delItem {α : Type} (l : List (Slot α)) (i : ℕ) : Option (List (Slot α)) :=
  if i < l.length then some (l.set i .emptyList) else none

/-- Reading the chain's members: every property of the chain reads `curve.active` of all members, which
raises `AttributeError` on a list object. -/
def readCurves {α : Type} (l : List (Slot α)) : Option (List α) :=
  l.mapM fun x => match x with
    | .curve a => some a
    | .emptyList => none

/-- Evaluation of such a chain. -/
noncomputable def slotEval {α : Type} (o : CurveOps α) (l : List (Slot α)) (s : ℝ) : Option V3 :=
  (readCurves l).bind fun c => chainEval o c s

/-- `append`, curve.py:522-524. -/
def chainAppend {α : Type} (o : CurveOps α) (l : List α) (a : α) : List α := chainUpdate o (l ++ [a])

/-- `extend`, curve.py:526-528. -/
def chainExtend {α : Type} (o : CurveOps α) (l m : List α) : List α := chainUpdate o (l ++ m)

/-- `insert`, curve.py:530-532, for an index `0 … len`. -/
def chainInsert {α : Type} (o : CurveOps α) (l : List α) (i : ℕ) (a : α) : List α :=
  chainUpdate o (l.take i ++ a :: l.drop i)

/-- `pop`, curve.py:534-537, for a non-negative index: the removed curve and the new list. -/
def chainPop {α : Type} (o : CurveOps α) (l : List α) (i : ℕ) : Option (α × List α) :=
  l[i]?.map fun a => (a, chainUpdate o (l.eraseIdx i))

/-- `reverse` of a chain of curves, curve.py:542-545: the new list, and the returned object (nothing:
the method has no `return`). -/
def chainReverse (l : List Curve) : List Curve × Option (List Curve) :=
  (l.reverse.map Curve.reverse, none)

end Verif
