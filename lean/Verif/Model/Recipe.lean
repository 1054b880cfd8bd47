import Mathlib.Data.Real.Basic

/-! # Recipes: data with parameters that are functions of the height

gggears_base_classes.py:14-44 (`eval_callables`, `ZFunctionMixin.__call__`). Objects live in a heap, so that
writes to shared objects are visible. -/

namespace Verif

/-- A value that is not a record: plain data (number, array, `None`) or a callable that is not a recipe. Calling
it with a height may raise (`none`), or return data or another callable. Callables that return new records are
left out: no recipe in the package has one. -/
inductive Leaf (α : Type) where
  | data (a : α)
  | fn (f : ℝ → Option (Leaf α))

/-- A Python value: a leaf or a reference to an object in the heap. -/
inductive HVal (α : Type) where
  | leaf (l : Leaf α)
  | ref (a : ℕ)

/-- An object: its class, whether the class inherits from `ZFunctionMixin` (then it is callable with a height)
and its attributes. Lists, dicts and plain dataclasses such as `ConicData` have `recipe = false`. -/
structure Rec (α : Type) where
  recipe : Bool
  cls : String
  fields : List (String × HVal α)

/-- The heap: the object at address `a` is the `a`-th entry; new objects are appended. -/
abbrev Heap (α : Type) := List (Rec α)

/-- `copy.deepcopy` of the values of a dict, gggears_base_classes.py:38. Objects are copied recursively, leaves
are shared (deepcopy returns functions themselves). The memo table, which keeps two references to one object
together, is left out: nothing in the package compares identities. -/
inductive Copy {α : Type} : Heap α → List (String × HVal α) → Heap α → List (String × HVal α) → Prop
  | nil (H) : Copy H [] H []
  | leaf {H fs H' fs' k l} : Copy H fs H' fs' → Copy H ((k, .leaf l) :: fs) H' ((k, .leaf l) :: fs')
  | ref {H k a r H1 rf fs H2 fs'} : H[a]? = some r → Copy H r.fields H1 rf →
      Copy (H1 ++ [{ r with fields := rf }]) fs H2 fs' →
      Copy H ((k, .ref a) :: fs) H2 ((k, .ref H1.length) :: fs')

/-- The loop of `eval_callables(indict, z)`, gggears_base_classes.py:22-26, from the `i`-th entry of the dict at
address `d`. Only the entries of the dict itself are inspected; they are overwritten in place. Calling a recipe is
`ZFunctionMixin.__call__`, gggears_base_classes.py:36-44: deep copy of the attributes into a new dict, the same
loop on this dict, and a new object of the same class whose constructor accepts only its own parameters
`params cls` (the constructors of the recipe classes store every argument under its name). -/
inductive EvalLoop {α : Type} (params : String → List String) (z : ℝ) : Heap α → ℕ → ℕ → Heap α → Prop
  | done {H d i r} : H[d]? = some r → r.fields.length ≤ i → EvalLoop params z H d i H
  | data {H d i r k a H'} : H[d]? = some r → r.fields[i]? = some (k, .leaf (.data a)) →
      EvalLoop params z H d (i + 1) H' → EvalLoop params z H d i H'
  | fn {H d i r k f l H'} : H[d]? = some r → r.fields[i]? = some (k, .leaf (.fn f)) → f z = some l →
      EvalLoop params z (H.set d { r with fields := r.fields.set i (k, .leaf l) }) d (i + 1) H' →
      EvalLoop params z H d i H'
  | plain {H d i r k c q H'} : H[d]? = some r → r.fields[i]? = some (k, .ref c) → H[c]? = some q →
      q.recipe = false → EvalLoop params z H d (i + 1) H' → EvalLoop params z H d i H'
  | recipe {H d i r k c q H1 fs H2 D r' H'} : H[d]? = some r → r.fields[i]? = some (k, .ref c) →
      H[c]? = some q → q.recipe = true → Copy H q.fields H1 fs →
      EvalLoop params z (H1 ++ [⟨false, "dict", fs⟩]) H1.length 0 H2 → H2[H1.length]? = some D →
      (∀ e ∈ D.fields, e.1 ∈ params q.cls) →
      (H2 ++ [{ q with fields := D.fields }])[d]? = some r' →
      EvalLoop params z ((H2 ++ [{ q with fields := D.fields }]).set d
        { r' with fields := r'.fields.set i (k, .ref H2.length) }) d (i + 1) H' →
      EvalLoop params z H d i H'

/-- `recipe(z)` for the object at address `a`: the new heap and the address of the result,
gggears_base_classes.py:36-44. -/
def CallRecipe {α : Type} (params : String → List String) (H : Heap α) (a : ℕ) (z : ℝ) (H' : Heap α) (b : ℕ) :
    Prop :=
  ∃ q H1 fs H2 D, H[a]? = some q ∧ q.recipe = true ∧ Copy H q.fields H1 fs ∧
    EvalLoop params z (H1 ++ [⟨false, "dict", fs⟩]) H1.length 0 H2 ∧ H2[H1.length]? = some D ∧
    (∀ e ∈ D.fields, e.1 ∈ params q.cls) ∧ H' = H2 ++ [{ q with fields := D.fields }] ∧ b = H2.length

end Verif
