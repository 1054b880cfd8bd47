import Verif.Model.Recipe

/-! # What a recipe means: trees of data and functions -/

namespace Verif.Spec

/-- Attributes of an object as a tree, without addresses: leaves and nested objects. -/
inductive Fields (α : Type) where
  | nil
  | leaf (k : String) (l : Leaf α) (rest : Fields α)
  | node (k : String) (recipe : Bool) (cls : String) (sub rest : Fields α)

/-- The attributes `fs` in the heap `H` are the tree `F`. -/
inductive Den {α : Type} (H : Heap α) : List (String × HVal α) → Fields α → Prop
  | nil : Den H [] .nil
  | leaf {k l fs F} : Den H fs F → Den H ((k, .leaf l) :: fs) (.leaf k l F)
  | ref {k a r S fs F} : H[a]? = some r → Den H r.fields S → Den H fs F →
      Den H ((k, .ref a) :: fs) (.node k r.recipe r.cls S F)

/-- The object at address `a` has class `cls` and attributes `F`. -/
def Obj {α : Type} (H : Heap α) (a : ℕ) (recipe : Bool) (cls : String) (F : Fields α) : Prop :=
  ∃ r, H[a]? = some r ∧ r.recipe = recipe ∧ r.cls = cls ∧ Den H r.fields F

/-- `G` is `F` with every function, at any depth, replaced by the data it returns at `z`. -/
inductive ValueAt {α : Type} (z : ℝ) : Fields α → Fields α → Prop
  | nil : ValueAt z .nil .nil
  | data {k a F G} : ValueAt z F G → ValueAt z (.leaf k (.data a) F) (.leaf k (.data a) G)
  | fn {k f a F G} : f z = some (.data a) → ValueAt z F G → ValueAt z (.leaf k (.fn f) F) (.leaf k (.data a) G)
  | node {k b c S S' F G} : ValueAt z S S' → ValueAt z F G → ValueAt z (.node k b c S F) (.node k b c S' G)

/-- No functions at any depth. -/
def Fields.Constant {α : Type} : Fields α → Prop
  | .nil => True
  | .leaf _ (.data _) F => F.Constant
  | .leaf _ (.fn _) _ => False
  | .node _ _ _ S F => S.Constant ∧ F.Constant

/-- Functions occur only as attributes of recipes, and the functions return data at `z`. -/
def Fields.Proper {α : Type} (z : ℝ) : Fields α → Prop
  | .nil => True
  | .leaf _ (.data _) F => F.Proper z
  | .leaf _ (.fn f) F => (∃ a, f z = some (.data a)) ∧ F.Proper z
  | .node _ recipe _ S F => (if recipe then S.Proper z else S.Constant) ∧ F.Proper z

/-- The attribute names. -/
def Fields.keys {α : Type} : Fields α → List String
  | .nil => []
  | .leaf k _ F => k :: F.keys
  | .node k _ _ _ F => k :: F.keys

/-- Every recipe only has attributes that are parameters of its constructor. -/
def Fields.Fits {α : Type} (params : String → List String) : Fields α → Prop
  | .nil => True
  | .leaf _ _ F => F.Fits params
  | .node _ recipe cls S F => (recipe = true → (∀ k ∈ S.keys, k ∈ params cls) ∧ S.Fits params) ∧ F.Fits params

end Verif.Spec
