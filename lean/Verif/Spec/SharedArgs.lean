import Verif.Model.SharedArgs

/-! # Specification: gears that do not share objects -/

namespace Verif.Spec

/-- No argument of the statement is in use by a gear or recipe already. Cones may be used again, and so may the generator that
is given to `swap_tooth_generator`. -/
def Unused (H : CoreHeap) : CoreAct → Prop
  | .makeRecipe _ g => ∀ r ∈ H.recipes, r.gen ≠ g
  | .makeGear _ _ _ gen recipe transform _ =>
    (recipe = none → ∀ i ∈ gen, ∀ r ∈ H.recipes, r.gen ≠ i) ∧ (∀ i ∈ recipe, ∀ g ∈ H.gears, g.recipe ≠ i) ∧
      ∀ i ∈ transform, ∀ g ∈ H.gears, g.transform ≠ i
  | _ => True

/-- A program from the start, whose statements have unused arguments. -/
inductive Program : List CoreAct → CoreHeap → Prop
  | nil : Program [] .empty
  | snoc {xs H x H'} : Program xs H → Unused H x → H.step x = some H' → Program (xs ++ [x]) H'

/-- The gear whose method is called. -/
def target : CoreAct → Option ℕ
  | .swap a _ => some a
  | .mesh a _ _ => some a
  | .center a _ => some a
  | _ => none

/-- The tooth flank fits the gear at every height: it is made for the cone and the pitch circle of this height and for a quarter
of the pitch angle of the gear. -/
def Fits (s : GearSight) : Prop :=
  ∀ z c, s.core.slice z = some c → ∃ f, s.flank z = some f ∧ f.pitchRadius = c.baseRadius ∧
    f.coneAngle = some c.coneAngle ∧ 4 * f.pitchIntersectAngle = 2 * Real.pi / s.core.tooth.numTeeth

/-- The statement makes no gear from a recipe of the user's own and no plain `GearToothGenerator`. -/
def Plain : CoreAct → Prop
  | .makeRecipe _ _ => False
  | .makeGen G => G.cls ≠ .flat
  | .makeGear _ _ _ _ recipe _ _ => recipe = none
  | _ => True

end Verif.Spec
