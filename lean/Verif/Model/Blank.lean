import Verif.Model.Profile
import Verif.Model.Wrapper
import Mathlib.MeasureTheory.Measure.Lebesgue.Basic
import Mathlib.Topology.Connected.Basic

/-!
# Model of the blank of a conical gear

`GearBuilder` for gears with a cone angle, `/repo/src/gggears/gggears_build123d.py:89-133`, and `gen_ref_solid`, 137-193.
Solids of the CAD kernel are closed sets of points. The kernel's boolean operations are the set operations, with the
closure taken where a difference leaves a boundary out. The side surfaces that cut the blank are an argument.
-/

namespace Verif

open Real MeasureTheory

/-- `Solid.make_sphere(radius).rotate(Axis.Z, angle).translate(c)`, gggears_build123d.py:155-164: a full ball, so that
the rotation about its own centre does nothing. -/
def ballSolid (c : V3) (R : ℝ) : Set V3 := {p | norm3 (p - c) ≤ R}

/-- `Solid.make_cone(r0, r1, h, plane=Plane.XY.offset(z))`, gggears_build123d.py:173-175. -/
def frustum (r0 r1 h z : ℝ) : Set V3 :=
  {p | ∃ s, 0 ≤ s ∧ s ≤ 1 ∧ p 2 = z + s * h ∧ p 0 ^ 2 + p 1 ^ 2 ≤ (r0 + s * (r1 - r0)) ^ 2}

/-- The face of this solid between its two discs, `faces().sort_by(Axis.Z)[1]`, gggears_build123d.py:181. -/
def frustumSide (r0 r1 h z : ℝ) : Set V3 :=
  {p | ∃ s, 0 ≤ s ∧ s ≤ 1 ∧ p 2 = z + s * h ∧ p 0 ^ 2 + p 1 ^ 2 = (r0 + s * (r1 - r0)) ^ 2}

/-- The operator `-` for solids. -/
def cutSolid (A B : Set V3) : Set V3 := closure (A \ B)

/-- `solid.split(tool, keep=Keep.ALL)`: the list `l` has the parts into which the tool divides the solid, in any
order. -/
structure IsSplit (S tool : Set V3) (l : List (Set V3)) : Prop where
  nodup : l.Nodup
  mem : ∀ P, P ∈ l ↔ ∃ x ∈ interior S \ tool, P = closure (connectedComponentIn (interior S \ tool) x)

open Classical in
/-- `sorted(l, key=key)`; stable like Python's. -/
noncomputable def sortOn {β : Type} [LinearOrder β] (key : Set V3 → β) (l : List (Set V3)) : List (Set V3) :=
  l.insertionSort fun a b => key a ≤ key b

/-- `x.bounding_box().center().Z`. -/
noncomputable def boxCentreZ (S : Set V3) : ℝ :=
  (sInf ((fun p : V3 => p 2) '' S) + sSup ((fun p : V3 => p 2) '' S)) / 2

/-- The numbers `gen_ref_solid` works with, gggears_build123d.py:138-172: centres and radii of the spheres of the lowest
and the highest slice, and centres and radii of their outside rings. -/
structure BlankData where
  center0 : V3
  R0 : ℝ
  center1 : V3
  R1 : ℝ
  ringCenter0 : V3
  ringRadius0 : ℝ
  ringCenter1 : V3
  ringRadius1 : ℝ

/-- How these numbers come from a gear, gggears_build123d.py:138-172; `P0` and `P1` are the profiles of the two slices.
The placement of the gear is left out (line 142). `none`: the outside ring is not an arc. -/
noncomputable def GearCore.blankData {α : Type} (c : GearCore) (P0 P1 : RefProfile α) : Option BlankData :=
  let z0 := c.zVals.headD 0
  let z1 := c.zVals.getLastD 0
  let g : GearCore := { c with transform := GearTransform.default }
  match P0.ro.arcCenter, P0.ro.arcRadius, P1.ro.arcCenter, P1.ro.arcRadius with
  | some m0, some r0, some m1, some r1 =>
    some { center0 := (g.coneAtZ z0).center
           R0 := |(g.coneAtZ z0).R|
           center1 := (g.coneAtZ z1).center
           R1 := |(g.coneAtZ z1).R|
           ringCenter0 := applyGearTransform m0 (c.recipeTransform z0)
           ringRadius0 := r0 * (c.recipeTransform z0).scale
           ringCenter1 := applyGearTransform m1 (c.recipeTransform z1)
           ringRadius1 := r1 * (c.recipeTransform z1).scale }
  | _, _, _, _ => none

/-- `(sph1 + sph2) - sph1.intersect(sph2)`, gggears_build123d.py:165. The result is one solid, so that the choice
among several in lines 177-178 is not needed. -/
def BlankData.shell (d : BlankData) : Set V3 :=
  cutSolid (ballSolid d.center0 d.R0 ∪ ballSolid d.center1 d.R1) (ballSolid d.center0 d.R0 ∩ ballSolid d.center1 d.R1)

/-- `h_o`, gggears_build123d.py:170. -/
def BlankData.ringHeight (d : BlankData) : ℝ := d.ringCenter1 2 - d.ringCenter0 2

/-- The tool of the split in line 183, gggears_build123d.py:173-183. -/
def BlankData.ringFace (d : BlankData) : Set V3 :=
  frustumSide d.ringRadius0 d.ringRadius1 d.ringHeight (d.ringCenter0 2)

/-- `gen_ref_solid()`, gggears_build123d.py:180-193. `parts` is the result of the split in line 183; it is read for
ring gears only. The split by a plane in line 191 keeps the part above it. `none`: the list is empty. -/
noncomputable def BlankData.refSolid (d : BlankData) (insideTeeth : Bool) (parts : List (Set V3)) : Option (Set V3) :=
  if insideTeeth then (sortOn (fun S => volume S) parts)[0]?
  else some ((d.shell ∪ frustum d.ringRadius0 d.ringRadius1 d.ringHeight (d.ringCenter0 2)) ∩
    {p | d.ringCenter0 2 ≤ p 2})

/-- The choice among the parts of the cut blank, gggears_build123d.py:117-132. `none`: `RuntimeError`. -/
noncomputable def pickPart (insideTeeth : Bool) (parts : List (Set V3)) : Option (Set V3) :=
  if parts.length < 2 then none
  else (sortOn boxCentreZ parts)[if insideTeeth then 1 else 0]?

end Verif
