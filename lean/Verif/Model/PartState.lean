import Verif.Model.Mesh
import Mathlib.Logic.Function.Basic

/-!
# Model of `build_part` and `update_part`

`/repo/src/gggears/gggears_wrapper.py`, lines 594-639 (`InvoluteGear`), 1329-1353 (`HelicalRingGear`), 1756-1801
(`CycloidGear`), and the end of `GearBuilder.__init__`, `/repo/src/gggears/gggears_build123d.py:130-133`. What the kernel
makes of the tooth surfaces is a parameter.
-/

namespace Verif

/-- The attributes `solid` and `part_transformed` of a `GearBuilder`, as sets of points. -/
structure BuiltPart where
  solid : Set V3
  placed : Set V3

/-- The gears of a script and, for each, the attribute `builder` (`none` before the first build, gggears_wrapper.py:432 and
1656). -/
structure PartWorld where
  gears : List GearObj
  built : ℕ → Option BuiltPart

/-- The gear with the identity as its transformation: all that the solid depends on. The profiles do not contain the
placement (gggears_core.py:599-646), the blank is made with `gearcopy.transform = GearTransform()`
(gggears_build123d.py:141-142). -/
def GearObj.atHome (g : GearObj) : GearObj := { g with transform := ⟨⟨0, 1, 1⟩, 0⟩ }

/-- `apply_transform_part(solid, transform)`, gggears_build123d.py:462-466. `euler` is `as_euler("zyx", degrees=True)`. -/
noncomputable def placePart (euler : M3 → Fin 3 → ℝ) (g : GearObj) (solid : Set V3) : Set V3 :=
  applyTransformPart (euler g.transform.orientation) g.transform '' solid

/-- The calls of a script: those on the placement, `build_part(n_vert, n_points_hz)` and `update_part()`. -/
inductive PartOp
  | move (op : GearOp)
  | build (k : ℕ) (nVert nHz : Option ℕ)
  | update (k : ℕ)

/-- `build_part`, gggears_wrapper.py:594-629 with gggears_build123d.py:130-133. `solidOf nVert nHz g` is the solid the kernel
makes, `none`: an exception. -/
noncomputable def PartWorld.build (euler : M3 → Fin 3 → ℝ) (solidOf : Option ℕ → Option ℕ → GearObj → Option (Set V3))
    (w : PartWorld) (k : ℕ) (nVert nHz : Option ℕ) : Option PartWorld :=
  (w.gears[k]?).bind fun g => (solidOf nVert nHz g.atHome).map fun S =>
    { w with built := Function.update w.built k (some ⟨S, placePart euler g S⟩) }

/-- `update_part`, gggears_wrapper.py:631-639 and 1793-1801. -/
noncomputable def PartWorld.update (euler : M3 → Fin 3 → ℝ) (solidOf : Option ℕ → Option ℕ → GearObj → Option (Set V3))
    (w : PartWorld) (k : ℕ) : Option PartWorld :=
  (if (w.built k).isNone then w.build euler solidOf k none none else some w).bind fun w1 =>
    match w1.gears[k]?, w1.built k with
    | some g, some b => some { w1 with built := Function.update w1.built k (some ⟨b.solid, placePart euler g b.solid⟩) }
    | _, _ => none

/-- One call. Moving a gear does not touch any builder. -/
noncomputable def PartOp.step (solve : (ℝ → ℝ) → ℝ) (euler : M3 → Fin 3 → ℝ)
    (solidOf : Option ℕ → Option ℕ → GearObj → Option (Set V3)) (w : PartWorld) : PartOp → Option PartWorld
  | .move op => (op.step solve w.gears).map fun gs => { w with gears := gs }
  | .build k nVert nHz => w.build euler solidOf k nVert nHz
  | .update k => w.update euler solidOf k

/-- A history of calls. -/
noncomputable def runParts (solve : (ℝ → ℝ) → ℝ) (euler : M3 → Fin 3 → ℝ)
    (solidOf : Option ℕ → Option ℕ → GearObj → Option (Set V3)) (w : PartWorld) : List PartOp → Option PartWorld
  | [] => some w
  | op :: ops => (op.step solve euler solidOf w).bind fun w' => runParts solve euler solidOf w' ops

end Verif
