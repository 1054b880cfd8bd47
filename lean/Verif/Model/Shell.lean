import Verif.Model.ProfileNurb
import Verif.Spec.Shell

/-!
# Model of the faces of a cylindrical gear

`GearBuilder.__init__` for cone angle 0, `gen_side_surfaces`, `gen_outside_ring` and `generate_cover`
(`/repo/src/gggears/gggears_build123d.py:68-90, 195-235, 237-306`) with `generate_surface_points_sides`
(`/repo/src/gggears/gggears_convert.py:110-166`). A face is kept as its control points and weights, or as the list of its
border curves. `N z` is the NURBS version of the slice at height `z` (`gearprofile_to_nurb` of
`GearRefProfileExtended.from_refprofile` of `curve_gen_at_z(z)`), `trf z` its transform. Making the solid from the faces is
left to the CAD kernel.
-/

namespace Verif

open Spec

/-- One row of `points_combined`, gggears_convert.py:127-131: points and weights of a slice, four numbers per column,
flattened. -/
noncomputable def packRow (n : ℕ) (cs : List (Nurb V3)) (i : Fin (4 * n)) : ℝ :=
  if (i : ℕ) % 4 = 3 then (flatWeights cs).getD ((i : ℕ) / 4) 0
  else (flatPoints cs).getD ((i : ℕ) / 4) 0 (Fin.ofNat 3 ((i : ℕ) % 4))

/-- The points of one row of the allocated array, gggears_convert.py:176-183 and 213-217 (`[:, :, :3]`). -/
def rowPoints (n : ℕ) (row : Fin (4 * n) → ℝ) : List V3 :=
  List.ofFn fun c : Fin n => ![row ⟨4 * c, by omega⟩, row ⟨4 * c + 1, by omega⟩, row ⟨4 * c + 2, by omega⟩]

/-- The weights of one row of the allocated array (`[:, :, 3]`). -/
def rowWeights (n : ℕ) (row : Fin (4 * n) → ℝ) : List ℝ :=
  List.ofFn fun c : Fin n => row ⟨4 * c + 3, by omega⟩

/-- Rows of control points and of weights: the argument of `make_bezier_surface`. -/
structure BezierFace where
  points : List (List V3)
  weights : List (List ℝ)

/-- `face.rotate(Axis.Z, angle)`. -/
noncomputable def BezierFace.turn (a : ℝ) (F : BezierFace) : BezierFace :=
  ⟨F.points.map (List.map (app (Rz a))), F.weights⟩

/-- The four sides of a Bezier surface: the first and the last row and the first and the last column of control data. -/
def BezierFace.borders (F : BezierFace) : List Border :=
  [.bezier (F.points.headD []) (F.weights.headD []),
   .bezier (F.points.getLastD []) (F.weights.getLastD []),
   .bezier (F.points.map fun r => r.headD 0) (F.weights.map fun r => r.headD 0),
   .bezier (F.points.map fun r => r.getLastD 0) (F.weights.map fun r => r.getLastD 0)]

section
variable (N : ℝ → NurbProfileExt) (z : ℕ → ℝ) (m : ℕ) (ratio : ℝ) (x : ℕ → ℕ → ℝ)

/-- The number of columns of `points_asd` of section `ii`, gggears_convert.py:127. -/
def sideWidth (ii : ℕ) : ℕ := (flatPoints (N (z ii)).sideMembers).length

/-- The rows of `side_surf_data[ii]`. `x ii` is what the optimiser returned. -/
noncomputable def sideData (ii : ℕ) : List (Fin (4 * sideWidth N z ii) → ℝ) :=
  sideRows (fun h => packRow (sideWidth N z ii) (N h).sideMembers) z m ratio x ii

/-- `side_surf_data[ii].get_patches()`, gggears_convert.py:277-284, with the knots of the first slice, cut with `[:-3]`,
gggears_build123d.py:203-205. -/
noncomputable def sideFaces (ii : ℕ) : List BezierFace :=
  let ks := knots (N (z ii)).sideMembers
  let pts := (sideData N z m ratio x ii).map (rowPoints (sideWidth N z ii))
  let ws := (sideData N z m ratio x ii).map (rowWeights (sideWidth N z ii))
  let patches := (List.range (ks.length - 1)).map fun ui =>
    (⟨pts.map fun r => slice r (ks.getD ui 0) (ks.getD (ui + 1) 0 + 1),
      ws.map fun r => slice r (ks.getD ui 0) (ks.getD (ui + 1) 0 + 1)⟩ : BezierFace)
  patches.take (patches.length - 3)

/-- `gen_side_surfaces`, gggears_build123d.py:195-221. `teeth` is `num_teeth_act`, `sections` is `len(z_vals) - 1`. -/
noncomputable def sideSurfaces (pitch : ℝ) (teeth sections : ℕ) : List BezierFace :=
  (List.range teeth).flatMap fun (j : ℕ) => (List.range sections).flatMap fun ii =>
    (sideFaces N z m ratio x ii).map (BezierFace.turn (pitch * j))

end

/-- What an optimiser that only moves along gradients can reach from `x0`: any multiple of the gradient at a point reached
before may be added. `scipy.optimize.minimize` without bounds is BFGS started with the identity matrix, whose steps are
combinations of the gradients seen so far. -/
inductive Descent (cost : (ℕ → ℝ) → Option (ℝ × (ℕ → ℝ))) (x0 : ℕ → ℝ) : (ℕ → ℝ) → Prop
  | start : Descent cost x0 x0
  | step {x y J : ℕ → ℝ} {c : ℝ} (r : ℝ) : Descent cost x0 x → Descent cost x0 y → cost y = some (c, J) →
      Descent cost x0 (x + r • J)

section
variable (q m o : ℕ) (T : ℕ → Fin q → ℝ)

/-- `init_guess_x` of `solve_surface_fast`, gggears_convert.py:251-252: the Bezier curve with the targets as control points,
evaluated at evenly spaced parameters. -/
noncomputable def surfInitFast : ℕ → ℝ :=
  surfPack q m o (fun k j => if h : j < q then
    ((bezierdc (linspaceAt 0 1 m k) (List.ofFn fun i : Fin o => T i)).getD 0) ⟨j, h⟩ else 0) fun _ => 0

/-- `init_guess_x` of `solve_surface`, gggears_convert.py:204-208, given the vector returned by the fast solver
(gggears_convert.py:146-158). -/
noncomputable def surfInit (y : ℕ → ℝ) : ℕ → ℝ :=
  surfPack q m o (fun k j => if h : j < q then surfPoints q m o T y k ⟨j, h⟩ else 0) (surfTFast o)

/-- `generate_surface_points_sides`, gggears_convert.py:144-158: `x` is what the second solver returns, started from the
result of the first one. -/
def SurfSolution (x : ℕ → ℝ) : Prop :=
  ∃ y, Descent (surfCostFast q m o T) (surfInitFast q m o T) y ∧ Descent (surfCost q m o T) (surfInit q m o T y) x

end

/-- The borders of `generate_cover` for cylindrical gears, gggears_build123d.py:281-306: the edges of all teeth and, for a
ring gear, the outer circle at the height of the slice. `ring` is `r_o` of a ring gear. -/
noncomputable def coverBorders (cont : List (Nurb V3) → Bool) (S : NurbProfileExt) (trf : GearTransform) (pitch : ℝ)
    (teeth : ℕ) (ring : Option ℝ) : List Border :=
  ((List.range teeth).flatMap fun (j : ℕ) => (coverEdges cont S.base).map fun e =>
    Border.bezier (e.1.map (app (Rz (pitch * j)))) e.2) ++
  (ring.toList.map fun r => Border.circle r (trf.center 2))

/-- The borders of all faces handed to `Shell`, gggears_build123d.py:77-90: side surfaces, outside ring (223-235), bottom
and top cover. The seam of the swept ring with itself is left out. -/
noncomputable def gearFaces (N : ℝ → NurbProfileExt) (trf : ℝ → GearTransform) (z : ℕ → ℝ) (m : ℕ) (ratio : ℝ)
    (x : ℕ → ℕ → ℝ) (cont : List (Nurb V3) → Bool) (pitch : ℝ) (teeth sections : ℕ) (ring : Option ℝ) :
    List (List Border) :=
  (sideSurfaces N z m ratio x pitch teeth sections).map BezierFace.borders ++
  (ring.toList.map fun r => [Border.circle r (z 0), Border.circle r (z sections)]) ++
  [coverBorders cont (N (z 0)) (trf (z 0)) pitch teeth ring,
   coverBorders cont (N (z sections)) (trf (z sections)) pitch teeth ring]

end Verif
