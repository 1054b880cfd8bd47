import Verif.Model.Fit
import Verif.Model.Nurbs

/-!
# Model of the side surfaces of a gear

`GearToNurbs.generate_gear_stacks`, `generate_surface_points_sides` and `NurbSurfaceData.get_patches`
(`/repo/src/gggears/gggears_convert.py:91-166` and `265-284`). The NURB profile at height `z` is a
parameter `prof`: a row of `q` numbers, the control points and weights flattened. What the optimiser
returns for section `ii` is an arbitrary vector `x ii`.
-/

namespace Verif

/-- `np.linspace(a, b, n)[k]`. -/
noncomputable def linspaceAt (a b : ℝ) (n k : ℕ) : ℝ := a + (b - a) * ((k : ℝ) / ((n : ℝ) - 1))

section
variable {q : ℕ} (prof : ℝ → Fin q → ℝ) (z : ℕ → ℝ) (m : ℕ) (ratio : ℝ) (x : ℕ → ℕ → ℝ)

/-- `points_combined` of section `ii`, gggears_convert.py:97-107 and 124-130: row `k` is the profile at the
`k`-th of `n_z_tweens` heights between `z_vals[ii]` and `z_vals[ii + 1]`. -/
noncomputable def sideTargets (ii k : ℕ) : Fin q → ℝ :=
  prof (linspaceAt (z ii) (z (ii + 1)) (nZTweens m ratio).toNat k)

/-- The rows of `NurbSurfaceData` of section `ii`, gggears_convert.py:132-164: the targets themselves if
there are two sections, else the rows allocated from the optimiser's vector. -/
noncomputable def sideRows (ii : ℕ) : List (Fin q → ℝ) :=
  let o := (nZTweens m ratio).toNat
  if o = 2 then List.ofFn fun k : Fin 2 => sideTargets prof z m ratio ii k
  else List.ofFn fun k : Fin m => surfPoints q m o (sideTargets prof z m ratio ii) (x ii) k

end

/-- `get_patches`, gggears_convert.py:277-284, for one row of control points or weights. -/
def patchesOf {α : Type*} (row : List α) (ks : List ℕ) : List (List α) :=
  (List.range (ks.length - 1)).map fun ui => slice row (ks.getD ui 0) (ks.getD (ui + 1) 0 + 1)

end Verif
