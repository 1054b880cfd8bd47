import Verif.Model.Wrapper

/-!
# Model of the CAD front end, as far as it touches gears

`/repo/src/gggears/gggears_build123d.py`. The CAD kernel is not modelled: solids are the lists of tooth positions
they cover, and every call of the kernel may raise.
-/

namespace Verif

open Real

/-- `int(np.round(x))`: to the nearest integer, ties to the even one. -/
noncomputable def npRound (x : ℝ) : ℤ :=
  if Int.fract x < 1 / 2 then ⌊x⌋ else if 1 / 2 < Int.fract x then ⌊x⌋ + 1 else if Even ⌊x⌋ then ⌊x⌋ else ⌊x⌋ + 1

/-- The loop of `generate_boundary_edges`, gggears_build123d.py:533-541: the placements at which the profile is
emitted, and the transform object afterwards. -/
noncomputable def boundaryLoop (pitchAngle : ℝ) : ℕ → GearTransform → List GearTransform × GearTransform
  | 0, t => ([], t)
  | n + 1, t =>
    let r := boundaryLoop pitchAngle n { t with angle := t.angle + pitchAngle }
    (t :: r.1, r.2)

/-- `generate_boundary_edges(nurbprofile, transform)` with the default range, gggears_build123d.py:519-546; only the
pitch angle of the profile is kept. `range` of a negative number is empty. -/
noncomputable def boundaryEdges (pitchAngle : ℝ) (t : GearTransform) : List GearTransform × GearTransform :=
  boundaryLoop pitchAngle (npRound (2 * π / pitchAngle)).toNat t

/-- `build_boundary_wire`, gggears_wrapper.py:724-740 and 1911-1927: the placements of the tooth copies and the gear
afterwards. `generate_boundary_edges` gets `gearcore.transform` itself. The profile at any height has the pitch angle
of the recipe (gggears_core.py:648). -/
noncomputable def WGear.buildBoundaryWire (g : WGear) : List GearTransform × WGear :=
  let r := boundaryEdges g.core.recipe.pitchAngle g.core.transform
  (r.1, { g with core := { g.core with transform := r.2 } })

/-- `shape_dict[k]` of `GearBuilder_old`, gggears_build123d.py:379-402: the tooth positions (multiples of the pitch
angle) covered by the `k`-th fused shape. -/
def shapeDict : ℕ → List ℕ
  | 0 => [0]
  | k + 1 => shapeDict k ++ (shapeDict k).map (· + 2 ^ k)

/-- The loop of `GearBuilder_old` over the binary digits of the tooth count, gggears_build123d.py:389-411: after `k`
rounds, the positions covered by `solid2_to_fuse` and `angle_idx`. `bin(n)[2:][-(k + 1)]` is the bit `k` of `n`. -/
def fuseLoop (n : ℕ) : ℕ → List ℕ × ℕ
  | 0 => ([], 0)
  | k + 1 =>
    let r := fuseLoop n k
    if n.testBit k then (r.1 ++ (shapeDict k).map (· + r.2), r.2 + 2 ^ k) else r

/-- The tooth positions covered by the solid of `GearBuilder_old` for `n ≥ 1` teeth; `len(bin(n)[2:])` is
`n.size`. -/
def fusedTeeth (n : ℕ) : List ℕ := (fuseLoop n n.size).1

/-- Where the construction of a `GearBuilder` raises. -/
inductive BuildFailure
  | inSurfaces  -- in `GearToNurbs.__init__`
  | later       -- in a later call
  deriving DecidableEq

/-- `GearBuilder(gear)`, gggears_build123d.py:59-135: the sections of the gear afterwards and whether a builder was
made. Nothing else of the gear is written. The default of `side_surface_extension_ratio` is 0.01. -/
noncomputable def gearBuilder (coneAngle ratio : ℝ) (failure : Option BuildFailure) (zs : List ℝ) : List ℝ × Bool :=
  if coneAngle = 0 then (zs, failure = none)
  else
    let save := zs
    let zdiff := zs.getLastD 0 - zs.headD 0
    let zs1 := zs.set (zs.length - 1) (zs.getLastD 0 + ratio * zdiff)
    let zs2 := zs1.set 0 (zs1.headD 0 - ratio * zdiff)
    match failure with
    | some .inSurfaces => (zs2, false)
    | some .later => (save, false)
    | none => (save, true)

/-- A sequence of build attempts. -/
noncomputable def buildAttempts (coneAngle ratio : ℝ) : List (Option BuildFailure) → List ℝ → List ℝ
  | [], zs => zs
  | f :: fs, zs => buildAttempts coneAngle ratio fs (gearBuilder coneAngle ratio f zs).1

end Verif
