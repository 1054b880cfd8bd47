import Verif.Model.Wrapper
import Verif.Model.Bezier

/-!
# Model of racks

`InvoluteRack` and `HelicalRack` (`/repo/src/gggears/gggears_wrapper.py:2023-2406`) and the rack reference lines
(`/repo/src/gggears/gggears_base_classes.py:400-436`, `/repo/src/gggears/gggears_core.py:170-189`).
-/

namespace Verif

open Real

/-- `InvoluteRack`, the attributes that determine the built part up to fillets. -/
structure Rack where
  numTeeth : ℕ
  height : ℝ
  pressureAngle : ℝ
  position : V3
  orientation : M3
  offset : ℝ
  module_ : ℝ
  addendum : ℝ
  dedendum : ℝ
  betaAngle : ℝ
  backlash : ℝ

/-- `HelicalRack(...)` without herringbone, gggears_wrapper.py:2326-2361, from the data for the normal plane. -/
noncomputable def helicalRack (p : Rack) : Rack :=
  { p with
    module_ := p.module_ / cos p.betaAngle
    addendum := p.addendum * cos p.betaAngle
    dedendum := p.dedendum * cos p.betaAngle
    pressureAngle := arctan (tan p.pressureAngle / cos p.betaAngle) }

/-- `project_vector_to_plane(v, plane_normal)`, function_generators.py:39-40. -/
def projectVectorToPlane (v n : V3) : V3 := v - dot v n • n

/-- `InvoluteRack.mesh_to(gear, target_dir, offset)`, gggears_wrapper.py:2217-2251. `none`: NaN, for a direction along
the axis of the gear. -/
noncomputable def Rack.meshTo (self : Rack) (gear : WGear) (targetDir : V3) (offset : ℝ) : Option Rack :=
  let t := gear.core.transform
  let angleOfTarget := angleOfVectorInXY (Matrix.vecMul targetDir t.orientation)
  let phase := Int.fract ((angleOfTarget - gear.angle) / gear.pitchAngle)
  match normalizeVector (projectVectorToPlane targetDir t.zAxis) with
  | none => none
  | some proj => some
    { self with
      offset := Int.fract phase - 1 / 2 + offset
      orientation := t.orientation * Rz (π + angleOfTarget)
      position := t.center + (gear.pitchRadius + gear.input.profileShift * gear.module_) • proj }

/-- Where `build_part` puts the point `p` of the reference tooth row (gggears_wrapper.py:2195-2213): shifted by
`offset` pitches of π along `UP`, scaled, rotated, moved. `bd.Rotation` with the angles of `as_euler("zyx")` is the
rotation by `orientation` (trusted, as in `transform2Location`). -/
noncomputable def Rack.placed (r : Rack) (p : V3) : V3 :=
  app r.orientation (r.module_ • (p + (r.offset * π) • UP)) + r.position

/-- The corner points of one half of the reference tooth, gggears_wrapper.py:2114-2133: `ref_point_a`, `ref_point_d`,
`ref_point_c`. The other half is the mirror image in the XZ plane. -/
noncomputable def Rack.refPoints (r : Rack) : V3 × V3 × V3 :=
  let pitch := π
  (r.addendum • RIGHT + (pitch / 4 - tan r.pressureAngle * r.addendum - r.backlash) • DOWN,
   r.dedendum • LEFT + (pitch / 4 + tan r.pressureAngle * r.dedendum - r.backlash) • DOWN,
   (pitch / 2) • DOWN + r.dedendum • LEFT)

/-- Centre of the `j`-th tooth of the row, `j < number_of_teeth`: `loc_shift * locs` of gggears_wrapper.py:2183-2185.
`GridLocations(0, pitch, 1, n)` are centred about the origin. -/
noncomputable def Rack.toothCenter (r : Rack) (j : ℕ) : V3 :=
  (π * (j - ((r.numTeeth : ℝ) - 1) / 2) + π / 2 * (((r.numTeeth + 1) % 2 : ℕ) : ℝ)) • UP

/-- The direction of the extrusion, `scp_Rotation.from_euler("x", beta).apply(OUT)`, and its length,
gggears_wrapper.py:2180, 2191. -/
noncomputable def Rack.extrusion (r : Rack) : V3 :=
  (r.height / r.module_ / cos r.betaAngle) • app (Rx r.betaAngle) OUT

/-- The displacement of the cross-section at the fraction `τ` of the height: a straight extrusion, or for a herringbone
`HelicalRack` two extrusions of half the length, the second one with the y component negated,
gggears_wrapper.py:2188-2192 and 2379-2404. -/
noncomputable def Rack.sweep (r : Rack) (herringbone : Bool) (τ : ℝ) : V3 :=
  if herringbone = true ∧ 1 / 2 < τ then
    (1 / 2 : ℝ) • r.extrusion + (τ - 1 / 2) • mulV r.extrusion ![1, -1, 1]
  else τ • r.extrusion

/-- Point of a flank of the `j`-th tooth in the cross-section at the fraction `τ` of the height: the segment from
`ref_point_d` (`s = 0`) to `ref_point_a` (`s = 1`), or its mirror image in the XZ plane, gggears_wrapper.py:2114-2172.
Fillets are left out. -/
noncomputable def Rack.flank (r : Rack) (herringbone mirrored : Bool) (j : ℕ) (τ s : ℝ) : V3 :=
  let p := r.refPoints.2.1 + s • (r.refPoints.1 - r.refPoints.2.1)
  r.placed (r.toothCenter j + (if mirrored then mulV p ![1, -1, 1] else p) + r.sweep herringbone τ)

/-! ## Reference lines: arrays in a heap -/

/-- A line curve as stored by `LineCurve.__init__` (curve.py:1075-1077): references to two arrays, not copies. -/
structure LineRef where
  p0 : ℕ
  p1 : ℕ

/-- `RackRefLines`, gggears_base_classes.py:400-419. -/
structure RackLines where
  a : LineRef
  p : LineRef
  d : LineRef
  o : LineRef

/-- The arrays of the process and the racks made so far. The constants `UP`, `DOWN`, `RIGHT` of defs.py:33-46 are the
arrays 0, 1, 2. -/
structure RackWorld where
  arrays : List V3
  racks : List RackLines

/-- The state after importing the package. -/
def RackWorld.initial : RackWorld := ⟨[UP, DOWN, RIGHT], []⟩

/-- The array at an address. -/
def RackWorld.get (w : RackWorld) (i : ℕ) : V3 := w.arrays.getD i 0

/-- `generate_reference_lines(limitparam)`, gggears_core.py:170-189: six new arrays; the pitch line refers to the
constants. Both ends of the other lines are computed from `UP`, as in the code. -/
def RackWorld.create (w : RackWorld) (l : ToothLimitParam) : RackWorld :=
  let up := w.get 0
  let right := w.get 2
  let n := w.arrays.length
  { arrays := w.arrays ++ [up + l.hA • right, up + l.hA • right, up - l.hD • right, up - l.hD • right,
      up - l.hO • right, up - l.hO • right]
    racks := w.racks ++ [⟨⟨n, n + 1⟩, ⟨0, 1⟩, ⟨n + 2, n + 3⟩, ⟨n + 4, n + 5⟩⟩] }

/-- `RackRefLines.center`, gggears_base_classes.py:421-424. -/
noncomputable def RackWorld.center (w : RackWorld) (r : RackLines) : V3 := (1 / 2 : ℝ) • (w.get r.p.p0 + w.get r.p.p1)

/-- `array += diff`, in place. -/
def RackWorld.addTo (w : RackWorld) (diff : V3) (i : ℕ) : RackWorld :=
  { w with arrays := w.arrays.set i (w.get i + diff) }

/-- `RackRefLines.center = value`, gggears_base_classes.py:426-436. -/
noncomputable def RackWorld.setCenter (w : RackWorld) (r : RackLines) (value : V3) : RackWorld :=
  let diff := value - w.center r
  [r.a.p0, r.a.p1, r.p.p0, r.p.p1, r.d.p0, r.d.p1, r.o.p0, r.o.p1].foldl (fun w i => w.addTo diff i) w

/-- Calls on reference lines. -/
inductive RackOp
  | create (l : ToothLimitParam)
  | setCenter (i : ℕ) (value : V3)

/-- One call; an index out of range has no effect. -/
noncomputable def RackOp.run (w : RackWorld) : RackOp → RackWorld
  | .create l => w.create l
  | .setCenter i value => match w.racks[i]? with
    | some r => w.setCenter r value
    | none => w

end Verif
