import Verif.Model.Convert
import Verif.Model.Fit
import Verif.Model.Profile
import Verif.Model.Build
import Verif.Model.Surface

/-!
# Model of the conversion of a gear profile into NURBS pieces

`gearprofile_to_nurb` (`/repo/src/gggears/gggears_convert.py:287-364`), the edges of the covers
(`generate_cover` for cylindrical gears, `/repo/src/gggears/gggears_build123d.py:281-306`), the members of the side
surfaces (`/repo/src/gggears/gggears_convert.py:110-125`) and `generate_boundary_edges`
(`/repo/src/gggears/gggears_build123d.py:519-546`). The optimiser is a parameter.
-/

namespace Verif

open Real

/-- A `NurbCurve` (curve.py:1530-1555) without its length table, which none of the functions here reads. -/
structure NurbSeg where
  nurb : Nurb V3
  active : Bool

/-- `NurbCurve.reverse`, curve.py:1544-1547. -/
def NurbSeg.reverse (s : NurbSeg) : NurbSeg := ⟨⟨s.nurb.points.reverse, s.nurb.weights.reverse⟩, s.active⟩

/-- `NurbCurve.apply_transform`, curve.py:1553-1555. -/
def NurbSeg.move (T : V3 → V3) (s : NurbSeg) : NurbSeg := ⟨⟨s.nurb.points.map T, s.nurb.weights⟩, s.active⟩

/-- `fit_nurb_optim(target_curve, n_points, samp_ratio)`, curve.py:864-904, in three dimensions. `opt` is the vector the
optimiser returns; the Hermite points (lines 881-895) only are its starting point. -/
noncomputable def fitNurbOptim (opt : ℕ → ℝ → Curve → ℕ → ℝ) (n : ℕ) (ratio : ℝ) (c : Curve) : List V3 × List ℝ :=
  let N := (⌈((n : ℝ) - 2) * 2 * ratio⌉ + 2).toNat
  fitNurbPoints 3 n N (fun i => c.evalD (linspace 0 1 (N - 1) i)) (opt n ratio c)

/-- `convert_curve_nurbezier` of one line, arc or other curve, curve.py:932-945. -/
noncomputable def convertSeg (fit : Curve → List V3 × List ℝ) (c : Curve) : Option NurbSeg :=
  (convertPlain fit c).map fun x => ⟨⟨x.1, x.2⟩, c.active⟩

/-- `convert_curve_nurbezier` of a list of curves with `skip_inactive`, curve.py:915-920. -/
noncomputable def convertActive (fit : Curve → List V3 × List ℝ) : List Curve → Option (List NurbSeg)
  | [] => some []
  | c :: cs =>
    if c.active then (convertSeg fit c).bind fun s => (convertActive fit cs).map fun ss => s :: ss
    else convertActive fit cs

/-- `tooth_mirror_nurb`, gggears_convert.py:300-302: the flat points are multiplied by `[1, -1, 1]` and written back, then
the chain is reversed (curve.py:542-545). `none`: the getter of `points` raises for an empty chain. -/
noncomputable def mirrorSegs (ss : List NurbSeg) : Option (List NurbSeg) :=
  if ss = [] then none
  else (setPoints (ss.map NurbSeg.nurb) ((flatPoints (ss.map NurbSeg.nurb)).map fun p => mulV p ![1, -1, 1])).map
    fun cs => ((List.zipWith (fun n (s : NurbSeg) => (⟨n, s.active⟩ : NurbSeg)) cs ss).reverse).map NurbSeg.reverse

/-- The NURBS version of a `GearRefProfile`. -/
structure NurbProfile where
  ra : NurbSeg
  rd : NurbSeg
  ro : NurbSeg
  tooth : List NurbSeg
  mirror : List NurbSeg

/-- `gearprofile_to_nurb(gearprofile, n_points, oversamp_ratio)` of a `GearRefProfile`, gggears_convert.py:287-302 and
345-360. `members` is `get_curves`, `trf` is `gearprofile.transform`. The arcs are converted with the default number of
points and ratio. -/
noncomputable def profileToNurb {α : Type} (members : α → List Curve) (opt : ℕ → ℝ → Curve → ℕ → ℝ) (n : ℕ) (ratio : ℝ)
    (trf : GearTransform) (P : RefProfile α) : Option NurbProfile := do
  let tooth ← convertActive (fitNurbOptim opt n ratio) (members P.tooth)
  let mirror ← mirrorSegs tooth
  let ra ← convertSeg (fitNurbOptim opt 4 (3 / 2)) P.ra
  let rd ← convertSeg (fitNurbOptim opt 4 (3 / 2)) P.rd
  let ro ← convertSeg (fitNurbOptim opt 4 (3 / 2)) P.ro
  let place := NurbSeg.move fun p => applyGearTransform p trf
  some ⟨place ra, place rd, place ro, tooth.map place, mirror.map place⟩

/-- The NURBS version of a `GearRefProfileExtended`, as far as `profile` and `profile_closed` need it. -/
structure NurbProfileExt where
  base : NurbProfile
  conn0 : NurbSeg
  conn2 : NurbSeg

/-- `gearprofile_to_nurb` of a `GearRefProfileExtended`, gggears_convert.py:304-344. The other connectors are converted in
the same way; no builder reads them for cylindrical gears. -/
noncomputable def profileToNurbExt {α : Type} (members : α → List Curve) (opt : ℕ → ℝ → Curve → ℕ → ℝ) (n : ℕ) (ratio : ℝ)
    (trf : GearTransform) (E : ExtProfile α) : Option NurbProfileExt := do
  let base ← profileToNurb members opt n ratio trf E.base
  let conn0 ← convertSeg (fitNurbOptim opt 4 (3 / 2)) E.roConnector0
  let conn2 ← convertSeg (fitNurbOptim opt 4 (3 / 2)) E.roConnector2
  let place := NurbSeg.move fun p => applyGearTransform p trf
  some ⟨base, place conn0, place conn2⟩

/-- The members of `profile`, gggears_core.py:358-362. -/
def NurbProfile.profile (N : NurbProfile) : List NurbSeg := N.rd :: N.tooth ++ N.ra :: N.mirror

/-- The members of `profile_closed`, gggears_core.py:380-392. -/
def NurbProfileExt.profileClosed (N : NurbProfileExt) : List NurbSeg :=
  N.base.profile ++ [N.conn2.reverse, N.base.ro.reverse, N.conn0]

/-- The members of the row of a side surface, gggears_convert.py:114-123. -/
def NurbProfileExt.sideMembers (N : NurbProfileExt) : List (Nurb V3) :=
  (N.profileClosed.filter NurbSeg.active).map NurbSeg.nurb

/-- The control points and weights of the faces made of one row, `patches[:-3]`, gggears_build123d.py:205-217. -/
def sidePatches (cs : List (Nurb V3)) : List (List V3 × List ℝ) :=
  let patches := List.zip
    (patchesOf (flatPoints cs) (knots cs)) (patchesOf (flatWeights cs) (knots cs))
  patches.take (patches.length - 3)

/-- `is_closed`, curve.py:689-691, of a chain of NURBS pieces: the first and the last point of the active members (a piece
starts at its first control point and ends at its last one), and `is_continuous`, which is a parameter. -/
noncomputable def nurbsClosed (cont : List (Nurb V3) → Bool) (flags : List Bool) (cs : List (Nurb V3)) : Bool :=
  let act := ((cs.zip flags).filter Prod.snd).map Prod.fst
  match act.head?.bind (fun c => c.points.head?), act.getLast?.bind (fun c => c.points.getLast?) with
  | some p, some q => decide (norm3 (p - q) < DELTA / 100) && cont cs
  | _, _ => false

/-- `enforce_continuity` of a chain with active and inactive members, curve.py:1598-1612. -/
noncomputable def enforceSegs (cont : List (Nurb V3) → Bool) (ss : List NurbSeg) : List NurbSeg :=
  List.zipWith (fun n (s : NurbSeg) => (⟨n, s.active⟩ : NurbSeg))
    (enforceContinuity (nurbsClosed cont (ss.map NurbSeg.active)) (ss.map NurbSeg.nurb)) ss

/-- `gen_splines`, gggears_build123d.py:492-505: control points and weights of the edges, for active members. -/
def genSplines (ss : List NurbSeg) : List (List V3 × List ℝ) :=
  (ss.filter NurbSeg.active).map fun s => (s.nurb.points, s.nurb.weights)

/-- The edges of one tooth in `generate_cover` for cylindrical gears, gggears_build123d.py:282-286. -/
noncomputable def coverEdges (cont : List (Nurb V3) → Bool) (N : NurbProfile) : List (List V3 × List ℝ) :=
  genSplines (enforceSegs cont (N.profile.filter NurbSeg.active))

/-- The curves of `generate_boundary_edges`, gggears_build123d.py:533-541, with `k` teeth. -/
noncomputable def boundaryCurves (N : NurbProfile) (pitch : ℝ) (t : GearTransform) (k : ℕ) : List NurbSeg :=
  (boundaryLoop pitch k t).1.flatMap fun tr => N.profile.map (NurbSeg.move fun p => applyGearTransform p tr)

/-- The edges returned by `generate_boundary_edges(nurbprofile, transform)`, gggears_build123d.py:519-546. The conversion
uses the default number of points and ratio of `gearprofile_to_nurb`. -/
noncomputable def boundarySplines {α : Type} (members : α → List Curve) (opt : ℕ → ℝ → Curve → ℕ → ℝ)
    (cont : List (Nurb V3) → Bool) (trf t : GearTransform) (P : RefProfile α) : Option (List (List V3 × List ℝ)) :=
  (profileToNurb members opt 4 2 trf P).map fun N =>
    genSplines (enforceSegs cont
      (boundaryCurves N P.pitchAngle t (npRound (2 * π / P.pitchAngle)).toNat))

end Verif
