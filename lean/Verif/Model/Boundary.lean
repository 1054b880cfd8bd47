import Verif.Model.Arc
import Verif.Model.Chain

/-!
# Model of the gear boundary

`/repo/src/gggears/gggears_core.py:754-799` and `1005-1018`. The profile enters by its evaluation function
and its flag `active`.
-/

namespace Verif

open Real

/-- One tooth of `generate_boundary_chain`, gggears_core.py:762-771. -/
noncomputable def boundaryMember (trf : GearTransform) (profile : ℝ → V3) (active : Bool) (angle : ℝ) :
    Option Curve :=
  (rotatedCurve profile active angle OUT ORIGIN).map fun r =>
    transformedCurve (fun p => applyGearTransform p trf) r.evalD r.active

/-- `generate_boundary_chain(profile, toothdata)`, gggears_core.py:754-772: the list of curves of the chain. -/
noncomputable def boundaryChain (trf : GearTransform) (profile : ℝ → V3) (active : Bool) (pitch : ℝ)
    (nAct : ℤ) : Option (List Curve) :=
  ((List.range nAct.toNat).mapM fun i : ℕ => boundaryMember trf profile active (i * pitch)).map
    (chainUpdate curveOps)

/-- `loc_func`, gggears_core.py:780-787. -/
noncomputable def boundaryFun (profile : ℝ → V3) (pitch : ℝ) (nAct : ℤ) (t : ℝ) : V3 :=
  app (Rz (⌊t * nAct⌋ * pitch)) (profile (Int.fract (t * nAct)))

/-- `generate_boundary(profile, toothdata)`, gggears_core.py:775-795, for a whole number of teeth: with
another number `np.linspace` raises a `TypeError`. The transform of the profile is not used. -/
noncomputable def boundaryCurve (profile : ℝ → V3) (pitch : ℝ) (nAct : ℤ) (numTeeth : ℕ) : Curve :=
  .make (.generic (boundaryFun profile pitch nAct) (numTeeth * 20 - 1)) true 0 1

/-- `Gear.boundary_at_z(z, continuous)`, gggears_core.py:1005-1016. `trf` is the transform of the profile at
that height, `gear` the placement of the gear. -/
noncomputable def boundaryAtZ (gear trf : GearTransform) (profile : ℝ → V3) (active : Bool) (pitch : ℝ)
    (nAct : ℤ) (numTeeth : ℕ) (continuous : Bool) : Option Curve :=
  if continuous then
    let b := boundaryCurve profile pitch nAct numTeeth
    some (transformedCurve (fun p => applyGearTransform p gear) b.evalD b.active)
  else (boundaryChain trf profile active pitch nAct).map fun l =>
    transformedCurve (fun p => applyGearTransform p gear) (fun s => (chainEval curveOps l s).getD 0)
      (l.any curveOps.active)

end Verif
