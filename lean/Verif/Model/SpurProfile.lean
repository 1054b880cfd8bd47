import Verif.Model.Core
import Verif.Model.CycloidTooth
import Verif.Model.InvoluteTooth
import Verif.Model.Trim
import Verif.Model.Undercut
import Verif.Model.Wrapper

/-!
# Model of the profile of a cylindrical gear, from the recipe

`generate_reference_profile`, `/repo/src/gggears/gggears_core.py:599-646`, for the recipes that `InvoluteGear.calc_params` and
`CycloidGear.calc_params` make for cone angle 0, without fillets. The placement of the profile (line 645) is left out.
-/

namespace Verif

open Real

/-- `tooth_generator.generate_tooth_curve()` at height `z` for cone angle 0: gearteeth.py:31-41 (`InvoluteTooth`) and 147-157
(`InvoluteUndercutTooth`). The curves of a plain tooth are put among members that may also be chains. The other generators are not
covered here. -/
noncomputable def ToothGen.spurCurve (S : ScalarSolvers) (z : ℝ) : ToothGen → Option (List (Curve ⊕ Chain Curve))
  | .involute a r f _ _ => (involuteToothCurve S (f z) r a).map fun l => l.map .inl
  | .involuteUndercut a r f lim _ q =>
    (involuteToothCurve S (f z) r a).bind fun l => undercutToothCurve S l (r * cos a) r (f z) q a lim
  | _ => none

/-- The searches of `apply_tip_reduction`, gggears_core.py:209-214: success and height coordinate for each guess of
`np.linspace(0.1, 0.9, 4)`. A point that is not defined (NaN) fails the comparison in line 213. -/
noncomputable def tipSearches (S : ScalarSolvers) (f : ℝ → Option V3) (coneAngle coneBase : ℝ) : List (Bool × ℝ) :=
  (List.range 4).map fun k =>
    let sol := findCurvePlaneIntersect S f UP (linspaceAt (1 / 10) (9 / 10) 4 k)
    match (f sol.x).bind (polarTransform coneAngle coneBase) with
    | some q => (sol.success, q 0)
    | none => (false, 0)

/-- The circle for the tip, gggears_core.py:611-622. -/
noncomputable def ProfileRecipe.tipCircle (asEuler : M3 → ℝ × ℝ × ℝ) (S : ScalarSolvers) (r : ProfileRecipe)
    (f : ℝ → Option V3) (C : RefCircles) : Option Curve :=
  open scoped Classical in
  if 0 < r.tipReduction then
    ((C.a.eval 0).bind (polarTransform r.coneAngle r.coneBase)).bind fun qa =>
      ((C.d.eval 0).bind (polarTransform r.coneAngle r.coneBase)).bind fun qd =>
        let rah := applyTipReduction (qa 0) (qd 0) r.tipReduction (tipSearches S f r.coneAngle r.coneBase)
        let pa := inversePolarTransform r.coneAngle r.coneBase ![rah, 0, 0]
        arcFromPointCenterAngle asEuler pa (pa 2 • OUT) (2 * π) OUT true
  else some C.a

/-- `generate_reference_profile`, gggears_core.py:599-646, for recipes whose fillets are not positive (lines 623-642 do nothing).
`m` is the tooth curve that the generator returns in line 609. -/
noncomputable def ProfileRecipe.profileOf {α : Type} (ops : CurveOps α) (asEuler : M3 → ℝ × ℝ × ℝ) (S : ScalarSolvers)
    (r : ProfileRecipe) (m : Option (List α)) : Option (RefProfile (Chain α)) :=
  (referenceCircles asEuler r.gen.pitchRadius r.limits.hA r.limits.hD r.limits.hO r.coneAngle r.coneBase).bind fun C =>
    m.bind fun m =>
      (r.tipCircle asEuler S (chainEval ops m) C).bind fun rA =>
        match rA.arcRadius, C.d.arcRadius, C.o.arcRadius, C.o.arcCenter with
        | some a, some d, some o, some c =>
          trimReferenceProfile (chainOps ops) asEuler S ⟨m, true⟩ rA C.d a d o c r.tipFillet r.rootFillet r.pitchAngle
        | _, _, _, _ => none

/-- The profile of a cylindrical involute gear at height `z`. -/
noncomputable def ProfileRecipe.spurProfile (asEuler : M3 → ℝ × ℝ × ℝ) (S : ScalarSolvers) (r : ProfileRecipe) (z : ℝ) :
    Option (RefProfile (Chain (Curve ⊕ Chain Curve))) :=
  r.profileOf (sumOps curveOps (chainOps curveOps)) asEuler S (r.gen.spurCurve S z)

/-- `tooth_generator.generate_tooth_curve()` of `CycloidTooth` at height `z`, gearteeth.py:582-583. -/
noncomputable def ToothGen.cycloidCurve (S : ScalarSolvers) (z : ℝ) : ToothGen → Option (List Curve)
  | .cycloid r f c i o => cycloidToothCurve S (f z) r c i o
  | _ => none

/-- The profile of a cycloid gear at height `z`. -/
noncomputable def ProfileRecipe.cycloidProfile (asEuler : M3 → ℝ × ℝ × ℝ) (S : ScalarSolvers) (r : ProfileRecipe) (z : ℝ) :
    Option (RefProfile (Chain Curve)) :=
  r.profileOf curveOps asEuler S (r.gen.cycloidCurve S z)

/-- The arguments of `SpurGear(number_of_teeth)` with the default values, gggears_wrapper.py:823-841. -/
noncomputable def GearInput.spurDefault (n : ℝ) : GearInput where
  numTeeth := n
  height := 1
  helixAngle := 0
  coneAngle := 0
  center := ORIGIN
  angle := 0
  module_ := 1
  undercut := true
  rootFillet := 0
  tipFillet := 0
  tipTruncation := 1 / 10
  profileShift := 0
  addendum := 1
  dedendum := 6 / 5
  insideCycloid := 0
  outsideCycloid := 0
  pressureAngle := 20 * π / 180
  backlash := 0
  crowning := 0
  insideTeeth := false
  zAnchor := 0

/-- The arguments of `CycloidGear(number_of_teeth)` with the default values, gggears_wrapper.py:1615-1635. -/
noncomputable def GearInput.cycloidDefault (n : ℝ) : GearInput where
  numTeeth := n
  height := 1
  helixAngle := 0
  coneAngle := 0
  center := ORIGIN
  angle := 0
  module_ := 1
  undercut := false
  rootFillet := 0
  tipFillet := 0
  tipTruncation := 1 / 10
  profileShift := 0
  addendum := 1
  dedendum := 6 / 5
  insideCycloid := 1 / 2
  outsideCycloid := 1 / 2
  pressureAngle := 0
  backlash := 0
  crowning := 0
  insideTeeth := false
  zAnchor := 0

end Verif
