import Verif.Model.Trim
import Verif.Model.Flank

/-!
# Model of `check_lower_curve_limit` and of the octoid tooth generators

`/repo/src/gggears/gggears_base_classes.py:506-528` and `578-614`, `/repo/src/gggears/gearteeth.py:204-240` and
`287-315`. The solvers are parameters. A tooth curve is a single curve or, with a connector in front, a chain of two.
-/

namespace Verif

open Real

/-- `check_lower_curve_limit` of `GearToothGenerator`, gggears_base_classes.py:506-528. `none`: a value could not be
computed. -/
noncomputable def lowerLimitCyl (S : Solvers) (pia rp hD : ℝ) (tooth : Curve) : Option (Curve ⊕ List Curve) :=
  let rD := rp - hD
  let circleD := arcInit rD (-pia * 2) ORIGIN 0 0 0 true
  let cross1 := findCurveIntersect S tooth.eval circleD.eval (1 / 2, 1 / 2) .equality
  if cross1.success then (tooth.setStartOn cross1.x.1).map .inl
  else
    let cross2 := findCurveIntersect S tooth.eval circleD.eval (1 / 2, 1 / 2) .minDistance
    (tooth.setStartOn cross2.x.1).bind fun t => (t.eval 0).bind fun p =>
      let rLow := √(p 0 ^ 2 + p 1 ^ 2)
      if rD < rLow then
        some (.inr (chainUpdate curveOps [.make (.line ((rD / rLow) • p) p) true 0 1, t]))
      else some (.inl t)

/-- `target_func` of `find_curve_plane_intersect`, curve.py:733-735. -/
noncomputable def planeResidual (f : ℝ → Option V3) (normal offset : V3) (t : ℝ) : Option ℝ :=
  (f t).map fun p => dot (p - offset) normal

/-- `angle_between_vector_and_plane`, function_generators.py:31-36. -/
noncomputable def angleVectorPlane (v normal : V3) : ℝ :=
  let vPlane := v - dot v normal • normal
  if norm3 vPlane = 0 then π / 2 else angleBetween vPlane v

/-- `check_lower_curve_limit` of `GearToothConicGenerator`, branch `cone_angle != 0`,
gggears_base_classes.py:581-614. -/
noncomputable def lowerLimitCone (asEuler : M3 → ℝ × ℝ × ℝ) (S : ScalarSolvers) (rp coneAngle hD : ℝ)
    (tooth : Curve) : Option (Curve ⊕ List Curve) :=
  let cone : ConicData := gearPolarData coneAngle rp
  let hdAngle := π / 2 - cone.gamma + hD / cone.R
  let zCenter := cone.R * cos cone.gamma
  let normal := app (Ry hdAngle) OUT
  let res := planeResidual tooth.eval normal (zCenter • OUT)
  let sol := S.root1 res 0
  if sol.success then (tooth.setStartOn sol.x).map .inl
  else
    let sol := S.minimize1 (fun t => (res t).map (· ^ 2)) 0
    (tooth.setStartOn sol.x).bind fun t => (t.eval 0).bind fun p =>
      let bottomAngle := |angleVectorPlane p OUT - hdAngle|
      (arcFromPointCenterAngle asEuler p ((cone.R * cos cone.gamma) • OUT) bottomAngle UP true).map fun c =>
        .inr (chainUpdate curveOps [c.reverse, t])

/-- `check_lower_curve_limit` of the conic generators, gggears_base_classes.py:578-580. -/
noncomputable def checkLowerLimit (asEuler : M3 → ℝ × ℝ × ℝ) (S : ScalarSolvers) (pia rp coneAngle hD : ℝ)
    (tooth : Curve) : Option (Curve ⊕ List Curve) :=
  open scoped Classical in
  if coneAngle = 0 then lowerLimitCyl S.toSolvers pia rp hD tooth
  else lowerLimitCone asEuler S rp coneAngle hD tooth

/-- The octoid flank before the lower limit is checked, conical branch, gearteeth.py:251-263: the octoid curve over the
parameter range 0 to 1, cut at the plane `y = 0`. The success of the search is not read. -/
noncomputable def octoidCurve (S : ScalarSolvers) (pia rp coneAngle alpha : ℝ) : Option Curve :=
  let c := Curve.make (.generic (octoidFlank pia rp coneAngle alpha) 20) true 0 1
  c.setEndOn (S.root1 (planeResidual c.eval UP ORIGIN) 1).x

/-- `OctoidTooth.generate_tooth_curve` for conical gears, gearteeth.py:223-225, of a generator made with the argument
`ref_limits` (`octoidToothLimits`: the default replaces a missing one). -/
noncomputable def octoidToothCurve (asEuler : M3 → ℝ × ℝ × ℝ) (S : ScalarSolvers) (pia rp coneAngle alpha : ℝ)
    (limits : Option ToothLimitParam) : Option (Curve ⊕ List Curve) :=
  (octoidToothLimits limits).bind fun l => (octoidCurve S pia rp coneAngle alpha).bind fun c =>
    checkLowerLimit asEuler S pia rp coneAngle l.hD c

/-- The tooth generator that `InvoluteGear` makes for conical gears without undercut, gggears_wrapper.py:518-522 and 555-560:
`limits` is computed, but not passed on as `ref_limits`. -/
noncomputable def wrapperOctoidCurve (asEuler : M3 → ℝ × ℝ × ℝ) (S : ScalarSolvers) (pia rp coneAngle alpha : ℝ)
    (_limits : ToothLimitParam) : Option (Curve ⊕ List Curve) :=
  octoidToothCurve asEuler S pia rp coneAngle alpha none

/-- `undercut_enable` of `OctoidUndercutTooth`, conical branch, gearteeth.py:296-303. -/
def octoidUndercutOn (rp coneAngle alpha hD : ℝ) : Prop :=
  hD / (gearPolarData coneAngle rp).R > coneAngle / 2 - arcsin (sin (coneAngle / 2) * cos alpha)

/-- `ps = tooth_curve.get_length_portions()`, gearteeth.py:551: only chains have that method, `none` is the
`AttributeError` for a plain curve. -/
noncomputable def firstPortion : Curve ⊕ List Curve → Option ℝ
  | .inl _ => none
  | .inr l => some (portion curveOps l 1)

end Verif
