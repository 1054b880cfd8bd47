import Verif.Model.Core
import Verif.Model.Chain

/-!
# Model of the reference profile of one tooth

`/repo/src/gggears/gggears_core.py:342-432`, `527-577` and `650-751`. The tooth curve is a curve or a chain:
any type with the operations of a curve. What the solvers do to it (lines 445-525: where it is trimmed) is
not modelled; the tooth curve given here is the trimmed one.
-/

namespace Verif

open Real

/-- `GearRefProfile`, gggears_core.py:342-356, without the placement. -/
structure RefProfile (α : Type) where
  ra : Curve
  rd : Curve
  ro : Curve
  tooth : α
  mirror : Curve
  pitchAngle : ℝ

section
variable {α : Type} (o : CurveOps α)

/-- What `CurveChain.__init__` does to a member, curve.py:350-377: lengths of active curves are computed
again, in place. -/
def refresh {β : Type} (p : CurveOps β) (a : β) : β := if p.active a then p.updateLengths a else a

/-- `GearRefProfile.profile`, gggears_core.py:358-362. -/
noncomputable def RefProfile.chain (P : RefProfile α) : List (α ⊕ Curve) :=
  chainUpdate (sumOps o curveOps) [.inr P.rd, .inl P.tooth, .inr P.ra, .inr P.mirror]

/-- `((p + q) / 2 * np.array([0, 0, 1])) * OUT`, gggears_core.py:533 and 547. -/
noncomputable def midOnAxis (p q : V3) : V3 := mulV (mulV ((1 / 2 : ℝ) • (p + q)) ![0, 0, 1]) OUT

/-- The tip and root arcs, gggears_core.py:534-543 and 548-557: from `p` to `q` about the axis, or an
inactive arc of angle 0 if the points coincide. `yawPoint` gives the direction of the latter. -/
noncomputable def closingArc (asEuler : M3 → ℝ × ℝ × ℝ) (p q yawPoint : V3) (refRadius : ℝ) : Option Curve :=
  if norm3 (p - q) > 1 / 10 ^ 10 then arcFrom2PointCenter asEuler p q (midOnAxis p q) 0 true
  else some (arcInit refRadius 0 (midOnAxis p q) (arctan2 (yawPoint 1) (yawPoint 0)) 0 0 false)

/-- The second part of `trim_reference_profile`, gggears_core.py:527-577. `rA`, `rD` are the radii of the
tip and root circle, `rO`, `centerO` radius and centre of the outside ring. The curves are returned as the
chain construction in line 559 leaves them. -/
noncomputable def closeProfile (asEuler : M3 → ℝ × ℝ × ℝ) (tooth : α) (rA rD rO : ℝ) (centerO : V3)
    (pitchAngle : ℝ) : Option (RefProfile α) :=
  let toothAt := fun t => (o.eval tooth t).getD 0
  match mirroredCurve toothAt (o.active tooth) UP ORIGIN with
  | none => none
  | some m0 =>
    let mirror := m0.reverse
    match rotatedCurve mirror.evalD mirror.active (-pitchAngle) OUT ORIGIN with
    | none => none
    | some rotated =>
      let pa1 := toothAt 1
      let pa2 := mirror.evalD 0
      let pd1 := toothAt 0
      let pd2 := rotated.evalD 1
      match closingArc asEuler pa1 pa2 pa1 rA, closingArc asEuler pd2 pd1 pd1 rD with
      | some ra, some rd =>
        let P : RefProfile α := ⟨refresh curveOps ra, refresh curveOps rd, ra, refresh o tooth,
          refresh curveOps mirror, pitchAngle⟩
        match chainEval (sumOps o curveOps) (P.chain o) 0, chainEval (sumOps o curveOps) (P.chain o) 1 with
        | some q0, some q1 =>
          let angle0 := arctan2 (q0 1) (q0 0)
          let angle1 := arctan2 (q1 1) (q1 0)
          some { P with ro := arcInit rO (angle1 - angle0) centerO angle0 0 0 true }
        | _, _ => none
      | _, _ => none

/-! ### Extensions of the profile -/

/-- `ArcCurve.center`, curve.py:1159-1161. `none`: not an arc. -/
def Curve.arcCenter (c : Curve) : Option V3 :=
  match c.kind with
  | .arc _ _ m _ => some m
  | _ => none

/-- The connectors of gggears_core.py:680-704 and 730-744: a line between the points, for conical gears an
arc about the cone apex. -/
noncomputable def connector (asEuler : M3 → ℝ × ℝ × ℝ) (coneAngle : ℝ) (center p q : V3) : Option Curve :=
  if coneAngle = 0 then some (Curve.make (.line p q) true 0 1)
  else arcFrom2PointCenter asEuler p q center 0 true

/-- `GearRefProfileExtended`, gggears_core.py:365-378. -/
structure ExtProfile (α : Type) where
  base : RefProfile α
  roConnector0 : Curve
  roConnector1 : Curve
  roConnector2 : Curve
  rdConnector : Curve
  raConnector : Curve
  roTooth : Curve
  roDedendum : Curve
  toothCenterline : Curve

/-- `generate_profile_extensions(profile, cone_data)`, gggears_core.py:650-720. `sMid` is the solver's
answer: the position where the ring segment crosses the plane through the axis and the start of the tooth
(lines 654-658). `none`: a division by zero. -/
noncomputable def profileExtensions (asEuler : M3 → ℝ × ℝ × ℝ) (P : RefProfile α) (coneAngle : ℝ)
    (coneCenter : V3) (sMid : ℝ) : Option (ExtProfile α) := do
  let roMid ← P.ro.eval sMid
  let roTooth ← P.ro.setStartOn sMid
  let roDedendum ← P.ro.setEndOn sMid
  let tooth0 ← o.eval P.tooth 0
  let mirror1 ← P.mirror.eval 1
  let rdConnector ← arcFrom2PointCenter asEuler tooth0 mirror1 (← P.rd.arcCenter) 0 true
  let ra0 ← P.ra.eval 0
  let ra1 ← P.ra.eval 1
  let raConnector ← arcFrom2PointCenter asEuler (app (Rz (-P.pitchAngle)) ra1) ra0 (← P.ra.arcCenter) 0 true
  let ro0 ← P.ro.eval 0
  let ro1 ← P.ro.eval 1
  let profile0 ← chainEval (sumOps o curveOps) (P.chain o) 0
  let roConnector0 ← connector asEuler coneAngle coneCenter ro0 profile0
  let roConnector1 ← connector asEuler coneAngle coneCenter roMid tooth0
  let roConnector2 ← connector asEuler coneAngle coneCenter ro1 mirror1
  let toothCenterline ← connector asEuler coneAngle coneCenter (← rdConnector.eval (1 / 2)) (← P.ra.eval (1 / 2))
  some ⟨P, roConnector0, roConnector1, roConnector2, rdConnector, raConnector, roTooth, roDedendum,
    toothCenterline⟩

/-- `profile_closed`, gggears_core.py:380-392. -/
noncomputable def ExtProfile.profileClosed (E : ExtProfile α) : List (α ⊕ Curve) :=
  chainUpdate (sumOps o curveOps) [.inr E.base.rd, .inl E.base.tooth, .inr E.base.ra, .inr E.base.mirror,
    .inr E.roConnector2.reverse, .inr E.base.ro.reverse, .inr E.roConnector0]

/-- `tooth_profile_closed`, gggears_core.py:394-403. -/
noncomputable def ExtProfile.toothClosed (E : ExtProfile α) : List (α ⊕ Curve) :=
  chainUpdate (sumOps o curveOps) [.inl E.base.tooth, .inr E.base.ra, .inr E.base.mirror,
    .inr E.rdConnector.reverse]

/-- `tooth_profile_closed_outer`, gggears_core.py:405-417. -/
noncomputable def ExtProfile.toothClosedOuter (E : ExtProfile α) : Option (List (α ⊕ Curve)) :=
  (rotatedCurve E.base.mirror.evalD E.base.mirror.active (-E.base.pitchAngle) OUT ORIGIN).map fun m =>
    chainUpdate (sumOps o curveOps) [.inr m, .inr E.base.rd, .inl E.base.tooth, .inr E.raConnector]

/-- `tooth_profile_closed_ring`, gggears_core.py:419-429. -/
noncomputable def ExtProfile.toothClosedRing (E : ExtProfile α) : List (α ⊕ Curve) :=
  chainUpdate (sumOps o curveOps) [.inl E.base.tooth, .inr E.raConnector, .inr E.base.mirror,
    .inr E.roConnector2, .inr E.roTooth.reverse, .inr E.roConnector1.reverse]

/-- `generate_profile_closed(profile, cone_data)`, gggears_core.py:723-751. The profile is a chain inside
the chain. -/
noncomputable def closedProfile (asEuler : M3 → ℝ × ℝ × ℝ) (P : RefProfile α) (coneAngle : ℝ)
    (coneCenter : V3) : Option (List (Chain (α ⊕ Curve) ⊕ Curve)) := do
  let ro0 ← P.ro.eval 0
  let ro1 ← P.ro.eval 1
  let profile0 ← chainEval (sumOps o curveOps) (P.chain o) 0
  let profile1 ← chainEval (sumOps o curveOps) (P.chain o) 1
  let roConnector0 ← connector asEuler coneAngle coneCenter ro0 profile0
  let roConnector1 ← connector asEuler coneAngle coneCenter profile1 ro1
  some (chainUpdate (sumOps (chainOps (sumOps o curveOps)) curveOps) [.inl ⟨P.chain o, true⟩,
    .inr roConnector1, .inr P.ro.reverse, .inr roConnector0])

end

end Verif
