import Verif.Model.GearMath

/-! # Model of `LineOfAction.LOA_gen` -/

namespace Verif

open Real

/-- `rotate_vector(v, angle)`, function_generators.py:18-20: rotation about the global z axis. -/
noncomputable def rotateVector (v : V3) (a : ℝ) : V3 := app (Rz a) v

/-- What `LOA_gen` reads from one gear: centre and base radius at the chosen height, addendum radius,
ring flag. -/
structure LoaGear where
  center : V3
  rb : ℝ
  ra : ℝ
  inside : Bool

/-- `mirror_diffline(p)`, gggears_wrapper.py:1970-1973. -/
noncomputable def mirrorDiffline (center1 u p : V3) : V3 :=
  let p1 := p - center1
  let pNorm := p1 - dot p1 u • u
  p - (2 : ℝ) • pNorm

/-- `LineOfAction.LOA_gen`, gggears_wrapper.py:1959-2020; a line is its pair of end points.
`none`: `ValueError`, or NaN (coinciding centres, addendum radius below the base radius). -/
noncomputable def loaGen (g1 g2 : LoaGear) : Option ((V3 × V3) × (V3 × V3)) :=
  let diff := g2.center - g1.center
  let distance := norm3 diff
  if distance = 0 then none
  else
    let u := distance⁻¹ • diff
    if g1.inside then
      if 1 < |g2.rb - g1.rb| / distance ∨ g2.ra ^ 2 - g2.rb ^ 2 < 0 then none
      else
        let alpha := arccos ((g2.rb - g1.rb) / distance)
        let len := √(g2.ra ^ 2 - g2.rb ^ 2)
        let start1 := g2.center + g2.rb • rotateVector (-u) alpha
        let end1 := start1 + len • rotateVector u (-π / 2 + alpha)
        some ((start1, end1), (mirrorDiffline g1.center u start1, mirrorDiffline g1.center u end1))
    else if g2.inside then
      if 1 < |g2.rb - g1.rb| / distance ∨ g1.ra ^ 2 - g1.rb ^ 2 < 0 then none
      else
        let alpha := arccos ((g2.rb - g1.rb) / distance)
        let len := √(g1.ra ^ 2 - g1.rb ^ 2)
        let start1 := g1.center + g1.rb • rotateVector (-u) alpha
        let end1 := start1 - len • rotateVector u (-π / 2 + alpha)
        some ((start1, end1), (mirrorDiffline g1.center u start1, mirrorDiffline g1.center u end1))
    else
      if 1 < |g2.rb + g1.rb| / distance then none
      else
        let alpha := arccos ((g1.rb + g2.rb) / distance)
        some ((g1.center + g1.rb • rotateVector u alpha,
               g2.center + g2.rb • rotateVector (-u) alpha),
              (g1.center + g1.rb • rotateVector u (-alpha),
               g2.center + g2.rb • rotateVector (-u) (-alpha)))

end Verif
