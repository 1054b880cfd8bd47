import Verif.Props.CycloidOutline
import Verif.Props.SpurGear

/-!
# The outline of a cycloid gear, from its parameters: C146

The profile that `CycloidGear` makes from number of teeth, rolling circles, backlash and tooth heights is that of C141. Its conditions
hold for the default parameters and every number of teeth from three on.
-/

namespace Verif

open Real Set

/-- Half the angle of a tooth of a cycloid gear on the pitch circle at height `z`. -/
noncomputable def GearInput.cycloidPia (p : GearInput) (z : ℝ) : ℝ :=
  p.crowningFunc z (2 * π / p.numTeeth / 4 - p.backlash / (p.numTeeth / 2))

/-- What the searches have to return for the profile of a cycloid gear at height `z`: that of the tooth generator and those of the
trimming, on the curves and circles of this gear. -/
structure CycloidSearches (asEuler : M3 → ℝ × ℝ × ℝ) (S : ScalarSolvers) (p : GearInput) (z : ℝ) : Prop where
  tooth : CycloidSearch S (p.cycloidPia z) (p.numTeeth / 2) p.outsideCycloid
  trim : ∀ l C rA, cycloidToothCurve S (p.cycloidPia z) (p.numTeeth / 2) 0 p.insideCycloid p.outsideCycloid = some l →
    referenceCircles asEuler (p.numTeeth / 2) p.addendum p.dedendum (if p.insideTeeth then -2 else 2) 0 (p.numTeeth / 2) = some C →
    (cycloidGear p).core.recipe.tipCircle asEuler S (chainEval curveOps l) C = some rA →
      TrimSearches S l rA C.d p.tipFillet (2 * π / p.numTeeth) (cycloidStart (p.cycloidPia z) p.insideCycloid)

/-- **C146.** A cylindrical cycloid gear, external or ring gear, straight or helical, is described by its parameters: number of teeth,
rolling circles, backlash, crowning, addendum, dedendum, tip truncation, no fillets. If the tooth has a thickness, the inner rolling
circle is at most half as large and the outer one at most as large as the pitch circle, the lower cycloid starts within a right angle
of the tooth and not exactly in the middle of the gap, the solvers report only true solutions and the searches succeed, then the
profile exists, its flank is the piece of the generated curve between two places, it runs outwards between the middle of the gap and
the middle of the tooth, and the outline of the `n` teeth is closed and does not
cross or touch itself. -/
theorem c146_outline {asEuler : M3 → ℝ × ℝ × ℝ} (hE : EulerOk asEuler) {S : ScalarSolvers} (hS : Honest S) (hD : Descends S)
    {p : GearInput} {n : ℕ} (hn : p.numTeeth = n) (h2 : 2 ≤ n) (hcone : p.coneAngle = 0) (ht : p.tipFillet ≤ 0) (hr : p.rootFillet ≤ 0)
    (z : ℝ) (hpia : 0 < p.cycloidPia z) (hi : 0 < p.insideCycloid) (hi2 : p.insideCycloid ≤ 1 / 2) (ho : 0 < p.outsideCycloid)
    (ho2 : p.outsideCycloid ≤ 1) (hst : -(π / 2) ≤ cycloidStart (p.cycloidPia z) p.insideCycloid)
    (hne : cycloidStart (p.cycloidPia z) p.insideCycloid ≠ -(π / n)) (hA : 0 < n / 2 + p.addendum)
    (h0 : -p.addendum < p.dedendum) (h1 : p.dedendum < n / 2) (htr : p.tipTruncation ≤ n / 2 - p.dedendum)
    (hs : CycloidSearches asEuler S p z) :
    ∃ C l rA t t' T,
      referenceCircles asEuler (n / 2) p.addendum p.dedendum (if p.insideTeeth then -2 else 2) 0 (n / 2) = some C ∧
      (cycloidGear p).core.recipe.gen.cycloidCurve S z = some l ∧
      (cycloidGear p).core.recipe.tipCircle asEuler S (chainEval curveOps l) C = some rA ∧
      trimTip (chainOps curveOps) S ⟨l, true⟩ rA p.tipFillet (2 * π / n) = some t ∧
      trimRoot (chainOps curveOps) S t C.d p.rootFillet (2 * π / n) = some t' ∧
      (∀ s, 0 ≤ s → s ≤ 1 → (chainOps curveOps).eval t' s = some (T s)) ∧ Spec.OutwardFlank T (2 * π / n) ∧
      (∃ a, 0 ≤ a ∧ a < tipCut S (chainEval curveOps l) rA (2 * π / n) ∧ chainEval curveOps l a = some (T 0) ∧
        chainEval curveOps l (tipCut S (chainEval curveOps l) rA (2 * π / n)) = some (T 1)) ∧
      (ExactGaps T (2 * π / n) → ∃ P, (cycloidGear p).core.recipe.cycloidProfile asEuler S z = some P ∧
        Spec.SimpleOutline (chainEval (sumOps (chainOps curveOps) curveOps) (P.chain (chainOps curveOps))) (2 * π / n) n) := by
  have hn2 : (2 : ℝ) ≤ n := by exact_mod_cast h2
  have hn0 : (0 : ℝ) < n := by linarith
  have hrp : (0 : ℝ) < n / 2 := by linarith
  obtain ⟨s1, s2⟩ := hs
  rw [hn] at s1 s2
  obtain ⟨C, hC, c1, -, c3, c4, cev⟩ := c54_cylindrical hE (n / 2) p.addendum p.dedendum (if p.insideTeeth then -2 else 2) (n / 2) hrp
    (by linarith) (by linarith)
  obtain ⟨mo, hmo⟩ := arc_center c4
  rw [abs_of_pos hA] at c1
  have hcirc := fun f : ℝ → Option V3 => tip_circle hE (S := S) (r := (cycloidGear p).core.recipe) (f := f) hcone
    (x := n / 2 + p.addendum) (y := n / 2 - p.dedendum) (by linarith) (by linarith) c1 (fun s => (cev s).1) (fun s => (cev s).2.2.1) htr
  have hpitch : (n : ℝ) * (2 * π / n) = 2 * π := by field_simp
  have hgen : (cycloidGear p).core.recipe.gen.cycloidCurve S z =
      cycloidToothCurve S (p.cycloidPia z) (n / 2) 0 p.insideCycloid p.outsideCycloid := by
    show cycloidToothCurve S (p.cycloidPia z) (p.numTeeth / 2) (p.coneAngle / 2 * 2) p.insideCycloid p.outsideCycloid = _
    rw [hn, hcone, zero_div, zero_mul]
  have hle : cycAngle (-p.insideCycloid) (π / 2) ≤ 0 := by
    rcases hi2.lt_or_eq with h | h
    · have := (cycAngle_in hi h).antitoneOn ⟨le_refl _, by linarith [pi_pos]⟩ ⟨by linarith [pi_pos], le_refl (π / 2)⟩
        (by linarith [pi_pos] : (0 : ℝ) ≤ π / 2)
      rwa [cycAngle_zero] at this
    · rw [h, cycAngle_half (by linarith [pi_pos]) (le_refl _)]
  obtain ⟨l, -, -, -, hl, -⟩ := cycloid_generated hS hrp hi hi2 ho ho2 hpia
    (by rw [cycloidStart] at hst; linarith [pi_pos]) s1
  obtain ⟨rA, RA, a1, a2, -, -, -⟩ := hcirc (chainEval curveOps l)
  obtain ⟨l', t, t', T, e1, e2, e3, e4, e5, e6, e7⟩ := c141_cycloid_outline hE hS hD hrp hi hi2 ho ho2 hpia hst s1 n h2 hpitch
    (by rw [show 2 * π / n / 2 = π / n by ring]; exact hne) rA C.d ht hr (by
      intro l' f1
      rw [hl] at f1
      rw [← Option.some.inj f1]
      exact s2 l C rA hl hC a1) RA |n / 2 - p.dedendum| (max (n / 2 - if p.insideTeeth then -2 else 2) DELTA) mo
  rw [hl] at e1
  obtain rfl := Option.some.inj e1
  refine ⟨C, l, rA, t, t', T, hC, hgen.trans hl, a1, e2, e3, e4, e5, e6, fun hx => ?_⟩
  obtain ⟨P, hP, hsimple⟩ := e7 hx
  refine ⟨P, ?_, hsimple⟩
  have hrec : referenceCircles asEuler (cycloidGear p).core.recipe.gen.pitchRadius (cycloidGear p).core.recipe.limits.hA
      (cycloidGear p).core.recipe.limits.hD (cycloidGear p).core.recipe.limits.hO (cycloidGear p).core.recipe.coneAngle
      (cycloidGear p).core.recipe.coneBase = some C := by
    show referenceCircles asEuler (p.numTeeth / 2) p.addendum p.dedendum (if p.insideTeeth then -2 else 2) p.coneAngle (p.numTeeth / 2) = _
    rw [hn, hcone, hC]
  have hq : (cycloidGear p).core.recipe.pitchAngle = 2 * π / n := by
    show 2 * π / p.numTeeth = _
    rw [hn]
  rw [ProfileRecipe.cycloidProfile, ProfileRecipe.profileOf, hrec, Option.bind_some, hgen, hl, Option.bind_some, a1, Option.bind_some, a2,
    c3, c4, hmo, hq]
  exact hP

/-- **C146, default gears.** `CycloidGear(n)` with the default parameters (rolling circles half as large as the pitch circle, addendum
1, dedendum 1.2, tip truncation 0.1, no backlash, crowning or fillets), of any height, helix angle, module and placement, external or
ring gear, with three teeth or more: if the solvers report only true solutions and the searches succeed, the profile exists, its
flanks run outwards, and the outline of the `n` teeth is closed and does not cross or touch itself. -/
theorem c146_default {asEuler : M3 → ℝ × ℝ × ℝ} (hE : EulerOk asEuler) {S : ScalarSolvers} (hS : Honest S) (hD : Descends S)
    {n : ℕ} (h3 : 3 ≤ n) (height helixAngle angle module_ zAnchor : ℝ) (center : V3) (insideTeeth : Bool) {p : GearInput}
    (hp : p = { GearInput.cycloidDefault n with
      height := height, helixAngle := helixAngle, angle := angle, module_ := module_, zAnchor := zAnchor, center := center,
      insideTeeth := insideTeeth })
    (z : ℝ) (hs : CycloidSearches asEuler S p z) :
    ∃ C l rA t t' T,
      referenceCircles asEuler (n / 2) 1 (6 / 5) (if insideTeeth then -2 else 2) 0 (n / 2) = some C ∧
      (cycloidGear p).core.recipe.gen.cycloidCurve S z = some l ∧
      (cycloidGear p).core.recipe.tipCircle asEuler S (chainEval curveOps l) C = some rA ∧
      trimTip (chainOps curveOps) S ⟨l, true⟩ rA 0 (2 * π / n) = some t ∧
      trimRoot (chainOps curveOps) S t C.d 0 (2 * π / n) = some t' ∧
      (∀ s, 0 ≤ s → s ≤ 1 → (chainOps curveOps).eval t' s = some (T s)) ∧ Spec.OutwardFlank T (2 * π / n) ∧
      (∃ a, 0 ≤ a ∧ a < tipCut S (chainEval curveOps l) rA (2 * π / n) ∧ chainEval curveOps l a = some (T 0) ∧
        chainEval curveOps l (tipCut S (chainEval curveOps l) rA (2 * π / n)) = some (T 1)) ∧
      (ExactGaps T (2 * π / n) → ∃ P, (cycloidGear p).core.recipe.cycloidProfile asEuler S z = some P ∧
        Spec.SimpleOutline (chainEval (sumOps (chainOps curveOps) curveOps) (P.chain (chainOps curveOps))) (2 * π / n) n) := by
  have hn3 : (3 : ℝ) ≤ n := by exact_mod_cast h3
  have hn0 : (0 : ℝ) < n := by linarith
  have epia : p.cycloidPia z = π / (2 * n) := by
    rw [hp]
    simp [GearInput.cycloidPia, GearInput.crowningFunc, GearInput.cycloidDefault]
    field_simp
    norm_num
  have hst : cycloidStart (p.cycloidPia z) (1 / 2) = -(π / (2 * n)) := by
    rw [cycloidStart, cycAngle_half (by linarith [pi_pos]) (le_refl _), add_zero, epia]
  have ei : p.insideCycloid = 1 / 2 := by rw [hp]; rfl
  have eo : p.outsideCycloid = 1 / 2 := by rw [hp]; rfl
  have ea : p.addendum = 1 := by rw [hp]; rfl
  have ed : p.dedendum = 6 / 5 := by rw [hp]; rfl
  have et : p.tipTruncation = 1 / 10 := by rw [hp]; rfl
  have ef : p.tipFillet = 0 := by rw [hp]; rfl
  have eg : p.rootFillet = 0 := by rw [hp]; rfl
  have en : p.insideTeeth = insideTeeth := by rw [hp]
  have := c146_outline hE hS hD (p := p) (n := n) (by rw [hp]; rfl) (by omega) (by rw [hp]; rfl) ef.le eg.le z
    (by rw [epia]; positivity) (by rw [ei]; norm_num) (by rw [ei]) (by rw [eo]; norm_num) (by rw [eo]; norm_num)
    (by
      rw [ei, hst]
      have : π / (2 * n) ≤ π / 2 := div_le_div_of_nonneg_left pi_pos.le (by norm_num) (by linarith)
      linarith)
    (by
      rw [ei, hst]
      intro e
      have h5 : π / n = 2 * (π / (2 * n)) := by field_simp
      have h6 : 0 < π / (2 * n) := by positivity
      linarith)
    (by rw [ea]; positivity) (by rw [ea, ed]; norm_num) (by rw [ed]; linarith) (by rw [et, ed]; linarith) hs
  rw [ea, ed, ef, eg, en] at this
  exact this

end Verif
