import Verif.Model.Wrapper
import Verif.Props.Transform

/-! # Properties C61–C64: constructors, crowning, slices, helical parameters -/

namespace Verif

open Real

/-- A 24 tooth gear of module 2, height 10, anchored at its bottom, placed at the origin. -/
noncomputable def exampleInput : GearInput where
  numTeeth := 24
  height := 10
  helixAngle := π / 6
  coneAngle := 0
  center := ORIGIN
  angle := 0
  module_ := 2
  undercut := true
  rootFillet := 0
  tipFillet := 0
  tipTruncation := 1 / 10
  profileShift := 1 / 5
  addendum := 1
  dedendum := 6 / 5
  insideCycloid := 1 / 2
  outsideCycloid := 1 / 2
  pressureAngle := π / 9
  backlash := 0
  crowning := 0
  insideTeeth := false
  zAnchor := 0

/-! ## C61 -/

theorem normalise_neg {p : GearInput} (hn : 0 < p.numTeeth) :
    ({ p with numTeeth := -p.numTeeth } : GearInput).normalise =
      ({ p with insideTeeth := !p.insideTeeth } : GearInput).normalise := by
  have h1 : -p.numTeeth < 0 := by linarith
  have h2 : ¬p.numTeeth < 0 := by linarith
  simp only [GearInput.normalise, h1, h2, if_true, if_false, neg_neg]

theorem normalise_pos {p : GearInput} (hn : 0 < p.numTeeth) : p.normalise = p := by
  simp only [GearInput.normalise, not_lt.2 hn.le, if_false]

theorem make_pos {n : ℝ} (hn : 0 < n) (c : ℝ) (b : Bool) : GearToothParam.make n c b = ⟨n, c, b⟩ := by
  simp only [GearToothParam.make, not_lt.2 hn.le, if_false]

/-- **C61** for `InvoluteGear`, and through it for `SpurGear` and `BevelGear`: the gear with `-n` teeth is, in every
stored value, the gear with `n` teeth and the other `inside_teeth`; it reports `n` teeth and the other kind. -/
theorem c61_involute (p : GearInput) (hn : 0 < p.numTeeth) :
    involuteGear { p with numTeeth := -p.numTeeth } = involuteGear { p with insideTeeth := !p.insideTeeth } ∧
      (involuteGear { p with numTeeth := -p.numTeeth }).numberOfTeeth = p.numTeeth ∧
      (involuteGear { p with numTeeth := -p.numTeeth }).insideTeeth = !p.insideTeeth := by
  have h : involuteGear { p with numTeeth := -p.numTeeth } = involuteGear { p with insideTeeth := !p.insideTeeth } := by
    simp only [involuteGear, normalise_neg hn]
  have e : ({ p with insideTeeth := !p.insideTeeth } : GearInput).normalise = { p with insideTeeth := !p.insideTeeth } :=
    normalise_pos (p := { p with insideTeeth := !p.insideTeeth }) hn
  refine ⟨h, ?_, ?_⟩ <;> rw [h] <;>
    simp [involuteGear, WGear.numberOfTeeth, WGear.insideTeeth, GearInput.calcParams, e, make_pos hn]

/-- **C61** for `SpurGear` and `BevelGear`, which have no `inside_teeth` argument: `-n` teeth give the ring gear. -/
theorem c61_spur_bevel (p : GearInput) (hn : 0 < p.numTeeth) :
    spurGear { p with numTeeth := -p.numTeeth } =
        involuteGear { p with helixAngle := 0, coneAngle := 0, insideTeeth := true } ∧
      bevelGear { p with numTeeth := -p.numTeeth } = involuteGear { p with insideTeeth := true } :=
  ⟨(c61_involute { p with helixAngle := 0, coneAngle := 0, insideTeeth := false } hn).1,
    (c61_involute { p with insideTeeth := false } hn).1⟩

/-- **C61** for `HelicalGear`, with or without herringbone. -/
theorem c61_helical (hb : Bool) (p : GearInput) (hn : 0 < p.numTeeth) :
    helicalGear hb { p with numTeeth := -p.numTeeth } = helicalGear hb { p with insideTeeth := !p.insideTeeth } := by
  have h := (c61_involute p.transverse hn).1
  have e1 : ({ p with numTeeth := -p.numTeeth } : GearInput).transverse =
    { p.transverse with numTeeth := -p.transverse.numTeeth } := rfl
  have e2 : ({ p with insideTeeth := !p.insideTeeth } : GearInput).transverse =
    { p.transverse with insideTeeth := !p.transverse.insideTeeth } := rfl
  simp only [helicalGear, e1, e2, h]

/-- **C61** for everything that placement reads from an involute or helical gear: with `-n` teeth it is the gear with `n`
teeth of the other kind, and helix angle, cone angle, module, centre and angle are those of the arguments. -/
theorem c61_placement (kind : GearKind) (p : InvParam) (hn : 0 < p.numTeeth) (tSol : ℝ) :
    InvParam.construct kind { p with numTeeth := -p.numTeeth } tSol =
        InvParam.construct kind { p with insideTeeth := !p.insideTeeth } tSol ∧
      (InvParam.construct kind { p with numTeeth := -p.numTeeth } tSol).tooth.insideTeeth = !p.insideTeeth ∧
      (InvParam.construct kind { p with numTeeth := -p.numTeeth } tSol).insideInput = !p.insideTeeth ∧
      (InvParam.construct kind { p with numTeeth := -p.numTeeth } tSol).tooth.numTeeth = p.numTeeth ∧
      (InvParam.construct kind { p with numTeeth := -p.numTeeth } tSol).helixAngle = p.helixAngle ∧
      (InvParam.construct kind { p with numTeeth := -p.numTeeth } tSol).coneAngle = p.coneAngle ∧
      (InvParam.construct kind { p with numTeeth := -p.numTeeth } tSol).module_ = p.module_ ∧
      (InvParam.construct kind { p with numTeeth := -p.numTeeth } tSol).transform.center = p.center ∧
      (InvParam.construct kind { p with numTeeth := -p.numTeeth } tSol).transform.angle = p.angle := by
  have h1 : -p.numTeeth < 0 := by linarith
  have h2 : ¬p.numTeeth < 0 := by linarith
  have e1 : ({ p with numTeeth := -p.numTeeth } : InvParam).normalise = { p with insideTeeth := !p.insideTeeth } := by
    rw [InvParam.normalise, if_pos h1]; simp
  have e2 : ({ p with insideTeeth := !p.insideTeeth } : InvParam).normalise = { p with insideTeeth := !p.insideTeeth } := by
    rw [InvParam.normalise, if_neg h2]
  refine ⟨?_, ?_, ?_, ?_, ?_, ?_, ?_, ?_, ?_⟩
  · simp only [InvParam.construct, e1, e2]
  all_goals simp [InvParam.construct, e1, make_pos hn]

/-- **C61 is violated** by `HelicalRingGear`: with `-n` teeth the object still reports inside teeth, while its input
record says outside teeth and its rim is the one of an external gear. -/
theorem c61_helical_ring_violated (hb : Bool) (p : GearInput) (hn : 0 < p.numTeeth) :
    (helicalRingGear hb { p with numTeeth := -p.numTeeth }).insideTeeth = true ∧
      (helicalRingGear hb { p with numTeeth := -p.numTeeth }).input.insideTeeth = false ∧
      (helicalRingGear hb { p with numTeeth := -p.numTeeth }).core.recipe.limits.hO = 2 ∧
      (helicalRingGear hb p).core.recipe.limits.hO = -2 := by
  have h1 : -p.numTeeth < 0 := by linarith
  have h2 : ¬p.numTeeth < 0 := by linarith
  cases hb <;>
  simp [helicalRingGear, WGear.insideTeeth, GearInput.transverse, GearInput.normalise, GearInput.calcParams,
    GearCore.herringbone, h1, h2, make_pos hn, GearInput.involuteLimits]

/-- **C61 is violated** by `CycloidGear`: with `-n` teeth the object reports `n` teeth of the other kind, but the
tooth generator gets a negative pitch radius and the recipe a negative pitch angle. -/
theorem c61_cycloid_violated (p : GearInput) (hn : 0 < p.numTeeth) :
    (cycloidGear { p with numTeeth := -p.numTeeth }).numberOfTeeth = p.numTeeth ∧
      (cycloidGear { p with numTeeth := -p.numTeeth }).insideTeeth = !p.insideTeeth ∧
      (cycloidGear { p with numTeeth := -p.numTeeth }).core.recipe.gen.pitchRadius = -(p.numTeeth / 2) ∧
      (cycloidGear { p with numTeeth := -p.numTeeth }).core.recipe.pitchAngle < 0 ∧
      0 < (cycloidGear { p with insideTeeth := !p.insideTeeth }).core.recipe.pitchAngle := by
  have h1 : -p.numTeeth < 0 := by linarith
  have h3 : 0 < 2 * π / p.numTeeth := by positivity
  refine ⟨?_, ?_, ?_, ?_, ?_⟩
  · simp [cycloidGear, WGear.numberOfTeeth, GearInput.calcCycloid, GearToothParam.make, hn]
  · simp [cycloidGear, WGear.insideTeeth, GearInput.calcCycloid, GearToothParam.make, hn]
  · simp [cycloidGear, GearInput.calcCycloid, ToothGen.pitchRadius, neg_div]
  · simp only [cycloidGear, GearInput.calcCycloid, div_neg]; linarith
  · simpa only [cycloidGear, GearInput.calcCycloid] using h3

/-- **C61 is violated** by `SpurRingGear`: with `-n` teeth the object is an external gear whose rim circle lies outside
the pitch circle (`h_o < 0`), unlike every external gear. -/
theorem c61_spur_ring_violated (p : GearInput) (hn : 0 < p.numTeeth) (w : ℝ) (hw : 0 < w) :
    (spurRingGear { p with numTeeth := -p.numTeeth } w).insideTeeth = false ∧
      (spurRingGear { p with numTeeth := -p.numTeeth } w).core.recipe.limits.hO < 0 ∧
      0 < (spurGear p).core.recipe.limits.hO := by
  have h1 : -p.numTeeth < 0 := by linarith
  have h2 : ¬p.numTeeth < 0 := by linarith
  simp [spurRingGear, spurGear, involuteGear, WGear.insideTeeth, GearInput.normalise, GearInput.calcParams, h1, h2, make_pos hn,
    GearInput.involuteLimits, hw]

example : 0 < exampleInput.numTeeth := by norm_num [exampleInput]

/-! ## C62 -/

theorem involuteGen_pia (p : GearInput) (z : ℝ) :
    p.involuteGen.pitchIntersectAngle z = p.crowningFunc z p.toothAngle := by
  rw [GearInput.involuteGen]
  split_ifs <;> rfl

/-- The tooth half angle at height `z` of an involute or cycloid gear. -/
noncomputable def halfTooth (g : WGear) (z : ℝ) : ℝ := g.core.recipe.gen.pitchIntersectAngle z

/-- The middle of the gear, from its first to its last section. -/
noncomputable def midHeight (g : WGear) : ℝ := (g.core.zVals.headD 0 + g.core.zVals.getLastD 0) / 2

theorem halfTooth_involute {p : GearInput} (hn : 0 < p.numTeeth) (z : ℝ) :
    halfTooth (involuteGear p) z = p.crowningFunc z p.toothAngle := by
  rw [halfTooth, involuteGear, normalise_pos hn]
  exact involuteGen_pia p z

theorem midHeight_eq {g : WGear} {p : GearInput} (h : g.core.zVals = p.zVals) :
    midHeight g = p.height / p.module_ * (1 - 2 * p.zAnchor) / 2 := by
  simp only [midHeight, h, GearInput.zVals, List.headD_cons, List.getLastD_cons, List.getLastD_nil]
  ring

theorem crowning_nominal_iff {p : GearInput} (hn : 0 < p.numTeeth) (hh : p.height ≠ 0) (hm : p.module_ ≠ 0)
    (hc : p.crowning ≠ 0) (o : ℝ) :
    (p.crowningFunc (p.height / p.module_ * (1 - 2 * p.zAnchor) / 2) o = o ↔ 1 - 2 * p.zAnchor = p.module_) ∧
      ((∀ t, p.crowningFunc (p.height / p.module_ * (1 - 2 * p.zAnchor) / 2 + t) o =
        p.crowningFunc (p.height / p.module_ * (1 - 2 * p.zAnchor) / 2 - t) o) ↔ 1 - 2 * p.zAnchor = p.module_) := by
  have hk : p.crowning / (p.numTeeth / 2) * (1 / 1000) ≠ 0 := by positivity
  obtain ⟨k, hkd⟩ : ∃ k, k = p.crowning / (p.numTeeth / 2) * (1 / 1000) := ⟨_, rfl⟩
  have hf : ∀ z, p.crowningFunc z o = o - (z * 2 / p.height - 1) ^ 2 * k := by
    intro z; rw [GearInput.crowningFunc, hkd]; ring
  rw [← hkd] at hk
  have key : ∀ t, (p.height / p.module_ * (1 - 2 * p.zAnchor) / 2 + t) * 2 / p.height - 1 =
      ((1 - 2 * p.zAnchor) / p.module_ - 1) + 2 * t / p.height := by
    intro t; field_simp; ring
  have key' : ∀ t, (p.height / p.module_ * (1 - 2 * p.zAnchor) / 2 - t) * 2 / p.height - 1 =
      ((1 - 2 * p.zAnchor) / p.module_ - 1) - 2 * t / p.height := by
    intro t; field_simp; ring
  have heq : (1 - 2 * p.zAnchor) / p.module_ - 1 = 0 ↔ 1 - 2 * p.zAnchor = p.module_ := by
    rw [sub_eq_zero, div_eq_one_iff_eq hm]
  constructor
  · have k0 := key 0
    rw [add_zero] at k0
    rw [hf, k0, ← heq]
    constructor
    · intro h
      have : ((1 - 2 * p.zAnchor) / p.module_ - 1 + 2 * 0 / p.height) ^ 2 * k = 0 := by linarith
      rcases mul_eq_zero.1 this with h | h
      · simpa using h
      · exact absurd h hk
    · intro h; rw [h]; simp
  · rw [← heq]
    constructor
    · intro h
      have e := h (p.height / 2)
      rw [hf, hf, key, key'] at e
      have h1 : 2 * (p.height / 2) / p.height = 1 := by field_simp
      rw [h1] at e
      have : 4 * ((1 - 2 * p.zAnchor) / p.module_ - 1) * k = 0 := by linear_combination -e
      rcases mul_eq_zero.1 this with h | h
      · linarith
      · exact absurd h hk
    · intro h t
      rw [hf, hf, key, key', h]
      ring

/-- **C62, exactly** (`_partial`: the property holds only for a module equal to `1 - 2 z_anchor`). A crowned involute
or cycloid gear has its nominal tooth width (the width without crowning) at mid height exactly when
`1 - 2 z_anchor = module`, and the reduction is symmetric about mid height exactly then. -/
theorem c62_partial (p : GearInput) (hn : 0 < p.numTeeth) (hh : p.height ≠ 0) (hm : p.module_ ≠ 0)
    (hc : p.crowning ≠ 0) (make : GearInput → WGear) (hmake : make = involuteGear ∨ make = cycloidGear) :
    (halfTooth (make p) (midHeight (make p)) = halfTooth (make { p with crowning := 0 }) (midHeight (make p)) ↔
        1 - 2 * p.zAnchor = p.module_) ∧
      ((∀ t, halfTooth (make p) (midHeight (make p) + t) = halfTooth (make p) (midHeight (make p) - t)) ↔
        1 - 2 * p.zAnchor = p.module_) := by
  rcases hmake with rfl | rfl
  · have hz : (involuteGear p).core.zVals = p.zVals := by rw [involuteGear, normalise_pos hn]; rfl
    have h0 : ∀ z, halfTooth (involuteGear { p with crowning := 0 }) z = p.toothAngle := by
      intro z
      rw [halfTooth_involute (p := { p with crowning := 0 }) hn]
      simp [GearInput.crowningFunc, GearInput.toothAngle]
    rw [midHeight_eq hz, h0]
    simp only [halfTooth_involute hn]
    exact crowning_nominal_iff hn hh hm hc _
  · have hz : (cycloidGear p).core.zVals = p.zVals := rfl
    have h0 : ∀ z, halfTooth (cycloidGear { p with crowning := 0 }) z =
        2 * π / p.numTeeth / 4 - p.backlash / (p.numTeeth / 2) := by
      intro z
      simp [halfTooth, cycloidGear, GearInput.calcCycloid, ToothGen.pitchIntersectAngle, GearInput.crowningFunc]
    have h1 : ∀ z, halfTooth (cycloidGear p) z =
        p.crowningFunc z (2 * π / p.numTeeth / 4 - p.backlash / (p.numTeeth / 2)) := fun z => rfl
    rw [midHeight_eq hz, h0]
    simp only [h1]
    exact crowning_nominal_iff hn hh hm hc _

/-- **C62, amount** (`_partial`: module 1, anchored at the bottom). A crowning of `100` moves each flank by a tenth of
the module at the bottom and at the top, measured along the pitch circle, as the documentation says. -/
theorem c62_amount_partial (p : GearInput) (hn : 0 < p.numTeeth) (hh : p.height ≠ 0) (hm : p.module_ = 1)
    (ha : p.zAnchor = 0) (z : ℝ) (hz : z ∈ (involuteGear p).core.zVals) :
    (halfTooth (involuteGear { p with crowning := 0 }) z - halfTooth (involuteGear p) z) * (p.numTeeth / 2) =
      p.crowning / 1000 := by
  have hz' : (involuteGear p).core.zVals = p.zVals := by rw [involuteGear, normalise_pos hn]; rfl
  rw [hz'] at hz
  rw [halfTooth_involute hn, halfTooth_involute (p := { p with crowning := 0 }) hn]
  simp only [GearInput.zVals, hm, ha, List.mem_cons, List.not_mem_nil, or_false] at hz
  have e : ({ p with crowning := 0 } : GearInput).toothAngle = p.toothAngle := rfl
  rw [e]
  simp only [GearInput.crowningFunc]
  rcases hz with rfl | rfl <;> field_simp <;> ring

/-- **C62 is violated** for every module other than 1 with the default anchor: the width at mid height is reduced, and
the reduction is not symmetric. -/
theorem c62_violated (p : GearInput) (hn : 0 < p.numTeeth) (hh : p.height ≠ 0) (hm : p.module_ ≠ 0)
    (hm1 : p.module_ ≠ 1) (ha : p.zAnchor = 0) (hc : p.crowning ≠ 0) :
    halfTooth (involuteGear p) (midHeight (involuteGear p)) ≠
        halfTooth (involuteGear { p with crowning := 0 }) (midHeight (involuteGear p)) ∧
      ∃ t, halfTooth (involuteGear p) (midHeight (involuteGear p) + t) ≠
        halfTooth (involuteGear p) (midHeight (involuteGear p) - t) := by
  have h := c62_partial p hn hh hm hc involuteGear (Or.inl rfl)
  have hne : ¬(1 - 2 * p.zAnchor = p.module_) := by rw [ha]; intro e; apply hm1; linarith
  refine ⟨fun e => hne (h.1.1 e), ?_⟩
  by_contra hcon
  push Not at hcon
  exact hne (h.2.1 hcon)

example : (0 : ℝ) < ({ exampleInput with crowning := 100 } : GearInput).numTeeth ∧
    ({ exampleInput with crowning := 100 } : GearInput).height ≠ 0 ∧
    ({ exampleInput with crowning := 100 } : GearInput).module_ ≠ 1 ∧
    ({ exampleInput with crowning := 100 } : GearInput).crowning ≠ 0 := by norm_num [exampleInput]

example : 1 - 2 * ({ exampleInput with crowning := 100, module_ := 1 } : GearInput).zAnchor =
    ({ exampleInput with crowning := 100, module_ := 1 } : GearInput).module_ := by norm_num [exampleInput]

/-! ## C63 -/

theorem place_transformAt (g : WGear) (c : V3) (o : M3) (a z : ℝ) :
    (g.place c o a).core.transformAt z =
      { center := c + g.core.transform.scale • app (o * Rz a) (g.core.recipe.center z)
        orientation := o
        scale := g.core.transform.scale * g.core.recipe.scale z
        angle := a + g.core.recipe.angle z } := by
  simp [GearCore.transformAt, WGear.place, GearTransform.mul, GearCore.recipeTransform, app]

/-- **C63, apex**. However an involute or cycloid gear is placed, all slices have the same cone apex: on the gear axis,
`rp / tan γ` above the centre of the reference pitch circle. -/
theorem c63_apex (p : GearInput) (hn : 0 < p.numTeeth) (hγ : sin (p.coneAngle / 2) ≠ 0)
    (make : GearInput → WGear) (hmake : make = involuteGear ∨ make = cycloidGear) (c : V3) (o : M3) (a z : ℝ) :
    (((make p).place c o a).core.coneAtZ z).center =
      c + (p.module_ * (p.numTeeth / 2) * (cos (p.coneAngle / 2) / sin (p.coneAngle / 2))) • app o ![0, 0, 1] := by
  have hmod : ∀ g : WGear, g = involuteGear p ∨ g = cycloidGear p → g.core.transform.scale = p.module_ ∧
      g.core.recipe.center z = (z * cos (p.coneAngle / 2)) • OUT ∧
      g.core.recipe.scale z = 1 - z * 2 * sin (p.coneAngle / 2) / p.numTeeth ∧
      g.core.recipe.coneAngle = p.coneAngle ∧ g.core.recipe.coneBase = p.numTeeth / 2 := by
    rintro g (rfl | rfl)
    · rw [involuteGear, normalise_pos hn, make_pos hn]; exact ⟨rfl, rfl, rfl, rfl, rfl⟩
    · exact ⟨rfl, rfl, rfl, rfl, rfl⟩
  obtain ⟨h1, h2, h3, h4, h5⟩ := hmod (make p) (by rcases hmake with rfl | rfl <;> simp)
  have h6 : ((make p).place c o a).core.recipe = (make p).core.recipe := rfl
  have hO : (![0, 0, 1] : V3) = OUT := rfl
  rw [GearCore.coneAtZ, ConicData.center, place_transformAt, applyTransform_eq, h6, h4, h5, h1, h2, h3]
  simp only [ConicData.gamma]
  rw [hO, app_mul, app_smul, app_smul, Rz_app_OUT, app_smul, tan_eq_sin_div_cos]
  have : p.module_ * (1 - z * 2 * sin (p.coneAngle / 2) / p.numTeeth) *
        (p.numTeeth / 2 / (sin (p.coneAngle / 2) / cos (p.coneAngle / 2))) +
      p.module_ * (z * cos (p.coneAngle / 2)) =
        p.module_ * (p.numTeeth / 2) * (cos (p.coneAngle / 2) / sin (p.coneAngle / 2)) := by
    rw [div_div_eq_mul_div]
    field_simp
    ring
  rw [← this]
  module

/-- **C63, lead**. The pitch point of the slice at `z` of an involute or cycloid gear, seen in the gear's own frame, is
at height `z cos γ`, at radius `rp - z sin γ` and turned by an angle whose arc on the pitch circle is `z tan β`. -/
theorem c63_lead (p : GearInput) (hn : 0 < p.numTeeth) (make : GearInput → WGear)
    (hmake : make = involuteGear ∨ make = cycloidGear) (c : V3) (o : M3) (a z : ℝ) :
    ∃ φ, p.numTeeth / 2 * φ = z * tan p.helixAngle ∧
      applyGearTransform ![p.numTeeth / 2, 0, 0] (((make p).place c o a).core.transformAt z) =
        applyGearTransform ![(p.numTeeth / 2 - z * sin (p.coneAngle / 2)) * cos φ,
          (p.numTeeth / 2 - z * sin (p.coneAngle / 2)) * sin φ, z * cos (p.coneAngle / 2)]
          ((make p).place c o a).core.transform := by
  have hmod : ∀ g : WGear, g = involuteGear p ∨ g = cycloidGear p → g.core.transform.scale = p.module_ ∧
      g.core.recipe.center z = (z * cos (p.coneAngle / 2)) • OUT ∧
      g.core.recipe.scale z = 1 - z * 2 * sin (p.coneAngle / 2) / p.numTeeth ∧
      g.core.recipe.angle z = z * (tan p.helixAngle / (p.numTeeth / 2)) := by
    rintro g (rfl | rfl)
    · rw [involuteGear, normalise_pos hn, make_pos hn]; exact ⟨rfl, rfl, rfl, rfl⟩
    · exact ⟨rfl, rfl, rfl, rfl⟩
  obtain ⟨h1, h2, h3, h4⟩ := hmod (make p) (by rcases hmake with rfl | rfl <;> simp)
  refine ⟨z * (tan p.helixAngle / (p.numTeeth / 2)), by field_simp, ?_⟩
  rw [place_transformAt, applyGearTransform_eq, applyGearTransform_eq, h1, h2, h3, h4]
  have e : ((make p).place c o a).core.transform =
    { center := c, orientation := o, scale := p.module_, angle := a } := by simp [WGear.place, h1]
  rw [e]
  simp only
  rw [Rz_add, app_mul, app_mul, app_smul, Rz_app_OUT]
  obtain ⟨φ, hφ⟩ : ∃ φ, φ = z * (tan p.helixAngle / (p.numTeeth / 2)) := ⟨_, rfl⟩
  rw [← hφ]
  have hv : (![(p.numTeeth / 2 - z * sin (p.coneAngle / 2)) * cos φ,
      (p.numTeeth / 2 - z * sin (p.coneAngle / 2)) * sin φ, z * cos (p.coneAngle / 2)] : V3) =
      (1 - z * 2 * sin (p.coneAngle / 2) / p.numTeeth) • app (Rz φ) ![p.numTeeth / 2, 0, 0] +
        (z * cos (p.coneAngle / 2)) • OUT := by
    apply V3.ext3 <;> simp [OUT] <;> field_simp
  rw [hv, app_add, app_add, app_smul, app_smul, app_smul, app_smul, app_smul, Rz_app_OUT]
  module

example : (0 : ℝ) < exampleInput.numTeeth ∧
    sin (({ exampleInput with coneAngle := π / 2 } : GearInput).coneAngle / 2) ≠ 0 := by
  refine ⟨by norm_num [exampleInput], ?_⟩
  have : ({ exampleInput with coneAngle := π / 2 } : GearInput).coneAngle / 2 = π / 4 := by simp; ring
  rw [this, sin_pi_div_four]
  positivity

end Verif
