import Verif.Model.SpurProfile
import Verif.Props.PlainUndercut
import Verif.Props.UndercutOutlineEx
import Verif.Props.Blank

/-!
# The outline of a spur gear, from its parameters: C145

The profile that `SpurGear` makes from number of teeth, pressure angle, profile shift, backlash and tooth heights is that of C140 or
C142. The geometric conditions of these properties follow from simple conditions on the parameters, and hold for the default
parameters and every number of teeth from three on.
-/

namespace Verif

open Real Set

/-! ### The standard pressure angle -/

theorem tan_twenty : 3639 / 10000 < tan (π / 9) ∧ tan (π / 9) < 364 / 1000 := by
  have p3 := pi_pos
  have hc : 0 < cos (π / 9) := cos_pos_of_mem_Ioo ⟨by linarith, by linarith⟩
  have c3 := cos_three_mul (π / 9)
  have s3 := sin_three_mul (π / 9)
  have e : 3 * (π / 9) = π / 3 := by ring
  rw [e, cos_pi_div_three] at c3
  rw [e, sin_pi_div_three] at s3
  obtain ⟨c, ec⟩ : ∃ c, c = cos (π / 9) := ⟨_, rfl⟩
  obtain ⟨s, es⟩ : ∃ s, s = sin (π / 9) := ⟨_, rfl⟩
  have h1 : s ^ 2 + c ^ 2 = 1 := by rw [ec, es]; exact sin_sq_add_cos_sq _
  obtain ⟨t, et⟩ : ∃ t, t = tan (π / 9) := ⟨_, rfl⟩
  have hs : s = t * c := by rw [et, tan_eq_sin_div_cos, ← ec, ← es, div_mul_cancel₀ _ (by rw [ec]; exact hc.ne')]
  have hsq : √3 ^ 2 = 3 := sq_sqrt (by norm_num)
  have hq0 : (17320 : ℝ) / 10000 < √3 := by rw [lt_sqrt (by norm_num)]; norm_num
  have hq1 : √3 < (17321 : ℝ) / 10000 := by rw [sqrt_lt (by norm_num) (by norm_num)]; norm_num
  rw [← ec] at c3 hc
  rw [← es] at s3
  have cubic : 3 * t - t ^ 3 = √3 * (1 - 3 * t ^ 2) := by
    have : c ^ 3 * (3 * t - t ^ 3 - √3 * (1 - 3 * t ^ 2)) = 0 := by
      have a1 : 3 * s * c ^ 2 - s ^ 3 = √3 / 2 := by
        rw [s3]; linear_combination (3 * s) * h1
      have a2 : c ^ 3 - 3 * c * s ^ 2 = 1 / 2 := by rw [c3]; linear_combination (-3 * c) * h1
      rw [hs] at a1 a2
      linear_combination a1 - √3 * a2
    rcases mul_eq_zero.1 this with h | h
    · exact absurd h (pow_ne_zero _ hc.ne')
    · linarith
  have ht0 : 0 < t := by rw [et]; exact tan_pos_of_pos_of_lt_pi_div_two (by linarith) (by linarith)
  have ht1 : t < 1 := by
    rw [et, ← tan_pi_div_four]
    exact tan_lt_tan_of_lt_of_lt_pi_div_two (by linarith) (by linarith) (by linarith)
  rw [← et]
  constructor
  · by_contra hcon
    nlinarith [not_lt.1 hcon, mul_pos ht0 ht0, mul_nonneg ht0.le (sub_nonneg.2 (not_lt.1 hcon))]
  · by_contra hcon
    nlinarith [not_lt.1 hcon, mul_pos ht0 ht0, mul_nonneg ht0.le (sub_nonneg.2 (not_lt.1 hcon))]

/-! ### Reference circles and tip -/

theorem arc_center {c : Curve} {r : ℝ} (h : c.arcRadius = some r) : ∃ m, c.arcCenter = some m := by
  unfold Curve.arcRadius at h
  unfold Curve.arcCenter
  split at h
  · rename_i k
    rw [k]
    exact ⟨_, rfl⟩
  · cases h

/-- The circle for the tip of a cylindrical gear exists, is centred on the axis, and is not larger than the addendum circle. -/
theorem tip_circle {asEuler : M3 → ℝ × ℝ × ℝ} (hE : EulerOk asEuler) {S : ScalarSolvers} {r : ProfileRecipe} (h0 : r.coneAngle = 0)
    {f : ℝ → Option V3} {C : RefCircles} {x y : ℝ} (hy : 0 < y) (hxy : y < x) (hr : C.a.arcRadius = some x)
    (ha : ∀ s, C.a.eval s = some ![x * cos (2 * π * s), x * sin (2 * π * s), 0])
    (hd : ∀ s, C.d.eval s = some ![y * cos (2 * π * s), y * sin (2 * π * s), 0]) (htr : r.tipReduction ≤ y) :
    ∃ rA RA, r.tipCircle asEuler S f C = some rA ∧ rA.arcRadius = some RA ∧ 0 < RA ∧
      RA = (if 0 < r.tipReduction then applyTipReduction x y r.tipReduction (tipSearches S f 0 r.coneBase) else x) ∧
      ∀ s, rA.eval s = some ![RA * cos (2 * π * s), RA * sin (2 * π * s), 0] := by
  have hpol : ∀ u : ℝ, 0 < u → polarTransform 0 r.coneBase ![u, 0, 0] = some ![u, 0, 0] := by
    intro u hu
    simp only [polarTransform, if_true]
    congr 1
    have := c13_cylindrical' u 0 0 ORIGIN hu (by linarith [pi_pos]) pi_pos.le
    have e : cylindricalToXyz ![u, 0, 0] ORIGIN = ![u, 0, 0] := by
      apply V3.ext3 <;> simp [cylindricalToXyz, ORIGIN]
    rwa [e] at this
  have hinv : ∀ u : ℝ, inversePolarTransform 0 r.coneBase ![u, 0, 0] = ![u, 0, 0] := by
    intro u
    simp only [inversePolarTransform, if_true]
    apply V3.ext3 <;> simp [cylindricalToXyz, ORIGIN]
  rw [ProfileRecipe.tipCircle]
  by_cases ht : 0 < r.tipReduction
  · have hpos : 0 < applyTipReduction x y r.tipReduction (tipSearches S f 0 r.coneBase) := by
      have := c57_lower_partial x y r.tipReduction hxy (tipSearches S f 0 r.coneBase)
      rw [max_eq_left ht.le] at this
      linarith
    obtain ⟨RA, eRA⟩ : ∃ RA, RA = applyTipReduction x y r.tipReduction (tipSearches S f 0 r.coneBase) := ⟨_, rfl⟩
    rw [← eRA] at hpos
    obtain ⟨c, c1, -, c3, c4⟩ := circle_spec hE RA 0 hpos.ne'
    refine ⟨c, RA, ?_, by rw [c3, abs_of_pos hpos], hpos, by rw [if_pos ht, eRA], c4⟩
    have e1 : C.a.eval 0 = some ![x, 0, 0] := by rw [ha 0]; simp
    have e2 : C.d.eval 0 = some ![y, 0, 0] := by rw [hd 0]; simp
    rw [if_pos ht, h0, e1, Option.bind_some, hpol x (hy.trans hxy), Option.bind_some, e2, Option.bind_some, hpol y hy,
      Option.bind_some]
    simp only [Matrix.cons_val_zero, ← eRA, hinv]
    exact c1
  · exact ⟨C.a, x, by rw [if_neg ht], hr, hy.trans hxy, by rw [if_neg ht], ha⟩

/-! ### The gear -/

/-- What the searches have to return for the profile of a spur gear at height `z`: those of the tooth generator, those of the
undercut if there is one, and those of the trimming on the curves and circles of this gear. -/
structure SpurSearches (asEuler : M3 → ℝ × ℝ × ℝ) (S : ScalarSolvers) (p : GearInput) (z : ℝ) : Prop where
  tooth : ToothSearches S (p.crowningFunc z p.toothAngle) (p.numTeeth / 2) p.pressureAngle
  under : p.undercut = true → p.numTeeth / 2 - (p.dedendum - p.profileShift) ≤ p.numTeeth / 2 * cos p.pressureAngle → ∀ l,
    involuteToothCurve S (p.crowningFunc z p.toothAngle) (p.numTeeth / 2) p.pressureAngle = some l →
      UndercutSearches S (p.numTeeth / 2) (p.crowningFunc z p.toothAngle) (2 * π / p.numTeeth) p.pressureAngle
        (spurGear p).core.recipe.limits l
  dip : p.undercut = true → p.numTeeth / 2 - (p.dedendum - p.profileShift) ≤ p.numTeeth / 2 * cos p.pressureAngle → ∀ m C rA,
    (spurGear p).core.recipe.gen.spurCurve S z = some m →
    referenceCircles asEuler (p.numTeeth / 2) (p.addendum + p.profileShift) (p.dedendum - p.profileShift) 2 0 (p.numTeeth / 2) =
      some C →
    (spurGear p).core.recipe.tipCircle asEuler S (chainEval undercutOps m) C = some rA →
      DipSearches S m rA C.d p.tipFillet (2 * π / p.numTeeth)
  trim : (p.undercut = true → p.numTeeth / 2 * cos p.pressureAngle < p.numTeeth / 2 - (p.dedendum - p.profileShift)) → ∀ l C rA,
    involuteToothCurve S (p.crowningFunc z p.toothAngle) (p.numTeeth / 2) p.pressureAngle = some l →
    referenceCircles asEuler (p.numTeeth / 2) (p.addendum + p.profileShift) (p.dedendum - p.profileShift) 2 0 (p.numTeeth / 2) =
      some C →
    (spurGear p).core.recipe.tipCircle asEuler S (chainEval undercutOps (l.map .inl)) C = some rA →
      TrimSearches S l rA C.d p.tipFillet (2 * π / p.numTeeth)
        (-(p.crowningFunc z p.toothAngle + (tan p.pressureAngle - p.pressureAngle)))

/-- What a spur gear makes of its parameters. -/
theorem spur_recipe {p : GearInput} (hn : 0 ≤ p.numTeeth) :
    (spurGear p).core.recipe.gen = (if p.undercut then
        ToothGen.involuteUndercut p.pressureAngle (p.numTeeth / 2) (fun z => p.crowningFunc z p.toothAngle)
          (spurGear p).core.recipe.limits 0 (2 * π / p.numTeeth)
      else .involute p.pressureAngle (p.numTeeth / 2) (fun z => p.crowningFunc z p.toothAngle) (spurGear p).core.recipe.limits 0) ∧
      (spurGear p).core.recipe.limits = ⟨p.addendum + p.profileShift, p.dedendum - p.profileShift, 2⟩ ∧
      (spurGear p).core.recipe.coneAngle = 0 ∧ (spurGear p).core.recipe.coneBase = p.numTeeth / 2 ∧
      (spurGear p).core.recipe.tipFillet = p.tipFillet ∧ (spurGear p).core.recipe.rootFillet = p.rootFillet ∧
      (spurGear p).core.recipe.tipReduction = p.tipTruncation ∧ (spurGear p).core.recipe.pitchAngle = 2 * π / p.numTeeth := by
  have e : ({ p with helixAngle := 0, coneAngle := 0, insideTeeth := false } : GearInput).normalise =
      { p with helixAngle := 0, coneAngle := 0, insideTeeth := false } := by
    rw [GearInput.normalise, if_neg (not_lt.2 hn)]
  rw [spurGear, involuteGear, e]
  refine ⟨?_, ?_, rfl, rfl, rfl, rfl, rfl, rfl⟩
  · simp only [GearInput.calcParams, GearInput.involuteGen, if_true]
    split_ifs <;> rfl
  · simp [GearInput.calcParams, GearInput.involuteLimits]

/-- **C145.** A spur gear is described by its parameters: number of teeth, pressure angle, profile shift, backlash, crowning,
addendum, dedendum, tip truncation, with or without undercut, no fillets. `w` is half the thickness of a tooth on the pitch circle
and `h` its depth, both times the module. If the tooth is not wider than the gap of the rack leaves room for, not deeper than four
fifths of the pitch radius, `h ≤ w + h * tan α`, and the corner of the rack lies within the pitch circle at its deepest point (all
this only where there is an undercut), and if the solvers report only true solutions and the searches succeed, then the profile
exists, its flank runs outwards between the middle of the gap and the middle of the tooth, and the outline of the `n` teeth is closed
and does not cross or touch itself. -/
theorem c145_outline {asEuler : M3 → ℝ × ℝ × ℝ} (hE : EulerOk asEuler) {S : ScalarSolvers} (hS : Honest S) (hD : Descends S)
    {p : GearInput} {n : ℕ} (hn : p.numTeeth = n) (h2 : 2 ≤ n) (ha0 : 0 < p.pressureAngle) (ha1 : p.pressureAngle < π / 2)
    (ht : p.tipFillet ≤ 0) (hr : p.rootFillet ≤ 0) (z : ℝ) {w h : ℝ} (ew : w = n / 2 * p.crowningFunc z p.toothAngle)
    (eh : h = p.dedendum - p.profileShift) (hw : 0 < w) (hA : 0 < p.addendum + p.profileShift) (h0 : -(p.addendum + p.profileShift) < h)
    (h1 : h < n / 2) (htr : p.tipTruncation ≤ n / 2 - h)
    (hplain : (p.undercut = true → n / 2 * cos p.pressureAngle < n / 2 - h) →
      w / (n / 2) + (tan p.pressureAngle - p.pressureAngle) ≤ π / 2 ∧ w / (n / 2) + (tan p.pressureAngle - p.pressureAngle) ≠ π / n)
    (hunder : p.undercut = true → n / 2 - h ≤ n / 2 * cos p.pressureAngle →
      w + h * tan p.pressureAngle < π / 2 ∧ h ≤ 4 / 5 * (n / 2) ∧ h ≤ w + h * tan p.pressureAngle ∧
        (w + h * tan p.pressureAngle) ^ 2 ≤ h * (n - h))
    (hs : SpurSearches asEuler S p z) :
    ∃ C m rA t t' T,
      referenceCircles asEuler (n / 2) (p.addendum + p.profileShift) h 2 0 (n / 2) = some C ∧
      (spurGear p).core.recipe.gen.spurCurve S z = some m ∧
      (spurGear p).core.recipe.tipCircle asEuler S (chainEval undercutOps m) C = some rA ∧
      trimTip (chainOps undercutOps) S ⟨m, true⟩ rA p.tipFillet (2 * π / n) = some t ∧
      trimRoot (chainOps undercutOps) S t C.d p.rootFillet (2 * π / n) = some t' ∧
      (∀ s, 0 ≤ s → s ≤ 1 → (chainOps undercutOps).eval t' s = some (T s)) ∧ Spec.OutwardFlank T (2 * π / n) ∧
      chainEval undercutOps m (tipCut S (chainEval undercutOps m) rA (2 * π / n)) = some (T 1) ∧
      (p.undercut = true → n / 2 - h ≤ n / 2 * cos p.pressureAngle →
        T 0 = ![(n / 2 - h) * cos ((w + h * tan p.pressureAngle) / (n / 2)), -((n / 2 - h) * sin ((w + h * tan p.pressureAngle) / (n / 2))), 0]) ∧
      ((p.undercut = true → n / 2 * cos p.pressureAngle < n / 2 - h) →
        (∃ a, 0 ≤ a ∧ a < tipCut S (chainEval undercutOps m) rA (2 * π / n) ∧ chainEval undercutOps m a = some (T 0)) ∧
          chainEval undercutOps t.curves (rootCut S (chainEval undercutOps t.curves) C.d (2 * π / n)) = some (T 0)) ∧
      (ExactGaps T (2 * π / n) → ∃ P, (spurGear p).core.recipe.spurProfile asEuler S z = some P ∧
        Spec.SimpleOutline (chainEval (sumOps (chainOps undercutOps) curveOps) (P.chain (chainOps undercutOps))) (2 * π / n) n) := by
  have hn2 : (2 : ℝ) ≤ n := by exact_mod_cast h2
  have hn0 : (0 : ℝ) < n := by linarith
  have hrp : (0 : ℝ) < n / 2 := by linarith
  obtain ⟨r1, r2, r3, r4, r5, r6, r7, r8⟩ := spur_recipe (p := p) (by rw [hn]; exact hn0.le)
  obtain ⟨pia, epia⟩ : ∃ pia, pia = p.crowningFunc z p.toothAngle := ⟨_, rfl⟩
  obtain ⟨alpha, ealpha⟩ : ∃ alpha, alpha = p.pressureAngle := ⟨_, rfl⟩
  rw [← epia] at ew
  have hpia : 0 < pia := by
    by_contra hc
    have := mul_nonpos_of_nonneg_of_nonpos hrp.le (not_lt.1 hc)
    linarith
  have ewp : w / (n / 2) = pia := by rw [ew]; field_simp
  obtain ⟨s1, s2, s3, s4⟩ := hs
  rw [hn] at r1 r4 r8 s1 s2 s3 s4
  rw [← eh] at r2 s2 s3 s4
  rw [ewp] at hplain
  rw [← ealpha] at ha0 ha1 hplain hunder r1 s1 s2 s3 s4
  rw [← epia] at s1 s2 s4
  obtain ⟨C, hC, c1, -, c3, c4, cev⟩ := c54_cylindrical hE (n / 2) (p.addendum + p.profileShift) h 2 (n / 2) hrp (by linarith) (by linarith)
  obtain ⟨mo, hmo⟩ := arc_center c4
  rw [abs_of_pos (by linarith)] at c1
  have hcirc := fun f : ℝ → Option V3 => tip_circle hE (S := S) (f := f) r3 (x := n / 2 + (p.addendum + p.profileShift)) (y := n / 2 - h)
    (by linarith) (by linarith) c1 (fun s => (cev s).1) (fun s => (cev s).2.2.1) (by rw [r7]; exact htr)
  have hrD : ∀ s q, C.d.eval s = some q → q 0 ^ 2 + q 1 ^ 2 = (n / 2 - h) ^ 2 := by
    intro s q hq
    rw [(cev s).2.2.1] at hq
    rw [← Option.some.inj hq]
    simp
    linear_combination ((n : ℝ) / 2 - h) ^ 2 * sin_sq_add_cos_sq (2 * π * s)
  have hpitch : (n : ℝ) * (2 * π / n) = 2 * π := by field_simp
  have hhalf : 2 * π / n / 2 = π / n := by ring
  have hprof : ∀ m rA a, (spurGear p).core.recipe.gen.spurCurve S z = some m →
      (spurGear p).core.recipe.tipCircle asEuler S (chainEval undercutOps m) C = some rA → rA.arcRadius = some a →
      (spurGear p).core.recipe.spurProfile asEuler S z = trimReferenceProfile (chainOps undercutOps) asEuler S ⟨m, true⟩ rA C.d a
        |n / 2 - h| (max (n / 2 - 2) DELTA) mo p.tipFillet p.rootFillet (2 * π / n) := by
    intro m rA a e1 e2 e3
    have hgr : (spurGear p).core.recipe.gen.pitchRadius = n / 2 := by
      rw [r1]; split_ifs <;> rfl
    rw [ProfileRecipe.spurProfile, ProfileRecipe.profileOf, hgr, r3, r4, r2]
    simp only
    rw [hC, Option.bind_some, e1, Option.bind_some]
    change ((spurGear p).core.recipe.tipCircle asEuler S (chainEval undercutOps m) C).bind _ = _
    rw [e2, Option.bind_some, e3, c3, c4, hmo, r5, r6, r8]
  by_cases hb : p.undercut = true ∧ n / 2 - h ≤ n / 2 * cos alpha
  · obtain ⟨u1, u2⟩ := hb
    obtain ⟨i1, i2, i3, i4⟩ := hunder u1 u2
    have hh : 0 < h := by
      have : cos alpha < 1 := by
        rw [← cos_zero]
        exact cos_lt_cos_of_nonneg_of_le_pi_div_two (le_refl 0) ha1.le ha0
      nlinarith
    have eK : n / 2 * pia + h * tan alpha = w + h * tan alpha := by rw [ew]
    have hK : 0 < w + h * tan alpha := by linarith
    rw [if_pos u1] at r1
    rw [r2] at r1 s2
    have hcur : ∀ l m, involuteToothCurve S pia (n / 2) alpha = some l →
        undercutToothCurve S l (n / 2 * cos alpha) (n / 2) pia (2 * π / n) alpha ⟨p.addendum + p.profileShift, h, 2⟩ = some m →
        (spurGear p).core.recipe.gen.spurCurve S z = some m := by
      intro l m e1 e2
      rw [r1, ToothGen.spurCurve, ← epia, e1, Option.bind_some, e2]
    -- the tooth curve exists, whatever the tip circle is
    obtain ⟨l, u, d, hl, hm, -⟩ := undercut_generated hS hrp ha0 ha1 hpia (limits := ⟨p.addendum + p.profileShift, h, 2⟩) hA hh h1 u2
      (by show h * tan alpha < _; rw [hhalf, mul_sub, show (n : ℝ) / 2 * (π / n) = π / 2 by field_simp]; linarith)
      (by rw [div_le_iff₀ hn0]; nlinarith [pi_pos])
      (by show (n / 2 * pia + h * tan alpha) / (n / 2) < _; rw [eK]; exact corner_turn hK hh h1 (by linarith))
      (by show ∀ v, 0 ≤ v → arctan (v / (n / 2 - h)) < (n / 2 * pia + h * tan alpha + v) / (n / 2); rw [eK]; exact neck_free hh i2 i3)
      s1 (s2 u1 u2)
    have hcm := hcur _ _ hl hm
    obtain ⟨rA, RA, a1, a2, -, -, -⟩ := hcirc (chainEval undercutOps [.inl u, .inr d])
    obtain ⟨l', m', t, t', T, e1, e2, e3, e4, e5, e6, e7, e8, -, e10⟩ := c142_undercut_outline hE hS hrp ha0 ha1 hpia
      (limits := ⟨p.addendum + p.profileShift, h, 2⟩) hA hh h1 u2
      (by show h * tan alpha < _; rw [hhalf, mul_sub, show (n : ℝ) / 2 * (π / n) = π / 2 by field_simp]; linarith)
      (by show (n / 2 * pia + h * tan alpha) / (n / 2) < _; rw [eK]; exact corner_turn hK hh h1 (by linarith))
      (by show ∀ v, 0 ≤ v → arctan (v / (n / 2 - h)) < (n / 2 * pia + h * tan alpha + v) / (n / 2); rw [eK]; exact neck_free hh i2 i3)
      s1 (s2 u1 u2) n h2 hpitch rA C.d hrD ht hr
      (by
        intro l' m' f1 f2
        rw [hl] at f1
        rw [← Option.some.inj f1, hm] at f2
        rw [← Option.some.inj f2]
        exact s3 u1 u2 _ C rA hcm hC a1) RA |n / 2 - h| (max (n / 2 - 2) DELTA) mo
    rw [hl] at e1
    rw [← Option.some.inj e1, hm] at e2
    have em := Option.some.inj e2
    rw [← em] at e3 e8 e10
    refine ⟨C, _, rA, t, t', T, hC, hcm, a1, e3, e4, e5, e6, e8, fun _ _ => ?_, fun hno => absurd u2 (not_le.2 (by rw [ealpha]; exact hno u1)), fun hx => ?_⟩
    · rw [e7, ← ealpha, show (w + h * tan alpha) / (n / 2) = pia + h * tan alpha / (n / 2) by rw [add_div, ewp]]
    rw [hprof _ _ _ hcm a1 a2]
    exact e10 hx
  · have hb' : p.undercut = true → n / 2 * cos alpha < n / 2 - h := fun u => lt_of_not_ge fun hc => hb ⟨u, hc⟩
    obtain ⟨i1, i2⟩ := hplain hb'
    obtain ⟨l, -, -, -, hl, -⟩ := tooth_generated hS hrp ha0 ha1 hpia i1 s1
    have hcm : (spurGear p).core.recipe.gen.spurCurve S z = some (l.map .inl) := by
      rw [r1]
      split_ifs with u
      · rw [ToothGen.spurCurve, ← epia, hl, Option.bind_some, r2, undercutToothCurve, if_pos (hb' u)]
      · rw [ToothGen.spurCurve, ← epia, hl, Option.map_some]
    obtain ⟨rA, RA, a1, a2, -, -, -⟩ := hcirc (chainEval undercutOps (l.map .inl))
    -- the outline does not depend on the limits of the generator once the plain tooth is returned
    have hlim : n / 2 * cos alpha < n / 2 - (⟨1, -1, 2⟩ : ToothLimitParam).hD := by
      have := cos_le_one alpha
      show n / 2 * cos alpha < n / 2 - (-1)
      nlinarith
    obtain ⟨l', m', t, t', T, e1, e2, e3, e4, e5, e6, e7, -, e8, e9, e10⟩ := c142_plain_outline hE hS hD hrp ha0 ha1 hpia hlim i1 s1 n h2 hpitch
      (by rw [hhalf]; exact i2) rA C.d ht hr
      (by
        intro l' f1
        rw [hl] at f1
        rw [← Option.some.inj f1]
        exact s4 hb' l C rA hl hC a1) RA |n / 2 - h| (max (n / 2 - 2) DELTA) mo
    rw [hl] at e1
    rw [← Option.some.inj e1, undercutToothCurve, if_pos hlim] at e2
    have em := Option.some.inj e2
    rw [← em] at e3 e10
    rw [← Option.some.inj e1] at e7 e8
    refine ⟨C, _, rA, t, t', T, hC, hcm, a1, e3, e4, e5, e6, ?_, fun u1 u2 => absurd (hb' u1) (not_lt.2 (by rw [ealpha]; exact u2)), fun _ => ⟨?_, e9⟩, fun hx => ?_⟩
    · rw [undercutOps, inl_chainEval]
      exact e8
    · rw [undercutOps, inl_chainEval]
      exact e7
    rw [hprof _ _ _ hcm a1 a2]
    exact e10 hx

/-- **C145, default gears.** `SpurGear(n)` with the default parameters (pressure angle 20°, addendum 1, dedendum 1.2, tip truncation
0.1, no shift, backlash, crowning or fillets), of any height, module and placement, with or without undercut, with three teeth or
more: the geometric conditions hold. If the solvers report only true solutions and the searches succeed, the profile exists, its
flanks run outwards, and the outline of the `n` teeth is closed and does not cross or touch itself. -/
theorem c145_default {asEuler : M3 → ℝ × ℝ × ℝ} (hE : EulerOk asEuler) {S : ScalarSolvers} (hS : Honest S) (hD : Descends S)
    {n : ℕ} (h3 : 3 ≤ n) (height angle module_ zAnchor : ℝ) (center : V3) (undercut : Bool) {p : GearInput}
    (hp : p = { GearInput.spurDefault n with
      height := height, angle := angle, module_ := module_, zAnchor := zAnchor, center := center, undercut := undercut })
    (z : ℝ) (hs : SpurSearches asEuler S p z) :
    ∃ C m rA t t' T,
      referenceCircles asEuler (n / 2) 1 (6 / 5) 2 0 (n / 2) = some C ∧
      (spurGear p).core.recipe.gen.spurCurve S z = some m ∧
      (spurGear p).core.recipe.tipCircle asEuler S (chainEval undercutOps m) C = some rA ∧
      trimTip (chainOps undercutOps) S ⟨m, true⟩ rA 0 (2 * π / n) = some t ∧
      trimRoot (chainOps undercutOps) S t C.d 0 (2 * π / n) = some t' ∧
      (∀ s, 0 ≤ s → s ≤ 1 → (chainOps undercutOps).eval t' s = some (T s)) ∧ Spec.OutwardFlank T (2 * π / n) ∧
      chainEval undercutOps m (tipCut S (chainEval undercutOps m) rA (2 * π / n)) = some (T 1) ∧
      (undercut = true → n / 2 - 6 / 5 ≤ n / 2 * cos (π / 9) →
        T 0 = ![(n / 2 - 6 / 5) * cos ((π / 4 + 6 / 5 * tan (π / 9)) / (n / 2)),
          -((n / 2 - 6 / 5) * sin ((π / 4 + 6 / 5 * tan (π / 9)) / (n / 2))), 0]) ∧
      ((undercut = true → n / 2 * cos (π / 9) < n / 2 - 6 / 5) →
        (∃ a, 0 ≤ a ∧ a < tipCut S (chainEval undercutOps m) rA (2 * π / n) ∧ chainEval undercutOps m a = some (T 0)) ∧
          chainEval undercutOps t.curves (rootCut S (chainEval undercutOps t.curves) C.d (2 * π / n)) = some (T 0)) ∧
      (ExactGaps T (2 * π / n) → ∃ P, (spurGear p).core.recipe.spurProfile asEuler S z = some P ∧
        Spec.SimpleOutline (chainEval (sumOps (chainOps undercutOps) curveOps) (P.chain (chainOps undercutOps))) (2 * π / n) n) := by
  have p3 := pi_gt_d4
  have p4 := pi_lt_d4
  have hn3 : (3 : ℝ) ≤ n := by exact_mod_cast h3
  have hn0 : (0 : ℝ) < n := by linarith
  have ealpha : p.pressureAngle = π / 9 := by rw [hp]; show 20 * π / 180 = π / 9; ring
  obtain ⟨t0, t1⟩ := tan_twenty
  have epia : p.crowningFunc z p.toothAngle = π / (2 * n) := by
    rw [hp]
    simp [GearInput.crowningFunc, GearInput.toothAngle, GearInput.spurDefault]
    field_simp
    norm_num
  have ew : π / 4 = n / 2 * p.crowningFunc z p.toothAngle := by
    rw [epia]
    field_simp
    norm_num
  have ew' : π / 4 / (n / 2) = π / (2 * n) := by
    field_simp
    norm_num
  have := c145_outline hE hS hD (p := p) (n := n) (by rw [hp]; rfl) (by omega) (by rw [ealpha]; positivity) (by rw [ealpha]; linarith)
    (by rw [hp]; exact le_refl (0 : ℝ)) (by rw [hp]; exact le_refl (0 : ℝ)) z (w := π / 4) (h := 6 / 5) ew
    (by rw [hp]; show (6 : ℝ) / 5 = 6 / 5 - 0; norm_num) (by positivity) (by rw [hp]; show (0 : ℝ) < 1 + 0; norm_num)
    (by rw [hp]; show -((1 : ℝ) + 0) < 6 / 5; norm_num) (by linarith)
    (by rw [hp]; show (1 : ℝ) / 10 ≤ n / 2 - 6 / 5; linarith) ?_ ?_ hs
  · obtain ⟨C, m, rA, t, t', T, e1, e2⟩ := this
    refine ⟨C, m, rA, t, t', T, ?_, ?_⟩
    · rw [hp] at e1
      rw [← e1]
      show _ = referenceCircles asEuler (n / 2) (1 + 0) (6 / 5) 2 0 (n / 2)
      rw [add_zero]
    · have f1 : p.tipFillet = 0 := by rw [hp]; rfl
      have f2 : p.rootFillet = 0 := by rw [hp]; rfl
      have f3 : p.undercut = undercut := by rw [hp]
      rw [f1, f2, f3, ealpha] at e2
      exact e2
  · intro _
    rw [ew', ealpha]
    constructor
    · have : π / (2 * n) ≤ π / 6 := div_le_div_of_nonneg_left pi_pos.le (by norm_num) (by linarith)
      linarith
    · intro e
      have e' : π = 2 * n * (tan (π / 9) - π / 9) := by
        have h5 : π / n = 2 * (π / (2 * n)) := by field_simp
        rw [h5] at e
        have h6 : π / (2 * n) = tan (π / 9) - π / 9 := by linarith
        rw [← h6]
        field_simp
      rcases le_or_gt n 105 with hle | hgt
      · have : (n : ℝ) ≤ 105 := by exact_mod_cast hle
        nlinarith
      · have : (106 : ℝ) ≤ n := by exact_mod_cast hgt
        nlinarith
  · intro _ _
    rw [ealpha]
    refine ⟨by linarith, by linarith, by linarith, ?_⟩
    nlinarith

end Verif
