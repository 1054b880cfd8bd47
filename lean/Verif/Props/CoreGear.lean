import Verif.Model.CoreGear
import Verif.Props.Bevel
import Verif.Props.Chain
import Verif.Props.Coord
import Verif.Props.Mesh2
import Mathlib.Analysis.Real.Pi.Bounds

/-! # Property C115: the gear made from a reference curve follows the curve -/

namespace Verif

open Real

theorem npRound_near (x : ℝ) : |(npRound x : ℝ) - x| ≤ 1 / 2 := by
  have h1 := Int.fract_nonneg x
  have h2 := Int.fract_lt_one x
  have h3 := Int.self_sub_floor x
  unfold npRound
  rw [abs_le]
  split_ifs <;> push_cast <;> constructor <;> linarith

theorem roundGamma_near {d : ℝ} (hd : 0 < d) (g : ℝ) : |roundGamma d g - g| ≤ d / 2 := by
  rw [roundGamma, if_neg hd.ne']
  have h := npRound_near (g / d)
  have e : (npRound (g / d) : ℝ) * d - g = (npRound (g / d) - g / d) * d := by field_simp
  rw [e, abs_mul, abs_of_pos hd]
  nlinarith

/-- **C115, position.** The recipe made from any reference curve puts the point of the pitch circle on the tooth middle
exactly on the curve: the slice for height `z` maps the start `(N/2, 0, 0)` of the unit pitch circle to the point of the
curve for the scaled height. The slice is centred on the axis at the height of that point and is not tilted. -/
theorem c115_follows (N : ℝ) (hN : 0 < N) (ref : ℝ → Option V3) (scaler : ℝ → ℝ) (rounding z : ℝ) (s : CoreSlice)
    (hs : gearRecipeFromCurve N ref scaler rounding z = some s) :
    ref (scaler z) = some (applyGearTransform ((N / 2) • RIGHT) s.transform) ∧
      s.baseRadius = N / 2 ∧ s.transform.center 0 = 0 ∧ s.transform.center 1 = 0 ∧ s.transform.orientation = 1 ∧
      0 ≤ s.transform.scale := by
  rw [gearRecipeFromCurve] at hs
  cases h0 : ref (scaler z) with
  | none => simp [refCurve2Param, h0] at hs
  | some p =>
  cases h1 : ref (scaler z + DELTA) with
  | none => simp [refCurve2Param, h0, h1] at hs
  | some pp =>
  cases h2 : ref (scaler z - DELTA) with
  | none => simp [refCurve2Param, h0, h1, h2] at hs
  | some pm =>
  simp only [refCurve2Param, h0, h1, h2, Option.some.injEq] at hs
  subst hs
  have hp := c13_cylindrical p ORIGIN
  obtain ⟨q, hq⟩ : ∃ q, q = xyzToCylindrical p ORIGIN := ⟨_, rfl⟩
  have hq0 : 0 ≤ q 0 := by rw [hq]; exact sqrt_nonneg _
  rw [← hq] at hp ⊢
  refine ⟨?_, rfl, by simp [RecipeKeyParams.center, OUT], by simp [RecipeKeyParams.center, OUT], rfl, by positivity⟩
  congr 1
  rw [applyGearTransform_eq, ← hp]
  apply V3.ext3 <;> simp [cylindricalToXyz, RIGHT, RecipeKeyParams.center, OUT] <;> field_simp

/-- The recipe exists whenever the curve can be evaluated at the three parameters. -/
theorem recipe_exists (N : ℝ) {ref : ℝ → Option V3} {scaler : ℝ → ℝ} {rounding z : ℝ} {p pp pm : V3}
    (h0 : ref (scaler z) = some p) (h1 : ref (scaler z + DELTA) = some pp) (h2 : ref (scaler z - DELTA) = some pm) :
    ∃ s, gearRecipeFromCurve N ref scaler rounding z = some s ∧ s.baseRadius = N / 2 ∧
      s.transform = ⟨⟨p 2 • OUT, 1, √(p 0 * p 0 + p 1 * p 1) / (N / 2)⟩, arctan2 (p 1) (p 0)⟩ ∧
      s.coneAngle = roundGamma rounding (arctan2
        (-(√(pp 0 * pp 0 + pp 1 * pp 1) - √(pm 0 * pm 0 + pm 1 * pm 1))) (pp 2 - pm 2)) * 2 := by
  refine ⟨_, by simp only [gearRecipeFromCurve, refCurve2Param, h0, h1, h2]; rfl, rfl, ?_, ?_⟩
  · simp [xyzToCylindrical, RecipeKeyParams.center]
  · simp [xyzToCylindrical]

/-- `p` has distance `r` from the z axis and height `h`. -/
def AtCyl (p : V3) (r h : ℝ) : Prop := √(p 0 * p 0 + p 1 * p 1) = r ∧ p 2 = h

/-- **C115, cone angle.** If the reference curve climbs on a cone (or cylinder, or plane) with half angle `γ`, i.e. its
distance from the axis is `a − f(t)·sin γ` and its height `b + f(t)·cos γ` with `f` increasing past the parameter, the
cone angle of the slice is `2γ` up to the rounding (`DELTA` for the default). The curve may turn about the axis in any
way. -/
theorem c115_cone (N : ℝ) (ref : ℝ → Option V3) (scaler : ℝ → ℝ) (rounding z γ a b : ℝ) (f : ℝ → ℝ) (h1 : -π < γ)
    (h2 : γ ≤ π) (hf : f (scaler z - DELTA) < f (scaler z + DELTA))
    (href : ∀ t, |t - scaler z| ≤ DELTA → ∃ p, ref t = some p ∧ AtCyl p (a - f t * sin γ) (b + f t * cos γ)) :
    ∃ s, gearRecipeFromCurve N ref scaler rounding z = some s ∧ (rounding = 0 → s.coneAngle = 2 * γ) ∧
      (0 < rounding → |s.coneAngle - 2 * γ| ≤ rounding) := by
  have hd : (0:ℝ) < DELTA := by norm_num [DELTA]
  obtain ⟨p, e0, -⟩ := href (scaler z) (by simp [hd.le])
  obtain ⟨pp, e1, r1, k1⟩ := href (scaler z + DELTA) (by simp [abs_of_pos hd])
  obtain ⟨pm, e2, r2, k2⟩ := href (scaler z - DELTA) (by simp [abs_of_pos hd])
  obtain ⟨s, hs, -, -, hc⟩ := recipe_exists N (rounding := rounding) e0 e1 e2
  have hg : arctan2 (-(√(pp 0 * pp 0 + pp 1 * pp 1) - √(pm 0 * pm 0 + pm 1 * pm 1))) (pp 2 - pm 2) = γ := by
    rw [r1, r2, k1, k2]
    refine Eq.trans ?_ (arctan2_polar (sub_pos.2 hf) h1 h2)
    congr 1 <;> ring
  rw [hg] at hc
  refine ⟨s, hs, fun h0 => ?_, fun h0 => ?_⟩
  · rw [hc, h0, roundGamma, if_pos rfl]; ring
  · rw [hc]
    have := roundGamma_near h0 γ
    rw [show roundGamma rounding γ * 2 - 2 * γ = (roundGamma rounding γ - γ) * 2 by ring, abs_mul, abs_two]
    linarith

/-- **C115, spiral angle.** For a curve that winds about the axis at the radius `r`, by the angle `ω` for every unit it climbs by
`v`, `RecipeKeyParams.beta` is the angle between the curve and the axis direction: its tangent is `rω/|v|`. -/
theorem c115_spiral (r θ ω h v t : ℝ) (hr : 0 < r) (hv : v ≠ 0) (hθ : |θ| + |ω| * DELTA < π) :
    ∃ s, refCurve2Param t (fun u => some (cylindricalToXyz ![r, θ + ω * (u - t), h + v * (u - t)] ORIGIN)) = some s ∧
      tan s.beta = r * ω / |v| ∧ |s.beta| < π / 2 ∧ s.radius = r ∧ s.angle = θ ∧ s.h = h := by
  have hd : (0 : ℝ) < DELTA := by norm_num [DELTA]
  have hpi := pi_pos
  have hcyl : ∀ φ z : ℝ, |φ| < π → xyzToCylindrical (cylindricalToXyz ![r, φ, z] ORIGIN) ORIGIN = ![r, φ, z] := by
    intro φ z hφ
    have h1 : √(r * cos φ * (r * cos φ) + r * sin φ * (r * sin φ)) = r := by
      rw [show r * cos φ * (r * cos φ) + r * sin φ * (r * sin φ) = r ^ 2 * (sin φ ^ 2 + cos φ ^ 2) by ring, sin_sq_add_cos_sq,
        mul_one, sqrt_sq hr.le]
    have h2 := arctan2_polar hr (abs_lt.1 hφ).1 (abs_lt.1 hφ).2.le
    apply V3.ext3
    · simp [xyzToCylindrical, cylindricalToXyz, ORIGIN, h1]
    · simp [xyzToCylindrical, cylindricalToXyz, ORIGIN, h2]
    · simp [xyzToCylindrical, cylindricalToXyz, ORIGIN]
  have hnn : 0 ≤ |ω| * DELTA := by positivity
  have hb : ∀ e : ℝ, |e| ≤ DELTA → |θ + ω * e| < π := by
    intro e he
    refine lt_of_le_of_lt (abs_add_le _ _) ?_
    rw [abs_mul]
    have := mul_le_mul_of_nonneg_left he (abs_nonneg ω)
    linarith
  have e0 := hcyl (θ + ω * (t - t)) (h + v * (t - t)) (by rw [sub_self]; exact hb 0 (by simp [hd.le]))
  have e1 := hcyl (θ + ω * (t + DELTA - t)) (h + v * (t + DELTA - t)) (hb _ (by
    rw [add_sub_cancel_left, abs_of_pos hd]))
  have e2 := hcyl (θ + ω * (t - DELTA - t)) (h + v * (t - DELTA - t)) (hb _ (by
    rw [sub_sub_cancel_left, abs_neg, abs_of_pos hd]))
  have hx : √((h + v * (t + DELTA - t) - (h + v * (t - DELTA - t))) ^ 2 + 0 ^ 2) = 2 * DELTA * |v| := by
    rw [show (h + v * (t + DELTA - t) - (h + v * (t - DELTA - t))) ^ 2 + 0 ^ 2 = (2 * DELTA * v) ^ 2 by ring, sqrt_sq_eq_abs,
      abs_mul, abs_of_pos (by linarith : 0 < 2 * DELTA)]
  refine ⟨_, by simp only [refCurve2Param, e0, e1, e2]; rfl, ?_, ?_, ?_, ?_, ?_⟩
  all_goals simp only [Pi.sub_apply, Matrix.cons_val_zero, Matrix.cons_val_one, Matrix.cons_val, sub_self, mul_zero, add_zero]
  · rw [arctan2, Complex.tan_arg]
    simp only [hx]
    have hv' : |v| ≠ 0 := abs_ne_zero.2 hv
    field_simp
    ring
  · rw [arctan2, Complex.abs_arg_lt_pi_div_two_iff]
    left
    simp only [hx]
    have := abs_pos.2 hv
    positivity

/-- Concrete case: a right-hand screw of radius 2 that climbs as fast as its point moves round has a spiral angle of 45°. -/
theorem c115_spiral_example :
    ∃ s, refCurve2Param 0 (fun u => some (cylindricalToXyz ![2, 0 + 1 * (u - 0), 0 + 2 * (u - 0)] ORIGIN)) = some s ∧
      tan s.beta = 1 := by
  obtain ⟨s, h, hb, -⟩ := c115_spiral 2 0 1 0 2 0 two_pos two_ne_zero (by
    have := pi_gt_three
    rw [abs_zero, abs_one, DELTA]; norm_num; linarith)
  refine ⟨s, h, ?_⟩
  rw [hb, abs_two]; norm_num

/-- Concrete case: a helix on the cone with half angle 45°, one turn per unit, for a gear with 20 teeth at height 1/2. -/
theorem c115_case : ∃ s, gearRecipeFromCurve 20 (fun t => some (cylindricalToXyz ![10 - t * sin (π / 4), 2 * π * t,
      t * cos (π / 4)] ORIGIN)) id DELTA (1 / 2) = some s ∧ |s.coneAngle - 2 * (π / 4)| ≤ DELTA ∧
      s.transform.angle = π := by
  have hpi := pi_pos
  have hd : DELTA = 1 / 1000000 := rfl
  have hs4 := sin_le_one (π / 4)
  have hs5 : 0 < sin (π / 4) := sin_pos_of_pos_of_lt_pi (by linarith) (by linarith)
  have hcyl : ∀ t : ℝ, |t - 1 / 2| ≤ DELTA → AtCyl (cylindricalToXyz ![10 - t * sin (π / 4), 2 * π * t,
      t * cos (π / 4)] ORIGIN) (10 - t * sin (π / 4)) (0 + t * cos (π / 4)) := by
    intro t ht
    have := (abs_le.1 ht).2
    have hpos : 0 ≤ 10 - t * sin (π / 4) := by
      rw [hd] at this
      nlinarith
    constructor
    · simp only [cylindricalToXyz, Matrix.cons_val_zero, Matrix.cons_val_one, Matrix.cons_val, ORIGIN_eq,
        Pi.zero_apply, add_zero]
      rw [show (10 - t * sin (π / 4)) * cos (2 * π * t) * ((10 - t * sin (π / 4)) * cos (2 * π * t)) +
        (10 - t * sin (π / 4)) * sin (2 * π * t) * ((10 - t * sin (π / 4)) * sin (2 * π * t)) =
        (10 - t * sin (π / 4)) ^ 2 by
          linear_combination (10 - t * sin (π / 4)) ^ 2 * sin_sq_add_cos_sq (2 * π * t), sqrt_sq hpos]
    · simp [cylindricalToXyz]
  obtain ⟨s, hs, -, h3⟩ := c115_cone 20 (fun t => some (cylindricalToXyz ![10 - t * sin (π / 4), 2 * π * t,
      t * cos (π / 4)] ORIGIN)) id DELTA (1 / 2) (π / 4) 10 0 id (by linarith) (by linarith) (by simp [hd]; norm_num)
      (fun t ht => ⟨_, rfl, hcyl t ht⟩)
  refine ⟨s, hs, h3 (by rw [hd]; norm_num), ?_⟩
  obtain ⟨s', hs', -, h4, -⟩ := recipe_exists 20 (rounding := DELTA) (z := 1 / 2) (scaler := id)
    (ref := fun t => some (cylindricalToXyz ![10 - t * sin (π / 4), 2 * π * t, t * cos (π / 4)] ORIGIN)) rfl rfl rfl
  rw [hs] at hs'
  obtain rfl := Option.some.inj hs'
  rw [h4]
  refine Eq.trans ?_ (arctan2_polar (r := 10 - 1 / 2 * sin (π / 4)) (θ := π) (by linarith) (by linarith) le_rfl)
  simp only [cylindricalToXyz, Matrix.cons_val_zero, Matrix.cons_val_one, Matrix.cons_val, ORIGIN_eq, Pi.zero_apply,
    add_zero, id]
  rw [show 2 * π * (1 / 2) = π by ring]

/-! ### The default reference line -/

theorem defaultRef_eval (N γ : ℝ) (zVals : List ℝ) (L : ℝ) (hL : L = zVals.getLastD 0 - zVals.headD 0) (s : ℝ) :
    (defaultRefCurve N γ zVals).eval s = some ![N / 2 - s * L * sin γ, 0, s * L * cos γ] := by
  rw [defaultRefCurve, ← lineC, lineC_eval, ← hL]
  congr 1
  apply V3.ext3 <;> simp [RIGHT, OUT] <;> ring

/-- The half angle a gear without a recipe uses at every height, for the half angle `γ` asked for. -/
noncomputable def defaultGamma (γ : ℝ) : ℝ := if γ = 0 then 0 else roundGamma DELTA γ

theorem defaultGamma_near (γ : ℝ) : |defaultGamma γ - γ| ≤ DELTA / 2 := by
  rw [defaultGamma]
  split_ifs with h
  · rw [h]; norm_num [DELTA]
  · exact roundGamma_near (by norm_num [DELTA]) γ

theorem make_slice (zVals : List ℝ) (m : ℝ) (tooth : GearToothParam) (γ : ℝ) (trf : Option GearTransform) (L z : ℝ)
    (hL : L = zVals.getLastD 0 - zVals.headD 0) (hL0 : 0 < L) (hN : 0 < tooth.numTeeth) (hγ1 : -π < γ) (hγ2 : γ ≤ π)
    (hr0 : 0 < tooth.numTeeth / 2 - z * sin γ)
    (hr1 : 0 ≤ tooth.numTeeth / 2 - (z + DELTA * L) * sin γ) (hr2 : 0 ≤ tooth.numTeeth / 2 - (z - DELTA * L) * sin γ) :
    (CoreGear.make zVals m tooth (2 * γ) trf).slice z = some ⟨2 * defaultGamma γ, tooth.numTeeth / 2,
      ⟨⟨(z * cos γ) • OUT, 1, 1 - z * 2 * sin γ / tooth.numTeeth⟩, 0⟩⟩ := by
  have hd : (0:ℝ) < DELTA := by norm_num [DELTA]
  obtain ⟨N, hNdef⟩ : ∃ N, N = tooth.numTeeth := ⟨_, rfl⟩
  rw [← hNdef] at hN hr0 hr1 hr2 ⊢
  have hev := defaultRef_eval N γ zVals L hL
  obtain ⟨s, hs, h1, h2, h3⟩ := recipe_exists N (rounding := DELTA) (z := z)
    (scaler := fun z : ℝ => z / (zVals.getLastD 0 - zVals.headD 0)) (hev _) (hev _) (hev _)
  simp only [← hL] at hs h2 h3
  have e0 : z / L * L = z := by field_simp
  have e1 : (z / L + DELTA) * L = z + DELTA * L := by field_simp
  have e2 : (z / L - DELTA) * L = z - DELTA * L := by field_simp
  simp only [e0, e1, e2, Matrix.cons_val_zero, Matrix.cons_val_one, Matrix.cons_val, mul_zero, add_zero,
    sqrt_mul_self hr0.le, sqrt_mul_self hr1, sqrt_mul_self hr2] at h2 h3
  have hg : arctan2 (-(N / 2 - (z + DELTA * L) * sin γ - (N / 2 - (z - DELTA * L) * sin γ)))
      ((z + DELTA * L) * cos γ - (z - DELTA * L) * cos γ) = γ := by
    refine Eq.trans ?_ (arctan2_polar (r := 2 * DELTA * L) (by positivity) hγ1 hγ2)
    congr 1 <;> ring
  rw [hg] at h3
  have ha : arctan2 0 (N / 2 - z * sin γ) = 0 := by
    have := arctan2_polar (θ := 0) hr0 (by linarith [pi_pos]) pi_pos.le
    simpa using this
  rw [ha] at h2
  have hs0 : s = ⟨2 * roundGamma DELTA γ, N / 2, ⟨⟨(z * cos γ) • OUT, 1, 1 - z * 2 * sin γ / N⟩, 0⟩⟩ := by
    cases s
    simp only at h1 h2 h3
    rw [h1, h2, h3, CoreSlice.mk.injEq]
    refine ⟨by ring, rfl, ?_⟩
    congr 2
    field_simp
  simp only [CoreGear.make, ← hL, show 2 * γ / 2 = γ by ring, ← hNdef]
  rw [defaultGamma]
  split_ifs with h
  · simp only [hs, Option.map_some, hs0, mul_zero]
  · rw [hs, hs0]

/-- **C115, the gear without a recipe.** For heights in increasing order a core gear with half cone angle `γ` has at
every height before its apex the same slices as the wrapper classes: scale `1 − 2 z sin γ / N`, centre `z cos γ` on the
axis, no turn. The cone angle is `2γ` up to `DELTA`, and exactly 0 for a cylindrical gear. -/
theorem c115_default (zVals : List ℝ) (m : ℝ) (tooth : GearToothParam) (γ : ℝ) (trf : Option GearTransform) (z : ℝ)
    (hL0 : zVals.headD 0 < zVals.getLastD 0) (hN : 0 < tooth.numTeeth) (hγ1 : -π < γ) (hγ2 : γ ≤ π)
    (hr : |(z * sin γ)| + DELTA * (zVals.getLastD 0 - zVals.headD 0) < tooth.numTeeth / 2) :
    ∃ s, (CoreGear.make zVals m tooth (2 * γ) trf).slice z = some s ∧ |s.coneAngle - 2 * γ| ≤ DELTA ∧
      (γ = 0 → s.coneAngle = 0) ∧ s.baseRadius = tooth.numTeeth / 2 ∧
      s.transform = ⟨⟨(z * cos γ) • OUT, 1, 1 - z * 2 * sin γ / tooth.numTeeth⟩, 0⟩ := by
  have hd : (0:ℝ) < DELTA := by norm_num [DELTA]
  obtain ⟨L, hL⟩ : ∃ L, L = zVals.getLastD 0 - zVals.headD 0 := ⟨_, rfl⟩
  have hLp : 0 < L := by rw [hL]; linarith
  rw [← hL] at hr
  have h1 := le_abs_self (z * sin γ)
  have hdl : 0 < DELTA * L := by positivity
  have h2 : |DELTA * L * sin γ| ≤ DELTA * L := by
    rw [abs_mul, abs_of_pos hdl]
    have := abs_sin_le_one γ
    nlinarith
  have h3 := abs_le.1 h2
  refine ⟨_, make_slice zVals m tooth γ trf L z hL hLp hN hγ1 hγ2 (by linarith) (by linarith) (by linarith), ?_, ?_,
    rfl, rfl⟩
  · have := defaultGamma_near γ
    change |2 * defaultGamma γ - 2 * γ| ≤ DELTA
    rw [show 2 * defaultGamma γ - 2 * γ = 2 * (defaultGamma γ - γ) by ring, abs_mul, abs_two]
    linarith
  · intro h0
    simp [h0, defaultGamma]

/-- Concrete case: 20 teeth, half angle 45°, heights 0 and 2. -/
example : (2:ℝ) * sin (π / 4) ≤ 2 ∧ |(2 * sin (π / 4))| + DELTA * (([0, 2] : List ℝ).getLastD 0 - ([0, 2] : List ℝ).headD 0) <
    (20:ℝ) / 2 := by
  have h1 := sin_le_one (π / 4)
  have h2 := abs_sin_le_one (π / 4)
  refine ⟨by linarith, ?_⟩
  rw [abs_mul, abs_two]
  simp only [List.getLastD, List.headD, List.getLast?_cons_cons, List.getLast?_singleton, Option.getD_some, DELTA]
  norm_num at h2 ⊢
  linarith

/-- **C115 is violated for heights in decreasing order.** A conical core gear whose last height is below its first one,
such as `z_vals = [0, -1]`, gets a cone angle that is a full turn too small: the cosine of half the angle, which the
rest of the code uses for the direction of the cone, has the wrong sign. -/
theorem c115_descending_violated : ∃ s, (CoreGear.make [0, -1] 1 ⟨20, 0, false⟩ (2 * (π / 4)) none).slice 0 = some s ∧
    |s.coneAngle - (2 * (π / 4) - 2 * π)| ≤ DELTA ∧ cos (s.coneAngle / 2) < 0 ∧ 0 < cos (π / 4) := by
  have hpi := pi_pos
  have hpi3 := Real.pi_gt_three
  have hd : DELTA = 1 / 1000000 := rfl
  have hcs : cos (π / 4) = sin (π / 4) := by rw [cos_pi_div_four, sin_pi_div_four]
  have hs1 := sin_le_one (π / 4)
  have hs5 : 0 < sin (π / 4) := sin_pos_of_pos_of_lt_pi (by linarith) (by linarith)
  have hev := defaultRef_eval 20 (π / 4) [0, -1] (-1) (by simp)
  obtain ⟨s, hs, -, -, h3⟩ := recipe_exists 20 (rounding := DELTA) (z := 0)
    (scaler := fun z : ℝ => z / (([0, -1] : List ℝ).getLastD 0 - ([0, -1] : List ℝ).headD 0)) (hev _) (hev _) (hev _)
  have h4 : arctan2 (-(2 * DELTA * sin (π / 4))) (-(2 * DELTA * cos (π / 4))) = π / 4 - π := by
    have := arctan2_polar (r := 2 * DELTA) (θ := π / 4 - π) (by rw [hd]; norm_num) (by linarith) (by linarith)
    rw [sin_sub_pi, cos_sub_pi] at this
    rw [← this]
    congr 1 <;> ring
  have h5 : |roundGamma DELTA (π / 4 - π) - (π / 4 - π)| ≤ DELTA / 2 := roundGamma_near (by rw [hd]; norm_num) _
  have hm : (CoreGear.make [0, -1] 1 ⟨20, 0, false⟩ (2 * (π / 4)) none).slice 0 = some s := by
    simp only [CoreGear.make, show 2 * (π / 4) / 2 = π / 4 by ring]
    rw [if_neg (by positivity)]
    exact hs
  have hca : s.coneAngle = roundGamma DELTA (π / 4 - π) * 2 := by
    rw [h3, ← h4]
    simp only [Matrix.cons_val_zero, Matrix.cons_val_one, Matrix.cons_val, mul_zero, add_zero, zero_div, zero_add,
      zero_sub]
    rw [sqrt_mul_self (by rw [hd]; nlinarith), sqrt_mul_self (by rw [hd]; nlinarith)]
    congr 3 <;> ring
  rw [hd] at h5
  have h6 := abs_le.1 h5
  refine ⟨s, hm, ?_, ?_, by rw [hcs]; exact hs5⟩
  · rw [hca, abs_le, hd]; constructor <;> linarith
  · rw [hca]
    rw [show roundGamma DELTA (π / 4 - π) * 2 / 2 = roundGamma DELTA (π / 4 - π) by ring, ← cos_neg, hd]
    apply cos_neg_of_pi_div_two_lt_of_lt <;> linarith

end Verif
