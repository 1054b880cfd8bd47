import Verif.Props.CycloidGear
import Verif.Props.SpurGearEx

/-!
# Default cycloid gears with exact solvers: the case for C146

The generator ends the outer cycloid after twice the angle of half a tooth. From five teeth on the middle of the tooth is beyond, and
the search has to go on along the extrapolated curve.
-/

namespace Verif

open Real Set

open scoped Classical in
/-- Solvers that report success exactly when there is a solution on the first curve, and return one of them. If there is none, and
the function starts with a negative value, they go on to the first solution beyond the end of the curve. -/
noncomputable def farSolvers : ScalarSolvers where
  root := exactSolvers.root
  minimize := exactSolvers.minimize
  minimize1 := exactSolvers.minimize1
  root1 cost _ :=
    if h : ∃ x, cost x = some 0 ∧ 0 ≤ x ∧ x ≤ 1 then ⟨true, h.choose⟩
    else if h : ∃ x, 1 < x ∧ cost x = some 0 ∧ (∀ y, 1 < y → y < x → cost y ≠ some 0) ∧ ∃ v, cost 0 = some v ∧ v < 0 then
      ⟨true, h.choose⟩
    else ⟨false, 0⟩

theorem far_honest : Honest farSolvers := by
  constructor
  · exact exact_honest.root
  · intro cost guess
    simp only [farSolvers]
    split_ifs with h h'
    · exact fun _ => h.choose_spec.1
    · exact fun _ => h'.choose_spec.2.1
    · intro h; cases h

theorem far_descends : Descends farSolvers := exact_descends

theorem far_finds : FindsOnCurve farSolvers where
  honest := far_honest
  mem := exact_intersect_mem
  found := exact_intersect_found
  free := exact_finds.free
  plane := by
    intro f n guess s p h1 h2 s0 s1
    have h : ∃ x, (f x).map (fun p => dot (p - ORIGIN) n) = some 0 ∧ 0 ≤ x ∧ x ≤ 1 := ⟨s, by rw [h1, Option.map_some, h2], s0, s1⟩
    simp only [findCurvePlaneIntersect, farSolvers]
    rw [dif_pos h]
    exact ⟨rfl, h.choose_spec.2⟩
  none := by
    intro f n guess p h1 h2 h3
    have n1 : ¬∃ x, (f x).map (fun p => dot (p - ORIGIN) n) = some 0 ∧ 0 ≤ x ∧ x ≤ 1 := by
      rintro ⟨x, hx, x0, x1⟩
      obtain ⟨q, hq, hq'⟩ := Option.map_eq_some_iff.1 hx
      exact h3 x x0 x1 q hq hq'
    have n2 : ¬∃ x, 1 < x ∧ (f x).map (fun p => dot (p - ORIGIN) n) = some 0 ∧
        (∀ y, 1 < y → y < x → (f y).map (fun p => dot (p - ORIGIN) n) ≠ some 0) ∧
        ∃ v, (f 0).map (fun p => dot (p - ORIGIN) n) = some v ∧ v < 0 := by
      rintro ⟨x, -, -, -, v, hv, v0⟩
      rw [h1, Option.map_some] at hv
      rw [← Option.some.inj hv] at v0
      linarith
    simp only [findCurvePlaneIntersect, farSolvers]
    rw [dif_neg n1, dif_neg n2]
  stay _ _ := rfl

/-- The search for the middle of the tooth succeeds with these solvers, on the curve or beyond its end. -/
theorem far_cycloid {pia rp c : ℝ} (hrp : 0 < rp) (hc : 0 < c) (h0 : 0 < pia) (h1 : 2 * pia ≤ π * c) (hc1 : c ≤ 1) :
    CycloidSearch farSolvers pia rp c := by
  have pp := pi_pos
  have hpi : pia < π := by nlinarith
  obtain ⟨-, out2⟩ := c120_outward pia rp (1 / 2) c hrp (by norm_num) (by norm_num) hc
  have hinj : InjOn (cycloidUpperFn pia rp 0 c) (Icc 0 (pia * 2)) := by
    intro x hx y hy e
    refine out2.injOn ⟨hx.1, hx.2.trans (by linarith)⟩ ⟨hy.1, hy.2.trans (by linarith)⟩ ?_
    show norm3 _ = norm3 _
    rw [e]
  have hU : (cycloidUpper pia rp 0 c).PathOk := make_path (by norm_num) (by linarith) hinj
  obtain ⟨υ, υ1, υ2, υ3⟩ := hU.run
  obtain ⟨m, hm, υ4⟩ := beyond_end hU
  have ht : (cycloidUpper pia rp 0 c).t0 = 0 ∧ (cycloidUpper pia rp 0 c).t1 = pia * 2 := by
    rw [cycloidUpper, Curve.make, if_pos rfl, updateLengths_t0, updateLengths_t1]; exact ⟨rfl, rfl⟩
  have hk : (cycloidUpper pia rp 0 c).kind.fn = cycloidUpperFn pia rp 0 c := by
    rw [cycloidUpper, Curve.make, if_pos rfl, updateLengths_kind]; rfl
  rw [ht.1, ht.2] at υ2
  rw [ht.2] at υ4
  obtain ⟨υa, υb⟩ := mono_ends υ1 υ2
  have υm : ∀ s ∈ Icc (0 : ℝ) 1, 0 ≤ υ s ∧ υ s ≤ pia * 2 := fun s hs' => by
    have : υ s ∈ Icc 0 (pia * 2) := υ2 ▸ mem_image_of_mem υ hs'
    exact this
  -- the residual as a function of the parameter
  have hres : ∀ x t, (cycloidUpper pia rp 0 c).s2t x = some t → planeResidual (cycloidUpper pia rp 0 c).eval UP ORIGIN x =
      some (rp * cycR c (t / c) * sin (-pia + cycAngle c (t / c))) := by
    intro x t hx
    rw [planeResidual, Curve.eval, hx, Option.map_some, Option.map_some, hk, cycloidUpper_polar hrp hc]
    simp [dot, UP, ORIGIN]
  have hR : ∀ t, 0 < rp * cycR c (t / c) := fun t => mul_pos hrp (cycR_pos (cycD_pos_out hc (t / c)))
  have hstart : planeResidual (cycloidUpper pia rp 0 c).eval UP ORIGIN 0 = some (rp * sin (-pia)) := by
    rw [hres 0 0 (by rw [υ3 0 ⟨le_refl _, zero_le_one⟩, υa]), zero_div, cycR_zero, cycAngle_zero, add_zero, mul_one]
  have hneg : rp * sin (-pia) < 0 := by
    rw [sin_neg]
    nlinarith [mul_pos hrp (sin_pos_of_pos_of_lt_pi h0 hpi)]
  intro guess
  simp only [farSolvers]
  by_cases hex : ∃ x, planeResidual (cycloidUpper pia rp 0 c).eval UP ORIGIN x = some 0 ∧ 0 ≤ x ∧ x ≤ 1
  · rw [dif_pos hex]
    obtain ⟨x1, x2, x3⟩ := hex.choose_spec
    refine ⟨rfl, _, υ3 _ ⟨x2, x3⟩, ?_, (υm _ ⟨x2, x3⟩).2.trans (by linarith)⟩
    refine lt_of_le_of_ne (υm _ ⟨x2, x3⟩).1 fun e => ?_
    rw [hres _ _ (υ3 _ ⟨x2, x3⟩), ← e, zero_div, cycR_zero, cycAngle_zero, add_zero, mul_one] at x1
    linarith [Option.some.inj x1]
  · rw [dif_neg hex]
    have hcont : Continuous fun t => cycAngle c (t / c) := by
      have h : Continuous (cycAngle c) := continuous_iff_continuousAt.2 fun w => (cycAngle_deriv (cycD_pos_out hc w)).continuousAt
      exact h.comp (continuous_id.div_const c)
    have hmono : ∀ s t, 0 ≤ s → s < t → t ≤ π * c → cycAngle c (s / c) < cycAngle c (t / c) := fun s t s0 hst t1 =>
      cycAngle_out hc ⟨by positivity, by rw [div_le_iff₀ hc]; linarith⟩ ⟨div_nonneg (by linarith) hc.le, by rwa [div_le_iff₀ hc]⟩
        (div_lt_div_of_pos_right hst hc)
    -- the middle of the tooth
    obtain ⟨tb, ⟨b0, b1⟩, eb⟩ : pia ∈ (fun t => cycAngle c (t / c)) '' Icc 0 (π * c) := intermediate_value_Icc (by positivity)
      hcont.continuousOn ⟨by
        show cycAngle c (0 / c) ≤ pia
        rw [zero_div, cycAngle_zero]; exact h0.le, by
        show pia ≤ cycAngle c (π * c / c)
        rw [mul_div_cancel_right₀ _ hc.ne', cycAngle_pi]; linarith⟩
    simp only at eb
    have hb2 : pia * 2 < tb := by
      by_contra hcon
      obtain ⟨s, hs, es⟩ : tb ∈ υ '' Icc 0 1 := by rw [υ2]; exact ⟨b0, not_lt.1 hcon⟩
      exact hex ⟨s, by rw [hres s tb (by rw [υ3 s hs, es]), eb, neg_add_cancel, sin_zero, mul_zero], hs.1, hs.2⟩
    obtain ⟨X, eX⟩ : ∃ X, X = 1 + (tb - pia * 2) / m := ⟨_, rfl⟩
    have hX : 1 < X := by
      have := div_pos (sub_pos.2 hb2) hm
      linarith
    have hXt : (cycloidUpper pia rp 0 c).s2t X = some tb := by
      rw [υ4 X hX, eX, Option.some_inj]
      field_simp
      ring
    have hXz : planeResidual (cycloidUpper pia rp 0 c).eval UP ORIGIN X = some 0 := by
      rw [hres X tb hXt, eb, neg_add_cancel, sin_zero, mul_zero]
    have hfirst : ∀ y, 1 < y → y < X → planeResidual (cycloidUpper pia rp 0 c).eval UP ORIGIN y ≠ some 0 := by
      intro y y1 y2 hz
      rw [hres y _ (υ4 y y1)] at hz
      have hy : pia * 2 + m * (y - 1) < tb := by
        have : m * (y - 1) < m * (X - 1) := mul_lt_mul_of_pos_left (by linarith) hm
        have e : m * (X - 1) = tb - pia * 2 := by rw [eX]; field_simp; ring
        linarith
      have hy0 : 0 < pia * 2 + m * (y - 1) := by nlinarith
      have a1 := hmono _ _ hy0.le hy b1
      have a2 := hmono _ _ (le_refl 0) hy0 (by linarith)
      rw [eb] at a1
      rw [zero_div, cycAngle_zero] at a2
      have a3 := sin_neg_of_neg_of_neg_pi_lt (x := -pia + cycAngle c ((pia * 2 + m * (y - 1)) / c)) (by linarith) (by linarith)
      have a4 := mul_neg_of_pos_of_neg (hR (pia * 2 + m * (y - 1))) a3
      linarith [Option.some.inj hz]
    have hfar : ∃ x, 1 < x ∧ planeResidual (cycloidUpper pia rp 0 c).eval UP ORIGIN x = some 0 ∧
        (∀ y, 1 < y → y < x → planeResidual (cycloidUpper pia rp 0 c).eval UP ORIGIN y ≠ some 0) ∧
        ∃ v, planeResidual (cycloidUpper pia rp 0 c).eval UP ORIGIN 0 = some v ∧ v < 0 := ⟨X, hX, hXz, hfirst, _, hstart, hneg⟩
    rw [dif_pos hfar]
    obtain ⟨x1, x2, x3, -⟩ := hfar.choose_spec
    have ex : hfar.choose = X := by
      rcases lt_trichotomy hfar.choose X with h | h | h
      · exact absurd x2 (hfirst _ x1 h)
      · exact h
      · exact absurd hXz (x3 X hX h)
    refine ⟨rfl, tb, ?_, by linarith, b1⟩
    show (cycloidUpper pia rp 0 c).s2t hfar.choose = some tb
    rw [ex, hXt]

theorem cycR_deriv {k : ℝ} (hk : 0 < k) (w : ℝ) : HasDerivAt (cycR k) (k * (1 + k) * sin w / cycR k w) w := by
  have e : cycR k = fun w => √(1 + 2 * k * (1 + k) * (1 - cos w)) := funext fun w => cycR_eq k w
  have hpos : 0 < 1 + 2 * k * (1 + k) * (1 - cos w) := by
    have : 0 ≤ 2 * k * (1 + k) * (1 - cos w) := mul_nonneg (by positivity) (by linarith [cos_le_one w])
    linarith
  have h1 : HasDerivAt (fun w => 1 + 2 * k * (1 + k) * (1 - cos w)) (2 * k * (1 + k) * sin w) w := by
    simpa using (((hasDerivAt_cos w).const_sub 1).const_mul (2 * k * (1 + k))).const_add 1
  have h2 := h1.sqrt hpos.ne'
  rw [e]
  refine h2.congr_deriv ?_
  simp only
  field_simp

/-- The steepness of the angle against the radius grows. -/
theorem cycloid_steeper {k c d : ℝ} (hk : 0 < k) (c0 : 0 < c) (cd : c < d) (d1 : d < π) :
    (1 - cos c) * (sin d * cycR k d) ≤ (1 - cos d) * (sin c * cycR k c) := by
  have hsc := sin_pos_of_pos_of_lt_pi c0 (cd.trans d1)
  have hsd := sin_pos_of_pos_of_lt_pi (c0.trans cd) d1
  have hcd : cos d < cos c := cos_lt_cos_of_nonneg_of_le_pi c0.le d1.le cd
  obtain ⟨u, eu⟩ : ∃ u, u = 1 - cos c := ⟨_, rfl⟩
  obtain ⟨v, ev⟩ : ∃ v, v = 1 - cos d := ⟨_, rfl⟩
  have hu : 0 ≤ u := by rw [eu]; linarith [cos_le_one c]
  have hv : 0 ≤ v := by rw [ev]; linarith [cos_le_one d]
  have huv : u < v := by rw [eu, ev]; linarith
  have s1 : sin c ^ 2 = u * (2 - u) := by rw [eu]; linear_combination sin_sq_add_cos_sq c
  have s2 : sin d ^ 2 = v * (2 - v) := by rw [ev]; linear_combination sin_sq_add_cos_sq d
  have r1 : cycR k c ^ 2 = 1 + 2 * k * (1 + k) * u := by
    rw [cycR_eq, sq_sqrt, eu]
    have : 0 ≤ 2 * k * (1 + k) * (1 - cos c) := mul_nonneg (by positivity) (by rw [← eu]; exact hu)
    linarith
  have r2 : cycR k d ^ 2 = 1 + 2 * k * (1 + k) * v := by
    rw [cycR_eq, sq_sqrt, ev]
    have : 0 ≤ 2 * k * (1 + k) * (1 - cos d) := mul_nonneg (by positivity) (by rw [← ev]; exact hv)
    linarith
  have hRc := cycR_pos (cycD_pos_out hk c)
  rw [← eu, ← ev]
  refine le_of_sq_le_sq ?_ (by positivity)
  have e1 : (u * (sin d * cycR k d)) ^ 2 = u ^ 2 * (v * (2 - v)) * (1 + 2 * k * (1 + k) * v) := by
    rw [← s2, ← r2]; ring
  have e2 : (v * (sin c * cycR k c)) ^ 2 = v ^ 2 * (u * (2 - u)) * (1 + 2 * k * (1 + k) * u) := by
    rw [← s1, ← r1]; ring
  rw [e1, e2, ← sub_nonneg]
  have e3 : v ^ 2 * (u * (2 - u)) * (1 + 2 * k * (1 + k) * u) - u ^ 2 * (v * (2 - v)) * (1 + 2 * k * (1 + k) * v) =
      u * v * ((v - u) * (2 + 2 * k * (1 + k) * (u * v))) := by ring
  rw [e3]
  have := sub_pos.2 huv
  positivity

/-- Between two points of the outer cycloid the angle stays below the chord over the radius. -/
theorem cycloid_chord {k w v : ℝ} (hk : 0 < k) (w0 : 0 ≤ w) (wv : w ≤ v) (v1 : v ≤ π) :
    cycAngle k w * (cycR k v - 1) ≤ cycAngle k v * (cycR k w - 1) := by
  rcases w0.lt_or_eq with w0 | w0
  swap
  · rw [← w0, cycAngle_zero, cycR_zero]; simp
  rcases wv.lt_or_eq with wv | wv
  swap
  · rw [wv]
  have hR : ∀ x, 0 < cycR k x := fun x => cycR_pos (cycD_pos_out hk x)
  have hsq : ∀ x, cycD k x ^ 2 + (k * sin x) ^ 2 = cycR k x ^ 2 := fun x => by rw [cycR, sq_sqrt (by positivity)]
  have hφ : ∀ x, HasDerivAt (cycAngle k) (k * (1 + k) * (1 + 2 * k) * (1 - cos x) / cycR k x ^ 2) x := fun x => by
    rw [← hsq]; exact cycAngle_deriv (cycD_pos_out hk x)
  have cφ : Continuous (cycAngle k) := continuous_iff_continuousAt.2 fun x => (hφ x).continuousAt
  obtain ⟨c, ⟨c0, c1⟩, ec⟩ := exists_ratio_hasDerivAt_eq_ratio_slope (cycR k) _ w0 (cycR_continuous k).continuousOn
    (fun x _ => cycR_deriv hk x) (cycAngle k) _ cφ.continuousOn (fun x _ => hφ x)
  obtain ⟨d, ⟨d0, d1⟩, ed⟩ := exists_ratio_hasDerivAt_eq_ratio_slope (cycR k) _ wv (cycR_continuous k).continuousOn
    (fun x _ => cycR_deriv hk x) (cycAngle k) _ cφ.continuousOn (fun x _ => hφ x)
  rw [cycAngle_zero, cycR_zero, sub_zero] at ec
  have hs := cycloid_steeper hk c0 (c1.trans d0) (d1.trans_le v1)
  have hsc := sin_pos_of_pos_of_lt_pi c0 (by linarith : c < π)
  have hsd := sin_pos_of_pos_of_lt_pi (by linarith : 0 < d) (by linarith : d < π)
  have hRc := hR c
  have hRd := hR d
  have hR0 : 1 < cycR k w := by
    have := cycR_out hk ⟨le_refl _, pi_pos.le⟩ ⟨w0.le, by linarith⟩ w0
    rwa [cycR_zero] at this
  have hRv : cycR k w < cycR k v := cycR_out hk ⟨w0.le, by linarith⟩ ⟨by linarith, v1⟩ wv
  obtain ⟨A, eA⟩ : ∃ A, A = cycAngle k w := ⟨_, rfl⟩
  obtain ⟨B, eB⟩ : ∃ B, B = cycAngle k v - cycAngle k w := ⟨_, rfl⟩
  obtain ⟨x, ex⟩ : ∃ x, x = cycR k w - 1 := ⟨_, rfl⟩
  obtain ⟨y, ey⟩ : ∃ y, y = cycR k v - cycR k w := ⟨_, rfl⟩
  have hx : 0 < x := by linarith
  have hy : 0 < y := by linarith
  have e1 : A * (sin c * cycR k c) = x * ((1 + 2 * k) * (1 - cos c)) := by
    rw [← eA, ← ex] at ec
    field_simp at ec
    linarith
  have e2 : B * (sin d * cycR k d) = y * ((1 + 2 * k) * (1 - cos d)) := by
    rw [← eB, ← ey] at ed
    field_simp at ed
    linarith
  have key : A * y ≤ B * x := by
    refine le_of_mul_le_mul_right ?_ (by positivity : 0 < (sin c * cycR k c) * (sin d * cycR k d))
    have l1 : A * y * ((sin c * cycR k c) * (sin d * cycR k d)) = x * y * (1 + 2 * k) * ((1 - cos c) * (sin d * cycR k d)) := by
      linear_combination (y * (sin d * cycR k d)) * e1
    have l2 : B * x * ((sin c * cycR k c) * (sin d * cycR k d)) = x * y * (1 + 2 * k) * ((1 - cos d) * (sin c * cycR k c)) := by
      linear_combination (x * (sin c * cycR k c)) * e2
    rw [l1, l2]
    exact mul_le_mul_of_nonneg_left hs (by positivity)
  rw [← eA, ← ex, show cycR k v - 1 = x + y by rw [ex, ey]; ring, show cycAngle k v = A + B by rw [eA, eB]; ring]
  nlinarith

set_option maxHeartbeats 1000000 in
/-- **C146 without assumptions on the searches.** For all default cycloid gears with three teeth or more, of any height, helix angle,
module and placement, external or ring gears, solvers that return a solution on the curve (or the first one beyond) meet the
conditions on the searches, and the profile is made and its outline simple. -/
theorem c146_case {asEuler : M3 → ℝ × ℝ × ℝ} (hE : EulerOk asEuler) {n : ℕ} (h3 : 3 ≤ n)
    (height helixAngle angle module_ zAnchor : ℝ) (center : V3) (insideTeeth : Bool) {p : GearInput}
    (hp : p = { GearInput.cycloidDefault n with
      height := height, helixAngle := helixAngle, angle := angle, module_ := module_, zAnchor := zAnchor, center := center,
      insideTeeth := insideTeeth }) (z : ℝ) :
    CycloidSearches asEuler farSolvers p z ∧ ∃ P, (cycloidGear p).core.recipe.cycloidProfile asEuler farSolvers z = some P ∧
      Spec.SimpleOutline (chainEval (sumOps (chainOps curveOps) curveOps) (P.chain (chainOps curveOps))) (2 * π / n) n := by
  have p3 := pi_gt_d2
  have p4 := pi_lt_d2
  have hn3 : (3 : ℝ) ≤ n := by exact_mod_cast h3
  have hn0 : (0 : ℝ) < n := by linarith
  have hrp : (0 : ℝ) < n / 2 := by linarith
  have half : (0 : ℝ) < 1 / 2 := by norm_num
  have epia : p.cycloidPia z = π / (2 * n) := by
    rw [hp]
    simp [GearInput.cycloidPia, GearInput.crowningFunc, GearInput.cycloidDefault]
    field_simp
    norm_num
  have hst : cycloidStart (π / (2 * n)) (1 / 2) = -(π / (2 * n)) := by
    rw [cycloidStart, cycAngle_half (by linarith) (le_refl _), add_zero]
  have en : p.numTeeth = n := by rw [hp]; rfl
  have ei : p.insideCycloid = 1 / 2 := by rw [hp]; rfl
  have eo : p.outsideCycloid = 1 / 2 := by rw [hp]; rfl
  have ea : p.addendum = 1 := by rw [hp]; rfl
  have ed : p.dedendum = 6 / 5 := by rw [hp]; rfl
  have ett : (cycloidGear p).core.recipe.tipReduction = 1 / 10 := by rw [hp]; rfl
  have ecn : (cycloidGear p).core.recipe.coneAngle = 0 := by rw [hp]; rfl
  have ef : p.tipFillet = 0 := by rw [hp]; rfl
  have hpia0 : 0 < π / (2 * n) := by positivity
  have hpia1 : π / (2 * n) ≤ π / 6 := div_le_div_of_nonneg_left pi_pos.le (by norm_num) (by linarith)
  have hpn : π / n = 2 * (π / (2 * n)) := by field_simp
  have hpitch2 : 2 * π / n / 2 = 2 * (π / (2 * n)) := by rw [← hpn]; ring
  have hpitch : 2 * π / n ≤ π := by linarith
  have hs : CycloidSearch farSolvers (π / (2 * n)) (n / 2) (1 / 2) := far_cycloid hrp half hpia0 (by linarith) (by norm_num)
  obtain ⟨l, G, R, θ, hl, hpath, F, R0, hG, ⟨tb, b0, b1, b2, b3, hsh⟩, -⟩ := cycloid_generated far_honest hrp half (le_refl _)
    half (by norm_num) hpia0 (by linarith) hs
  rw [hst] at F
  have wb0 : 0 < tb / (1 / 2) := by positivity
  have wb1 : tb / (1 / 2) ≤ π := by rw [div_le_iff₀ half]; exact b1
  have hR1 : n / 2 < R 1 := by
    have := cycR_out half ⟨le_refl _, pi_pos.le⟩ ⟨wb0.le, wb1⟩ wb0
    rw [cycR_zero] at this
    rw [b3]
    nlinarith
  have hR0 : 7 / 10 * (n / 2) ≤ R 0 ∧ R 0 ≤ 71 / 100 * (n / 2) := by
    have e : cycR (-(1 / 2)) (π / 2) = √(1 / 2) := by rw [cycR_eq, cos_pi_div_two]; norm_num
    have h1 : (7 / 10 : ℝ) ≤ √(1 / 2) := by apply le_sqrt_of_sq_le; norm_num
    have h2 : √(1 / 2) ≤ (71 / 100 : ℝ) := by rw [sqrt_le_left (by norm_num)]; norm_num
    rw [R0, e]
    constructor <;> nlinarith
  -- the circle of the tip
  obtain ⟨C, hC, c1, -, -, -, cev⟩ := c54_cylindrical hE (n / 2) 1 (6 / 5) (if insideTeeth then -2 else 2) (n / 2) hrp
    (by linarith) (by linarith)
  rw [abs_of_pos (by linarith)] at c1
  obtain ⟨rA, RA, a1, -, -, a4, a5⟩ := tip_circle hE (S := farSolvers) (f := chainEval curveOps l) ecn
    (x := n / 2 + 1) (y := n / 2 - 6 / 5) (by linarith) (by linarith) c1 (fun s => (cev s).1) (fun s => (cev s).2.2.1)
    (by rw [ett]; linarith)
  rw [ett, if_pos (by norm_num), finds_tipSearches far_finds F (by linarith) (by linarith) hG,
    c57_reduced _ _ _ (by norm_num) _ (R 1) (by simp) (by linarith) (fun r' h' _ => by simp at h'; linarith)] at a4
  have hRA0 : R 0 < RA := by rw [a4]; exact lt_min (by linarith) (by linarith)
  have hRA1 : RA < R 1 := by rw [a4]; exact lt_of_le_of_lt (min_le_right _ _) (by linarith)
  have hRA2 : 4 / 10 * n ≤ RA := by rw [a4]; exact le_min (by linarith) (by linarith)
  have hRA3 : (R 1 - n / 2) / 11 ≤ R 1 - RA := by
    rcases le_total ((n : ℝ) / 2 + 1) (R 1 - 1 / 10) with h | h
    · rw [a4, min_eq_left h]; linarith
    · rw [a4, min_eq_right h]; linarith
  have hev : rA.eval = (circ RA).eval := by funext s; rw [a5, circ_eval]
  have htrim := finds_trim_congr far_finds (le_refl 0) hev (finds_trim far_finds (pitch := 2 * π / n) hpath F hG (by linarith)
    (by linarith) (by positivity) hpitch hRA0 hRA1 (fun s hs' _ => by rw [hpitch2]; linarith [(F.range hs').1]) C.d (le_refl 0))
  have hsearch : CycloidSearches asEuler farSolvers p z := by
    refine ⟨by rw [epia, en, eo]; exact hs, ?_⟩
    intro l' C' rA' f1 f2 f3
    rw [epia, en, ei, eo, hl] at f1
    obtain rfl := Option.some.inj f1
    rw [en, ea, ed, show p.insideTeeth = insideTeeth by rw [hp], hC] at f2
    obtain rfl := Option.some.inj f2
    rw [a1] at f3
    obtain rfl := Option.some.inj f3
    rw [epia, en, ei, ef, hst]
    exact htrim
  refine ⟨hsearch, ?_⟩
  obtain ⟨C', l', rA', t, t', T, g1, g2, g3, -, -, -, -, ⟨a, k0, k1, k2, k3⟩, hall⟩ := c146_default hE far_honest far_descends h3 height
    helixAngle angle module_ zAnchor center insideTeeth hp z hsearch
  have hgen : (cycloidGear p).core.recipe.gen.cycloidCurve farSolvers z =
      cycloidToothCurve farSolvers (π / (2 * n)) (n / 2) 0 (1 / 2) (1 / 2) := by
    show cycloidToothCurve farSolvers (p.cycloidPia z) (p.numTeeth / 2) (p.coneAngle / 2 * 2) p.insideCycloid p.outsideCycloid = _
    rw [epia, en, ei, eo, show p.coneAngle = 0 by rw [hp]; rfl, zero_div, zero_mul]
  rw [hgen, hl] at g2
  obtain rfl := Option.some.inj g2
  rw [hC] at g1
  obtain rfl := Option.some.inj g1
  rw [a1] at g3
  obtain rfl := Option.some.inj g3
  rw [finds_tipCut_congr far_finds hev] at k1 k3
  obtain ⟨t0, t1, t2⟩ := finds_tip far_finds (pitch := 2 * π / n) F (by linarith) (by linarith) hG hRA0 hRA1
  obtain ⟨b, eb⟩ : ∃ b, b = tipCut farSolvers (chainEval curveOps l) (circ RA) (2 * π / n) := ⟨_, rfl⟩
  rw [← eb] at k1 k3 t0 t1 t2
  have ma : a ∈ Icc (0 : ℝ) 1 := ⟨k0, k1.le.trans t1⟩
  have mb : b ∈ Icc (0 : ℝ) 1 := ⟨t0.le, t1⟩
  rw [hG _ ma] at k2
  rw [hG _ mb] at k3
  have hlow : ∀ x, π / (2 * n) / 11 ≤ x → x ≤ π / 2 → 1 / (11 * n) ≤ sin x := by
    intro x h4 h5
    have h6 := mul_le_sin (x := x) (by linarith [div_pos hpia0 (by norm_num : (0 : ℝ) < 11)]) h5
    have h7 : 2 / π * (π / (2 * n) / 11) ≤ 2 / π * x := mul_le_mul_of_nonneg_left h4 (by positivity)
    have h8 : 2 / π * (π / (2 * n) / 11) = 1 / (11 * n) := by field_simp
    linarith
  refine hall (exactGaps_polar (by rw [← Option.some.inj k2, F.polar a ma]) (by rw [← Option.some.inj k3, F.polar _ mb]) (Or.inr ?_) ?_)
  · obtain ⟨r1, r2⟩ := F.range ma
    have hRa : R 0 ≤ R a := F.grows.monotoneOn ⟨le_refl _, zero_le_one⟩ ma ma.1
    have h5 := hlow (2 * π / n / 2 + θ a) (by rw [hpitch2]; linarith) (by rw [hpitch2]; linarith)
    have h6 : 7 / 10 * n * (1 / (11 * n)) ≤ 2 * R a * sin (2 * π / n / 2 + θ a) :=
      mul_le_mul (by linarith) h5 (by positivity) (by linarith)
    have h7 : 7 / 10 * (n : ℝ) * (1 / (11 * n)) = 7 / 110 := by field_simp; norm_num
    rw [h7] at h6
    exact lt_of_lt_of_le (by norm_num) h6
  · rcases t2 with h | h
    swap
    · exact Or.inl h
    right
    have hθ : π / (2 * n) / 11 ≤ -θ b := by
      rcases hsh b mb with ⟨w, w0, w1, -, h4⟩ | ⟨w, w0, w1, h5, h4⟩
      · rw [cycAngle_half w0 w1] at h4
        linarith
      · have hch := cycloid_chord half w0 w1 wb1
        rw [b2] at hch
        rw [h] at h5
        have q1 : cycR (1 / 2) w = RA / (n / 2) := by rw [h5]; field_simp
        have q2 : cycR (1 / 2) (tb / (1 / 2)) = R 1 / (n / 2) := by rw [b3]; field_simp
        rw [q1, q2] at hch
        have q3 : R 1 / (n / 2) - 1 = (R 1 - n / 2) / (n / 2) := by field_simp
        have q4 : RA / (n / 2) - 1 = (RA - n / 2) / (n / 2) := by field_simp
        rw [q3, q4, mul_div_assoc', mul_div_assoc', div_le_div_iff_of_pos_right hrp] at hch
        have q5 : π / (2 * n) * ((R 1 - n / 2) / 11) ≤ π / (2 * n) * (R 1 - RA) := mul_le_mul_of_nonneg_left hRA3 hpia0.le
        have q6 : (π / (2 * n) / 11) * (R 1 - n / 2) ≤ (π / (2 * n) - cycAngle (1 / 2) w) * (R 1 - n / 2) := by
          linarith
        have := le_of_mul_le_mul_right q6 (by linarith)
        linarith
    have h5 := hlow (-θ b) hθ (by linarith [(F.range mb).1])
    rw [h]
    have h6 : 8 / 10 * n * (1 / (11 * n)) ≤ 2 * RA * sin (-θ b) := mul_le_mul (by linarith) h5 (by positivity) (by linarith)
    have h7 : 8 / 10 * (n : ℝ) * (1 / (11 * n)) = 8 / 110 := by field_simp; norm_num
    rw [h7] at h6
    exact lt_of_lt_of_le (by norm_num) h6

end Verif
