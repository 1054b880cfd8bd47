import Verif.Props.SpurGear

/-!
# Default spur gears with exact solvers: the case for C145
-/

namespace Verif

open Real Set

theorem finds_tipCut_congr {S : ScalarSolvers} (E : FindsOnCurve S) {f : ℝ → Option V3} {rA rA' : Curve} (h : rA.eval = rA'.eval) (pitch : ℝ) :
    tipCut S f rA pitch = tipCut S f rA' pitch := by
  have e : ∀ g g' m, findCurveIntersect S.toSolvers f rA.eval g m =
      findCurveIntersect S.toSolvers f rA'.eval g' m := by
    intro g g' m
    rw [h]
    exact E.free _ _ _ _ _
  rw [tipCut, tipCut, e _ (9 / 10, -pitch / 8 / rA'.length) .equality, e _ (9 / 10, -pitch / 8 / rA'.length) .minDistance, h]

theorem finds_trim_congr {S : ScalarSolvers} (E : FindsOnCurve S) {l : List Curve} {rA rA' rD : Curve} {tipFillet pitch start : ℝ} (ht : tipFillet ≤ 0)
    (h : rA.eval = rA'.eval) (hs : TrimSearches S l rA' rD tipFillet pitch start) :
    TrimSearches S l rA rD tipFillet pitch start := by
  have e1 : tipCut S (chainEval curveOps l) rA pitch = tipCut S (chainEval curveOps l) rA' pitch :=
    finds_tipCut_congr E h pitch
  have e2 : trimTip (chainOps curveOps) S ⟨l, true⟩ rA tipFillet pitch =
      trimTip (chainOps curveOps) S ⟨l, true⟩ rA' tipFillet pitch := by
    rw [trimTip_cut _ _ _ _ _ ht, trimTip_cut _ _ _ _ _ ht, finds_tipCut_congr E h pitch]
  exact ⟨by rw [e1]; exact hs.tip0, by rw [e1]; exact hs.tip1, by rw [e2]; exact hs.root0, by rw [e2]; exact hs.root1,
    by rw [e2]; exact hs.gap⟩

/-- With these solvers all searches for a sharp tip end at the end of the tooth curve. -/
theorem finds_tipSearches {S : ScalarSolvers} (E : FindsOnCurve S) {G : ℝ → V3} {ang base : ℝ} {R θ : ℝ → ℝ} {f : ℝ → Option V3} (F : Fan G ang R θ) (hang : -π < ang)
    (hneg : ang < 0) (hf : ∀ s ∈ Icc (0 : ℝ) 1, f s = some (G s)) :
    tipSearches S f 0 base = List.replicate 4 (true, R 1) := by
  have m1 : (1 : ℝ) ∈ Icc (0 : ℝ) 1 := ⟨zero_le_one, le_refl _⟩
  have hone : ∀ guess, (findCurvePlaneIntersect S f UP guess).success = true ∧
      (findCurvePlaneIntersect S f UP guess).x = 1 := by
    intro guess
    obtain ⟨hs1, n0, n1⟩ := E.plane (f := f) (n := UP) guess (hf 1 m1)
      (by rw [F.polar 1 m1, F.fin]; simp [dot, UP, ORIGIN]) zero_le_one (le_refl _)
    refine ⟨hs1, ?_⟩
    have hz := plane_cost E.honest hs1 (hf _ ⟨n0, n1⟩)
    rw [F.polar _ ⟨n0, n1⟩] at hz
    have hz' : R (findCurvePlaneIntersect S f UP guess).x * sin (θ (findCurvePlaneIntersect S f UP guess).x) = 0 := by
      simpa [dot, UP, ORIGIN] using hz
    have h2 := F.range ⟨n0, n1⟩
    have h3 : θ (findCurvePlaneIntersect S f UP guess).x = 0 :=
      (sin_eq_zero_iff_of_lt_of_lt (by linarith) (by linarith [pi_pos])).1
        ((mul_eq_zero.1 hz').resolve_left (F.radius ⟨n0, n1⟩).ne')
    by_contra hne
    have := F.strict _ ⟨n0, n1⟩ 1 m1 (lt_of_le_of_ne n1 hne) (by rw [F.fin]; exact hneg)
    rw [F.fin, h3] at this
    exact lt_irrefl _ this
  have hp : polarTransform 0 base (G 1) = some ![R 1, 0, 0] := by
    rw [F.polar 1 m1, F.fin, cos_zero, sin_zero, mul_one, mul_zero]
    simp only [polarTransform, if_true]
    congr 1
    have := c13_cylindrical' (R 1) 0 0 ORIGIN (F.radius m1) (by linarith [pi_pos]) pi_pos.le
    have e : cylindricalToXyz ![R 1, 0, 0] ORIGIN = ![R 1, 0, 0] := by
      apply V3.ext3 <;> simp [cylindricalToXyz, ORIGIN]
    rwa [e] at this
  have hk : ∀ guess, (match (f (findCurvePlaneIntersect S f UP guess).x).bind (polarTransform 0 base) with
      | some q => ((findCurvePlaneIntersect S f UP guess).success, q 0)
      | none => (false, 0)) = (true, R 1) := by
    intro guess
    rw [(hone guess).2, (hone guess).1, hf 1 m1, Option.bind_some, hp]
    rfl
  exact (List.map_congr_left (l := List.range 4) (g := fun _ => (true, R 1))
    (fun k _ => hk (linspaceAt (1 / 10) (9 / 10) 4 k))).trans rfl

theorem cos_twenty : 0 < cos (π / 9) ∧ cos (π / 9) ^ 2 * (1 + tan (π / 9) ^ 2) = 1 ∧ 88 / 100 < cos (π / 9) ^ 2 ∧
    cos (π / 9) < 9398 / 10000 := by
  have hc : 0 < cos (π / 9) := cos_pos_of_mem_Ioo ⟨by linarith [pi_pos], by linarith [pi_pos]⟩
  have hct : cos (π / 9) ^ 2 * (1 + tan (π / 9) ^ 2) = 1 := by
    rw [tan_eq_sin_div_cos]
    field_simp
    linarith [sin_sq_add_cos_sq (π / 9)]
  obtain ⟨t0, t1⟩ := tan_twenty
  obtain ⟨c, ec⟩ : ∃ c, c = cos (π / 9) := ⟨_, rfl⟩
  obtain ⟨t, et⟩ : ∃ t, t = tan (π / 9) := ⟨_, rfl⟩
  rw [← ec, ← et] at hct
  rw [← ec] at hc
  rw [← et] at t0 t1
  rw [← ec, ← et]
  refine ⟨hc, hct, ?_, ?_⟩
  · have : t ^ 2 < 1325 / 10000 := by nlinarith
    by_contra hcon
    nlinarith [mul_le_mul (not_lt.1 hcon) (by linarith : 1 + t ^ 2 ≤ 11325 / 10000) (by positivity) (by norm_num)]
  · have h1 : 13242 / 100000 < t ^ 2 := by nlinarith
    by_contra hcon
    have h2 : (9398 / 10000 : ℝ) ^ 2 ≤ c ^ 2 := pow_le_pow_left₀ (by norm_num) (not_lt.1 hcon) 2
    nlinarith [mul_le_mul h2 (by linarith : 113242 / 100000 ≤ 1 + t ^ 2) (by norm_num) (by positivity)]

/-- A tooth of a default gear is pointed only beyond the pitch circle. -/
theorem pointed_tip {n c t k u tb : ℝ} (hn : 0 < n) (hk0 : 0 < k) (hk1 : k ≤ 1 / 3) (hkn : k * n = 1) (t0 : 3639 / 10000 < t)
    (hc : 0 < c) (hct : c ^ 2 * (1 + t ^ 2) = 1) (hc2 : 88 / 100 < c ^ 2) (eu : u = t + k) (hub : u < tb) :
    n / 2 + 11 / 100 < n / 2 * c * √(1 + tb ^ 2) := by
  have h7 : 1 + 22 / 100 * k < c * √(1 + tb ^ 2) := by
    refine lt_of_pow_lt_pow_left₀ 2 (by positivity) ?_
    rw [mul_pow, sq_sqrt (by positivity)]
    have h8 : u ^ 2 < tb ^ 2 := by nlinarith
    have h9 : 1 + c ^ 2 * (2 * t * k + k ^ 2) = c ^ 2 * (1 + u ^ 2) := by
      rw [eu]; linear_combination -hct
    have h11 : 88 / 100 * (2 * t * k + k ^ 2) ≤ c ^ 2 * (2 * t * k + k ^ 2) :=
      mul_le_mul_of_nonneg_right hc2.le (by nlinarith)
    have h12 : c ^ 2 * (1 + u ^ 2) ≤ c ^ 2 * (1 + tb ^ 2) := mul_le_mul_of_nonneg_left (by linarith) (by positivity)
    have h13 : 3639 / 10000 * k < t * k := mul_lt_mul_of_pos_right t0 hk0
    nlinarith
  have h13 := mul_lt_mul_of_pos_left h7 (show 0 < n / 2 by linarith)
  nlinarith

set_option maxHeartbeats 1000000 in
/-- **C145, the searches can succeed.** For the default spur gears without undercut, and for those with undercut and at least forty
teeth (whose base circle lies inside the root circle), of any height, module and placement, solvers that return a solution on the
curve whenever there is one meet the condition on the searches. -/
theorem c145_case {asEuler : M3 → ℝ × ℝ × ℝ} (hE : EulerOk asEuler) {n : ℕ} (h3 : 3 ≤ n) (height angle module_ zAnchor : ℝ)
    (center : V3) (undercut : Bool) (hu : undercut = true → 40 ≤ n) {p : GearInput}
    (hp : p = { GearInput.spurDefault n with
      height := height, angle := angle, module_ := module_, zAnchor := zAnchor, center := center, undercut := undercut }) (z : ℝ) :
    SpurSearches asEuler exactSolvers p z := by
  have p3 := pi_gt_d4
  have p4 := pi_lt_d4
  have hn3 : (3 : ℝ) ≤ n := by exact_mod_cast h3
  have hn0 : (0 : ℝ) < n := by linarith
  have hrp : (0 : ℝ) < n / 2 := by linarith
  obtain ⟨t0, t1⟩ := tan_twenty
  have ha0 : (0 : ℝ) < π / 9 := by positivity
  have ha1 : π / 9 < π / 2 := by linarith
  obtain ⟨hc, hct, hc2, hc3⟩ := cos_twenty
  have ealpha : p.pressureAngle = π / 9 := by rw [hp]; show 20 * π / 180 = π / 9; ring
  have en : p.numTeeth = n := by rw [hp]; rfl
  have eh : p.dedendum - p.profileShift = 6 / 5 := by rw [hp]; show (6 : ℝ) / 5 - 0 = 6 / 5; norm_num
  have eA : p.addendum + p.profileShift = 1 := by rw [hp]; show (1 : ℝ) + 0 = 1; norm_num
  have eu : p.undercut = undercut := by rw [hp]
  have etf : p.tipFillet = 0 := by rw [hp]; rfl
  have ett : p.tipTruncation = 1 / 10 := by rw [hp]; rfl
  have epia : p.crowningFunc z p.toothAngle = π / (2 * n) := by
    rw [hp]
    simp [GearInput.crowningFunc, GearInput.toothAngle, GearInput.spurDefault]
    field_simp
    norm_num
  have hpia0 : 0 < π / (2 * n) := by positivity
  have hpia1 : π / (2 * n) ≤ π / 6 := div_le_div_of_nonneg_left pi_pos.le (by norm_num) (by linarith)
  have h2 := arctan_two_le
  have hs := exact_tooth hrp ha0 ha1 (by linarith) hpia0 (by rw [invAngle]; linarith)
  have hno : p.undercut = true → ¬(p.numTeeth / 2 - (p.dedendum - p.profileShift) ≤ p.numTeeth / 2 * cos p.pressureAngle) := by
    intro u
    rw [eu] at u
    have h40 : (40 : ℝ) ≤ n := by exact_mod_cast hu u
    rw [en, eh, ealpha, not_le]
    nlinarith
  obtain ⟨r1, r2, r3', r4, r5, r6, r7, r8⟩ := spur_recipe (p := p) (by rw [en]; exact hn0.le)
  obtain ⟨l, G, R, θ, hl, hpath, F, R0, hG, ⟨tb, b0, -, b2, b3⟩, hsh, -, -⟩ := tooth_generated exact_honest hrp ha0 ha1 hpia0
    (by linarith) hs
  refine ⟨?_, fun u h => absurd h (hno u), fun u h => absurd h (hno u), ?_⟩
  · rw [epia, en, ealpha]
    exact hs
  intro _ l' C rA e1 e2 e3
  rw [epia, en, ealpha, hl] at e1
  obtain rfl := Option.some.inj e1
  rw [epia, en, ealpha, etf]
  rw [en, eA, eh] at e2
  obtain ⟨C', hC', c1, -, c3, c4, cev⟩ := c54_cylindrical hE (n / 2) 1 (6 / 5) 2 (n / 2) hrp (by linarith) (by linarith)
  rw [e2] at hC'
  obtain rfl := Option.some.inj hC'
  rw [abs_of_pos (by linarith)] at c1
  -- the tip of the pointed tooth
  have hinv : invAngle (tan (π / 9)) = tan (π / 9) - π / 9 := by rw [invAngle, arctan_tan (by linarith) (by linarith)]
  obtain ⟨k, ek⟩ : ∃ k, k = 1 / (n : ℝ) := ⟨_, rfl⟩
  have hk0 : 0 < k := by rw [ek]; positivity
  have hk1 : k ≤ 1 / 3 := by rw [ek]; exact one_div_le_one_div_of_le (by norm_num) hn3
  have hkn : k * n = 1 := by rw [ek]; field_simp
  have hpk : π / (2 * n) = π / 2 * k := by rw [ek]; field_simp
  obtain ⟨u, eu'⟩ : ∃ u, u = tan (π / 9) + k := ⟨_, rfl⟩
  have hub : u < tb := by
    by_contra hcon
    have h5 := invAngle_strict.monotoneOn b0.le (show (0 : ℝ) ≤ u by linarith) (not_lt.1 hcon)
    have h6 : invAngle u - invAngle (tan (π / 9)) ≤ k := by
      rw [invAngle, invAngle]
      have := arctan_mono (show tan (π / 9) ≤ u by linarith)
      linarith
    rw [b2, hpk] at h5
    nlinarith
  have hR1 : n / 2 + 11 / 100 < R 1 := by
    rw [b3]
    exact pointed_tip hn0 hk0 hk1 hkn t0 hc hct hc2 eu' hub
  -- the circle of the tip
  obtain ⟨rA', RA, a1, -, -, a4, a5⟩ := tip_circle hE (S := exactSolvers) (f := chainEval undercutOps (l.map .inl)) r3'
    (x := n / 2 + 1) (y := n / 2 - 6 / 5) (by linarith) (by linarith) c1 (fun s => (cev s).1) (fun s => (cev s).2.2.1)
    (by rw [r7, ett]; linarith)
  rw [e3] at a1
  obtain rfl := Option.some.inj a1
  rw [r7, ett, if_pos (by norm_num), finds_tipSearches exact_finds F (by linarith) (by linarith)
    (fun s hs' => by rw [undercutOps, inl_chainEval]; exact hG s hs'),
    c57_reduced _ _ _ (by norm_num) _ (R 1) (by simp) (by linarith) (fun r' h' _ => by simp at h'; linarith)] at a4
  have hRA0 : n / 2 < RA := by rw [a4]; exact lt_min (by linarith) (by linarith)
  have hRA1 : RA < R 1 := by rw [a4]; exact lt_of_le_of_lt (min_le_right _ _) (by linarith)
  have hcos1 := cos_le_one (π / 9)
  have hpitch : 2 * π / n ≤ π := by rw [div_le_iff₀ hn0]; nlinarith
  refine finds_trim_congr exact_finds (le_refl 0) (rA' := circ RA) (by funext s; rw [a5, circ_eval]) ?_
  refine finds_trim exact_finds hpath F hG (by linarith) (by linarith) (by positivity) hpitch (by rw [R0]; nlinarith) hRA1
    (fun s hs' e => ?_) _ (le_refl 0)
  have hroot : n / 2 * cos (π / 9) * √(1 + tan (π / 9) ^ 2) = n / 2 := by
    rw [← inv_sqrt_one_add_tan_sq hc, mul_assoc, inv_mul_cancel₀ (sqrt_pos.2 (by positivity)).ne', mul_one]
  rcases hsh s hs' with h | ⟨t, tt0, h4, h5⟩
  · have := h.1
    rw [e] at this
    nlinarith
  · have hlt : tan (π / 9) < t := by
      by_contra hcon
      have : √(1 + t ^ 2) ≤ √(1 + tan (π / 9) ^ 2) := sqrt_le_sqrt (by linarith [pow_le_pow_left₀ tt0 (not_lt.1 hcon) 2])
      have := mul_le_mul_of_nonneg_left this (show 0 ≤ n / 2 * cos (π / 9) by positivity)
      rw [hroot, ← h4, e] at this
      linarith
    have := invAngle_strict (show (0 : ℝ) ≤ tan (π / 9) by linarith) tt0 hlt
    rw [h5, show 2 * π / n / 2 = 2 * (π / (2 * n)) by field_simp]
    linarith

end Verif
