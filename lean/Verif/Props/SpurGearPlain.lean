import Verif.Props.SpurGearUnder

/-!
# Default spur gears without undercut, and all default spur gears: no condition on the searches (C145)
-/

namespace Verif

open Real Set

section
variable {S : ScalarSolvers} {f : ℝ → Option V3} {R θ : ℝ → ℝ} {RD pitch : ℝ}

/-- If the tooth curve crosses the root circle inside the half gap, it is cut there. -/
theorem finds_root_on (E : FindsOnCurve S) (hf : ∀ s ∈ Icc (0 : ℝ) 1, f s = some ![R s * cos (θ s), R s * sin (θ s), 0])
    (hR : ∀ s ∈ Icc (0 : ℝ) 1, 0 < R s) (hθ : ∀ s ∈ Icc (0 : ℝ) 1, -(π / 2) ≤ θ s ∧ θ s ≤ 0) (hD : 0 < RD) {s : ℝ} (s0 : 0 < s)
    (s1 : s < 1) (es : R s = RD) (hmid : ∀ s ∈ Icc (0 : ℝ) 1, R s = RD → -(pitch / 2) < θ s) {rD : Curve}
    (hrD : rD.eval = (circ RD).eval) : ∃ u ∈ Icc (0 : ℝ) 1, R u = RD ∧ rootCut S f rD pitch = u := by
  have ms : s ∈ Icc (0 : ℝ) 1 := ⟨s0.le, s1.le⟩
  have hok : ∀ guess, (findCurveIntersect S.toSolvers f rD.eval guess .equality).success = true := fun guess =>
    E.found guess (u := θ s / (2 * π)) (hf s ms) (by rw [hrD, circ_eval, mul_div_cancel₀ _ (by positivity), es]) s0 s1
  obtain ⟨sol, esol⟩ : ∃ sol, sol = findCurveIntersect S.toSolvers f rD.eval (3 / 10, -pitch / 2 / rD.length) .equality := ⟨_, rfl⟩
  have hsol : rootSol S f rD pitch = sol := by
    rw [rootSol]
    simp only [hok, if_true]
    exact esol.symm
  have hfound : rootFound S f rD pitch := by
    left
    rw [hsol, esol]
    exact hok _
  obtain ⟨m0, m1⟩ := E.mem f rD.eval (3 / 10, -pitch / 2 / rD.length) .equality
  obtain ⟨q, hq, hq'⟩ := intersect_success E.honest (hok (3 / 10, -pitch / 2 / rD.length))
  rw [← esol] at m0 m1 hq hq'
  have mu : sol.x.1 ∈ Icc (0 : ℝ) 1 := ⟨m0.le, m1.le⟩
  have hq2 := hq
  rw [hf _ mu] at hq
  rw [hrD, circ_eval] at hq'
  have hq := Option.some.inj hq
  have hq' := Option.some.inj hq'
  have e : R sol.x.1 = RD := by
    have h0 := congrFun (hq.trans hq'.symm) 0
    have h1 := congrFun (hq.trans hq'.symm) 1
    simp at h0 h1
    refine (pow_left_inj₀ (hR _ mu).le hD.le two_ne_zero).1 ?_
    calc R sol.x.1 ^ 2 = (R sol.x.1 * cos (θ sol.x.1)) ^ 2 + (R sol.x.1 * sin (θ sol.x.1)) ^ 2 := by
          linear_combination -R sol.x.1 ^ 2 * sin_sq_add_cos_sq (θ sol.x.1)
      _ = RD ^ 2 := by
          rw [h0, h1]
          linear_combination RD ^ 2 * sin_sq_add_cos_sq (2 * π * sol.x.2)
  refine ⟨sol.x.1, mu, e, ?_⟩
  have hang : -pitch / 2 < arctan2 (q 1) (q 0) := by
    rw [← hq]
    show -pitch / 2 < arctan2 (R sol.x.1 * sin (θ sol.x.1)) (R sol.x.1 * cos (θ sol.x.1))
    have h2 := hθ _ mu
    rw [arctan2_polar (hR _ mu) (by linarith [pi_pos]) (by linarith [pi_pos])]
    have := hmid _ mu e
    linarith
  rw [rootCut, if_pos ⟨hfound, q, by rw [hsol]; exact hq2, hang⟩, hsol]

end

/-- From the root circle to the pitch circle the involute of a default gear turns by less than the half gap. -/
theorem root_turn {n t : ℝ} (hn : 106 ≤ n) (ht : 0 ≤ t) (h : n / 2 - 6 / 5 = n / 2 * cos (π / 9) * √(1 + t ^ 2)) :
    invAngle (tan (π / 9)) - invAngle t ≤ 6 / 5 / n := by
  obtain ⟨t0, t1⟩ := tan_twenty
  obtain ⟨hc, hct, hc2, hc3⟩ := cos_twenty
  have hn0 : 0 < n := by linarith
  obtain ⟨T, eT⟩ : ∃ T, T = tan (π / 9) := ⟨_, rfl⟩
  obtain ⟨c, ec⟩ : ∃ c, c = cos (π / 9) := ⟨_, rfl⟩
  rw [← eT] at t0 t1 hct ⊢
  rw [← ec] at hc hct hc2 hc3 h
  have h2 : (n / 2 - 6 / 5) ^ 2 = n ^ 2 / 4 * c ^ 2 * (1 + t ^ 2) := by
    rw [h, mul_pow, mul_pow, sq_sqrt (by positivity)]; ring
  have hc4 : c ^ 2 ≤ 8833 / 10000 := by nlinarith
  have ht2 : 1 / 5 ≤ t := by
    by_contra hcon
    have h3 : t ^ 2 ≤ 1 / 25 := by nlinarith [not_le.1 hcon]
    have h4 : n ^ 2 / 4 * c ^ 2 * (1 + t ^ 2) ≤ n ^ 2 / 4 * (8833 / 10000) * (26 / 25) := by
      refine mul_le_mul ?_ (by linarith) (by positivity) (by positivity)
      exact mul_le_mul_of_nonneg_left hc4 (by positivity)
    rw [← h2] at h4
    nlinarith
  have h5 : n ^ 2 / 4 * c ^ 2 * ((T - t) * (T + t)) = 6 / 5 * (n - 6 / 5) := by
    linear_combination n ^ 2 / 4 * hct + h2
  have hK : 0 < n ^ 2 / 4 * c ^ 2 := by positivity
  have hTt : 0 < T - t := by
    by_contra hcon
    have : (T - t) * (T + t) ≤ 0 := mul_nonpos_of_nonpos_of_nonneg (not_lt.1 hcon) (by linarith)
    have := mul_nonpos_of_nonneg_of_nonpos hK.le this
    linarith
  have h6 : n ^ 2 / 4 * c ^ 2 * (T - t) * (5639 / 10000) ≤ 6 / 5 * n := by
    have : n ^ 2 / 4 * c ^ 2 * (T - t) * (5639 / 10000) ≤ n ^ 2 / 4 * c ^ 2 * (T - t) * (T + t) :=
      mul_le_mul_of_nonneg_left (by linarith) (by positivity)
    linarith
  have h7 : invAngle T - invAngle t ≤ (T - t) * (T ^ 2 * c ^ 2) := by
    have h8 := arctan_tangent (t := T) (u := t) (by linarith) ht
    have h9 : 1 / (1 + T ^ 2) = c ^ 2 := by
      rw [div_eq_iff (by positivity)]; linarith
    have h10 : (t - T) / (1 + T ^ 2) = (t - T) * c ^ 2 := by rw [← h9]; ring
    rw [h10] at h8
    rw [invAngle, invAngle]
    have h11 : (T - t) * (T ^ 2 * c ^ 2) = (T - t) - (T - t) * c ^ 2 := by linear_combination (T - t) * hct
    linarith
  refine h7.trans ?_
  rw [le_div_iff₀ hn0]
  have hT2 : T ^ 2 ≤ 1325 / 10000 := by nlinarith
  have h12 : n ^ 2 * ((T - t) * c ^ 2) ≤ 4 * (10000 / 5639) * (6 / 5) * n := by linarith
  have h13 : n * ((T - t) * c ^ 2) ≤ 4 * (10000 / 5639) * (6 / 5) := by
    refine le_of_mul_le_mul_left ?_ hn0
    linarith
  have h14 : n * ((T - t) * c ^ 2) * T ^ 2 ≤ 4 * (10000 / 5639) * (6 / 5) * (1325 / 10000) :=
    mul_le_mul h13 hT2 (by positivity) (by norm_num)
  linarith

theorem half_base {n : ℝ} (hn : 3 ≤ n) : 1 / 2 ≤ n / 2 * cos (π / 9) / 2 := by
  obtain ⟨hc, -, hc2, -⟩ := cos_twenty
  have h9 : 93 / 100 ≤ cos (π / 9) := by nlinarith
  have := mul_le_mul hn h9 (by norm_num) (by linarith)
  linarith

/-- A chord over a small angle is longer than the tolerance. -/
theorem gap_wide {R x : ℝ} (hR : 1 / 2 ≤ R) (h0 : 1 / 1000000 ≤ x * R) (h1 : 0 ≤ x) (h2 : x ≤ π / 2) : 1 / 10 ^ 10 < 2 * R * sin x := by
  have h3 := mul_le_sin h1 h2
  have h4 : 1 / 2 * x ≤ 2 / π * x := by
    refine mul_le_mul_of_nonneg_right ?_ h1
    rw [div_le_div_iff₀ (by norm_num) pi_pos]
    linarith [pi_lt_four]
  have h5 : 2 * R * (1 / 2 * x) ≤ 2 * R * sin x := mul_le_mul_of_nonneg_left (h4.trans h3) (by linarith)
  refine lt_of_lt_of_le ?_ h5
  have : (1 : ℝ) / 10 ^ 10 < 1 / 1000000 := by norm_num
  linarith

set_option maxHeartbeats 1000000 in
/-- **C145, default gears without undercut and no condition on the searches.** `SpurGear(n)` with the default parameters, of any
height, module and placement, with three teeth or more and without undercut, or with undercut and at least forty teeth (whose base
circle lies inside the root circle), made with solvers that return a solution on the curve whenever there is one: the searches
succeed, the profile exists, and the outline of the `n` teeth is closed and does not cross or touch itself. -/
theorem c145_plain_found {asEuler : M3 → ℝ × ℝ × ℝ} (hE : EulerOk asEuler) {n : ℕ} (h3 : 3 ≤ n) (height angle module_ zAnchor : ℝ)
    (center : V3) (undercut : Bool) (hu : undercut = true → 40 ≤ n) {p : GearInput}
    (hp : p = { GearInput.spurDefault n with
      height := height, angle := angle, module_ := module_, zAnchor := zAnchor, center := center, undercut := undercut }) (z : ℝ) :
    SpurSearches asEuler exactSolvers p z ∧ ∃ P, (spurGear p).core.recipe.spurProfile asEuler exactSolvers z = some P ∧
      Spec.SimpleOutline (chainEval (sumOps (chainOps undercutOps) curveOps) (P.chain (chainOps undercutOps))) (2 * π / n) n := by
  have hsearch := c145_case hE h3 height angle module_ zAnchor center undercut hu hp z
  refine ⟨hsearch, ?_⟩
  have p3 := pi_gt_d4
  have p4 := pi_lt_d4
  have hn3 : (3 : ℝ) ≤ n := by exact_mod_cast h3
  have hn0 : (0 : ℝ) < n := by linarith
  have hrp : (0 : ℝ) < n / 2 := by linarith
  obtain ⟨t0, t1⟩ := tan_twenty
  have ha0 : (0 : ℝ) < π / 9 := by positivity
  have ha1 : π / 9 < π / 2 := by linarith
  obtain ⟨hc, hct, hc2, hc3⟩ := cos_twenty
  have ealpha : p.pressureAngle = π / 9 := by rw [hp]; show 20 * π / 180 = π / 9; ring
  have en : p.numTeeth = n := by rw [hp]; rfl
  have eh : p.dedendum - p.profileShift = 6 / 5 := by rw [hp]; show (6 : ℝ) / 5 - 0 = 6 / 5; norm_num
  have eA : p.addendum + p.profileShift = 1 := by rw [hp]; show (1 : ℝ) + 0 = 1; norm_num
  have eu : p.undercut = undercut := by rw [hp]
  have ett : p.tipTruncation = 1 / 10 := by rw [hp]; rfl
  have epia : p.crowningFunc z p.toothAngle = π / (2 * n) := by
    rw [hp]
    simp [GearInput.crowningFunc, GearInput.toothAngle, GearInput.spurDefault]
    field_simp
    norm_num
  have hpia0 : 0 < π / (2 * n) := by positivity
  have hpia1 : π / (2 * n) ≤ π / 6 := div_le_div_of_nonneg_left pi_pos.le (by norm_num) (by linarith)
  have hhalf : 2 * π / n / 2 = 2 * (π / (2 * n)) := by field_simp
  have hno : undercut = true → n / 2 * cos (π / 9) < n / 2 - 6 / 5 := by
    intro u
    have h40 : (40 : ℝ) ≤ n := by exact_mod_cast hu u
    nlinarith
  obtain ⟨r1, r2, r3', r4, r5, r6, r7, r8⟩ := spur_recipe (p := p) (by rw [en]; exact hn0.le)
  rw [en, ealpha] at r1
  rw [eA, eh] at r2
  have hs := hsearch.tooth
  rw [epia, en, ealpha] at hs
  obtain ⟨l, G, R, θ, hl, hpath, F, R0, hG, ⟨tb, b0, -, b2, b3⟩, hsh, -, -⟩ := tooth_generated exact_honest hrp ha0 ha1 hpia0
    (by linarith) hs
  have hcm : (spurGear p).core.recipe.gen.spurCurve exactSolvers z = some (l.map .inl) := by
    rw [r1]
    split_ifs with u
    · rw [ToothGen.spurCurve, epia, hl, Option.bind_some, r2, undercutToothCurve, if_pos (hno (by rw [← eu]; exact u))]
    · rw [ToothGen.spurCurve, epia, hl, Option.map_some]
  obtain ⟨C, m, rA, t, t', T, e1, e2, e3, e4, -, -, -, e8, -, e9, hall⟩ := c145_default hE exact_honest exact_descends h3 height angle module_ zAnchor
    center undercut hp z hsearch
  rw [hcm] at e2
  obtain rfl := Option.some.inj e2
  obtain ⟨⟨a, ha, ha', e10⟩, e11⟩ := e9 hno
  obtain ⟨C', hC', c1, -, c3, c4, cev⟩ := c54_cylindrical hE (n / 2) 1 (6 / 5) 2 (n / 2) hrp (by linarith) (by linarith)
  rw [e1] at hC'
  obtain rfl := Option.some.inj hC'
  rw [abs_of_pos (by linarith)] at c1
  rw [undercutOps, inl_chainEval] at e8 e10 ha'
  -- the tip of the pointed tooth
  have hinv : invAngle (tan (π / 9)) = tan (π / 9) - π / 9 := by rw [invAngle, arctan_tan (by linarith) (by linarith)]
  have hR1 : n / 2 + 11 / 100 < R 1 := by
    obtain ⟨k, ek⟩ : ∃ k, k = 1 / (n : ℝ) := ⟨_, rfl⟩
    have hk0 : 0 < k := by rw [ek]; positivity
    have hk1 : k ≤ 1 / 3 := by rw [ek]; exact one_div_le_one_div_of_le (by norm_num) hn3
    have hkn : k * n = 1 := by rw [ek]; field_simp
    have hpk : π / (2 * n) = π / 2 * k := by rw [ek]; field_simp
    have hub : tan (π / 9) + k < tb := by
      by_contra hcon
      have h5 := invAngle_strict.monotoneOn b0.le (show (0 : ℝ) ≤ tan (π / 9) + k by linarith) (not_lt.1 hcon)
      have h6 : invAngle (tan (π / 9) + k) - invAngle (tan (π / 9)) ≤ k := by
        rw [invAngle, invAngle]
        have := arctan_mono (show tan (π / 9) ≤ tan (π / 9) + k by linarith)
        linarith
      rw [b2, hpk] at h5
      nlinarith
    rw [b3]
    exact pointed_tip hn0 hk0 hk1 hkn t0 hc hct hc2 rfl hub
  -- the circle of the tip
  obtain ⟨rA', RA, a1, -, -, a4, a5⟩ := tip_circle hE (S := exactSolvers) (f := chainEval undercutOps (l.map .inl)) r3'
    (x := n / 2 + 1) (y := n / 2 - 6 / 5) (by linarith) (by linarith) c1 (fun s => (cev s).1) (fun s => (cev s).2.2.1)
    (by rw [r7, ett]; linarith)
  rw [e3] at a1
  obtain rfl := Option.some.inj a1
  rw [r7, ett, if_pos (by norm_num), finds_tipSearches exact_finds F (by linarith) (by linarith)
    (fun s hs' => by rw [undercutOps, inl_chainEval]; exact hG s hs'),
    c57_reduced _ _ _ (by norm_num) _ (R 1) (by simp) (by linarith) (fun r' h' _ => by simp at h'; linarith)] at a4
  have hRA0 : n / 2 < RA := by rw [a4]; exact lt_min (by linarith) (by linarith)
  have hRA1 : RA + 1 / 10 ≤ R 1 := by
    rw [a4]
    linarith [min_le_right ((n : ℝ) / 2 + 1) (R 1 - 1 / 10)]
  have hcos1 : n / 2 * cos (π / 9) ≤ n / 2 * (9398 / 10000) := mul_le_mul_of_nonneg_left hc3.le hrp.le
  have erA : rA.eval = (circ RA).eval := by funext s; rw [a5, circ_eval]
  have erD : C.d.eval = (circ (n / 2 - 6 / 5)).eval := by funext s; rw [(cev s).2.2.1, circ_eval]
  have hr0 : 0 < n / 2 * cos (π / 9) := mul_pos hrp hc
  have hroot : n / 2 * cos (π / 9) * √(1 + tan (π / 9) ^ 2) = n / 2 := by
    rw [← inv_sqrt_one_add_tan_sq hc, mul_assoc, inv_mul_cancel₀ (sqrt_pos.2 (by positivity)).ne', mul_one]
  have hmono : ∀ x y : ℝ, 0 ≤ x → 0 ≤ y → n / 2 * cos (π / 9) * √(1 + x ^ 2) < n / 2 * cos (π / 9) * √(1 + y ^ 2) → x < y := by
    intro x y hx hy h
    have h5 := lt_of_mul_lt_mul_left h hr0.le
    rw [sqrt_lt_sqrt_iff (by positivity)] at h5
    exact lt_of_pow_lt_pow_left₀ 2 hy (by linarith)
  have ecut : tipCut exactSolvers (chainEval curveOps l) rA (2 * π / n) = tipCut exactSolvers (chainEval curveOps l) (circ RA) (2 * π / n) :=
    finds_tipCut_congr exact_finds erA _
  obtain ⟨ζ, eζ⟩ : ∃ ζ, ζ = tipCut exactSolvers (chainEval curveOps l) rA (2 * π / n) := ⟨_, rfl⟩
  obtain ⟨z0, z1, z2⟩ := finds_tip exact_finds (pitch := 2 * π / n) F (by linarith) (by linarith) hG
    (show R 0 < RA by rw [R0]; linarith) (by linarith)
  rw [← ecut, ← eζ] at z0 z1 z2
  rw [← eζ] at e8 ha'
  have mζ : ζ ∈ Icc (0 : ℝ) 1 := ⟨z0.le, z1⟩
  have ma : a ∈ Icc (0 : ℝ) 1 := ⟨ha, ha'.le.trans z1⟩
  rw [hG _ mζ] at e8
  rw [hG _ ma] at e10
  have hT1 := (Option.some.inj e8).symm.trans (F.polar _ mζ)
  have hT0 := (Option.some.inj e10).symm.trans (F.polar _ ma)
  -- the gap at the tip
  have htip : θ ζ = 0 ∨ 1 / 10 ^ 10 < 2 * R ζ * sin (-θ ζ) := by
    rcases z2 with h | h
    · right
      rcases hsh ζ mζ with h5 | ⟨tA, g0, g1, g2⟩
      · have := h5.1
        rw [h] at this
        linarith
      have hlt1 : tan (π / 9) < tA := hmono _ _ (by linarith) g0 (by rw [hroot, ← g1, h]; exact hRA0)
      have hlt2 : tA < tb := hmono _ _ g0 b0.le (by rw [← g1, ← b3, h]; linarith)
      have hland := land_wide hn3 hr0 (mul_le_of_le_one_right hrp.le (cos_le_one _)) (show 36 / 100 ≤ tA by linarith) hlt2
        (by rw [b2]; linarith) (by rw [← g1, ← b3, h]; exact hRA1) (by rw [← g1, h]; exact hRA0)
      rw [g2, show -(invAngle tA + -(π / (2 * n) + (tan (π / 9) - π / 9))) = invAngle tb - invAngle tA by rw [b2]; ring, g1]
      exact hland
    · exact Or.inl h
  -- the gap at the root
  obtain ⟨u, mu, hTu, hgap⟩ : ∃ u ∈ Icc (0 : ℝ) 1, T 0 = ![R u * cos (θ u), R u * sin (θ u), 0] ∧
      1 / 10 ^ 10 < 2 * R u * sin (2 * π / n / 2 + θ u) := by
    by_cases h106 : 106 ≤ n
    · have hn106 : (106 : ℝ) ≤ n := by exact_mod_cast h106
      have hplace : ∀ s ∈ Icc (0 : ℝ) 1, R s = n / 2 - 6 / 5 → π / (2 * n) - 6 / 5 / n ≤ 2 * π / n / 2 + θ s := by
        intro s ms es
        rcases hsh s ms with h5 | ⟨tD, g0, g1, g2⟩
        · have := h5.1
          rw [es] at this
          linarith
        have := root_turn hn106 g0 (by rw [← g1, es])
        rw [g2, hhalf]
        linarith
      have hsix : π / (2 * n) - 6 / 5 / n = (π / 2 - 6 / 5) / n := by field_simp
      have hsix0 : 0 < (π / 2 - 6 / 5) / n := div_pos (by linarith) hn0
      -- the tooth curve cut at the tip
      obtain ⟨d, hd, -, ⟨φ, f1, f2, f3⟩, -⟩ := c45_end_path l hpath ζ z0 z1 false
      have ht : t = ⟨d.map .inl, true⟩ := by
        have h5 := inl_trimTip (o := curveOps) (o' := chainOps curveOps) exactSolvers ⟨l, true⟩ rA (2 * π / n) (le_refl 0)
        have h6 : trimTip (chainOps curveOps) exactSolvers ⟨l, true⟩ rA 0 (2 * π / n) = some ⟨d, true⟩ := by
          rw [trimTip_cut _ _ _ _ _ (le_refl 0)]
          show (chainSetEnd curveOps l (tipCut exactSolvers (chainEval curveOps l) rA (2 * π / n)) false).map _ = _
          rw [← eζ, hd]; rfl
        rw [h6] at h5
        exact Option.some.inj (e4.symm.trans h5)
      rw [ht] at e11
      simp only [undercutOps, inl_chainEval] at e11
      obtain ⟨q0, q1⟩ := mono_ends f1 f2
      have mφ : ∀ s ∈ Icc (0 : ℝ) 1, φ s ∈ Icc (0 : ℝ) 1 := by
        intro s hs'
        have : φ s ∈ Icc 0 ζ := f2 ▸ mem_image_of_mem φ hs'
        exact ⟨this.1, this.2.trans z1⟩
      have hcont := F.radius_continuous.comp (run_continuous f1 f2) mφ
      have hRζ : n / 2 - 6 / 5 < R ζ := by
        rcases z2 with h | h
        · rw [h]; linarith
        · have : ζ = 1 := by
            by_contra hne
            have := F.strict _ mζ 1 ⟨zero_le_one, le_refl _⟩ (lt_of_le_of_ne z1 hne) (by rw [F.fin]; linarith)
            rw [F.fin, h] at this
            exact lt_irrefl _ this
          rw [this]; linarith
      have hR0 : R 0 < n / 2 - 6 / 5 := by rw [R0]; linarith
      obtain ⟨s, ms, es⟩ : (n : ℝ) / 2 - 6 / 5 ∈ (R ∘ φ) '' Icc 0 1 := intermediate_value_Icc zero_le_one hcont
        ⟨by rw [Function.comp_apply, q0]; exact hR0.le, by rw [Function.comp_apply, q1]; exact hRζ.le⟩
      rw [Function.comp_apply] at es
      have s0 : 0 < s := lt_of_le_of_ne ms.1 fun e => by rw [← e, q0] at es; linarith
      have s1 : s < 1 := lt_of_le_of_ne ms.2 fun e => by rw [e, q1] at es; linarith
      have hev : ∀ s ∈ Icc (0 : ℝ) 1, chainEval curveOps d s = some ![R (φ s) * cos (θ (φ s)), R (φ s) * sin (θ (φ s)), 0] :=
        fun s hs => by rw [f3 s hs, hG _ (mφ s hs), F.polar _ (mφ s hs)]
      obtain ⟨u, mu, eu1, eu2⟩ := finds_root_on (R := fun s => R (φ s)) (θ := fun s => θ (φ s)) (pitch := 2 * π / n) exact_finds hev
        (fun s hs => F.radius (mφ s hs)) (fun s hs => ⟨by have := (F.range (mφ s hs)).1; linarith, (F.range (mφ s hs)).2⟩)
        (show (0 : ℝ) < n / 2 - 6 / 5 by linarith) s0 s1 es
        (fun s hs e => by have := hplace _ (mφ s hs) e; rw [hsix] at this; linarith) erD
      rw [eu2, hev _ mu] at e11
      refine ⟨φ u, mφ u mu, (Option.some.inj e11).symm, ?_⟩
      have h7 := hplace _ (mφ u mu) eu1
      rw [hsix] at h7
      have h8 : θ (φ u) ≤ 0 := (F.range (mφ u mu)).2
      rw [eu1]
      refine gap_wide (by linarith) ?_ (by linarith) (by rw [hhalf]; linarith)
      have h9 : (π / 2 - 6 / 5) / n * (n / 2 - 6 / 5) ≤ (2 * π / n / 2 + θ (φ u)) * (n / 2 - 6 / 5) :=
        mul_le_mul_of_nonneg_right h7 (by linarith)
      refine le_trans ?_ h9
      rw [div_mul_eq_mul_div, le_div_iff₀ hn0]
      have : 37 / 100 * ((n : ℝ) / 2 - 6 / 5) ≤ (π / 2 - 6 / 5) * (n / 2 - 6 / 5) :=
        mul_le_mul_of_nonneg_right (by linarith) (by linarith)
      linarith
    · have hn105 : (n : ℝ) ≤ 105 := by exact_mod_cast (by omega : n ≤ 105)
      refine ⟨a, ma, hT0, ?_⟩
      have h5 := F.range ma
      have h6 : π / 210 ≤ π / (2 * n) := div_le_div_of_nonneg_left pi_pos.le (by positivity) (by linarith)
      have h7 : 1 / 100000 ≤ 2 * π / n / 2 + θ a := by
        rw [hhalf]
        linarith
      have h8 : R 0 ≤ R a := F.grows.monotoneOn ⟨le_refl _, zero_le_one⟩ ma ha
      have h10 : 1 / 2 ≤ R a := by rw [R0] at h8; exact (half_base hn3).trans h8
      refine gap_wide h10 ?_ (by linarith) (by rw [hhalf]; linarith)
      have := mul_le_mul h7 h10 (by norm_num) (by linarith)
      linarith
  obtain ⟨P, hP, hsimple⟩ := hall (exactGaps_polar hTu hT1 (Or.inr hgap) htip)
  exact ⟨P, hP, hsimple⟩

/-- **C145, all default gears.** Every default spur gear with three teeth or more, with or without undercut, of any height, module and
placement: with suitable solvers that report only true solutions, the profile exists at every height, and the outline of the `n` teeth
is closed and does not cross or touch itself. -/
theorem c145_found {asEuler : M3 → ℝ × ℝ × ℝ} (hE : EulerOk asEuler) {n : ℕ} (h3 : 3 ≤ n) (height angle module_ zAnchor : ℝ)
    (center : V3) (undercut : Bool) {p : GearInput}
    (hp : p = { GearInput.spurDefault n with
      height := height, angle := angle, module_ := module_, zAnchor := zAnchor, center := center, undercut := undercut }) :
    ∃ S, Honest S ∧ Descends S ∧ ∀ z, SpurSearches asEuler S p z ∧ ∃ P, (spurGear p).core.recipe.spurProfile asEuler S z = some P ∧
      Spec.SimpleOutline (chainEval (sumOps (chainOps undercutOps) curveOps) (P.chain (chainOps undercutOps))) (2 * π / n) n := by
  by_cases h : undercut = true ∧ n ≤ 39
  · refine ⟨boxSolvers, box_honest, box_descends, fun z => ?_⟩
    obtain ⟨rfl, h39⟩ := h
    exact c145_undercut_found hE h3 h39 height angle module_ zAnchor center hp z
  · exact ⟨exactSolvers, exact_honest, exact_descends, fun z => c145_plain_found hE h3 height angle module_ zAnchor center undercut
      (fun hu => by by_contra hc; exact h ⟨hu, by omega⟩) hp z⟩

end Verif
