import Verif.Props.SpurOutline

/-!
# Cases of property C140

Solvers that find a solution whenever there is one on the curve, and gears generated with them.
-/

namespace Verif

open Real Set

open scoped Classical in
/-- Solvers that report success exactly when there is a solution on the first curve, and return one of them. -/
noncomputable def exactSolvers : ScalarSolvers where
  root cost _ := if h : ∃ x, cost x = some 0 ∧ 0 < x 0 ∧ x 0 < 1 then ⟨true, h.choose⟩ else ⟨false, ![1 / 2, 0, 0]⟩
  minimize _ _ := ⟨false, (1 / 2, 0)⟩
  root1 cost _ := if h : ∃ x, cost x = some 0 ∧ 0 ≤ x ∧ x ≤ 1 then ⟨true, h.choose⟩ else ⟨false, 0⟩
  minimize1 _ guess := ⟨true, guess⟩

theorem exact_honest : Honest exactSolvers := by
  constructor
  · intro cost guess
    simp only [exactSolvers]
    split_ifs with h
    · exact fun _ => h.choose_spec.1
    · intro h; cases h
  · intro cost guess
    simp only [exactSolvers]
    split_ifs with h
    · exact fun _ => h.choose_spec.1
    · intro h; cases h

theorem exact_descends : Descends exactSolvers := fun _ _ v h => ⟨v, h, le_refl _⟩

theorem exact_intersect_mem (f1 f2 : ℝ → Option V3) (guess : ℝ × ℝ) (m : IntersectMethod) :
    0 < (findCurveIntersect exactSolvers.toSolvers f1 f2 guess m).x.1 ∧
      (findCurveIntersect exactSolvers.toSolvers f1 f2 guess m).x.1 < 1 := by
  cases m
  · simp only [findCurveIntersect, exactSolvers]
    split_ifs with h
    · exact h.choose_spec.2
    · norm_num
  · simp only [findCurveIntersect, exactSolvers]
    norm_num

theorem exact_intersect_found {f1 f2 : ℝ → Option V3} (guess : ℝ × ℝ) {s u : ℝ} {p : V3} (h1 : f1 s = some p) (h2 : f2 u = some p)
    (s0 : 0 < s) (s1 : s < 1) : (findCurveIntersect exactSolvers.toSolvers f1 f2 guess .equality).success = true := by
  have h : ∃ x : V3, curveDiff f1 f2 (x 0) (x 1) = some 0 ∧ 0 < x 0 ∧ x 0 < 1 :=
    ⟨![s, u, 0], by simp [curveDiff, h1, h2], s0, s1⟩
  simp only [findCurveIntersect, exactSolvers]
  rw [dif_pos h]

theorem exact_plane_mem (f : ℝ → Option V3) (n : V3) (guess : ℝ) :
    0 ≤ (findCurvePlaneIntersect exactSolvers f n guess).x ∧ (findCurvePlaneIntersect exactSolvers f n guess).x ≤ 1 := by
  simp only [findCurvePlaneIntersect, exactSolvers]
  split_ifs with h
  · exact h.choose_spec.2
  · norm_num

theorem exact_plane_found {f : ℝ → Option V3} {n : V3} (guess : ℝ) {s : ℝ} {p : V3} (h1 : f s = some p) (h2 : dot (p - ORIGIN) n = 0)
    (s0 : 0 ≤ s) (s1 : s ≤ 1) : (findCurvePlaneIntersect exactSolvers f n guess).success = true := by
  have h : ∃ x, (f x).map (fun p => dot (p - ORIGIN) n) = some 0 ∧ 0 ≤ x ∧ x ≤ 1 := ⟨s, by rw [h1, Option.map_some, h2], s0, s1⟩
  simp only [findCurvePlaneIntersect, exactSolvers]
  rw [dif_pos h]

theorem exact_plane_fail {f : ℝ → Option V3} {n : V3} {guess : ℝ}
    (h : (findCurvePlaneIntersect exactSolvers f n guess).success ≠ true) : (findCurvePlaneIntersect exactSolvers f n guess).x = 0 := by
  simp only [findCurvePlaneIntersect, exactSolvers] at h ⊢
  split_ifs with h1
  · rw [dif_pos h1] at h; exact absurd rfl h
  · rfl

theorem plane_cost {S : ScalarSolvers} (hS : Honest S) {f : ℝ → Option V3} {n : V3} {guess : ℝ}
    (h : (findCurvePlaneIntersect S f n guess).success = true) {p : V3}
    (hp : f (findCurvePlaneIntersect S f n guess).x = some p) : dot (p - ORIGIN) n = 0 := by
  have := hS.root1 _ _ h
  change ((f (findCurvePlaneIntersect S f n guess).x).map _) = some 0 at this
  rw [hp, Option.map_some] at this
  exact Option.some.inj this

theorem invAngle_continuous : Continuous invAngle := continuous_id.sub continuous_arctan

/-- The searches of the generator succeed with these solvers, when the tooth is not too thick. -/
theorem exact_tooth {pia rp alpha : ℝ} (hrp : 0 < rp) (ha0 : 0 < alpha) (ha1 : alpha < π / 2) (ht : tan alpha < 2) (h0 : 0 < pia)
    (h1 : pia + (tan alpha - alpha) ≤ invAngle 2) : ToothSearches exactSolvers pia rp alpha := by
  have hc : 0 < cos alpha := cos_pos_of_mem_Ioo ⟨by linarith, ha1⟩
  have hlt : alpha < tan alpha := Real.lt_tan ha0 ha1
  obtain ⟨r, er⟩ : ∃ r, r = rp * cos alpha := ⟨_, rfl⟩
  have hr : 0 < r := by rw [er]; exact mul_pos hrp hc
  obtain ⟨ang, eang⟩ : ∃ ang, ang = -(pia + (tan alpha - alpha)) := ⟨_, rfl⟩
  obtain ⟨τ, t1, t2, t3, t4, t5, -⟩ := involute_run (ang := 0) (z := 0) hr (le_refl 0) zero_lt_two 20 (by norm_num)
  obtain ⟨υ, u1, u2, u3, u4, u5, -⟩ := involute_run (ang := ang) (z := 0) hr (le_refl 0) zero_lt_two 20 (by norm_num)
  refine ⟨?_, (exact_intersect_mem _ _ _ _).1.le, (exact_intersect_mem _ _ _ _).2.le, ?_, (exact_plane_mem _ _ _).1,
    (exact_plane_mem _ _ _).2⟩
  · rw [← er, show baseInvolute r = Curve.make (.generic (fun t => involuteCircle t r 0 0 0) 20) true 0 2 by
      rw [baseInvolute, ORIGIN_eq], ORIGIN_eq, show arcInit rp (2 * π) 0 0 0 0 true = circ rp from rfl]
    obtain ⟨s, hs, es⟩ : tan alpha ∈ τ '' Icc 0 1 := intermediate_value_Icc zero_le_one t2 ⟨by rw [t3]; linarith, by rw [t4]; linarith⟩
    have s0 : 0 < s := lt_of_le_of_ne hs.1 fun e => by rw [← e, t3] at es; linarith
    have s1 : s < 1 := lt_of_le_of_ne hs.2 fun e => by rw [e, t4] at es; linarith
    refine exact_intersect_found _ (u := invAngle (tan alpha) / (2 * π)) (t5 s hs.1 hs.2) ?_ s0 s1
    rw [circ_eval, es, involute_polar, mul_div_cancel₀ _ (by positivity), add_zero]
    have : r * √(1 + tan alpha ^ 2) = rp := by
      rw [er, ← inv_sqrt_one_add_tan_sq hc, mul_assoc, inv_mul_cancel₀ (sqrt_pos.2 (by positivity)).ne', mul_one]
    rw [this]
  · rw [← er, ← eang, turned_eq]
    obtain ⟨s, hs, es⟩ : -ang ∈ (fun s => invAngle (υ s)) '' Icc 0 1 := intermediate_value_Icc zero_le_one
      (invAngle_continuous.comp_continuousOn u2) ⟨by
        show invAngle (υ 0) ≤ _
        rw [u3, invAngle_zero]; linarith, by
        show _ ≤ invAngle (υ 1)
        rw [u4]; linarith⟩
    refine exact_plane_found _ (u5 s hs.1 hs.2) ?_ hs.1 hs.2
    simp only at es
    rw [involute_polar, es]
    simp [dot, UP, ORIGIN]

theorem Fan.radius_continuous {G : ℝ → V3} {ang : ℝ} {R θ : ℝ → ℝ} (F : Fan G ang R θ) : ContinuousOn R (Icc 0 1) := by
  have h : ContinuousOn (fun s => √(G s 0 ^ 2 + G s 1 ^ 2)) (Icc 0 1) :=
    continuous_sqrt.comp_continuousOn (((continuousOn_pi.1 F.cont 0).pow 2).add ((continuousOn_pi.1 F.cont 1).pow 2))
  refine h.congr fun s hs => ?_
  simp only
  rw [F.dist hs, sqrt_sq (F.radius hs).le]

/-- What the cases need of solvers: they find places on the curve whenever there are any, and do not depend on the guess. -/
structure FindsOnCurve (S : ScalarSolvers) : Prop where
  honest : Honest S
  mem : ∀ (f1 f2 : ℝ → Option V3) (guess : ℝ × ℝ) (m : IntersectMethod),
    0 < (findCurveIntersect S.toSolvers f1 f2 guess m).x.1 ∧ (findCurveIntersect S.toSolvers f1 f2 guess m).x.1 < 1
  found : ∀ {f1 f2 : ℝ → Option V3} (guess : ℝ × ℝ) {s u : ℝ} {p : V3}, f1 s = some p → f2 u = some p → 0 < s → s < 1 →
    (findCurveIntersect S.toSolvers f1 f2 guess .equality).success = true
  free : ∀ (f1 f2 : ℝ → Option V3) (guess guess' : ℝ × ℝ) (m : IntersectMethod),
    findCurveIntersect S.toSolvers f1 f2 guess m = findCurveIntersect S.toSolvers f1 f2 guess' m
  plane : ∀ {f : ℝ → Option V3} {n : V3} (guess : ℝ) {s : ℝ} {p : V3}, f s = some p → dot (p - ORIGIN) n = 0 → 0 ≤ s → s ≤ 1 →
    (findCurvePlaneIntersect S f n guess).success = true ∧ 0 ≤ (findCurvePlaneIntersect S f n guess).x ∧
      (findCurvePlaneIntersect S f n guess).x ≤ 1
  none : ∀ {f : ℝ → Option V3} {n : V3} (guess : ℝ) {p : V3}, f 0 = some p → 0 ≤ dot (p - ORIGIN) n →
    (∀ s, 0 ≤ s → s ≤ 1 → ∀ q, f s = some q → dot (q - ORIGIN) n ≠ 0) → (findCurvePlaneIntersect S f n guess).x = 0
  stay : ∀ cost guess, (S.minimize1 cost guess).x = guess

theorem exact_finds : FindsOnCurve exactSolvers where
  honest := exact_honest
  mem := exact_intersect_mem
  found := exact_intersect_found
  free _ _ _ _ m := by cases m <;> rfl
  plane guess _ _ h1 h2 s0 s1 := ⟨exact_plane_found guess h1 h2 s0 s1, exact_plane_mem _ _ _⟩
  none := by
    intro f n guess p _ _ h
    refine exact_plane_fail fun ok => ?_
    obtain ⟨x0, x1⟩ := exact_plane_mem f n guess
    have := exact_honest.root1 _ _ ok
    change (f (findCurvePlaneIntersect exactSolvers f n guess).x).map _ = some 0 at this
    obtain ⟨q, hq, hq'⟩ := Option.map_eq_some_iff.1 this
    exact h _ x0 x1 q hq hq'
  stay _ _ := rfl

section
variable {S : ScalarSolvers} {G : ℝ → V3} {ang pitch RA : ℝ} {R θ : ℝ → ℝ} {f : ℝ → Option V3}

/-- Where these solvers cut the tip: at the tip circle, or at the middle of the tooth. -/
theorem finds_tip (E : FindsOnCurve S) (F : Fan G ang R θ) (hang : -π < ang) (hneg : ang < 0) (hf : ∀ s ∈ Icc (0 : ℝ) 1, f s = some (G s)) (hA : R 0 < RA)
    (hA' : RA < R 1) : 0 < tipCut S f (circ RA) pitch ∧ tipCut S f (circ RA) pitch ≤ 1 ∧
      (R (tipCut S f (circ RA) pitch) = RA ∨ θ (tipCut S f (circ RA) pitch) = 0) := by
  obtain ⟨s, hs, es⟩ : RA ∈ R '' Icc 0 1 := intermediate_value_Icc zero_le_one F.radius_continuous ⟨hA.le, hA'.le⟩
  have s0 : 0 < s := lt_of_le_of_ne hs.1 fun e => by rw [← e] at es; linarith
  have s1 : s < 1 := lt_of_le_of_ne hs.2 fun e => by rw [e] at es; linarith
  have hok : ∀ guess, (findCurveIntersect S.toSolvers f (circ RA).eval guess .equality).success = true := fun guess =>
    E.found guess (u := θ s / (2 * π)) (hf s hs)
      (by rw [circ_eval, mul_div_cancel₀ _ (by positivity), F.polar s hs, es]) s0 s1
  rw [tipCut]
  simp only [hok, if_true, true_or, true_and]
  split_ifs with hp
  · obtain ⟨m0, m1⟩ := E.mem f (circ RA).eval (9 / 10, -pitch / 8 / (circ RA).length) .equality
    refine ⟨m0, m1.le, Or.inl ?_⟩
    obtain ⟨q, hq, hq'⟩ := intersect_success E.honest (hok (9 / 10, -pitch / 8 / (circ RA).length))
    rw [hf _ ⟨m0.le, m1.le⟩] at hq
    rw [circ_eval] at hq'
    have e := F.dist ⟨m0.le, m1.le⟩
    rw [Option.some.inj hq, ← Option.some.inj hq'] at e
    simp at e
    have e2 : RA ^ 2 = R (findCurveIntersect S.toSolvers f (circ RA).eval (9 / 10, -pitch / 8 / (circ RA).length)
        .equality).x.1 ^ 2 := by
      rw [← e]
      linear_combination -RA ^ 2 * sin_sq_add_cos_sq (2 * π * (findCurveIntersect S.toSolvers f (circ RA).eval
        (9 / 10, -pitch / 8 / (circ RA).length) .equality).x.2)
    exact ((sq_eq_sq₀ (F.pos.le.trans hA.le) (F.radius ⟨m0.le, m1.le⟩).le).1 e2).symm
  · obtain ⟨hs1, m0, m1⟩ := E.plane (f := f) (n := UP) 1 (hf 1 ⟨zero_le_one, le_refl _⟩)
      (by rw [F.polar 1 ⟨zero_le_one, le_refl _⟩, F.fin]; simp [dot, UP, ORIGIN]) zero_le_one (le_refl _)
    have hz := plane_cost E.honest hs1 (hf _ ⟨m0, m1⟩)
    rw [F.polar _ ⟨m0, m1⟩] at hz
    have hz' : R (findCurvePlaneIntersect S f UP 1).x * sin (θ (findCurvePlaneIntersect S f UP 1).x) = 0 := by
      simpa [dot, UP, ORIGIN] using hz
    have h2 := F.range ⟨m0, m1⟩
    have h3 : θ (findCurvePlaneIntersect S f UP 1).x = 0 :=
      (sin_eq_zero_iff_of_lt_of_lt (by linarith) (by linarith [pi_pos])).1
        ((mul_eq_zero.1 hz').resolve_left (F.radius ⟨m0, m1⟩).ne')
    refine ⟨lt_of_le_of_ne m0 fun e => ?_, m1, Or.inr h3⟩
    rw [← e, F.start] at h3
    linarith

/-- The root is cut on the curve, if the tip is beyond the middle of the gap. -/
theorem finds_root (E : FindsOnCurve S) (hp : 0 < pitch) (hpi : pitch ≤ π) (hf : ∀ s ∈ Icc (0 : ℝ) 1, f s = some ![R s * cos (θ s), R s * sin (θ s), 0])
    (hR : ∀ s ∈ Icc (0 : ℝ) 1, 0 < R s) (hθ : ∀ s ∈ Icc (0 : ℝ) 1, -(π / 2) ≤ θ s ∧ θ s ≤ 0)
    (hc : ContinuousOn (fun s => (![R s * cos (θ s), R s * sin (θ s), 0] : V3)) (Icc 0 1)) (h1 : -(pitch / 2) < θ 1) (rD : Curve) :
    0 ≤ rootCut S f rD pitch ∧ rootCut S f rD pitch < 1 ∧ (θ 0 < -(pitch / 2) → ∀ guess,
      (findCurvePlaneIntersect S f (rotateVector UP (-pitch / 2)) guess).success = true ∧
        0 ≤ (findCurvePlaneIntersect S f (rotateVector UP (-pitch / 2)) guess).x ∧
        (findCurvePlaneIntersect S f (rotateVector UP (-pitch / 2)) guess).x ≤ 1) := by
  have hn : rotateVector UP (-pitch / 2) = ![sin (pitch / 2), cos (pitch / 2), 0] := by
    rw [rotateVector, Rz_app, show -pitch / 2 = -(pitch / 2) by ring, cos_neg, sin_neg]
    apply V3.ext3 <;> simp [UP]
  have hcost : ∀ s, dot (![R s * cos (θ s), R s * sin (θ s), 0] - ORIGIN) (rotateVector UP (-pitch / 2)) =
      R s * sin (θ s + pitch / 2) := by
    intro s
    rw [hn, sin_add]
    simp [dot, ORIGIN]
    ring
  have m1 : (1 : ℝ) ∈ Icc (0 : ℝ) 1 := ⟨zero_le_one, le_refl _⟩
  have m0 : (0 : ℝ) ∈ Icc (0 : ℝ) 1 := ⟨le_refl _, zero_le_one⟩
  have hpos1 : 0 < R 1 * sin (θ 1 + pitch / 2) :=
    mul_pos (hR 1 m1) (sin_pos_of_pos_of_lt_pi (by linarith) (by linarith [(hθ 1 m1).2, pi_pos]))
  have hcont : ContinuousOn (fun s => R s * sin (θ s + pitch / 2)) (Icc 0 1) := by
    have := ((continuousOn_pi.1 hc 0).mul (continuousOn_const (c := sin (pitch / 2)))).add
      ((continuousOn_pi.1 hc 1).mul (continuousOn_const (c := cos (pitch / 2))))
    refine this.congr fun s _ => ?_
    simp [sin_add]
    ring
  have hsolve : R 0 * sin (θ 0 + pitch / 2) < 0 → ∀ guess,
      (findCurvePlaneIntersect S f (rotateVector UP (-pitch / 2)) guess).success = true ∧
        0 ≤ (findCurvePlaneIntersect S f (rotateVector UP (-pitch / 2)) guess).x ∧
        (findCurvePlaneIntersect S f (rotateVector UP (-pitch / 2)) guess).x ≤ 1 := by
    intro hneg0 guess
    obtain ⟨s, hs, es⟩ : (0 : ℝ) ∈ (fun s => R s * sin (θ s + pitch / 2)) '' Icc 0 1 :=
      intermediate_value_Icc zero_le_one hcont ⟨hneg0.le, hpos1.le⟩
    exact E.plane _ (hf s hs) (by rw [hcost]; exact es) hs.1 hs.2
  have hmid : ∀ guess, 0 ≤ (findCurvePlaneIntersect S f (rotateVector UP (-pitch / 2)) guess).x ∧
      (findCurvePlaneIntersect S f (rotateVector UP (-pitch / 2)) guess).x < 1 := by
    intro guess
    have hfin : (findCurvePlaneIntersect S f (rotateVector UP (-pitch / 2)) guess).success = true ∧
        0 ≤ (findCurvePlaneIntersect S f (rotateVector UP (-pitch / 2)) guess).x ∧
        (findCurvePlaneIntersect S f (rotateVector UP (-pitch / 2)) guess).x ≤ 1 → _ := fun ⟨hs, n0, n1⟩ => by
      refine And.intro n0 (lt_of_le_of_ne n1 fun e => ?_)
      have hz := plane_cost E.honest hs (hf _ ⟨n0, n1⟩)
      rw [hcost, e] at hz
      linarith
    rcases lt_or_ge (R 0 * sin (θ 0 + pitch / 2)) 0 with h | h
    · exact hfin (hsolve h guess)
    · by_cases hex : ∃ s ∈ Icc (0 : ℝ) 1, R s * sin (θ s + pitch / 2) = 0
      · obtain ⟨s, hs, es⟩ := hex
        exact hfin (E.plane _ (hf s hs) (by rw [hcost]; exact es) hs.1 hs.2)
      · rw [E.none guess (hf 0 m0) (by rw [hcost]; exact h) (fun s s0 s1 q hq => by
          rw [hf s ⟨s0, s1⟩] at hq
          rw [← Option.some.inj hq, hcost]
          exact fun e => hex ⟨s, ⟨s0, s1⟩, e⟩)]
        exact ⟨le_refl _, zero_lt_one⟩
  have hmin : ∀ cost g, (S.minimize1 cost g).x = g := E.stay
  refine ⟨?_, ?_, ?_⟩
  · rw [rootCut]
    split_ifs with h
    · rw [rootSol]
      split_ifs <;> exact (E.mem _ _ _ _).1.le
    · simp only [hmin, lt_irrefl, if_false]
      exact (hmid _).1
  · rw [rootCut]
    split_ifs with h
    · rw [rootSol]
      split_ifs <;> exact (E.mem _ _ _ _).2
    · simp only [hmin, lt_irrefl, if_false]
      exact (hmid _).2
  · intro h2
    exact hsolve (mul_neg_of_pos_of_neg (hR 0 m0) (sin_neg_of_neg_of_neg_pi_lt (by linarith) (by linarith [(hθ 0 m0).1, pi_pos])))

/-- The searches of the trimming, with these solvers. -/
theorem finds_trim (E : FindsOnCurve S) {l : List Curve} (hl : ChainPath l) (F : Fan G ang R θ)
    (hG : ∀ s ∈ Icc (0 : ℝ) 1, chainEval curveOps l s = some (G s)) (hang : -(π / 2) ≤ ang) (hneg : ang < 0) (hp : 0 < pitch)
    (hpi : pitch ≤ π) (hA : R 0 < RA) (hA' : RA < R 1) (htip : ∀ s ∈ Icc (0 : ℝ) 1, R s = RA → -(pitch / 2) < θ s) (rD : Curve)
    {tipFillet : ℝ} (ht : tipFillet ≤ 0) : TrimSearches S l (circ RA) rD tipFillet pitch ang := by
  obtain ⟨t0, t1, t2⟩ := finds_tip E (pitch := pitch) F (by linarith [pi_pos]) hneg hG hA hA'
  have key : ∀ t, trimTip (chainOps curveOps) S ⟨l, true⟩ (circ RA) tipFillet pitch = some t →
      0 ≤ rootCut S (chainEval curveOps t.curves) rD pitch ∧
      rootCut S (chainEval curveOps t.curves) rD pitch < 1 ∧ (ang < -(pitch / 2) → ∀ guess,
        (findCurvePlaneIntersect S (chainEval curveOps t.curves) (rotateVector UP (-pitch / 2)) guess).success = true ∧
        0 ≤ (findCurvePlaneIntersect S (chainEval curveOps t.curves) (rotateVector UP (-pitch / 2)) guess).x ∧
        (findCurvePlaneIntersect S (chainEval curveOps t.curves) (rotateVector UP (-pitch / 2)) guess).x ≤ 1) := by
    intro t he
    obtain ⟨d, hd, -, ⟨φ, f1, f2, f3⟩, -⟩ := c45_end_path l hl _ t0 t1 false
    have he' : trimTip (chainOps curveOps) S ⟨l, true⟩ (circ RA) tipFillet pitch = some ⟨d, true⟩ := by
      rw [trimTip_cut _ _ _ _ _ ht]
      show (chainSetEnd curveOps l (tipCut S (chainEval curveOps l) (circ RA) pitch) false).map _ = _
      rw [hd]; rfl
    rw [he'] at he
    obtain rfl := Option.some.inj he
    obtain ⟨e0, e1⟩ := mono_ends f1 f2
    have mφ : ∀ s ∈ Icc (0 : ℝ) 1, φ s ∈ Icc (0 : ℝ) 1 := by
      intro s hs'
      have : φ s ∈ Icc 0 (tipCut S (chainEval curveOps l) (circ RA) pitch) := f2 ▸ mem_image_of_mem φ hs'
      exact ⟨this.1, this.2.trans t1⟩
    have := finds_root E (f := chainEval curveOps d) (R := fun s => R (φ s)) (θ := fun s => θ (φ s)) hp hpi
      (fun s hs => by rw [f3 s hs, hG _ (mφ s hs), F.polar _ (mφ s hs)]) (fun s hs => F.radius (mφ s hs))
      (fun s hs => ⟨hang.trans (F.range (mφ s hs)).1, (F.range (mφ s hs)).2⟩)
      ((F.cont.comp (run_continuous f1 f2) mφ).congr fun s hs => (F.polar _ (mφ s hs)).symm) (by
        simp only [e1]
        rcases t2 with h | h
        · exact htip _ ⟨t0.le, t1⟩ h
        · rw [h]; linarith) rD
    simpa only [e0, F.start] using this
  exact ⟨t0, t1, fun t h => (key t h).1, fun t h => (key t h).2.1, fun t h hs guess =>
    (key t h).2.2 hs guess⟩

end

theorem arctan_two_le : arctan 2 ≤ 3 * π / 8 := by
  have h1 : 2 * arctan (1 / 2) = arctan (4 / 3) := by
    rw [two_mul_arctan (by norm_num) (by norm_num)]
    norm_num
  have h2 : π / 4 ≤ arctan (4 / 3) := by
    rw [← arctan_one]; exact arctan_strictMono.monotone (by norm_num)
  have h3 : arctan (1 / 2) = π / 2 - arctan 2 := by
    rw [one_div, arctan_inv_of_pos (by norm_num)]
  linarith

theorem tooth_involute_unique {t t' r : ℝ} (hr : 0 < r) (h0 : 0 ≤ t) (h0' : 0 ≤ t') (h : r * √(1 + t ^ 2) = r * √(1 + t' ^ 2)) :
    t = t' := by
  have h1 := mul_left_cancel₀ hr.ne' h
  have h2 := (sqrt_inj (by positivity) (by positivity)).1 h1
  exact (sq_eq_sq₀ h0 h0').1 (by linarith)

/-- A gear with six teeth: base circle 3, pressure angle 45°, tip circle 3·√2.21, root circle 2.5. The involute starts inside
its side of the gap, so the flank begins with a piece of the connector line. Its outline is simple. -/
theorem c140_case {asEuler : M3 → ℝ × ℝ × ℝ} (hE : EulerOk asEuler) (radA radD radO : ℝ) (centerO : V3) : ∃ l P,
    involuteToothCurve exactSolvers (π / 12) (3 * √2) (π / 4) = some l ∧
      trimReferenceProfile (chainOps curveOps) asEuler exactSolvers ⟨l, true⟩ (circ (3 * √(1 + (11 / 10) ^ 2))) (circ (5 / 2)) radA
        radD radO centerO 0 0 (π / 3) = some P ∧
      Spec.SimpleOutline (chainEval (sumOps (chainOps curveOps) curveOps) (P.chain (chainOps curveOps))) (π / 3) 6 := by
  have p3 := pi_gt_d2
  have p4 := pi_lt_d2
  have ha0 : (0 : ℝ) < π / 4 := by linarith
  have ha1 : π / 4 < π / 2 := by linarith
  have hrp : (0 : ℝ) < 3 * √2 := by positivity
  have hr : 3 * √2 * cos (π / 4) = 3 := by
    rw [cos_pi_div_four]
    have := mul_self_sqrt (show (0 : ℝ) ≤ 2 by norm_num)
    linarith
  have hinv : π / 12 + (tan (π / 4) - π / 4) = 1 - π / 6 := by rw [tan_pi_div_four]; ring
  have h2 := arctan_two_le
  have hs := exact_tooth hrp ha0 ha1 (by rw [tan_pi_div_four]; norm_num) (show (0 : ℝ) < π / 12 by linarith)
    (by rw [hinv, invAngle]; linarith)
  obtain ⟨l, G, R, θ, hl, hpath, F, R0, hG, ⟨tb, b0, -, b2, b3⟩, hsh, -, -⟩ := tooth_generated exact_honest hrp ha0 ha1
    (show (0 : ℝ) < π / 12 by linarith) (by rw [hinv]; linarith) hs
  rw [hr] at R0 b3 hsh
  rw [hinv] at F b2 hsh
  have h11 : invAngle (11 / 10) < 11 / 10 - π / 4 := by
    rw [invAngle, ← arctan_one]
    have := arctan_strictMono (show (1 : ℝ) < 11 / 10 by norm_num)
    linarith
  have h11' : 0 ≤ invAngle (11 / 10) := by
    have := invAngle_strict.monotoneOn (le_refl (0 : ℝ)) (show (0 : ℝ) ≤ 11 / 10 by norm_num) (by norm_num)
    rwa [invAngle_zero] at this
  have hb : 11 / 10 < tb := by
    by_contra hc
    have := invAngle_strict.monotoneOn b0.le (show (0 : ℝ) ≤ 11 / 10 by norm_num) (not_lt.1 hc)
    linarith
  have s1 : 1 < √(1 + (11 / 10 : ℝ) ^ 2) := by
    rw [lt_sqrt (by norm_num)]; norm_num
  have hθA : ∀ s ∈ Icc (0 : ℝ) 1, R s = 3 * √(1 + (11 / 10) ^ 2) → θ s = invAngle (11 / 10) + -(1 - π / 6) := by
    intro s hs' e
    rcases hsh s hs' with h | ⟨t, t0, h3, h4⟩
    · linarith [h.1]
    · rw [h4, tooth_involute_unique (by norm_num : (0 : ℝ) < 3) t0 (by norm_num : (0 : ℝ) ≤ 11 / 10) (h3.symm.trans e)]
  have hA' : 3 * √(1 + (11 / 10 : ℝ) ^ 2) < R 1 := by
    rw [b3]
    exact mul_lt_mul_of_pos_left (sqrt_lt_sqrt (by positivity) (by nlinarith)) (by norm_num)
  have htrim := finds_trim exact_finds (pitch := π / 3) hpath F hG (by linarith) (by linarith) (by linarith) (by linarith)
    (by rw [R0]; linarith) hA' (fun s hs' e => by rw [hθA s hs' e]; linarith) (circ (5 / 2)) (le_refl (0 : ℝ))
  obtain ⟨t0, t1, t2⟩ := finds_tip exact_finds (pitch := π / 3) F (by linarith) (by linarith) hG (by rw [R0]; linarith) hA'
  obtain ⟨l', t, t', T, e1, -, -, -, -, ⟨a, a0, a1, a2, a3⟩, hall⟩ := c140_spur_outline hE exact_honest exact_descends hrp ha0 ha1
    (show (0 : ℝ) < π / 12 by linarith) (by rw [hinv]; linarith) hs 6 (by norm_num) (by push_cast; ring : ((6 : ℕ) : ℝ) * (π / 3) = 2 * π)
    (by rw [hinv]; intro e; linarith) (circ (3 * √(1 + (11 / 10) ^ 2))) (circ (5 / 2)) (le_refl (0 : ℝ)) (le_refl (0 : ℝ))
    (by
      intro l' h
      rw [hl] at h
      rw [← Option.some.inj h, hinv]
      exact htrim) radA radD radO centerO
  rw [hl] at e1
  obtain rfl := Option.some.inj e1
  have ma : a ∈ Icc (0 : ℝ) 1 := ⟨a0, a1.le.trans t1⟩
  have mb : tipCut exactSolvers (chainEval curveOps l) (circ (3 * √(1 + (11 / 10) ^ 2))) (π / 3) ∈ Icc (0 : ℝ) 1 := ⟨t0.le, t1⟩
  rw [hG _ ma] at a2
  rw [hG _ mb] at a3
  obtain ⟨P, hP, hsimple⟩ := hall (exactGaps_polar (by rw [← Option.some.inj a2, F.polar a ma])
    (by rw [← Option.some.inj a3, F.polar _ mb]) (Or.inr (by
      obtain ⟨g1, g2⟩ := F.range ma
      have hRa : 3 / 2 ≤ R a := R0 ▸ F.grows.monotoneOn ⟨le_refl _, zero_le_one⟩ ma ma.1
      have h5 := mul_le_sin (x := π / 3 / 2 + θ a) (by linarith) (by linarith)
      have h6 : 1 / 100 ≤ 2 / π * (π / 3 / 2 + θ a) := by
        rw [div_mul_eq_mul_div, le_div_iff₀ (by linarith)]
        linarith
      nlinarith)) (by
      rcases t2 with h | h
      · right
        have h5 := mul_le_sin (x := -(invAngle (11 / 10) + -(1 - π / 6))) (by linarith) (by linarith)
        have h6 : 1 / 100 ≤ 2 / π * -(invAngle (11 / 10) + -(1 - π / 6)) := by
          rw [div_mul_eq_mul_div, le_div_iff₀ (by linarith)]
          linarith
        rw [hθA _ mb h, h]
        nlinarith
      · exact Or.inl h))
  exact ⟨l, P, hl, hP, hsimple⟩

/-- A gear with a hundred teeth whose involutes start beyond the middle of the gap: base circle 3, pressure angle 45°, tip circle
3·√2, any root circle. The search for the middle of the gap succeeds, and the trimmed flank runs outwards. -/
theorem c140_gap_case {asEuler : M3 → ℝ × ℝ × ℝ} (hE : EulerOk asEuler) (rD : Curve) : ∃ l t t' T,
    involuteToothCurve exactSolvers (π / 200) (3 * √2) (π / 4) = some l ∧
      (π / 50) / 2 < π / 200 + (tan (π / 4) - π / 4) ∧
      trimTip (chainOps curveOps) exactSolvers ⟨l, true⟩ (circ (3 * √(1 + 1 ^ 2))) 0 (π / 50) = some t ∧
      trimRoot (chainOps curveOps) exactSolvers t rD 0 (π / 50) = some t' ∧
      (∀ s, 0 ≤ s → s ≤ 1 → (chainOps curveOps).eval t' s = some (T s)) ∧ Spec.OutwardFlank T (π / 50) := by
  have p3 := pi_gt_d2
  have p4 := pi_lt_d2
  have ha0 : (0 : ℝ) < π / 4 := by linarith
  have ha1 : π / 4 < π / 2 := by linarith
  have hrp : (0 : ℝ) < 3 * √2 := by positivity
  have hr : 3 * √2 * cos (π / 4) = 3 := by
    rw [cos_pi_div_four]
    have := mul_self_sqrt (show (0 : ℝ) ≤ 2 by norm_num)
    linarith
  have hinv : π / 200 + (tan (π / 4) - π / 4) = 1 - 49 * π / 200 := by rw [tan_pi_div_four]; ring
  have h2 := arctan_two_le
  have hs := exact_tooth hrp ha0 ha1 (by rw [tan_pi_div_four]; norm_num) (show (0 : ℝ) < π / 200 by linarith)
    (by rw [hinv, invAngle]; linarith)
  obtain ⟨l, G, R, θ, hl, hpath, F, R0, hG, ⟨tb, b0, -, b2, b3⟩, hsh, -, -⟩ := tooth_generated exact_honest hrp ha0 ha1
    (show (0 : ℝ) < π / 200 by linarith) (by rw [hinv]; linarith) hs
  rw [hr] at R0 b3 hsh
  rw [hinv] at F b2 hsh
  have h11 : invAngle 1 = 1 - π / 4 := by rw [invAngle, arctan_one]
  have hb : 1 < tb := by
    by_contra hc
    have := invAngle_strict.monotoneOn b0.le (show (0 : ℝ) ≤ 1 by norm_num) (not_lt.1 hc)
    linarith
  have s1 : 1 < √(1 + (1 : ℝ) ^ 2) := by
    rw [lt_sqrt (by norm_num)]; norm_num
  have hB : 3 < 3 * √(1 + (1 : ℝ) ^ 2) := by
    have := mul_lt_mul_of_pos_left s1 (show (0 : ℝ) < 3 by norm_num)
    rwa [mul_one] at this
  have hA' : 3 * √(1 + (1 : ℝ) ^ 2) < R 1 := by
    rw [b3]
    exact mul_lt_mul_of_pos_left (sqrt_lt_sqrt (by positivity) (by nlinarith)) (by norm_num)
  have htrim := finds_trim exact_finds (pitch := π / 50) hpath F hG (by linarith) (by linarith) (by linarith) (by linarith)
    (by rw [R0]; exact lt_trans (by norm_num) hB) hA' (fun s hs' e => by
      rcases hsh s hs' with h | ⟨t, t0, h3, h4⟩
      · exact absurd (e ▸ h.1) (not_le.2 hB)
      · rw [h4, tooth_involute_unique (by norm_num : (0 : ℝ) < 3) t0 zero_le_one (h3.symm.trans e), h11]
        linarith) rD (le_refl (0 : ℝ))
  obtain ⟨l', t, t', T, e1, e2, e3, e4, e5, -⟩ := c140_spur_outline hE exact_honest exact_descends hrp ha0 ha1
    (show (0 : ℝ) < π / 200 by linarith) (by rw [hinv]; linarith) hs 100 (by norm_num)
    (by push_cast; ring : ((100 : ℕ) : ℝ) * (π / 50) = 2 * π)
    (by rw [hinv]; intro e; linarith) (circ (3 * √(1 + 1 ^ 2))) rD (le_refl (0 : ℝ)) (le_refl (0 : ℝ))
    (by
      intro l' h
      rw [hl] at h
      rw [← Option.some.inj h, hinv]
      exact htrim) 0 0 0 0
  exact ⟨l', t, t', T, e1, by rw [hinv]; linarith, e2, e3, e4, e5⟩

end Verif
