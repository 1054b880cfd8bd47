import Verif.Model.Undercut
import Verif.Props.Flank2
import Verif.Props.Chain2

/-!
# C118: the undercut involute tooth
-/

namespace Verif

open Real

theorem rackFlankCurve_eval (rp pia : ℝ) (l : ToothLimitParam) (alpha t : ℝ) (ha0 : -(π / 2) < alpha)
    (ha1 : alpha < π / 2) : (rackFlankCurve rp pia l alpha).eval t =
      some ![rp - l.hD + t * (l.hA + l.hD), -(rp * pia) - l.hD * tan alpha +
        t * ((l.hA + l.hD) * tan alpha), 0] := by
  obtain ⟨h1, h2, h3, h4, h5, h6, -⟩ := c82_rack_flank rp pia l alpha ha0 ha1
  rw [rackFlankCurve]
  refine (lineC_eval _ _ t).trans (congrArg some ?_)
  apply V3.ext3 <;> simp [h1, h2, h3, h4, h5, h6] <;> ring

/-- **C118, reference point.** If the root search answers with a true crossing of the rack flank and the middle
of the gap, the undercut starts from the corner of the rack tooth, or, if the rack tooth is pointed before
its full depth, from the point where its two flanks meet in the middle of the gap. The point is on the
rack flank, not deeper than `h_d` and below the pitch line. -/
theorem c118_ref (S : ScalarSolvers) (rp pia pitchAngle : ℝ) (l : ToothLimitParam) (alpha : ℝ)
    (hrp : 0 < rp) (ha0 : 0 < alpha) (ha1 : alpha < π / 2) (hA : 0 < l.hA) (hD : 0 < l.hD)
    (hpia : pia < pitchAngle / 2)
    (hS : gapMiddleResidual (rackFlankCurve rp pia l alpha).eval (-rp * pitchAngle / 2)
      (S.root1 (gapMiddleResidual (rackFlankCurve rp pia l alpha).eval (-rp * pitchAngle / 2)) 1).x = some 0) :
    ∃ p, undercutRefPoint S rp pia pitchAngle l alpha = some p ∧
      p 1 + rp * pia = (p 0 - rp) * tan alpha ∧ p 2 = 0 ∧ rp - l.hD ≤ p 0 ∧ p 0 < rp ∧
      -(rp * pitchAngle / 2) ≤ p 1 ∧
      (l.hD * tan alpha ≤ rp * (pitchAngle / 2 - pia) → p 0 = rp - l.hD) ∧
      (rp * (pitchAngle / 2 - pia) ≤ l.hD * tan alpha → p 1 = -(rp * pitchAngle / 2)) := by
  have ht : 0 < tan alpha := tan_pos_of_pos_of_lt_pi_div_two ha0 ha1
  have hc : 0 < (l.hA + l.hD) * tan alpha := by positivity
  have hev := fun t => rackFlankCurve_eval rp pia l alpha t (by linarith [pi_pos]) ha1
  have hres : ∀ t, gapMiddleResidual (rackFlankCurve rp pia l alpha).eval (-rp * pitchAngle / 2) t =
      some (-(rp * pia) - l.hD * tan alpha + t * ((l.hA + l.hD) * tan alpha) + rp * pitchAngle / 2) := by
    intro t
    rw [gapMiddleResidual, hev]
    simp [dot, UP, Fin.sum_univ_three]; ring
  have hs := hS
  rw [undercutRefPoint]
  obtain ⟨x, hx⟩ : ∃ x, x = (S.root1 (gapMiddleResidual (rackFlankCurve rp pia l alpha).eval
    (-rp * pitchAngle / 2)) 1).x := ⟨_, rfl⟩
  simp only [← hx] at hs ⊢
  rw [hres] at hs
  have hs' := Option.some.inj hs
  have hpia' : rp * pia < rp * (pitchAngle / 2) := by nlinarith
  by_cases h : 0 < x
  · rw [if_pos h, hev]
    have hlt : (l.hA + l.hD) * x < l.hD := by
      by_contra h5
      push Not at h5
      nlinarith
    have hpos : 0 < x * ((l.hA + l.hD) * tan alpha) := by positivity
    refine ⟨_, rfl, ?_, rfl, ?_, ?_, ?_, ?_, ?_⟩ <;> simp
    · ring
    · have : 0 < x * (l.hA + l.hD) := by positivity
      linarith
    · linarith
    · linarith
    · intro h3; exfalso; nlinarith
    · intro _; linarith
  · rw [if_neg h, hev]
    push Not at h
    have hneg : x * ((l.hA + l.hD) * tan alpha) ≤ 0 := mul_nonpos_of_nonpos_of_nonneg h hc.le
    refine ⟨_, rfl, ?_, rfl, ?_, ?_, ?_, ?_, ?_⟩ <;> simp
    · ring
    · linarith
    · linarith
    · intro h3; nlinarith

/-- The undercut curve is the trochoid of the reference point, active, with fresh lengths, and starts
there. -/
theorem generateUndercutCurve_spec (S : ScalarSolvers) (rp : ℝ) (ref : V3) (c : Curve)
    (h : generateUndercutCurve S rp ref = some c) :
    c.kind = .generic (undercutCurve rp ref) 20 ∧ c.active = true ∧ c.updateLengths = c ∧
      c.eval 0 = some ref := by
  have h0 : ((Curve.make (.generic (undercutCurve rp ref) 20) true 0 (-1)).kind =
      .generic (undercutCurve rp ref) 20) ∧
      (Curve.make (.generic (undercutCurve rp ref) 20) true 0 (-1)).active = true ∧
      (Curve.make (.generic (undercutCurve rp ref) 20) true 0 (-1)).updateLengths =
        Curve.make (.generic (undercutCurve rp ref) 20) true 0 (-1) ∧
      (Curve.make (.generic (undercutCurve rp ref) 20) true 0 (-1)).eval 0 = some ref := by
    have hsam : (CurveKind.generic (undercutCurve rp ref) 20).Sampled := by
      change 1 ≤ 20; norm_num
    rw [Curve.make, if_pos rfl]
    refine ⟨updateLengths_kind _, updateLengths_active _, updateLengths_idem _, ?_⟩
    rw [(endsOk_updateLengths _ hsam).1, updateLengths_kind, updateLengths_t0]
    exact congrArg some (c81_trochoid rp ref 0).1
  rw [generateUndercutCurve] at h
  split_ifs at h with hx
  · obtain ⟨h1, h2, h3, h4⟩ := h0
    obtain ⟨q, hq⟩ : ∃ q, (Curve.make (.generic (undercutCurve rp ref) 20) true 0 (-1)).eval
        (S.root1 (fun t => ((Curve.make (.generic (undercutCurve rp ref) 20) true 0 (-1)).eval t).map
          fun p => dot p p - (rp * 1) ^ 2) 1).x = some q := by
      rw [Curve.setEndOn, Option.map_eq_some_iff] at h
      obtain ⟨t, e, _⟩ := h
      exact ⟨_, by rw [Curve.eval, e]; rfl⟩
    have hg : (Curve.make (.generic (undercutCurve rp ref) 20) true 0 (-1)).kind.Sampled := by
      rw [h1]; change 1 ≤ 20; norm_num
    have he : (Curve.make (.generic (undercutCurve rp ref) 20) true 0 (-1)).EndsOk := by
      rw [← h3]; exact endsOk_updateLengths _ hg
    obtain ⟨d, e1, -, e3, -, e5⟩ := c41_end _ hg he _ q hq
    obtain ⟨a', e6, ⟨-, e7⟩, e8, -, -⟩ := curve_lawful.fin _ _ q ⟨hg, h3⟩ hq
    have e9 : a' = c := Option.some.inj (e6.symm.trans h)
    have e10 : d = c := Option.some.inj (e1.symm.trans h)
    subst e10
    subst e9
    exact ⟨e5.trans h1, e8.trans h2, e7, e3.trans h4⟩
  · rw [← Option.some.inj h]; exact h0

theorem undercut_dot (rp : ℝ) (ref : V3) (hz : ref 2 = 0) (t : ℝ) :
    dot (undercutCurve rp ref t) (undercutCurve rp ref t) = (ref 0) ^ 2 + (ref 1 - rp * t) ^ 2 := by
  rw [undercutCurve_eq, hz]
  simp [dot, Fin.sum_univ_three]
  linear_combination ((ref 0) ^ 2 + (ref 1 - rp * t) ^ 2) * sin_sq_add_cos_sq t

theorem undercut_far (rp : ℝ) (ref : V3) (h0 : 0 ≤ ref 0) (hz : ref 2 = 0) (t : ℝ) :
    ref 0 ≤ norm3 (undercutCurve rp ref t) ∧ undercutCurve rp ref t 2 = 0 := by
  constructor
  · rw [norm3]
    apply le_sqrt_of_sq_le
    rw [undercut_dot rp ref hz]; nlinarith [sq_nonneg (ref 1 - rp * t)]
  · rw [undercutCurve_eq, hz]; rfl

/-- **C118, depth.** Whatever the solvers answer, no point of the undercut curve or of its extension lies
inside the circle through the depth of the reference point, and the uncut trochoid touches that circle at
roll angle `p_y / rp`. With C118 (reference point) the circle is the root circle if the rack corner is used. -/
theorem c118_depth (S : ScalarSolvers) (rp : ℝ) (ref : V3) (c : Curve) (hrp : 0 < rp) (h0 : 0 ≤ ref 0)
    (hz : ref 2 = 0) (h : generateUndercutCurve S rp ref = some c) :
    c.eval 0 = some ref ∧ (∀ s q, c.eval s = some q → ref 0 ≤ norm3 q ∧ q 2 = 0) ∧
      norm3 (undercutCurve rp ref (ref 1 / rp)) = ref 0 := by
  obtain ⟨h1, -, -, h4⟩ := generateUndercutCurve_spec S rp ref c h
  refine ⟨h4, ?_, ?_⟩
  · intro s q hq
    obtain ⟨t, -, rfl⟩ := eval_some hq
    rw [h1]
    exact undercut_far rp ref h0 hz t
  · apply norm3_eq_of_dot h0
    rw [undercut_dot rp ref hz, mul_div_cancel₀ _ hrp.ne', sub_self]; ring

/-- The trimmed parts fit a proper chain: non-negative lengths, a positive total, and a member of zero length is
a single point. -/
def ProperChain (d : List Curve) : Prop :=
  NonNeg curveOps d ∧ 0 < chainLen curveOps d ∧
    ∀ a ∈ d, a.active = true → a.length = 0 → a.eval (1 / 2) = a.eval 0

theorem trimInvoluteUndercut_spec (S : Solvers) (tooth : List Curve) (under : Curve) (guess : ℝ × ℝ) (p q : V3)
    (hn : NonNeg curveOps tooth) (hL : 0 < chainLen curveOps tooth)
    (hg : ∀ a ∈ tooth, a.active = true → a.kind.Sampled ∧ a.updateLengths = a)
    (hu : under.kind.Sampled ∧ under.updateLengths = under) (hact : under.active = true)
    (h0 : 0 ≤ (undercutAnswer S tooth under guess).1) (h1 : (undercutAnswer S tooth under guess).1 ≤ 1)
    (hp : chainEval curveOps tooth (undercutAnswer S tooth under guess).1 = some p)
    (hq : under.eval (undercutAnswer S tooth under guess).2 = some q) :
    ∃ u d, chainSetStart curveOps tooth (undercutAnswer S tooth under guess).1 false = some d ∧
      trimInvoluteUndercut S tooth under guess = some [.inl u, .inr ⟨d, true⟩] ∧
      u.kind = under.kind ∧ u.eval 0 = under.eval 0 ∧ u.eval 1 = some q ∧
      (ProperChain d →
        chainEval curveOps d 0 = some p ∧ chainEval curveOps d 1 = chainEval curveOps tooth 1 ∧
        (Meets (sumOps curveOps (chainOps curveOps)) [.inl u, .inr ⟨d, true⟩] ↔ p = q) ∧
        (0 < u.length →
          chainEval (sumOps curveOps (chainOps curveOps)) [.inl u, .inr ⟨d, true⟩] 0 = under.eval 0 ∧
          chainEval (sumOps curveOps (chainOps curveOps)) [.inl u, .inr ⟨d, true⟩] 1 =
            chainEval curveOps tooth 1)) := by
  obtain ⟨d, hd, hgd, ⟨x, a, y, w, a', σ, -, hd', haa, -, hst, -⟩, hends⟩ :=
    c45_start_partial curve_lawful tooth hn hL hg _ h0 h1 p hp false
  have ha' : curveOps.active a' = true := by
    change Curve.setStartOn a σ = some a' at hst
    rw [Curve.setStartOn, Option.map_eq_some_iff] at hst
    obtain ⟨t, _, rfl⟩ := hst
    exact (updateLengths_active _).trans haa
  obtain ⟨u, hu1, hu2, hu3, hu4, hu5⟩ := curve_lawful.fin under _ q hu hq
  have hkind : u.kind = under.kind := by
    change Curve.setEndOn _ _ = some u at hu1
    rw [Curve.setEndOn, Option.map_eq_some_iff] at hu1
    obtain ⟨t, _, rfl⟩ := hu1
    exact updateLengths_kind _
  have hdact : (d.any curveOps.active) = true := by
    rw [hd', List.any_eq_true]; exact ⟨a', by simp, ha'⟩
  have hua : u.active = true := hu3.trans hact
  refine ⟨u, d, hd, ?_, hkind, hu5, hu4, ?_⟩
  · rw [trimInvoluteUndercut]
    change (chainSetStart curveOps tooth _ false).bind _ = _
    rw [hd]
    change Option.map _ (under.setEndOn _) = _
    rw [show under.setEndOn (undercutAnswer S tooth under guess).2 = some u from hu1]
    simp only [Option.map_some, chainUpdate, List.map_cons, List.map_nil, sumOps, Sum.elim_inl, Sum.elim_inr,
      chainOps]
    have e1 : u.updateLengths = u := hu2.2
    have e2 := chainUpdate_eq curve_lawful hgd
    rw [chainUpdate] at e2
    simp only [hdact, Bool.true_and, if_true, e2]
    change some [if u.active = true then Sum.inl u.updateLengths else Sum.inl u, _] = _
    rw [e1, ite_self]
  · rintro ⟨g1, g2, g3⟩
    obtain ⟨e1, e2⟩ := hends g1 g2 g3
    have ha1 : (sumOps curveOps (chainOps curveOps)).active (.inl u) = true := hua
    have ha2 : (sumOps curveOps (chainOps curveOps)).active (.inr ⟨d, true⟩) = true := by
      change (true && d.any curveOps.active) = true
      rw [hdact]; rfl
    refine ⟨e1, e2, ⟨fun hm => ?_, fun hpq => ?_⟩, fun hul => ?_⟩
    · have hm' := hm 0 1 _ _ (by omega) rfl rfl ha1 ha2 (fun i c h1 h2 => by omega)
      change u.eval 1 = chainEval curveOps d 0 at hm'
      rw [e1, show u.eval 1 = some q from hu4] at hm'
      exact (Option.some.inj hm').symm
    · intro j k b c hjk hb hc _ _ _
      have hk : k < 2 := by simpa using (List.getElem?_eq_some_iff.1 hc).1
      obtain ⟨rfl, rfl⟩ : j = 0 ∧ k = 1 := by omega
      have hb' : Sum.inl u = b := by simpa using hb
      have hc' : Sum.inr ⟨d, true⟩ = c := by simpa using hc
      rw [← hb', ← hc']
      change u.eval 1 = chainEval curveOps d 0
      rw [e1, show u.eval 1 = some q from hu4, hpq]
    · have hall : AllPos (sumOps curveOps (chainOps curveOps)) [.inl u, .inr ⟨d, true⟩] := by
        intro b hb _
        rcases List.mem_cons.1 hb with rfl | hb
        · exact hul
        · rw [List.mem_singleton.1 hb]; exact g2
      obtain ⟨f1, f2⟩ := c44_ends _ hall 0 1 _ _ rfl rfl ha1 ha2 (fun i c h _ => by omega)
        (fun i c h1 h2 => by
          have := (List.getElem?_eq_some_iff.1 h2).1
          simp at this; omega)
      refine ⟨f1.trans hu5, f2.trans e2⟩

/-- **C118, joint (partial).** If the answer `x` used for trimming is on the tooth curve (`0 ≤ x₁ ≤ 1`), the
result is the undercut curve cut at `x₂` followed by the tooth curve from `x₁`. It starts where the
undercut starts and ends where the tooth ends, and its two parts meet exactly if the answer is an
intersection of the two curves. Partial: the trimmed tooth must be a proper chain. -/
theorem c118_joint_partial (S : Solvers) (tooth : List Curve) (under : Curve) (guess : ℝ × ℝ) (p q : V3)
    (hn : NonNeg curveOps tooth) (hL : 0 < chainLen curveOps tooth)
    (hg : ∀ a ∈ tooth, a.active = true → a.kind.Sampled ∧ a.updateLengths = a)
    (hu : under.kind.Sampled ∧ under.updateLengths = under) (hact : under.active = true)
    (h0 : 0 ≤ (undercutAnswer S tooth under guess).1) (h1 : (undercutAnswer S tooth under guess).1 ≤ 1)
    (hp : chainEval curveOps tooth (undercutAnswer S tooth under guess).1 = some p)
    (hq : under.eval (undercutAnswer S tooth under guess).2 = some q) :
    ∃ u d, trimInvoluteUndercut S tooth under guess = some [.inl u, .inr ⟨d, true⟩] ∧
      u.kind = under.kind ∧ u.eval 0 = under.eval 0 ∧ u.eval 1 = some q ∧
      (ProperChain d →
        chainEval curveOps d 0 = some p ∧ chainEval curveOps d 1 = chainEval curveOps tooth 1 ∧
        (Meets (sumOps curveOps (chainOps curveOps)) [.inl u, .inr ⟨d, true⟩] ↔ p = q) ∧
        (0 < u.length →
          chainEval (sumOps curveOps (chainOps curveOps)) [.inl u, .inr ⟨d, true⟩] 0 = under.eval 0 ∧
          chainEval (sumOps curveOps (chainOps curveOps)) [.inl u, .inr ⟨d, true⟩] 1 =
            chainEval curveOps tooth 1)) := by
  obtain ⟨u, d, -, h⟩ := trimInvoluteUndercut_spec S tooth under guess p q hn hL hg hu hact h0 h1 hp hq
  exact ⟨u, d, h⟩

/-- **C118, successful search.** If the solver's successes are true roots and the first search succeeds on the
involute part, the undercut curve and the tooth curve are joined. -/
theorem c118_meets_partial (S : Solvers) (tooth : List Curve) (under : Curve) (guess : ℝ × ℝ)
    (hS : ∀ f g, (S.root f g).success = true → f (S.root f g).x = some 0)
    (hn : NonNeg curveOps tooth) (hL : 0 < chainLen curveOps tooth)
    (hg : ∀ a ∈ tooth, a.active = true → a.kind.Sampled ∧ a.updateLengths = a)
    (hu : under.kind.Sampled ∧ under.updateLengths = under) (hact : under.active = true)
    (hsuc : (findCurveIntersect S (chainEval curveOps tooth) under.eval guess .equality).success = true)
    (h0 : portion curveOps tooth 1 ≤
      (findCurveIntersect S (chainEval curveOps tooth) under.eval guess .equality).x.1)
    (h1 : (findCurveIntersect S (chainEval curveOps tooth) under.eval guess .equality).x.1 ≤ 1) :
    ∃ u d p, trimInvoluteUndercut S tooth under guess = some [.inl u, .inr ⟨d, true⟩] ∧
      u.kind = under.kind ∧ u.eval 0 = under.eval 0 ∧ u.eval 1 = some p ∧
      (∃ s t, chainEval curveOps tooth s = some p ∧ under.eval t = some p) ∧
      (ProperChain d → chainEval curveOps d 0 = some p ∧
        chainEval curveOps d 1 = chainEval curveOps tooth 1 ∧
        Meets (sumOps curveOps (chainOps curveOps)) [.inl u, .inr ⟨d, true⟩]) := by
  obtain ⟨x, hx⟩ : ∃ x, x = findCurveIntersect S (chainEval curveOps tooth) under.eval guess .equality :=
    ⟨_, rfl⟩
  have hans : undercutAnswer S tooth under guess = x.x := by
    rw [undercutAnswer]
    simp only [hsuc, if_true]
    rw [if_neg (not_lt.2 h0), hx]
  have hpos : 0 ≤ portion curveOps tooth 1 := by
    rw [portion]
    refine div_nonneg ?_ hL.le
    rw [preLen]
    refine List.sum_nonneg fun b hb => ?_
    obtain ⟨c, hc, rfl⟩ := List.mem_map.1 hb
    rw [CurveOps.len]
    split_ifs with hb
    · exact hn c (List.mem_of_mem_take hc) hb
    · exact le_rfl
  have hroot := hS (fun t => curveDiff (chainEval curveOps tooth) under.eval (t 0) (t 1))
    ![guess.1, guess.2, 0] hsuc
  have e : curveDiff (chainEval curveOps tooth) under.eval x.x.1 x.x.2 = some 0 := by
    rw [hx]; exact hroot
  obtain ⟨p, q, hp, hq⟩ : ∃ p q, chainEval curveOps tooth x.x.1 = some p ∧ under.eval x.x.2 = some q := by
    rw [curveDiff] at e
    cases h3 : chainEval curveOps tooth x.x.1 with
    | none => simp [h3] at e
    | some p => cases h4 : under.eval x.x.2 with
      | none => simp [h3, h4] at e
      | some q => exact ⟨p, q, rfl, rfl⟩
  have hpq : p = q := by
    rw [curveDiff, hp, hq] at e
    exact sub_eq_zero.1 (Option.some.inj e)
  rw [← hx] at h0 h1
  obtain ⟨u, d, g1, g2, g3, g4, g5⟩ := c118_joint_partial S tooth under guess p q hn hL hg hu hact
    (by rw [hans]; linarith) (by rw [hans]; exact h1) (by rw [hans]; exact hp) (by rw [hans]; exact hq)
  refine ⟨u, d, p, g1, g2, g3, by rw [g4, hpq], ⟨_, _, hp, by rw [hq, hpq]⟩, fun hd => ?_⟩
  obtain ⟨k1, k2, k3, -⟩ := g5 hd
  exact ⟨k1, k2, k3.2 hpq⟩

/-- A straight tooth curve of two segments. -/
noncomputable def sampleTooth : List Curve :=
  [lineC ![0, 0, 0] ![1, 0, 0], lineC ![1, 0, 0] ![2, 0, 0]]

/-- A straight undercut that crosses the second segment in its middle. -/
noncomputable def sampleUnder : Curve := lineC ![3 / 2, -1, 0] ![3 / 2, 1, 0]

theorem sampleTooth_len : AllPos curveOps sampleTooth ∧ chainLen curveOps sampleTooth = 2 ∧
    portion curveOps sampleTooth 1 = 1 / 2 ∧
    getSIndex curveOps sampleTooth (3 / 4) = some (1, 1 / 2) := by
  have n1 : (lineC ![0, 0, 0] ![1, 0, 0]).length = 1 := by
    rw [lineC_length]; apply norm3_eq_of_dot (by norm_num); simp [dot, Fin.sum_univ_three]
  have n2 : (lineC ![1, 0, 0] ![2, 0, 0]).length = 1 := by
    rw [lineC_length]; apply norm3_eq_of_dot (by norm_num); simp [dot, Fin.sum_univ_three]; norm_num
  have l1 : curveOps.len (lineC ![0, 0, 0] ![1, 0, 0]) = 1 := 
    (len_of_active (o := curveOps) (a := lineC ![0, 0, 0] ![1, 0, 0])
      (lineC_active ![0, 0, 0] ![1, 0, 0])).trans n1
  have l2 : curveOps.len (lineC ![1, 0, 0] ![2, 0, 0]) = 1 := 
    (len_of_active (o := curveOps) (a := lineC ![1, 0, 0] ![2, 0, 0])
      (lineC_active ![1, 0, 0] ![2, 0, 0])).trans n2
  have hall : AllPos curveOps sampleTooth := by
    intro a ha _
    rcases List.mem_cons.1 ha with rfl | ha
    · change 0 < (lineC _ _).length; rw [n1]; norm_num
    · rw [List.mem_singleton.1 ha]; change 0 < (lineC _ _).length; rw [n2]; norm_num
  have htot : chainLen curveOps sampleTooth = 2 := by
    simp only [chainLen, sampleTooth, List.map_cons, List.map_nil, l1, l2]; norm_num
  have hpre : preLen curveOps sampleTooth 1 = 1 := by
    simp [preLen, sampleTooth, l1]
  refine ⟨hall, htot, by rw [portion, hpre, htot], ?_⟩
  rw [getSIndex_eq hall.nonNeg (by rw [htot]; norm_num) (k := 1) (a := lineC ![1, 0, 0] ![2, 0, 0]) rfl
    (by rw [hpre, htot]; norm_num) (by rw [hpre, htot, l2]; norm_num), hpre, htot, l2]
  norm_num

/-- Solvers of which `root` answers `b` and `x`, and `minimize` finds the start of both curves. -/
def sampleRoot (b : Bool) (x : V3) : Solvers := ⟨fun _ _ => ⟨b, x⟩, fun _ _ => ⟨true, (0, 0)⟩⟩

theorem sampleTooth_trim (S : Solvers) (y : ℝ) (hy : undercutAnswer S sampleTooth sampleUnder (1, 1) = (3 / 4, y)) :
    ∃ u d, trimInvoluteUndercut S sampleTooth sampleUnder (1, 1) = some [.inl u, .inr ⟨d, true⟩] ∧
      u.eval 1 = some ![3 / 2, 2 * y - 1, 0] ∧ chainEval curveOps d 0 = some ![3 / 2, 0, 0] ∧ ProperChain d := by
  obtain ⟨hall, htot, -, hidx⟩ := sampleTooth_len
  have hp : chainEval curveOps sampleTooth (3 / 4) = some ![3 / 2, 0, 0] := by
    rw [chainEval, hidx]
    change (lineC ![1, 0, 0] ![2, 0, 0]).eval (1 / 2) = _
    rw [lineC_eval]
    refine congrArg some ?_
    apply V3.ext3 <;> simp; norm_num
  have hq : sampleUnder.eval y = some ![3 / 2, 2 * y - 1, 0] := by
    rw [sampleUnder, lineC_eval]
    refine congrArg some ?_
    apply V3.ext3 <;> simp <;> ring
  obtain ⟨u, d, g0, g1, -, -, g4, g5⟩ := trimInvoluteUndercut_spec S sampleTooth sampleUnder (1, 1)
    ![3 / 2, 0, 0] ![3 / 2, 2 * y - 1, 0] hall.nonNeg (by rw [htot]; norm_num)
    (by
      intro a ha _
      rcases List.mem_cons.1 ha with rfl | ha
      · exact lineC_fresh _ _
      · rw [List.mem_singleton.1 ha]; exact lineC_fresh _ _)
    (lineC_fresh _ _) (lineC_active _ _) (by rw [hy]; norm_num) (by rw [hy]; norm_num)
    (by rw [hy]; exact hp) (by rw [hy]; exact hq)
  have hd : d = [Curve.make (.line ![1, 0, 0] ![2, 0, 0]) true (1 / 2) 1] := by
    rw [hy, chainSetStart, startRaw, hidx] at g0
    change Option.map (chainUpdate curveOps) (Option.map _
      ((Curve.make (.line ![1, 0, 0] ![2, 0, 0]) true 0 1).setStartOn (1 / 2))) = _ at g0
    rw [line_setStart] at g0
    have e := Option.some.inj g0
    rw [← e]
    have e2 : ∀ c : Curve, c.active = true → c.updateLengths = c → chainUpdate curveOps [c] = [c] := by
      intro c h1 h2
      change [if c.active = true then c.updateLengths else c] = [c]
      rw [if_pos h1, h2]
    refine (e2 _ (line_act _ _ _ _) (line_upd _ _ _ _)).trans ?_
    norm_num
  have hlen : (Curve.make (.line ![1, 0, 0] ![2, 0, 0]) true (1 / 2) 1).length = 1 / 2 := by
    rw [line_trim, show norm3 (![2, 0, 0] - ![1, 0, 0] : V3) = 1 from norm3_eq_of_dot (by norm_num)
      (by simp [dot, Fin.sum_univ_three]; norm_num)]
    rw [abs_of_pos (by norm_num)]; norm_num
  have hprop : ProperChain d := by
    rw [hd]
    refine ⟨?_, ?_, ?_⟩
    · intro a ha _
      rw [List.mem_singleton.1 ha]
      change 0 ≤ (Curve.make _ _ _ _).length
      rw [hlen]; norm_num
    · rw [chainLen, List.map_singleton, List.sum_singleton]
      refine lt_of_lt_of_eq ?_ (len_of_active (o := curveOps)
        (a := Curve.make (.line ![1, 0, 0] ![2, 0, 0]) true (1 / 2) 1)
        (line_act ![1, 0, 0] ![2, 0, 0] (1 / 2) 1)).symm
      change 0 < (Curve.make _ _ _ _).length
      rw [hlen]; norm_num
    · intro a ha _ h0
      rw [List.mem_singleton.1 ha, hlen] at h0
      norm_num at h0
  exact ⟨u, d, g1, g4, (g5 hprop).1, hprop⟩

/-- **C118 is violated when the second search fails.** The undercut and the tooth curve cross, and the solver
never reports a false success. Nevertheless the answer of the unsuccessful second search is used, and the
tooth curve is broken between its two parts. -/
theorem c118_retry_violated :
    ∃ (S : Solvers) (tooth : List Curve) (under : Curve) (u : Curve) (d : List Curve) (p q : V3),
      (∀ f g, (S.root f g).success = true → f (S.root f g).x = some 0) ∧
      (∃ s t p, 0 < s ∧ s < 1 ∧ 0 < t ∧ t < 1 ∧ chainEval curveOps tooth s = some p ∧ under.eval t = some p) ∧
      trimInvoluteUndercut S tooth under (1, 1) = some [.inl u, .inr ⟨d, true⟩] ∧
      u.eval 1 = some q ∧ chainEval curveOps d 0 = some p ∧ p ≠ q := by
  obtain ⟨u, d, h1, h2, h3, -⟩ := sampleTooth_trim (sampleRoot false ![3 / 4, 1, 0]) 1 (by
    rw [undercutAnswer]
    simp only [findCurveIntersect, sampleRoot, sampleTooth_len.2.2.1]
    norm_num)
  refine ⟨_, _, _, u, d, _, _, ?_, ⟨3 / 4, 1 / 2, ![3 / 2, 0, 0], by norm_num, by norm_num, by norm_num,
    by norm_num, ?_, ?_⟩, h1, h2, h3, ?_⟩
  · intro f g h; cases h
  · rw [chainEval, sampleTooth_len.2.2.2]
    change (lineC ![1, 0, 0] ![2, 0, 0]).eval (1 / 2) = _
    rw [lineC_eval]
    refine congrArg some ?_
    apply V3.ext3 <;> simp; norm_num
  · rw [sampleUnder, lineC_eval]
    refine congrArg some ?_
    apply V3.ext3 <;> simp <;> norm_num
  · intro e
    have := congrFun e 1
    norm_num at this

/-- Concrete case for `c118_joint_partial` and `c118_meets_partial`: the search finds the crossing. -/
theorem c118_case : ∃ u d,
    trimInvoluteUndercut (sampleRoot true ![3 / 4, 1 / 2, 0]) sampleTooth sampleUnder (1, 1) =
      some [.inl u, .inr ⟨d, true⟩] ∧ u.eval 1 = chainEval curveOps d 0 ∧ ProperChain d := by
  obtain ⟨u, d, h1, h2, h3, h4⟩ := sampleTooth_trim (sampleRoot true ![3 / 4, 1 / 2, 0]) (1 / 2) (by
    rw [undercutAnswer]
    simp only [findCurveIntersect, sampleRoot, sampleTooth_len.2.2.1]
    norm_num)
  refine ⟨u, d, h1, ?_, h4⟩
  rw [h2, h3]; norm_num

theorem chainUpdate_idem (l : List Curve) :
    chainUpdate curveOps (chainUpdate curveOps l) = chainUpdate curveOps l := by
  rw [chainUpdate, chainUpdate, List.map_map]
  refine List.map_congr_left fun c _ => ?_
  change (if (if c.active = true then c.updateLengths else c).active = true then
    (if c.active = true then c.updateLengths else c).updateLengths else
    (if c.active = true then c.updateLengths else c)) = if c.active = true then c.updateLengths else c
  by_cases h : c.active = true
  · rw [if_pos h, updateLengths_idem, ite_self]
  · rw [if_neg h, if_neg h]

theorem trimInvoluteUndercut_some (S : Solvers) (tooth : List Curve) (under : Curve) (guess : ℝ × ℝ)
    (r : List (Curve ⊕ Chain Curve)) (h : trimInvoluteUndercut S tooth under guess = some r) :
    ∃ u d, r = [.inl u, .inr ⟨d, true⟩] ∧
      under.setEndOn (undercutAnswer S tooth under guess).2 = some u := by
  rw [trimInvoluteUndercut] at h
  obtain ⟨d, hd, h⟩ := Option.bind_eq_some_iff.1 h
  obtain ⟨u, hu, h⟩ := Option.map_eq_some_iff.1 h
  refine ⟨u, d, ?_, hu⟩
  have e1 : u.updateLengths = u := by
    rw [Curve.setEndOn, Option.map_eq_some_iff] at hu
    obtain ⟨t, _, rfl⟩ := hu
    exact updateLengths_idem _
  have e2 : chainUpdate curveOps d = d := by
    rw [chainSetStart, Option.map_eq_some_iff] at hd
    obtain ⟨t, _, rfl⟩ := hd
    exact chainUpdate_idem _
  rw [← h]
  change [if u.active = true then Sum.inl u.updateLengths else Sum.inl u,
    if (true && d.any curveOps.active) = true then Sum.inr (Chain.mk (chainUpdate curveOps d) true) else
      Sum.inr (Chain.mk d true)] = _
  rw [e1, e2, ite_self, ite_self]

/-- **C118, whole tooth.** For a gear whose base circle is outside the root circle, the tooth curve starts at the
reference point of the rack, its first part is nowhere inside the root circle, and it ends at the tip end of
the involute, if the searches for the reference point succeed and the answer for the trimming is on the
tooth curve. -/
theorem c118_tooth_partial (S : ScalarSolvers) (tooth : List Curve) (rb rp pia pitchAngle alpha : ℝ)
    (l : ToothLimitParam) (hrp : 0 < rp) (ha0 : 0 < alpha) (ha1 : alpha < π / 2) (hA : 0 < l.hA)
    (hD : 0 < l.hD) (hDr : l.hD ≤ rp) (hpia : pia < pitchAngle / 2) (hb : rp - l.hD ≤ rb)
    (hS : gapMiddleResidual (rackFlankCurve rp pia l alpha).eval (-rp * pitchAngle / 2)
      (S.root1 (gapMiddleResidual (rackFlankCurve rp pia l alpha).eval (-rp * pitchAngle / 2)) 1).x = some 0)
    (hn : NonNeg curveOps tooth) (hL : 0 < chainLen curveOps tooth)
    (hg : ∀ a ∈ tooth, a.active = true → a.kind.Sampled ∧ a.updateLengths = a)
    (r : List (Curve ⊕ Chain Curve))
    (hr : undercutToothCurve S tooth rb rp pia pitchAngle alpha l = some r) :
    ∃ (ref : V3) (under u : Curve) (d : List Curve),
      undercutRefPoint S rp pia pitchAngle l alpha = some ref ∧
      generateUndercutCurve S rp ref = some under ∧ r = [.inl u, .inr ⟨d, true⟩] ∧
      u.eval 0 = some ref ∧ (∀ s q, u.eval s = some q → rp - l.hD ≤ norm3 q ∧ q 2 = 0) ∧
      (∀ x, x = undercutAnswer S.toSolvers tooth under (1, 1) → 0 ≤ x.1 → x.1 ≤ 1 →
        (chainEval curveOps tooth x.1).isSome → ProperChain d →
        chainEval curveOps d 1 = chainEval curveOps tooth 1 ∧
        chainEval curveOps d 0 = chainEval curveOps tooth x.1 ∧ u.eval 1 = under.eval x.2) := by
  obtain ⟨ref, h1, -, hz, h3, -⟩ := c118_ref S rp pia pitchAngle l alpha hrp ha0 ha1 hA hD hpia hS
  rw [undercutToothCurve, if_neg (not_lt.2 hb), h1] at hr
  change (generateUndercutCurve S rp ref).bind _ = some r at hr
  cases hc : generateUndercutCurve S rp ref with
  | none => rw [hc] at hr; cases hr
  | some c =>
    rw [hc] at hr
    change trimInvoluteUndercut S.toSolvers tooth c (1, 1) = some r at hr
    obtain ⟨k1, k2, k3, k4⟩ := generateUndercutCurve_spec S rp ref c hc
    obtain ⟨-, hdep, -⟩ := c118_depth S rp ref c hrp (by linarith) hz hc
    obtain ⟨u, d, rfl, hu⟩ := trimInvoluteUndercut_some _ _ _ _ _ hr
    obtain ⟨q, hq⟩ : ∃ q, c.eval (undercutAnswer S.toSolvers tooth c (1, 1)).2 = some q := by
      have hu' := hu
      rw [Curve.setEndOn, Option.map_eq_some_iff] at hu'
      obtain ⟨t, e, _⟩ := hu'
      exact ⟨_, by rw [Curve.eval, e]; rfl⟩
    have hsam : c.kind.Sampled := by rw [k1]; change 1 ≤ 20; norm_num
    obtain ⟨u', e1, -, -, e2, e3⟩ := curve_lawful.fin c _ q ⟨hsam, k3⟩ hq
    obtain rfl : u' = u := Option.some.inj (e1.symm.trans hu)
    have hkind : u'.kind = c.kind := by
      rw [Curve.setEndOn, Option.map_eq_some_iff] at hu
      obtain ⟨t, _, rfl⟩ := hu
      exact updateLengths_kind _
    refine ⟨ref, c, u', d, h1, hc, rfl, e3.trans k4, ?_, ?_⟩
    · intro s q' hq'
      obtain ⟨t, -, rfl⟩ := eval_some hq'
      obtain ⟨m1, m2⟩ := undercut_far rp ref (by linarith) hz t
      rw [hkind, k1]
      exact ⟨h3.trans m1, m2⟩
    · rintro x rfl x0 x1 hs hpr
      obtain ⟨p, hp⟩ := Option.isSome_iff_exists.1 hs
      obtain ⟨u2, d2, -, f1, -, -, -, f5⟩ := trimInvoluteUndercut_spec S.toSolvers tooth c (1, 1) p q hn hL hg
        ⟨hsam, k3⟩ k2 x0 x1 hp hq
      have e5 := Option.some.inj (f1.symm.trans hr)
      simp only [List.cons.injEq, Sum.inl.injEq, Sum.inr.injEq, Chain.mk.injEq, and_true] at e5
      obtain ⟨rfl, rfl⟩ := e5
      obtain ⟨g1, g2, -⟩ := f5 hpr
      exact ⟨g2, g1.trans hp.symm, e2.trans hq.symm⟩

/-- A gear with pitch radius 10 cut by a rack with 45° flanks that meet exactly at its full depth. -/
noncomputable def sampleLimits : ToothLimitParam := { hA := 1, hD := 1.25 }

/-- Solvers for that gear: the crossing at the rack corner, no crossing with the pitch circle, and a trimming at
three quarters of the sample tooth curve. -/
noncomputable def sampleScalar : ScalarSolvers :=
  { sampleRoot true ![3 / 4, 1, 0] with root1 := fun _ _ => ⟨true, 0⟩, minimize1 := fun _ _ => ⟨true, 0⟩ }

theorem sample_residual :
    gapMiddleResidual (rackFlankCurve 10 0.1 sampleLimits (π / 4)).eval (-10 * 0.45 / 2)
      (sampleScalar.root1 (gapMiddleResidual (rackFlankCurve 10 0.1 sampleLimits (π / 4)).eval
        (-10 * 0.45 / 2)) 1).x = some 0 := by
  have h := pi_pos
  change gapMiddleResidual _ _ 0 = some 0
  rw [gapMiddleResidual, rackFlankCurve_eval _ _ _ _ _ (by linarith) (by linarith)]
  simp [dot, UP, Fin.sum_univ_three, sampleLimits]
  norm_num

/-- Concrete case for `c118_ref`, `c118_depth` and `c118_tooth_partial`. -/
theorem c118_whole_case :
    ∃ r, undercutToothCurve sampleScalar sampleTooth 9.4 10 0.1 0.45 (π / 4) sampleLimits = some r ∧
      ∃ ref u d, r = [.inl u, .inr ⟨d, true⟩] ∧ u.eval 0 = some ref ∧ ref 0 = 8.75 ∧ ref 1 = -2.25 ∧
        ∀ s q, u.eval s = some q → 8.75 ≤ norm3 q := by
  have h := pi_pos
  obtain ⟨ref, h1, -, -, -, -, -, h7, h8⟩ := c118_ref sampleScalar 10 0.1 0.45 sampleLimits (π / 4) (by norm_num)
    (by linarith) (by linarith) (by norm_num [sampleLimits]) (by norm_num [sampleLimits]) (by norm_num)
    sample_residual
  have hc : generateUndercutCurve sampleScalar 10 ref =
      some (Curve.make (.generic (undercutCurve 10 ref) 20) true 0 (-1)) := by
    rw [generateUndercutCurve]
    exact if_neg (lt_irrefl _)
  obtain ⟨k1, k2, k3, k4⟩ := generateUndercutCurve_spec _ _ _ _ hc
  obtain ⟨c, hcc⟩ : ∃ c, c = Curve.make (.generic (undercutCurve 10 ref) 20) true 0 (-1) := ⟨_, rfl⟩
  rw [← hcc] at hc k1 k2 k3 k4
  have hsam : c.kind.Sampled := by rw [k1]; change 1 ≤ 20; norm_num
  have he : c.EndsOk := by rw [← k3]; exact endsOk_updateLengths _ hsam
  have hans : undercutAnswer sampleScalar.toSolvers sampleTooth c (1, 1) = (3 / 4, 1) := by
    rw [undercutAnswer]
    simp only [findCurveIntersect, sampleScalar, sampleRoot, sampleTooth_len.2.2.1]
    norm_num
  obtain ⟨hall, htot, -, hidx⟩ := sampleTooth_len
  have hg : ∀ a ∈ sampleTooth, a.active = true → a.kind.Sampled ∧ a.updateLengths = a := by
    intro a ha _
    rcases List.mem_cons.1 ha with rfl | ha
    · exact lineC_fresh _ _
    · rw [List.mem_singleton.1 ha]; exact lineC_fresh _ _
  have hp : chainEval curveOps sampleTooth (3 / 4) =
      some ((1 - 1 / 2 : ℝ) • ![1, 0, 0] + (1 / 2 : ℝ) • ![2, 0, 0]) := by
    rw [chainEval, hidx]
    exact lineC_eval ![1, 0, 0] ![2, 0, 0] (1 / 2)
  obtain ⟨u, d, -, f1, -⟩ := trimInvoluteUndercut_spec sampleScalar.toSolvers sampleTooth c (1, 1) _ _
    hall.nonNeg (by rw [htot]; norm_num) hg ⟨hsam, k3⟩ k2 (by rw [hans]; norm_num) (by rw [hans]; norm_num)
    (by rw [hans]; exact hp) (by rw [hans]; exact he.2)
  have hr : undercutToothCurve sampleScalar sampleTooth 9.4 10 0.1 0.45 (π / 4) sampleLimits =
      some [.inl u, .inr ⟨d, true⟩] := by
    rw [undercutToothCurve, if_neg (by norm_num [sampleLimits]), h1]
    change (generateUndercutCurve sampleScalar 10 ref).bind _ = _
    rw [hc]; exact f1
  refine ⟨_, hr, ?_⟩
  obtain ⟨ref', -, u', d', g1, -, g3, g4, g5, -⟩ := c118_tooth_partial sampleScalar sampleTooth 9.4 10 0.1 0.45
    (π / 4) sampleLimits (by norm_num) (by linarith) (by linarith) (by norm_num [sampleLimits])
    (by norm_num [sampleLimits]) (by norm_num [sampleLimits]) (by norm_num) (by norm_num [sampleLimits])
    sample_residual hall.nonNeg (by rw [htot]; norm_num) hg _ hr
  obtain rfl : ref = ref' := Option.some.inj (h1.symm.trans g1)
  refine ⟨ref, u', d', g3, g4, ?_, ?_, fun s q hq => ?_⟩
  · rw [h7 (by norm_num [sampleLimits])]; norm_num [sampleLimits]
  · rw [h8 (by norm_num [sampleLimits])]; norm_num
  · refine le_trans ?_ (g5 s q hq).1
    norm_num [sampleLimits]

end Verif
