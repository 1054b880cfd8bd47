import Verif.Model.LowerLimit
import Verif.Props.Arc
import Verif.Props.Chain2
import Mathlib.Analysis.Real.Pi.Bounds

/-!
# C119: the lower end of a tooth flank (`check_lower_curve_limit`)
-/

namespace Verif

open Real

/-- Distance from the z axis. -/
noncomputable def Spec.rootDist (p : V3) : ℝ := √(p 0 ^ 2 + p 1 ^ 2)

theorem rootDist_smul (k : ℝ) (p : V3) : Spec.rootDist (k • p) = |k| * Spec.rootDist p := by
  rw [Spec.rootDist, Spec.rootDist, ← sqrt_sq_eq_abs, ← sqrt_mul (sq_nonneg k)]
  congr 1
  simp; ring

theorem rootArc_dist (rD a : ℝ) (h : 0 ≤ rD) (s : ℝ) (p : V3)
    (hp : (arcInit rD a ORIGIN 0 0 0 true).eval s = some p) : Spec.rootDist p = rD := by
  rw [arcInit, make_eval _ (by intro f n h; cases h)] at hp
  have e := Option.some.inj hp
  rw [← e, Spec.rootDist]
  have h1 : eulerZYX 0 0 0 = 1 := by
    ext i j; fin_cases i <;> fin_cases j <;> simp [eulerZYX, Rx, Ry, Rz]
  simp only [CurveKind.fn, h1, one_mul]
  rw [show (app (Rz (a * s)) (rD • RIGHT) + ORIGIN) 0 ^ 2 + (app (Rz (a * s)) (rD • RIGHT) + ORIGIN) 1 ^ 2 =
    rD ^ 2 by
      simp [Rz_app, RIGHT, ORIGIN]
      linear_combination rD ^ 2 * sin_sq_add_cos_sq (a * s)]
  exact sqrt_sq h

/-- **C119, cylindrical gears.** If the solver's successes are true crossings, the tooth curve that
`check_lower_curve_limit` returns starts on the root circle, or inside it if the flank already reaches there, and ends
where the flank ended. A flank that stays outside is extended by a radial line that joins it. -/
theorem c119_cylindrical (S : Solvers) (pia rp hD : ℝ) (tooth : Curve) (r : Curve ⊕ List Curve)
    (hS : ∀ f g, (S.root f g).success = true → f (S.root f g).x = some 0)
    (hg : tooth.kind.Sampled ∧ tooth.updateLengths = tooth) (hact : tooth.active = true) (h0 : 0 ≤ rp - hD)
    (hr : lowerLimitCyl S pia rp hD tooth = some r) :
    ∃ t p, t.kind = tooth.kind ∧ t.eval 0 = some p ∧ t.eval 1 = tooth.eval 1 ∧
      ((r = .inl t ∧ Spec.rootDist p ≤ rp - hD) ∨
        (rp - hD < Spec.rootDist p ∧ ∃ c q, r = .inr [c, t] ∧ c.eval 0 = some q ∧ c.eval 1 = some p ∧
          Spec.rootDist q = rp - hD ∧ q = ((rp - hD) / Spec.rootDist p) • p ∧
          (0 < t.length → chainEval curveOps [c, t] 0 = some q ∧
            chainEval curveOps [c, t] 1 = tooth.eval 1))) := by
  rw [lowerLimitCyl] at hr
  simp only at hr
  obtain ⟨x1, hx1⟩ : ∃ x, x = findCurveIntersect S tooth.eval
    (arcInit (rp - hD) (-pia * 2) ORIGIN 0 0 0 true).eval (1 / 2, 1 / 2) .equality := ⟨_, rfl⟩
  obtain ⟨x2, hx2⟩ : ∃ x, x = findCurveIntersect S tooth.eval
    (arcInit (rp - hD) (-pia * 2) ORIGIN 0 0 0 true).eval (1 / 2, 1 / 2) .minDistance := ⟨_, rfl⟩
  rw [← hx1, ← hx2] at hr
  have htrim : ∀ s t, tooth.setStartOn s = some t → ∃ p, tooth.eval s = some p ∧ t.kind = tooth.kind ∧
      t.eval 0 = some p ∧ t.eval 1 = tooth.eval 1 ∧ t.active = true ∧ t.updateLengths = t := by
    intro s t ht
    obtain ⟨p, hp⟩ : ∃ p, tooth.eval s = some p := by
      rw [Curve.setStartOn, Option.map_eq_some_iff] at ht
      obtain ⟨u, e, _⟩ := ht
      exact ⟨_, by rw [Curve.eval, e]; rfl⟩
    obtain ⟨t', e1, e2, e3, e4, e5⟩ := curve_lawful.start tooth s p hg hp
    obtain rfl : t' = t := Option.some.inj (e1.symm.trans ht)
    refine ⟨p, hp, ?_, e4, e5, e3.trans hact, e2.2⟩
    rw [Curve.setStartOn, Option.map_eq_some_iff] at ht
    obtain ⟨u, e, rfl⟩ := ht
    exact updateLengths_kind _
  cases hsuc : x1.success with
  | true =>
    rw [hsuc, if_pos rfl, Option.map_eq_some_iff] at hr
    obtain ⟨t, ht, rfl⟩ := hr
    obtain ⟨p, hp, k1, k2, k3, -⟩ := htrim _ _ ht
    refine ⟨t, p, k1, k2, k3, Or.inl ⟨rfl, ?_⟩⟩
    have hroot := hS (fun t => curveDiff tooth.eval (arcInit (rp - hD) (-pia * 2) ORIGIN 0 0 0 true).eval
      (t 0) (t 1)) ![1 / 2, 1 / 2, 0] (by have h := hsuc; rw [hx1] at h; exact h)
    have e : curveDiff tooth.eval (arcInit (rp - hD) (-pia * 2) ORIGIN 0 0 0 true).eval x1.x.1 x1.x.2 =
        some 0 := by rw [hx1]; exact hroot
    rw [curveDiff, hp] at e
    cases hq : (arcInit (rp - hD) (-pia * 2) ORIGIN 0 0 0 true).eval x1.x.2 with
    | none => rw [hq] at e; cases e
    | some q =>
      rw [hq] at e
      rw [sub_eq_zero.1 (Option.some.inj e)]
      exact (rootArc_dist _ _ h0 _ _ hq).le
  | false =>
    rw [hsuc] at hr
    simp only [Bool.false_eq_true, if_false] at hr
    obtain ⟨t, ht, hr⟩ := Option.bind_eq_some_iff.1 hr
    obtain ⟨p, hp, k1, k2, k3, k4, k5⟩ := htrim _ _ ht
    rw [k2] at hr
    simp only [Option.bind_some] at hr
    refine ⟨t, p, k1, k2, k3, ?_⟩
    by_cases hlt : rp - hD < √(p 0 ^ 2 + p 1 ^ 2)
    · rw [if_pos hlt] at hr
      have hpos : 0 < Spec.rootDist p := lt_of_le_of_lt h0 hlt
      have hup : chainUpdate curveOps [Curve.make (.line (((rp - hD) / √(p 0 ^ 2 + p 1 ^ 2)) • p) p) true 0 1, t] =
          [lineC (((rp - hD) / Spec.rootDist p) • p) p, t] := by
        apply chainUpdate_eq curve_lawful
        intro a ha _
        rcases List.mem_cons.1 ha with rfl | ha
        · exact lineC_fresh _ _
        · rw [List.mem_singleton.1 ha]; exact ⟨by rw [k1]; exact hg.1, k5⟩
      refine Or.inr ⟨hlt, lineC (((rp - hD) / Spec.rootDist p) • p) p, ((rp - hD) / Spec.rootDist p) • p, ?_, ?_, ?_,
        ?_, rfl, fun hl => ?_⟩
      · rw [← Option.some.inj hr, hup]
      · rw [lineC_eval]; simp
      · rw [lineC_eval]; simp
      · rw [rootDist_smul, abs_of_nonneg (by positivity), div_mul_cancel₀ _ hpos.ne']
      · have hlen : 0 < (lineC (((rp - hD) / Spec.rootDist p) • p) p).length := by
          rw [lineC_length]
          apply norm3_pos
          intro e
          have e' : (1 - (rp - hD) / Spec.rootDist p) • p = 0 := by rw [← e]; module
          rcases smul_eq_zero.1 e' with h | h
          · have : (rp - hD) / Spec.rootDist p < 1 := (div_lt_one hpos).2 hlt
            linarith
          · rw [h] at hpos; simp [Spec.rootDist] at hpos
        have hall : AllPos curveOps [lineC (((rp - hD) / Spec.rootDist p) • p) p, t] := by
          intro b hb _
          rcases List.mem_cons.1 hb with rfl | hb
          · exact hlen
          · rw [List.mem_singleton.1 hb]; exact hl
        obtain ⟨f1, f2⟩ := c44_ends _ hall 0 1 _ _ rfl rfl
          (lineC_active (((rp - hD) / Spec.rootDist p) • p) p) k4 (fun i c h _ => by omega)
          (fun i c h1 h2 => by
            have := (List.getElem?_eq_some_iff.1 h2).1
            simp at this; omega)
        refine ⟨f1.trans ?_, f2.trans k3⟩
        change (lineC _ _).eval 0 = _
        rw [lineC_eval]; simp
    · rw [if_neg hlt] at hr
      exact Or.inl ⟨(Option.some.inj hr).symm, not_lt.1 hlt⟩

/-- Concrete case: a radial flank from radius 2 to 3 and a root circle of radius 1. No search succeeds, the nearest point
is the start of the flank, and a connector is put in front. -/
theorem c119_case : ∃ c t, lowerLimitCyl ⟨fun _ _ => ⟨false, 0⟩, fun _ _ => ⟨true, (0, 0)⟩⟩ (1 / 10) (5 / 2) (3 / 2)
      (lineC ![2, 0, 0] ![3, 0, 0]) = some (.inr [c, t]) ∧ c.eval 0 = some ![1, 0, 0] ∧
      c.eval 1 = some ![2, 0, 0] := by
  have hs : (lineC ![2, 0, 0] ![3, 0, 0]).setStartOn 0 = some (lineC ![2, 0, 0] ![3, 0, 0]) := by
    rw [lineC, line_setStart]; norm_num
  have he : (lineC ![2, 0, 0] ![3, 0, 0]).eval 0 = some ![2, 0, 0] := by
    rw [lineC_eval]; simp
  have hd : √((![2, 0, 0] : V3) 0 ^ 2 + (![2, 0, 0] : V3) 1 ^ 2) = 2 := by
    rw [show (![2, 0, 0] : V3) 0 ^ 2 + (![2, 0, 0] : V3) 1 ^ 2 = 2 ^ 2 by simp]
    exact sqrt_sq (by norm_num)
  refine ⟨lineC ((((5 / 2 : ℝ) - 3 / 2) / 2) • ![2, 0, 0]) ![2, 0, 0], lineC ![2, 0, 0] ![3, 0, 0], ?_, ?_, ?_⟩
  · rw [lowerLimitCyl]
    simp only [findCurveIntersect, hs, he, Bool.false_eq_true, if_false, Option.bind_some, hd]
    rw [if_pos (by norm_num)]
    congr 2
  · rw [lineC_eval]
    refine congrArg some ?_
    apply V3.ext3 <;> simp <;> norm_num
  · rw [lineC_eval]; simp

/-! ### Conical gears -/

/-- **C119, conical gears (what holds).** If the search for the root answers truly, the returned flank is not extended.
Its start is in the plane through the apex that touches the root cone's generator at azimuth 0: it is on or outside the
root cone, and on it only in the plane `y = 0`. -/
theorem c119_cone_partial (asEuler : M3 → ℝ × ℝ × ℝ) (S : ScalarSolvers) (rp coneAngle hD : ℝ) (tooth : Curve)
    (hg : tooth.kind.Sampled ∧ tooth.updateLengths = tooth)
    (r : Curve ⊕ List Curve) (hr : lowerLimitCone asEuler S rp coneAngle hD tooth = some r)
    (hsuc : ∀ f, f = planeResidual tooth.eval
        (app (Ry (π / 2 - coneAngle / 2 + hD / |rp / sin (coneAngle / 2)|)) OUT)
        ((|rp / sin (coneAngle / 2)| * cos (coneAngle / 2)) • OUT) →
      (S.root1 f 0).success = true ∧ f (S.root1 f 0).x = some 0) :
    let R := |rp / sin (coneAngle / 2)|
    let root := coneAngle / 2 - hD / R
    ∃ t p v, r = .inl t ∧ t.eval 0 = some p ∧ t.eval 1 = tooth.eval 1 ∧
      v = p - (R * cos (coneAngle / 2)) • OUT ∧ v 0 * cos root + v 2 * sin root = 0 ∧
      (0 < cos root → -(v 2) * sin root ≤ Spec.rootDist v * cos root ∧
        (-(v 2) * sin root = Spec.rootDist v * cos root ↔ v 1 = 0 ∧ 0 ≤ v 0)) := by
  intro R root
  have hR : (gearPolarData coneAngle rp).R = R := by
    simp [ConicData.R, gearPolarData, ConicData.gamma, TransformData.default, R]
  have hgam : (gearPolarData coneAngle rp).gamma = coneAngle / 2 := rfl
  rw [lowerLimitCone] at hr
  simp only [hR, hgam] at hr
  obtain ⟨f, hf⟩ : ∃ f, f = planeResidual tooth.eval (app (Ry (π / 2 - coneAngle / 2 + hD / R)) OUT)
    ((R * cos (coneAngle / 2)) • OUT) := ⟨_, rfl⟩
  rw [← hf] at hr
  obtain ⟨h1, h2⟩ := hsuc f hf
  rw [h1, if_pos rfl, Option.map_eq_some_iff] at hr
  obtain ⟨t, ht, rfl⟩ := hr
  obtain ⟨p, hp⟩ : ∃ p, tooth.eval (S.root1 f 0).x = some p := by
    rw [Curve.setStartOn, Option.map_eq_some_iff] at ht
    obtain ⟨u, e, _⟩ := ht
    exact ⟨_, by rw [Curve.eval, e]; rfl⟩
  obtain ⟨t', e1, -, -, e4, e5⟩ := curve_lawful.start tooth _ p hg hp
  obtain rfl : t' = t := Option.some.inj (e1.symm.trans ht)
  obtain ⟨v, hv⟩ : ∃ v, v = p - (R * cos (coneAngle / 2)) • OUT := ⟨_, rfl⟩
  have hplane : v 0 * cos root + v 2 * sin root = 0 := by
    obtain ⟨x, hx⟩ : ∃ x, x = (S.root1 f 0).x := ⟨_, rfl⟩
    rw [← hx] at hp h2
    rw [hf, planeResidual, hp] at h2
    have e := Option.some.inj h2
    simp only [← hv] at e
    have a1 : π / 2 - coneAngle / 2 + hD / R = π / 2 - root := by simp only [root]; ring
    rw [a1] at e
    simp [dot, Fin.sum_univ_three, Ry_app, OUT] at e
    rw [sin_pi_div_two_sub, cos_pi_div_two_sub] at e
    linarith
  refine ⟨t', p, v, rfl, e4, e5, hv, hplane, fun hc => ?_⟩
  have e0 : -(v 2) * sin root = v 0 * cos root := by linarith
  have hle : v 0 ≤ Spec.rootDist v := by
    rw [Spec.rootDist]; exact le_sqrt_of_sq_le (by nlinarith [sq_nonneg (v 1)])
  rw [e0]
  refine ⟨mul_le_mul_of_nonneg_right hle hc.le, ⟨fun h => ?_, fun ⟨h, h'⟩ => ?_⟩⟩
  · have h3 : v 0 = Spec.rootDist v := mul_right_cancel₀ hc.ne' h
    have h4 : 0 ≤ v 0 := by rw [h3]; exact sqrt_nonneg _
    refine ⟨?_, h4⟩
    have h5 : v 0 ^ 2 = v 0 ^ 2 + v 1 ^ 2 := by
      conv_lhs => rw [h3, Spec.rootDist]
      exact sq_sqrt (by positivity)
    exact pow_eq_zero_iff (two_ne_zero) |>.1 (by linarith)
  · congr 1
    rw [Spec.rootDist, h]
    simp [sqrt_sq h']

/-- The octoid flank of a crown gear (cone angle `π`). -/
theorem octoid_crown (pia rp alpha t : ℝ) (hrp : 0 < rp) : octoidFlank pia rp π alpha t =
    (rp / √(sin alpha ^ 2 * sin t ^ 2 + cos t ^ 2)) •
      ![cos t * cos pia + sin t * sin alpha ^ 2 * sin pia, sin t * sin alpha ^ 2 * cos pia - cos t * sin pia,
        sin t * (sin alpha * cos alpha)] := by
  have h1 : |rp / sin (π / 2)| = rp := by rw [sin_pi_div_two, div_one, abs_of_pos hrp]
  have h2 : arcsin (rp / rp) = π / 2 := by rw [div_self hrp.ne', arcsin_one]
  have ha : cos alpha ^ 2 = 1 - sin alpha ^ 2 := cos_sq' alpha
  have ht : cos t ^ 2 = 1 - sin t ^ 2 := cos_sq' t
  rw [octoidFlank]
  have v0 : -(cos alpha ^ 2) * cos t * sin t * cos t + 1 * sin alpha ^ 2 * sin t * sin t ^ 2 +
      0 * sin alpha * cos alpha * sin t * sin t + 1 * sin t * cos t ^ 2 = sin t * sin alpha ^ 2 := by
    linear_combination (-(cos t ^ 2 * sin t)) * ha + (sin alpha ^ 2 * sin t) * ht
  have v1 : cos alpha ^ 2 * sin t * sin t * cos t + 1 * sin alpha ^ 2 * cos t * sin t ^ 2 +
      0 * sin alpha * cos alpha * cos t * sin t + 1 * cos t * cos t ^ 2 = cos t := by
    linear_combination (sin t ^ 2 * cos t) * ha + cos t * ht
  have z : √(rp ^ 2 - rp ^ 2) = 0 := by rw [sub_self, sqrt_zero]
  simp only [octoid, one_div, inv_inv]
  obtain ⟨k, hk⟩ : ∃ k, k = rp / √(sin alpha ^ 2 * sin t ^ 2 + cos t ^ 2) := ⟨_, rfl⟩
  have e : -rp / √(sin alpha ^ 2 * sin t ^ 2 + cos t ^ 2) = -k := by rw [hk]; ring
  have hs : cos (π / 2 + -pia) = sin pia := by
    rw [← sub_eq_add_neg, cos_pi_div_two_sub]
  have hc : sin (π / 2 + -pia) = cos pia := by
    rw [← sub_eq_add_neg, sin_pi_div_two_sub]
  rw [h1, h2, sin_pi_div_two, cos_pi_div_two, mul_one, e, ← hk, v0, v1, z]
  apply V3.ext3
  · simp [app_mul, Rz_app, Ry_app, hs, hc, OUT]
    ring
  · simp [app_mul, Rz_app, Ry_app, hs, hc, OUT]
    ring
  · simp [app_mul, Rz_app, Ry_app, hs, hc, OUT]
    left; ring

/-- A crown gear whose flanks meet in the middle of the tooth at roll angle 1. -/
noncomputable def crownPia (alpha : ℝ) : ℝ := arctan (sin alpha ^ 2 * tan 1)

/-- The roll angle at which the octoid of that gear meets the plane that is searched, for the root depth angle `d`. -/
noncomputable def crownRoll (alpha d : ℝ) : ℝ :=
  -arctan (sin d * cos (crownPia alpha) /
    (cos d * (sin alpha * cos alpha) + sin d * sin alpha ^ 2 * sin (crownPia alpha)))

/-- The octoid curve of that gear. -/
noncomputable def crownCurve (rp alpha : ℝ) : Curve :=
  Curve.make (.generic (octoidFlank (crownPia alpha) rp π alpha) 20) true 0 1

/-- The first table entry of that curve. -/
noncomputable def crownStep (rp alpha : ℝ) : ℝ := (crownCurve rp alpha).lookup.s 1

/-- A solver for both searches. -/
noncomputable def crownSolver (rp alpha d : ℝ) : ScalarSolvers :=
  open scoped Classical in
  { root := fun _ _ => ⟨false, 0⟩, minimize := fun _ _ => ⟨false, (0, 0)⟩,
    root1 := fun _ g => if g = 1 then ⟨true, 1⟩ else ⟨true, crownRoll alpha d * 20 * crownStep rp alpha⟩,
    minimize1 := fun _ _ => ⟨false, 0⟩ }

theorem crown_facts (rp alpha : ℝ) (hrp : 0 < rp) (ha0 : 0 < alpha) (ha1 : alpha < π / 2) :
    0 < sin (crownPia alpha) ∧ 0 < cos (crownPia alpha) ∧
      sin 1 * sin alpha ^ 2 * cos (crownPia alpha) = cos 1 * sin (crownPia alpha) ∧
      0 < crownStep rp alpha ∧ (crownCurve rp alpha).kind.Sampled ∧
      (crownCurve rp alpha).updateLengths = crownCurve rp alpha ∧
      (crownCurve rp alpha).s2t 1 = some 1 ∧
      (∀ s < 0, (crownCurve rp alpha).s2t s = some (s / crownStep rp alpha / 20)) := by
  have hpi := pi_gt_three
  have hsa : 0 < sin alpha := sin_pos_of_pos_of_lt_pi ha0 (by linarith)
  have hca : 0 < cos alpha := cos_pos_of_mem_Ioo ⟨by linarith, ha1⟩
  have hs1 : 0 < sin 1 := sin_pos_of_pos_of_lt_pi one_pos (by linarith)
  have hc1 : 0 < cos 1 := cos_pos_of_mem_Ioo ⟨by linarith, by linarith⟩
  have ht1 : 0 < tan 1 := by rw [tan_eq_sin_div_cos]; positivity
  have hp0 : 0 < crownPia alpha := by rw [crownPia]; exact arctan_pos.2 (by positivity)
  have hp1 : crownPia alpha < π / 2 := arctan_lt_pi_div_two _
  have hsp : 0 < sin (crownPia alpha) := sin_pos_of_pos_of_lt_pi hp0 (by linarith)
  have hcp : 0 < cos (crownPia alpha) := cos_arctan_pos _
  have hsam : (CurveKind.generic (octoidFlank (crownPia alpha) rp π alpha) 20).Sampled := by
    change 1 ≤ 20; norm_num
  have hmk : crownCurve rp alpha = Curve.updateLengths
      ⟨.generic (octoidFlank (crownPia alpha) rp π alpha) 20, true, 0, 1, 0, Lookup.default⟩ := by
    rw [crownCurve, Curve.make, if_pos rfl]
  have hT : (crownCurve rp alpha).Tabled := by
    rw [hmk]; exact updateLengths_tabled _ hsam
  have hmono : ∀ n, 0 ≤ chordLen (octoidFlank (crownPia alpha) rp π alpha) (linspace 0 1 20) n ∧
      chordLen (octoidFlank (crownPia alpha) rp π alpha) (linspace 0 1 20) 1 ≤
        chordLen (octoidFlank (crownPia alpha) rp π alpha) (linspace 0 1 20) (n + 1) := by
    intro n
    induction n with
    | zero => exact ⟨le_rfl, le_rfl⟩
    | succ n ih =>
      refine ⟨add_nonneg ih.1 (norm3_nonneg _), ih.2.trans ?_⟩
      exact le_add_of_nonneg_right (norm3_nonneg _)
  have hstep : 0 < chordLen (octoidFlank (crownPia alpha) rp π alpha) (linspace 0 1 20) 1 := by
    rw [chordLen, chordLen, zero_add]
    apply norm3_pos
    intro e
    have e2 := congrFun e 2
    have hsi : 0 < sin (1 / 20 : ℝ) := sin_pos_of_pos_of_lt_pi (by norm_num) (by linarith)
    have hD : 0 < sin alpha ^ 2 * sin (1 / 20) ^ 2 + cos (1 / 20) ^ 2 := by positivity
    have l0 : linspace 0 1 20 0 = 0 := by simp [linspace]
    have l1 : linspace 0 1 20 (0 + 1) = 1 / 20 := by simp [linspace]
    rw [l0, l1, octoid_crown _ _ _ _ hrp, octoid_crown _ _ _ _ hrp] at e2
    change rp / √(sin alpha ^ 2 * sin (1 / 20) ^ 2 + cos (1 / 20) ^ 2) * (sin (1 / 20) * (sin alpha * cos alpha)) -
      rp / √(sin alpha ^ 2 * sin 0 ^ 2 + cos 0 ^ 2) * (sin 0 * (sin alpha * cos alpha)) = 0 at e2
    have hq := sqrt_pos.2 hD
    have hz : 0 < rp / √(sin alpha ^ 2 * sin (1 / 20) ^ 2 + cos (1 / 20) ^ 2) *
      (sin (1 / 20) * (sin alpha * cos alpha)) := by positivity
    rw [sin_zero, zero_mul, mul_zero, sub_zero] at e2
    exact hz.ne' e2
  have hlen : 0 < chordLen (octoidFlank (crownPia alpha) rp π alpha) (linspace 0 1 20) 20 :=
    hstep.trans_le (hmono 19).2
  have hst : crownStep rp alpha = chordLen (octoidFlank (crownPia alpha) rp π alpha) (linspace 0 1 20) 1 /
      chordLen (octoidFlank (crownPia alpha) rp π alpha) (linspace 0 1 20) 20 := by
    rw [crownStep, hmk]
    change (if _ = _ then _ else _ : ℕ → ℝ) 1 = _
    rw [if_neg hlen.ne']
  have hpos : 0 < crownStep rp alpha := by rw [hst]; positivity
  refine ⟨hsp, hcp, ?_, hpos, ?_, ?_, ?_, ?_⟩
  · have h := tan_arctan (sin alpha ^ 2 * tan 1)
    rw [← crownPia, tan_eq_sin_div_cos, tan_eq_sin_div_cos, div_eq_iff hcp.ne'] at h
    rw [h]; field_simp
  · rw [hmk, updateLengths_kind]; exact hsam
  · rw [hmk, updateLengths_idem]
  · rw [hT.s2t_one, hmk, updateLengths_t1]
  · intro s hs
    have h0 := hT.s_zero
    have ht0 : (crownCurve rp alpha).lookup.t 0 = 0 := by rw [hT.t_zero, hmk, updateLengths_t0]
    have ht1 : (crownCurve rp alpha).lookup.t 1 = 1 / 20 := by
      rw [hmk]; change linspace 0 1 20 1 = _; simp [linspace]
    rw [Curve.s2t]
    rw [if_pos hs, interpolate, h0, ht0, ht1]
    change (if crownStep rp alpha - 0 = 0 then none else some (0 + (1 / 20 - 0) * (s - 0) / (crownStep rp alpha - 0))) = _
    rw [if_neg (by rw [sub_zero]; exact hpos.ne')]
    congr 1
    rw [sub_zero, sub_zero, sub_zero, zero_add, div_eq_mul_inv]
    ring

/-- **C119, tip of the octoid.** If the octoid meets the middle plane of the tooth, `y = 0`, and the solver finds roots where there
are any, the flank runs from the start of the octoid to a point of this plane. -/
theorem c119_octoid_tip (S : ScalarSolvers) (pia rp coneAngle alpha : ℝ)
    (hsolve : ∀ (f : ℝ → Option ℝ) (x0 : ℝ), (∃ x, f x = some 0) → f (S.root1 f x0).x = some 0)
    (hmeet : ∃ σ p, (Curve.make (.generic (octoidFlank pia rp coneAngle alpha) 20) true 0 1).eval σ = some p ∧ p 1 = 0) :
    ∃ c p, octoidCurve S pia rp coneAngle alpha = some c ∧ c.eval 1 = some p ∧ p 1 = 0 ∧
      c.eval 0 = some (octoidFlank pia rp coneAngle alpha 0) := by
  have hsam : (CurveKind.generic (octoidFlank pia rp coneAngle alpha) 20).Sampled := by
    change 1 ≤ 20; norm_num
  obtain ⟨c, hc⟩ : ∃ c, c = Curve.make (.generic (octoidFlank pia rp coneAngle alpha) 20) true 0 1 := ⟨_, rfl⟩
  have hmk : c = Curve.updateLengths
      ⟨.generic (octoidFlank pia rp coneAngle alpha) 20, true, 0, 1, 0, Lookup.default⟩ := by
    rw [hc, Curve.make, if_pos rfl]
  have hT : c.Tabled := by rw [hmk]; exact updateLengths_tabled _ hsam
  rw [octoidCurve]
  rw [← hc] at hmeet ⊢
  obtain ⟨σ, q, hq, hq1⟩ := hmeet
  have hres := hsolve (planeResidual c.eval UP ORIGIN) 1 ⟨σ, by
    rw [planeResidual, hq]
    simp [dot, Fin.sum_univ_three, UP, ORIGIN, hq1]⟩
  obtain ⟨x, hx⟩ : ∃ x, x = (S.root1 (planeResidual c.eval UP ORIGIN) 1).x := ⟨_, rfl⟩
  rw [← hx] at hres ⊢
  rw [planeResidual, Option.map_eq_some_iff] at hres
  obtain ⟨p, hp, hp1⟩ := hres
  obtain ⟨c', e1, -, -, e4, e5⟩ := curve_lawful.fin c x p
    ⟨by rw [hmk, updateLengths_kind]; exact hsam, by rw [hmk, updateLengths_idem]⟩ hp
  refine ⟨c', p, e1, e4, ?_, ?_⟩
  · simpa [dot, Fin.sum_univ_three, UP, ORIGIN] using hp1
  · refine e5.trans (hT.eval_zero.trans ?_)
    rw [hmk, updateLengths_kind, updateLengths_t0]; rfl

/-- Concrete case: the crown gears below, with a solver that finds every root there is. -/
theorem c119_octoid_tip_example (rp alpha : ℝ) (hrp : 0 < rp) (ha0 : 0 < alpha) (ha1 : alpha < π / 2) :
    ∃ S c p, octoidCurve S (crownPia alpha) rp π alpha = some c ∧ c.eval 1 = some p ∧ p 1 = 0 := by
  classical
  obtain ⟨-, -, hy, -, -, -, h1, -⟩ := crown_facts rp alpha hrp ha0 ha1
  obtain ⟨c, p, e1, e2, e3, -⟩ := c119_octoid_tip
    { root := fun _ _ => ⟨false, 0⟩, minimize := fun _ _ => ⟨false, (0, 0)⟩,
      root1 := fun f _ => if h : ∃ x, f x = some 0 then ⟨true, h.choose⟩ else ⟨false, 0⟩,
      minimize1 := fun _ _ => ⟨false, 0⟩ } (crownPia alpha) rp π alpha
    (fun f x0 h => by
      change f (if h : ∃ x, f x = some 0 then _ else _ : Solved ℝ).x = _
      rw [dif_pos h]; exact h.choose_spec)
    ⟨1, octoidFlank (crownPia alpha) rp π alpha 1, by
      change (crownCurve rp alpha).eval 1 = _
      rw [Curve.eval, h1, crownCurve, Curve.make, if_pos rfl, updateLengths_kind]; rfl, by
      rw [octoid_crown _ _ _ _ hrp]
      simp
      right; linarith⟩
  exact ⟨_, c, p, e1, e2, e3⟩

/-- **C119 is violated for conical gears, and the undercut octoid tooth then cannot be made.** For every crown gear (cone
angle `π`) with flanks that meet at roll angle 1 and a root deeper than the base cone, the octoid meets the searched plane.
If the solver finds these true crossings, the flank starts strictly outside the root cone and nothing is added; and since
the flank is a plain curve while undercut is enabled, `trim_involute_undercut` fails with an `AttributeError`. -/
theorem c119_octoid_violated (asEuler : M3 → ℝ × ℝ × ℝ) (rp alpha hD : ℝ) (hrp : 0 < rp) (ha0 : 0 < alpha)
    (ha1 : alpha < π / 2) (hd0 : alpha < hD / rp) (hd1 : hD / rp < π / 2) :
    ∃ (S : ScalarSolvers) (pia : ℝ) (tooth t : Curve) (p : V3),
      -- the searches answer truly
      (∀ f, f = planeResidual (crownCurve rp alpha).eval UP ORIGIN → f (S.root1 f 1).x = some 0) ∧
      (∀ f, f = planeResidual tooth.eval
          (app (Ry (π / 2 - π / 2 + hD / |rp / sin (π / 2)|)) OUT) ((|rp / sin (π / 2)| * cos (π / 2)) • OUT) →
        (S.root1 f 0).success = true ∧ f (S.root1 f 0).x = some 0) ∧
      octoidCurve S pia rp π alpha = some tooth ∧
      checkLowerLimit asEuler S pia rp π hD tooth = some (.inl t) ∧ t.eval 0 = some p ∧
      -- the start is outside the root cone, whose half angle is π / 2 - h_d / R
      -(p 2) * sin (π / 2 - hD / rp) < Spec.rootDist p * cos (π / 2 - hD / rp) ∧
      p 0 * cos (π / 2 - hD / rp) + p 2 * sin (π / 2 - hD / rp) = 0 ∧ p 2 < 0 ∧ octoidUndercutOn rp π alpha hD ∧ firstPortion (.inl t) = none := by
  have hpi := pi_gt_three
  have hsa : 0 < sin alpha := sin_pos_of_pos_of_lt_pi ha0 (by linarith)
  have hca : 0 < cos alpha := cos_pos_of_mem_Ioo ⟨by linarith, ha1⟩
  have hsd : 0 < sin (hD / rp) := sin_pos_of_pos_of_lt_pi (by linarith) (by linarith)
  have hcd : 0 < cos (hD / rp) := cos_pos_of_mem_Ioo ⟨by linarith, hd1⟩
  obtain ⟨hsp, hcp, hy, hst, hsam, hup, h1, hneg⟩ := crown_facts rp alpha hrp ha0 ha1
  have hR : |rp / sin (π / 2)| = rp := by rw [sin_pi_div_two, div_one, abs_of_pos hrp]
  obtain ⟨d, hd⟩ : ∃ d, d = hD / rp := ⟨_, rfl⟩
  obtain ⟨q, hq⟩ : ∃ q, q = crownPia alpha := ⟨_, rfl⟩
  obtain ⟨tr, htr⟩ : ∃ tr, tr = crownRoll alpha d := ⟨_, rfl⟩
  rw [← hq] at hsp hcp hy
  rw [← hd] at hsd hcd hd0 hd1
  have hkind : (crownCurve rp alpha).kind = .generic (octoidFlank q rp π alpha) 20 := by
    rw [hq, crownCurve, Curve.make, if_pos rfl, updateLengths_kind]
  have hK : 0 < sin d * cos q / (cos d * (sin alpha * cos alpha) + sin d * sin alpha ^ 2 * sin q) := by positivity
  have htneg : tr < 0 := by
    rw [htr, crownRoll, ← hq]; exact neg_neg_of_pos (arctan_pos.2 hK)
  have htlow : -(π / 2) < tr := by
    rw [htr, crownRoll]; exact neg_lt_neg (arctan_lt_pi_div_two _)
  have hct : 0 < cos tr := cos_pos_of_mem_Ioo ⟨htlow, by linarith⟩
  have hstn : sin tr < 0 := sin_neg_of_neg_of_neg_pi_lt htneg (by linarith)
  have htan : sin tr * (cos d * (sin alpha * cos alpha) + sin d * sin alpha ^ 2 * sin q) =
      -(sin d * cos q) * cos tr := by
    have h := tan_arctan (sin d * cos q / (cos d * (sin alpha * cos alpha) + sin d * sin alpha ^ 2 * sin q))
    have h2 : tan tr = -(sin d * cos q / (cos d * (sin alpha * cos alpha) + sin d * sin alpha ^ 2 * sin q)) := by
      rw [htr, crownRoll, tan_neg, ← hq, h]
    rw [tan_eq_sin_div_cos, div_eq_iff hct.ne'] at h2
    rw [h2]; field_simp
  have hev1 : (crownCurve rp alpha).eval 1 = some (octoidFlank q rp π alpha 1) := by
    rw [Curve.eval, h1, hkind]; rfl
  have hevs : (crownCurve rp alpha).eval (tr * 20 * crownStep rp alpha) = some (octoidFlank q rp π alpha tr) := by
    rw [Curve.eval, hneg _ (by nlinarith [mul_pos (neg_pos.2 htneg) hst]), hkind]
    change some (octoidFlank q rp π alpha _) = _
    congr 2
    field_simp
  have hoct : octoidCurve (crownSolver rp alpha d) q rp π alpha = some (crownCurve rp alpha) := by
    rw [octoidCurve]
    change (Curve.make _ _ _ _).setEndOn (if (1 : ℝ) = 1 then _ else _ : Solved ℝ).x = _
    rw [if_pos rfl, hq]
    change (crownCurve rp alpha).setEndOn 1 = _
    rw [Curve.setEndOn, h1]
    change some (Curve.updateLengths _) = _
    congr 1
  have htrue : ∀ f, f = planeResidual (crownCurve rp alpha).eval
      (app (Ry (π / 2 - π / 2 + hD / |rp / sin (π / 2)|)) OUT) ((|rp / sin (π / 2)| * cos (π / 2)) • OUT) →
      ((crownSolver rp alpha d).root1 f 0).success = true ∧ f ((crownSolver rp alpha d).root1 f 0).x = some 0 := by
    rintro f rfl
    change (if (0 : ℝ) = 1 then _ else _ : Solved ℝ).success = true ∧ planeResidual _ _ _ (if (0 : ℝ) = 1 then _ else _ : Solved ℝ).x = _
    rw [if_neg zero_ne_one]
    refine ⟨rfl, ?_⟩
    change planeResidual _ _ _ (crownRoll alpha d * 20 * crownStep rp alpha) = _
    rw [← htr, planeResidual, hevs, hR, ← hd, octoid_crown _ _ _ _ hrp]
    simp only [Option.map_some, cos_pi_div_two, sub_self, zero_add, mul_zero, zero_smul, sub_zero]
    congr 1
    simp [dot, Fin.sum_univ_three, Ry_app, OUT]
    linear_combination rp / √(sin alpha ^ 2 * sin tr ^ 2 + cos tr ^ 2) * htan
  obtain ⟨t, ht⟩ : ∃ t, (crownCurve rp alpha).setStartOn (tr * 20 * crownStep rp alpha) = some t := by
    obtain ⟨t, e, -⟩ := curve_lawful.start _ _ _ ⟨hsam, hup⟩ hevs
    exact ⟨t, e⟩
  have hlow : checkLowerLimit asEuler (crownSolver rp alpha d) q rp π hD (crownCurve rp alpha) = some (.inl t) := by
    rw [checkLowerLimit, if_neg pi_ne_zero, lowerLimitCone]
    change (if (if (0 : ℝ) = 1 then _ else _ : Solved ℝ).success = true then Option.map Sum.inl
      ((crownCurve rp alpha).setStartOn (if (0 : ℝ) = 1 then _ else _ : Solved ℝ).x) else _) = _
    rw [if_neg zero_ne_one]
    change (if true = true then Option.map Sum.inl ((crownCurve rp alpha).setStartOn
      (crownRoll alpha d * 20 * crownStep rp alpha)) else _) = _
    rw [if_pos rfl, ← htr, ht]; rfl
  obtain ⟨t', p, v, e1, e2, -, hv, hpl, hcone⟩ := c119_cone_partial asEuler (crownSolver rp alpha d) rp π hD
    (crownCurve rp alpha) ⟨hsam, hup⟩ _ (by rw [checkLowerLimit, if_neg pi_ne_zero] at hlow; exact hlow) htrue
  obtain rfl : t = t' := Sum.inl.inj e1
  have hp : p = octoidFlank q rp π alpha tr := by
    obtain ⟨t'', f1, -, -, f4, -⟩ := curve_lawful.start _ _ _ ⟨hsam, hup⟩ hevs
    obtain rfl : t'' = t := Option.some.inj (f1.symm.trans ht)
    exact Option.some.inj (e2.symm.trans f4)
  have hvp : v = p := by rw [hv, cos_pi_div_two]; simp
  rw [hvp, hR] at hcone hpl
  have hD' : 0 < sin alpha ^ 2 * sin tr ^ 2 + cos tr ^ 2 := by positivity
  have hsq := sqrt_pos.2 hD'
  refine ⟨crownSolver rp alpha d, q, crownCurve rp alpha, t, p, ?_, htrue, hoct, hlow, e2, ?_, hpl, ?_, ?_, rfl⟩
  · rintro f rfl
    change planeResidual _ _ _ (if (1 : ℝ) = 1 then _ else _ : Solved ℝ).x = _
    rw [if_pos rfl, planeResidual]
    change Option.map _ ((crownCurve rp alpha).eval 1) = _
    rw [hev1, octoid_crown _ _ _ _ hrp]
    simp only [Option.map_some]
    congr 1
    simp [dot, Fin.sum_univ_three, UP, ORIGIN]
    right; linarith
  · obtain ⟨g1, g2⟩ := hcone (by rw [← hd, cos_pi_div_two_sub]; exact hsd)
    refine lt_of_le_of_ne g1 fun e => ?_
    have h0 := (g2.1 e).1
    rw [hp, octoid_crown _ _ _ _ hrp] at h0
    change rp / √(sin alpha ^ 2 * sin tr ^ 2 + cos tr ^ 2) * (sin tr * sin alpha ^ 2 * cos q - cos tr * sin q) = 0 at h0
    have hneg' : sin tr * sin alpha ^ 2 * cos q - cos tr * sin q < 0 := by
      have a1 : 0 < -sin tr * sin alpha ^ 2 * cos q := by
        have := neg_pos.2 hstn; positivity
      have a2 : 0 < cos tr * sin q := by positivity
      linarith
    have : rp / √(sin alpha ^ 2 * sin tr ^ 2 + cos tr ^ 2) * (sin tr * sin alpha ^ 2 * cos q - cos tr * sin q) < 0 :=
      mul_neg_of_pos_of_neg (by positivity) hneg'
    linarith
  · rw [hp, octoid_crown _ _ _ _ hrp]
    change rp / √(sin alpha ^ 2 * sin tr ^ 2 + cos tr ^ 2) * (sin tr * (sin alpha * cos alpha)) < 0
    exact mul_neg_of_pos_of_neg (by positivity) (mul_neg_of_neg_of_pos hstn (by positivity))
  · rw [octoidUndercutOn, show (gearPolarData π rp).R = rp by
      simp [ConicData.R, gearPolarData, ConicData.gamma, TransformData.default, abs_of_pos hrp],
      sin_pi_div_two, one_mul, ← sin_pi_div_two_sub, arcsin_sin (by linarith) (by linarith), ← hd]
    linarith

/-- Concrete case: a pressure angle of 0.35 (20°) and a depth angle of 0.4, as for a crown gear with 6 teeth. -/
example : (0 : ℝ) < 3 ∧ (0 : ℝ) < 0.35 ∧ (0.35 : ℝ) < π / 2 ∧ (0.35 : ℝ) < 1.2 / 3 ∧ (1.2 : ℝ) / 3 < π / 2 := by
  have := pi_gt_three
  refine ⟨by norm_num, by norm_num, by linarith, by norm_num, by linarith⟩

/-! ### The connector -/

theorem arc_reverse_upd (r a : ℝ) (ctr : V3) (y p ro s : ℝ) :
    (arcInit r a ctr y p ro true).reverse.updateLengths.eval s = (arcInit r a ctr y p ro true).eval (1 - s) := by
  have hk : ∀ f n, (arcInit r a ctr y p ro true).kind ≠ .generic f n := by
    intro f n h
    rw [arcInit, Curve.make, if_pos rfl, updateLengths_kind] at h
    cases h
  rw [Curve.eval, s2t_line_arc (arcInit r a ctr y p ro true).reverse hk, updateLengths_kind, arcInit, make_eval _ (by intro f n h; cases h)]
  have h0 : (Curve.make (.arc r a ctr (eulerZYX y p ro)) true 0 1).t0 = 0 := by
    rw [Curve.make, if_pos rfl, updateLengths_t0]
  have h1 : (Curve.make (.arc r a ctr (eulerZYX y p ro)) true 0 1).t1 = 1 := by
    rw [Curve.make, if_pos rfl, updateLengths_t1]
  have h2 : (Curve.make (.arc r a ctr (eulerZYX y p ro)) true 0 1).kind = .arc r a ctr (eulerZYX y p ro) := by
    rw [Curve.make, if_pos rfl, updateLengths_kind]
  simp only [Curve.reverse, h0, h1, h2, Option.map_some]
  congr 2
  ring

theorem arcPCA_shape {asEuler : M3 → ℝ × ℝ × ℝ} {p0 center axis : V3} {angle : ℝ} {act : Bool} {c : Curve}
    (h : arcFromPointCenterAngle asEuler p0 center angle axis act = some c) :
    ∃ r y p ro, c = arcInit r angle center y p ro act := by
  rw [arcFromPointCenterAngle] at h
  simp only at h
  cases h1 : normalizeVector (p0 - center) with
  | none => rw [h1] at h; cases h
  | some x =>
    rw [h1] at h
    simp only at h
    cases h2 : normalizeVector (cross axis x) with
    | none => rw [h2] at h; cases h
    | some y =>
      rw [h2] at h
      exact ⟨_, _, _, _, (Option.some.inj h).symm⟩

/-- **C119 is violated by the connector of conical gears.** For a bevel gear with half cone angle 45°, pitch radius 1 and any
root angle `δ` below the pitch cone, and a flank along which the distance from the searched plane is a nonzero constant (so
that no search can succeed and every point is a minimiser), the connector starts at the other side of the gear axis, at
`x = -√2 sin δ`. The point of the root cone below the flank has `x = √2 sin (π / 4 - δ)`. The code takes the angle of the
flank's start from the origin, but turns about the apex. -/
theorem c119_connector_violated {asEuler : M3 → ℝ × ℝ × ℝ} (hE : EulerOk asEuler) (T : Solvers) (δ : ℝ) (h0 : 0 < δ)
    (h1 : δ < π / 4) :
    (∃ k, k ≠ 0 ∧ ∀ s, planeResidual (lineC ![1, 0, 0] ![1, 1, 0]).eval
      (app (Ry (π / 2 - π / 4 + √2 * δ / √2)) OUT) ((√2 * cos (π / 4)) • OUT) s = some k) ∧
    ∃ c t p, lowerLimitCone asEuler ⟨T, fun _ _ => ⟨false, 0⟩, fun _ _ => ⟨true, 0⟩⟩ 1 (π / 2) (√2 * δ)
        (lineC ![1, 0, 0] ![1, 1, 0]) = some (.inr [c, t]) ∧
      c.eval 0 = some p ∧ c.eval 1 = some ![1, 0, 0] ∧ t.eval 0 = some ![1, 0, 0] ∧
      p 1 = 0 ∧ p 0 = -(√2 * sin δ) ∧ p 0 < 0 ∧ 0 < √2 * sin (π / 4 - δ) := by
  have hpi := pi_gt_three
  have h2 : 0 < √2 := by positivity
  have hsq : √2 * √2 = 2 := mul_self_sqrt (by norm_num)
  have hsd : 0 < sin δ := sin_pos_of_pos_of_lt_pi h0 (by linarith)
  have hR : (gearPolarData (π / 2) 1).R = √2 := by
    have : π / 2 / 2 = π / 4 := by ring
    simp only [ConicData.R, gearPolarData, ConicData.gamma, TransformData.default, this, sin_pi_div_four]
    rw [abs_of_pos (by positivity)]
    field_simp; linarith
  have hg : (gearPolarData (π / 2) 1).gamma = π / 4 := by change π / 2 / 2 = _; ring
  have hz : √2 * cos (π / 4) = 1 := by rw [cos_pi_div_four]; linarith
  have hh : π / 2 - π / 4 + √2 * δ / √2 = π / 4 + δ := by field_simp; ring
  refine ⟨⟨√2 * sin δ, by positivity, fun s => ?_⟩, ?_⟩
  · rw [planeResidual, lineC_eval, hh, hz]
    simp only [Option.map_some]
    congr 1
    simp [dot, Fin.sum_univ_three, Ry_app, OUT, sin_add, cos_add, sin_pi_div_four, cos_pi_div_four]
    ring
  have hs : (lineC ![1, 0, 0] ![1, 1, 0]).setStartOn 0 = some (lineC ![1, 0, 0] ![1, 1, 0]) := by
    rw [lineC, line_setStart]; norm_num
  have he : (lineC ![1, 0, 0] ![1, 1, 0]).eval 0 = some ![1, 0, 0] := by
    rw [lineC_eval]; simp
  have ha : angleVectorPlane ![1, 0, 0] OUT = 0 := by
    have hp : (![1, 0, 0] : V3) - dot ![1, 0, 0] OUT • OUT = ![1, 0, 0] := by
      apply V3.ext3 <;> simp [dot, Fin.sum_univ_three, OUT]
    rw [angleVectorPlane]
    simp only [hp]
    rw [if_neg (norm3_pos (by intro e; simpa using congrFun e 0)).ne', angleBetween]
    have hc : cross (![1, 0, 0] : V3) ![1, 0, 0] = 0 := by apply V3.ext3 <;> simp [cross]
    have hn : norm3 (0 : V3) = 0 := by simp [norm3, dot]
    rw [hc, hn]
    have h : (⟨1, 0⟩ : ℂ) = 1 := rfl
    simp [dot, Fin.sum_univ_three, arctan2, h]
  have hne : (![1, 0, 0] : V3) ≠ (1 : ℝ) • OUT := by intro e; simpa [OUT] using congrFun e 0
  obtain ⟨c, hc, hact, hev⟩ := c49_point_angle_perp hE ![1, 0, 0] ((1 : ℝ) • OUT) (π / 4 + δ) UP true hne
    (by intro e; simpa [UP] using congrFun e 1) (by simp [dot, Fin.sum_univ_three, UP, OUT])
  obtain ⟨r, y, q, ro, rfl⟩ := arcPCA_shape hc
  have hup : norm3 UP = 1 := by rw [norm3]; simp [dot, Fin.sum_univ_three, UP]
  refine ⟨(arcInit r (π / 4 + δ) ((1 : ℝ) • OUT) y q ro true).reverse.updateLengths, lineC ![1, 0, 0] ![1, 1, 0],
    ![-(√2 * sin δ), 0, 1 - √2 * cos δ], ?_, ?_, ?_, he, rfl, rfl, ?_, ?_⟩
  · rw [lowerLimitCone]
    simp only [hs, he, Bool.false_eq_true, if_false, Option.bind_some, hR, hg, hz, hh, ha]
    rw [zero_sub, abs_neg, abs_of_pos (by linarith), hc]
    simp only [Option.map_some]
    congr 2
  · rw [arc_reverse_upd, hev, hup]
    congr 1
    apply V3.ext3 <;> simp [rodrigues, cross, dot, Fin.sum_univ_three, UP, OUT, sin_add, cos_add, sin_pi_div_four,
      cos_pi_div_four] <;> ring
  · rw [arc_reverse_upd, hev]
    congr 1
    apply V3.ext3 <;> simp [rodrigues, cross, dot, Fin.sum_univ_three, UP, OUT]
  · change -(√2 * sin δ) < 0
    have : 0 < √2 * sin δ := by positivity
    linarith
  · have : 0 < sin (π / 4 - δ) := sin_pos_of_pos_of_lt_pi (by linarith) (by linarith)
    positivity

/-! ### The requested dedendum -/

theorem two_planes {r1 r2 a b : ℝ} (h1 : a * cos r1 + b * sin r1 = 0) (h2 : a * cos r2 + b * sin r2 = 0)
    (hs : sin (r2 - r1) ≠ 0) : a = 0 ∧ b = 0 := by
  rw [sin_sub] at hs
  constructor
  · have : a * (sin r2 * cos r1 - cos r2 * sin r1) = 0 := by linear_combination sin r2 * h1 - sin r1 * h2
    exact (mul_eq_zero.1 this).resolve_right hs
  · have : b * (sin r2 * cos r1 - cos r2 * sin r1) = 0 := by linear_combination cos r1 * h2 - cos r2 * h1
    exact (mul_eq_zero.1 this).resolve_right hs

/-- **C119 is violated for the dedendum of conical gears without undercut.** A flank made by the wrapper with any limits
starts at the depth of the default dedendum 1.2: for the crown gear of pitch radius 3 and pressure angle 0.35 the start is
in the plane for the depth 1.2, and not in that for any other requested dedendum. -/
theorem c119_dedendum_violated (asEuler : M3 → ℝ × ℝ × ℝ) :
    ∃ (S : ScalarSolvers) (pia : ℝ) (t : Curve) (p : V3), ∀ limits : ToothLimitParam,
      wrapperOctoidCurve asEuler S pia 3 π 0.35 limits = some (.inl t) ∧ t.eval 0 = some p ∧
      p 0 * cos (π / 2 - 1.2 / 3) + p 2 * sin (π / 2 - 1.2 / 3) = 0 ∧
      (limits.hD ≠ 1.2 → |limits.hD - 1.2| < 9 →
        p 0 * cos (π / 2 - limits.hD / 3) + p 2 * sin (π / 2 - limits.hD / 3) ≠ 0) := by
  have hpi := pi_gt_three
  obtain ⟨S, pia, tooth, t, p, -, -, hoct, hlow, he, -, hpl, hneg, -, -⟩ :=
    c119_octoid_violated asEuler 3 0.35 1.2 (by norm_num) (by norm_num) (by linarith) (by norm_num) (by linarith)
  refine ⟨S, pia, t, p, fun limits => ⟨?_, he, hpl, fun h1 h2 e => ?_⟩⟩
  · rw [wrapperOctoidCurve, octoidToothCurve, show octoidToothLimits none = some ⟨1, 1.2, 2⟩ from rfl]
    simp only [Option.bind_some, hoct]
    exact hlow
  · refine hneg.ne (two_planes hpl e ?_).2
    rw [show π / 2 - limits.hD / 3 - (π / 2 - 1.2 / 3) = -((limits.hD - 1.2) / 3) by ring, sin_neg]
    rw [abs_lt] at h2
    rcases lt_or_gt_of_ne (sub_ne_zero.2 h1) with h | h
    · exact (neg_pos.2 (sin_neg_of_neg_of_neg_pi_lt (by linarith) (by linarith))).ne'
    · exact (neg_neg_of_pos (sin_pos_of_pos_of_lt_pi (by linarith) (by linarith))).ne

end Verif
