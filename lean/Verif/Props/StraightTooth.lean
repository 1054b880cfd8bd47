import Verif.Model.StraightTooth
import Verif.Spec.CrownRack
import Verif.Spec.StraightTooth
import Verif.Props.Arc
import Verif.Props.Chain2
import Verif.Props.Flank
import Mathlib.Analysis.Real.Pi.Bounds

/-! # Property C135 -/

namespace Verif

open Real Spec

section C135
variable {pia rp ta coneAngle : ℝ}

theorem oneMember_eval (c : Curve) (hact : c.active = true) (hpos : 0 < c.length) (s : ℝ) :
    chainEval curveOps [c] s = c.eval s := by
  have hlen : curveOps.len c = c.length := len_of_active hact
  have htot : chainLen curveOps [c] = c.length := by simp [chainLen, hlen]
  have ha : curveOps.active c = true := hact
  have hr : ∀ r : ℕ, (let r' := if activeMaxSucc curveOps [c] < r then activeMaxSucc curveOps [c] else r
      if r' < activeMin curveOps [c] + 1 then activeMin curveOps [c] + 1 else r') = 1 := by
    intro r
    have e1 : activeMaxSucc curveOps [c] = 1 := by simp [activeMaxSucc, ha]
    have e2 : activeMin curveOps [c] = 0 := by simp [activeMin, ha]
    simp only [e1, e2]
    split_ifs <;> omega
  have hP0 : portion curveOps [c] 0 = 0 := by simp [portion, preLen_zero]
  have hP1 : portion curveOps [c] 1 = 1 := by
    rw [portion, htot]
    simp only [preLen, List.take_succ_cons, List.take_zero, List.map_cons, List.map_nil, hlen]
    simp [hpos.ne']
  rw [chainEval, getSIndex, if_neg (by rw [htot]; exact hpos.ne')]
  simp only at hr
  simp only [hr]
  rw [if_neg (by simp)]
  simp only [Nat.sub_self, hP0, hP1]
  simp [curveOps]

/-- Direction of the tilted flank in the plane. -/
theorem pitchPoint_eq (pia rp : ℝ) : flankPitchPoint pia rp = circlePoint rp (-pia) 0 := by
  apply V3.ext3 <;> simp [flankPitchPoint, circlePoint, RIGHT] <;> ring

theorem straight_eval (hrp : 0 < rp) (s : ℝ) : chainEval curveOps (straightFlank pia rp ta) s =
    some (circlePoint rp (-pia) 0 + ((2 * s - 1) * (rp / 5)) • circlePoint 1 (ta - pia) 0) := by
  have h1 : app (Rz ta) ((2 / 10 : ℝ) • flankPitchPoint pia rp) = (rp / 5) • circlePoint 1 (ta - pia) 0 := by
    rw [pitchPoint_eq, sub_eq_add_neg]
    apply V3.ext3 <;> simp [circlePoint, cos_add, sin_add] <;> ring
  have hne : norm3 ((rp / 5) • circlePoint 1 (ta - pia) 0) = rp / 5 := by
    apply norm3_eq_of_dot (by positivity)
    simp [dot, circlePoint]
    linear_combination (rp / 5) ^ 2 * sin_sq_add_cos_sq (ta - pia)
  rw [straightFlank]
  simp only [h1]
  rw [pitchPoint_eq]
  change chainEval curveOps [lineC _ _] s = _
  rw [oneMember_eval _ (lineC_active _ _) (by
    rw [lineC_length, show circlePoint rp (-pia) 0 + (rp / 5) • circlePoint 1 (ta - pia) 0 -
      (circlePoint rp (-pia) 0 - (rp / 5) • circlePoint 1 (ta - pia) 0) =
      (2 : ℝ) • ((rp / 5) • circlePoint 1 (ta - pia) 0) by module, norm3_smul, hne]
    positivity), lineC_eval]
  congr 1
  module

/-! ### Conical gears -/

theorem dirs_dot (γ φ : ℝ) : dot (dirRay γ φ) (dirRay γ φ) = 1 ∧ dot (dirTip γ φ) (dirTip γ φ) = 1 ∧
    dot (dirRound φ) (dirRound φ) = 1 ∧ dot (dirRay γ φ) (dirTip γ φ) = 0 ∧ dot (dirRay γ φ) (dirRound φ) = 0 ∧
    dot (dirTip γ φ) (dirRound φ) = 0 := by
  have h1 := sin_sq_add_cos_sq γ
  have h2 := sin_sq_add_cos_sq φ
  refine ⟨?_, ?_, ?_, ?_, ?_, ?_⟩ <;> simp [dot, dirRay, dirTip, dirRound]
  · linear_combination sin γ ^ 2 * h2 + h1
  · linear_combination cos γ ^ 2 * h2 + h1
  · linear_combination h2
  · linear_combination sin γ * cos γ * h2
  · ring
  · ring

theorem dirs_cross (γ φ : ℝ) : cross (dirRay γ φ) (dirTip γ φ) = -dirRound φ ∧
    cross (dirRay γ φ) (dirRound φ) = dirTip γ φ ∧ cross (dirTip γ φ) (dirRay γ φ) = dirRound φ ∧
    cross (dirRound φ) (dirRay γ φ) = -dirTip γ φ := by
  have h1 := sin_sq_add_cos_sq γ
  have h2 := sin_sq_add_cos_sq φ
  refine ⟨?_, ?_, ?_, ?_⟩ <;> apply V3.ext3 <;> simp [dirRay, dirTip, dirRound]
  all_goals first | ring | skip
  · linear_combination sin φ * h1
  · linear_combination -cos φ * h1
  · linear_combination sin γ * h2
  · linear_combination -sin φ * h1
  · linear_combination cos φ * h1
  · linear_combination -sin γ * h2

/-- The point of the flank at the angle `τ` along the great circle. -/
noncomputable def tiltPoint (R γ φ ta τ : ℝ) : V3 :=
  ![0, 0, R * cos γ] + R • (cos τ • dirRay γ φ + sin τ • (cos ta • dirTip γ φ + sin ta • dirRound φ))

theorem arcPCA_length {asEuler : M3 → ℝ × ℝ × ℝ} {p0 center axis : V3} {angle : ℝ} {c : Curve}
    (h : arcFromPointCenterAngle asEuler p0 center angle axis true = some c) : c.length = norm3 (p0 - center) * angle := by
  rw [arcFromPointCenterAngle] at h
  simp only at h
  split at h
  · cases h
  · split at h
    · cases h
    · rw [← Option.some.inj h]
      simp [arcInit, Curve.make, Curve.updateLengths]

theorem cone_eval {asEuler : M3 → ℝ × ℝ × ℝ} (hE : EulerOk asEuler) (hrp : 0 < rp) (hS : sin (coneAngle / 2) ≠ 0)
    (h1 : -(2 * π) < coneAngle) (h2 : coneAngle < 2 * π) :
    ∃ c, conicFlank asEuler pia rp coneAngle ta = some [c] ∧ ∀ s, chainEval curveOps [c] s =
      some (tiltPoint (rp / sin (coneAngle / 2)) (coneAngle / 2) (-pia) ta (s / 10)) := by
  have hg0 : coneAngle ≠ 0 := by rintro rfl; simp at hS
  obtain ⟨γ, hγ⟩ : ∃ γ, γ = coneAngle / 2 := ⟨_, rfl⟩
  obtain ⟨R, hR⟩ : ∃ R, R = rp / sin (coneAngle / 2) := ⟨_, rfl⟩
  rw [← hγ] at hS
  have hRS : R * sin γ = rp := by rw [hR, ← hγ]; field_simp
  have hh : (gearPolarData coneAngle rp).height = R * cos γ := by
    simp only [ConicData.height, gearPolarData, ConicData.gamma, TransformData.default, mul_one]
    rw [← hγ, tan_eq_sin_div_cos, div_div_eq_mul_div, hR, ← hγ]; ring
  have hp0 : flankPitchPoint pia rp = ![0, 0, R * cos γ] + R • dirRay γ (-pia) := by
    rw [pitchPoint_eq, ← hRS]
    apply V3.ext3 <;> simp [circlePoint, dirRay] <;> ring
  obtain ⟨A, hA⟩ : ∃ A : V3, A = ![0, 0, R * cos γ] := ⟨_, rfl⟩
  have hAO : (R * cos γ) • OUT = A := by rw [hA]; apply V3.ext3 <;> simp [OUT]
  obtain ⟨d1, d2, d3, d4, d5, d6⟩ := dirs_dot γ (-pia)
  obtain ⟨k1, k2, k3, k4⟩ := dirs_cross γ (-pia)
  have hR0 : R ≠ 0 := by intro e; rw [e, zero_mul] at hRS; exact hrp.ne hRS
  have hσ : sgn γ * |R| = R ∧ sgn γ * sgn γ = 1 := by
    have hg : γ ≠ 0 := by intro e; rw [e, sin_zero] at hS; exact hS rfl
    refine ⟨?_, sgn_mul_self hg⟩
    rcases lt_or_gt_of_ne hg with h | h
    · have : sin γ < 0 := sin_neg_of_neg_of_neg_pi_lt h (by rw [hγ]; linarith)
      have hR1 : R < 0 := by rw [hR, ← hγ]; exact div_neg_of_pos_of_neg hrp this
      rw [sgn, if_pos h, abs_of_neg hR1]; ring
    · have : 0 < sin γ := sin_pos_of_pos_of_lt_pi h (by rw [hγ]; linarith)
      have hR1 : 0 < R := by rw [hR, ← hγ]; positivity
      rw [sgn, if_neg (not_lt.2 h.le), if_neg h.ne', abs_of_pos hR1, one_mul]
  have hpA : flankPitchPoint pia rp - A = R • dirRay γ (-pia) := by rw [hp0, hA]; module
  have hnr : norm3 (dirRay γ (-pia)) = 1 := norm3_eq_of_dot zero_le_one (by rw [d1]; norm_num)
  have ht : (norm3 (A - flankPitchPoint pia rp))⁻¹ • (A - flankPitchPoint pia rp) = (-sgn γ) • dirRay γ (-pia) := by
    rw [show A - flankPitchPoint pia rp = (-R) • dirRay γ (-pia) by rw [← neg_sub, hpA]; module, norm3_smul, hnr, mul_one,
      abs_neg, smul_smul]
    congr 1
    have hp := abs_pos.2 hR0
    rw [mul_neg, neg_inj]
    field_simp
    rw [mul_comm]; exact hσ.1.symm
  have hax0 : cross ((norm3 (flankPitchPoint pia rp))⁻¹ • flankPitchPoint pia rp) OUT = -dirRound (-pia) := by
    have hn : norm3 (flankPitchPoint pia rp) = rp := by
      rw [pitchPoint_eq]
      apply norm3_eq_of_dot hrp.le
      simp [dot, circlePoint]
      linear_combination rp ^ 2 * sin_sq_add_cos_sq pia
    rw [hn, pitchPoint_eq]
    apply V3.ext3 <;> simp [circlePoint, OUT, dirRound] <;> field_simp
  obtain ⟨n, hn⟩ : ∃ n, n = sin ta • dirTip γ (-pia) - cos ta • dirRound (-pia) := ⟨_, rfl⟩
  have hax : app (fromRotvec ((ta * sgn γ) • ((-sgn γ) • dirRay γ (-pia)))) (-dirRound (-pia)) = n := by
    rw [smul_smul, show ta * sgn γ * -sgn γ = -ta by linear_combination (-ta) * hσ.2, fromRotvec_smul d1, app_rotMat,
      rodrigues, show cross (dirRay γ (-pia)) (-dirRound (-pia)) = -dirTip γ (-pia) by
        rw [← k2]; apply V3.ext3 <;> simp <;> ring,
      show dot (dirRay γ (-pia)) (-dirRound (-pia)) = 0 by
        rw [← neg_eq_zero, ← d5]; simp [dot]; ring, hn, cos_neg, sin_neg]
    module
  have hnn : dot n n = 1 := by
    rw [hn]
    simp only [dot_sub_left, dot_sub_right, dot_smul_left, dot_smul_right, dot_comm (dirRound (-pia)) (dirTip γ (-pia)), d2,
      d3, d6]
    linear_combination sin_sq_add_cos_sq ta
  have hnr0 : dot n (dirRay γ (-pia)) = 0 := by
    rw [hn]
    simp only [dot_sub_left, dot_smul_left, dot_comm (dirTip γ (-pia)) (dirRay γ (-pia)),
      dot_comm (dirRound (-pia)) (dirRay γ (-pia)), d4, d5]
    ring
  have hcr : cross n (dirRay γ (-pia)) = cos ta • dirTip γ (-pia) + sin ta • dirRound (-pia) := by
    rw [hn, cross_sub_left, cross_smul_left, cross_smul_left, k3, k4]; module
  have hn3 : norm3 n = 1 := norm3_eq_of_dot zero_le_one (by rw [hnn]; norm_num)
  obtain ⟨c, c1, c2, c3⟩ := c49_point_angle_perp hE (flankPitchPoint pia rp) A (1 / 10) n true
    (by
      intro e
      rw [e, sub_self] at hpA
      have := congrArg norm3 hpA
      rw [norm3_smul, hnr, mul_one] at this
      have h0 : norm3 (0 : V3) = 0 := by simp [norm3, dot]
      rw [h0] at this
      exact hR0 (abs_eq_zero.1 this.symm))
    (by intro e; rw [e] at hnn; simp [dot] at hnn) (by rw [hpA, dot_smul_right, hnr0, mul_zero])
  have hlen : c.length = |R| / 10 := by
    rw [arcPCA_length c1, hpA, norm3_smul, hnr]; ring
  refine ⟨c, ?_, fun s => ?_⟩
  · rw [conicFlank, if_neg hg0, greatCircleFlank]
    simp only [hh, hAO, ht, hax0]
    change Option.map _ (arcFromPointCenterAngle asEuler _ _ _ (app (fromRotvec ((ta * sgn (coneAngle / 2)) • _)) _) _) = _
    rw [← hγ, hax, c1]; rfl
  · rw [oneMember_eval c c2 (by rw [hlen]; have := abs_pos.2 hR0; positivity), c3, hn3, inv_one, one_smul, hpA, rodrigues,
      cross_smul_right, hcr, dot_smul_right, hnr0, tiltPoint, ← hR, ← hγ, ← hA]
    congr 1
    rw [show (1 : ℝ) / 10 * s = s / 10 by ring]
    module

theorem tiltPoint_sub (R γ φ ta τ : ℝ) : tiltPoint R γ φ ta τ - ![0, 0, R * cos γ] =
    R • (cos τ • dirRay γ φ + sin τ • (cos ta • dirTip γ φ + sin ta • dirRound φ)) := by
  rw [tiltPoint]; module

theorem tiltPoint_norm (R γ φ ta τ : ℝ) : norm3 (tiltPoint R γ φ ta τ - ![0, 0, R * cos γ]) = |R| := by
  obtain ⟨d1, d2, d3, d4, d5, d6⟩ := dirs_dot γ φ
  rw [tiltPoint_sub, norm3_smul]
  have : norm3 (cos τ • dirRay γ φ + sin τ • (cos ta • dirTip γ φ + sin ta • dirRound φ)) = 1 := by
    apply norm3_eq_of_dot zero_le_one
    simp only [dot_add_left, dot_add_right, dot_smul_left, dot_smul_right, dot_comm (dirRound φ) (dirTip γ φ),
      dot_comm (dirTip γ φ) (dirRay γ φ), dot_comm (dirRound φ) (dirRay γ φ), d1, d2, d3, d4, d5, d6]
    linear_combination sin_sq_add_cos_sq τ + sin τ ^ 2 * sin_sq_add_cos_sq ta
  rw [this, mul_one]

theorem tiltPoint_z (R γ φ ta τ : ℝ) : R * cos γ - tiltPoint R γ φ ta τ 2 =
    R * (cos τ * cos γ - sin τ * (cos ta * sin γ)) := by
  simp [tiltPoint, dirRay, dirTip, dirRound]; ring

/-- **C135, cylindrical gears.** The flank of the default generator is a straight line. It crosses the pitch circle in its
middle at the azimuth `-pitch_intersect_angle`, leans by `tooth_angle` from the radius to the middle of the tooth, and
moves away from the axis on its whole length if `cos tooth_angle > 1/5`. -/
theorem c135_flat (asEuler : M3 → ℝ × ℝ × ℝ) (hrp : 0 < rp) :
    ∃ (tooth : List Curve) (p : ℝ → V3) (d : V3), conicFlank asEuler pia rp 0 ta = some tooth ∧
      (∀ s, chainEval curveOps tooth s = some (p s)) ∧ p (1 / 2) = circlePoint rp (-pia) 0 ∧
      (∀ s, p s - p (1 / 2) = ((s - 1 / 2) * (2 / 5 * rp)) • d) ∧ dot d d = 1 ∧
      dot d (circlePoint 1 (-pia) 0) = cos ta ∧ dot d (dirRound (-pia)) = sin ta ∧
      (1 / 5 < cos ta → StrictMonoOn (fun s => norm3 (p s)) (Set.Icc 0 1)) := by
  refine ⟨straightFlank pia rp ta, fun s => circlePoint rp (-pia) 0 + ((2 * s - 1) * (rp / 5)) • circlePoint 1 (ta - pia) 0,
    circlePoint 1 (ta - pia) 0, by rw [conicFlank, if_pos rfl], fun s => straight_eval hrp s, ?_, fun s => ?_, ?_, ?_, ?_,
    fun h s hs t ht hst => ?_⟩
  · norm_num
  · dsimp only; module
  · simp [dot, circlePoint]; linear_combination sin_sq_add_cos_sq (ta - pia)
  · have := cos_sub (ta - pia) (-pia)
    rw [show ta - pia - -pia = ta by ring] at this
    rw [this]; simp [dot, circlePoint]
  · have := sin_sub (ta - pia) (-pia)
    rw [show ta - pia - -pia = ta by ring] at this
    rw [this]; simp [dot, circlePoint, dirRound]; ring
  · have hd : ∀ s : ℝ, dot (circlePoint rp (-pia) 0 + ((2 * s - 1) * (rp / 5)) • circlePoint 1 (ta - pia) 0)
        (circlePoint rp (-pia) 0 + ((2 * s - 1) * (rp / 5)) • circlePoint 1 (ta - pia) 0) =
        rp ^ 2 * (1 + 2 * ((2 * s - 1) / 5) * cos ta + ((2 * s - 1) / 5) ^ 2) := by
      intro s
      have h1 := sin_sq_add_cos_sq (ta - pia)
      have h2 := sin_sq_add_cos_sq pia
      have h3 := cos_sub (ta - pia) (-pia)
      rw [show ta - pia - -pia = ta by ring, cos_neg, sin_neg] at h3
      rw [h3]
      simp [dot, circlePoint]
      linear_combination rp ^ 2 * h2 + ((2 * s - 1) * (rp / 5)) ^ 2 * h1
    simp only [norm3]
    apply sqrt_lt_sqrt (by rw [hd]; nlinarith [sq_nonneg ((2 * s - 1) / 5 + cos ta), cos_sq_le_one ta])
    rw [hd, hd]
    apply mul_lt_mul_of_pos_left _ (by positivity)
    have h0 := hs.1
    nlinarith [mul_pos (sub_pos.2 hst) (sub_pos.2 h)]

/-- **C135, conical gears.** For cone angles up to 180° the flank is an arc of a great circle about the apex. It starts at
the pitch point at the azimuth `-pitch_intersect_angle`, leans by `tooth_angle`, and moves away from the axis. -/
theorem c135_cone_partial {asEuler : M3 → ℝ × ℝ × ℝ} (hE : EulerOk asEuler) (hrp : 0 < rp) (h1 : 0 < coneAngle)
    (h2 : coneAngle ≤ π) (hta : 0 < cos ta) :
    let γ := coneAngle / 2
    let R := rp / sin γ
    let A : V3 := ![0, 0, R * cos γ]
    ∃ (tooth : List Curve) (p : ℝ → V3), conicFlank asEuler pia rp coneAngle ta = some tooth ∧
      (∀ s, chainEval curveOps tooth s = some (p s)) ∧ p 0 = circlePoint rp (-pia) 0 ∧
      (∀ s, norm3 (p s - A) = R ∧ p s - A =
        R • (cos (s / 10) • dirRay γ (-pia) + sin (s / 10) • (cos ta • dirTip γ (-pia) + sin ta • dirRound (-pia)))) ∧
      coneAngleOf 1 (R * cos γ) (p 0) = γ ∧
      StrictMonoOn (fun s => coneAngleOf 1 (R * cos γ) (p s)) (Set.Icc 0 1) := by
  intro γ R A
  have hpi := pi_gt_three
  have hS : 0 < sin γ := sin_pos_of_pos_of_lt_pi (by simp only [γ]; linarith) (by simp only [γ]; linarith)
  have hC : 0 ≤ cos γ := cos_nonneg_of_neg_pi_div_two_le_of_le (by simp only [γ]; linarith) (by simp only [γ]; linarith)
  have hR : 0 < R := by simp only [R]; positivity
  obtain ⟨c, c1, c2⟩ := cone_eval (pia := pia) (ta := ta) hE hrp hS.ne' (by linarith) (by linarith)
  have hang : ∀ s, coneAngleOf 1 (R * cos γ) (tiltPoint R γ (-pia) ta (s / 10)) =
      arccos (cos (s / 10) * cos γ - sin (s / 10) * (cos ta * sin γ)) := by
    intro s
    rw [coneAngleOf, tiltPoint_norm, tiltPoint_z, abs_of_pos hR]
    congr 1; field_simp
  have h0 : tiltPoint R γ (-pia) ta (0 / 10) = circlePoint rp (-pia) 0 := by
    have : R * sin γ = rp := by simp only [R]; field_simp
    rw [← this]
    apply V3.ext3 <;> simp [tiltPoint, dirRay, circlePoint] <;> ring
  refine ⟨[c], fun s => tiltPoint R γ (-pia) ta (s / 10), c1, c2, h0, fun s => ⟨?_, tiltPoint_sub _ _ _ _ _⟩, ?_, ?_⟩
  · exact (tiltPoint_norm _ _ _ _ _).trans (abs_of_pos hR)
  · rw [hang]
    simp only [zero_div, cos_zero, sin_zero]
    rw [show 1 * cos γ - 0 * (cos ta * sin γ) = cos γ by ring, arccos_cos (by simp only [γ]; linarith)
      (by simp only [γ]; linarith)]
  · intro s hs t ht hst
    dsimp only
    rw [hang, hang]
    have e1 : cos (t / 10) ≤ cos (s / 10) :=
      cos_le_cos_of_nonneg_of_le_pi (by linarith [hs.1]) (by linarith [ht.2]) (by linarith)
    have e2 : sin (s / 10) < sin (t / 10) :=
      sin_lt_sin_of_lt_of_le_pi_div_two (by linarith [hs.1]) (by linarith [ht.2]) (by linarith)
    have hk : ∀ x : ℝ, |cos x * cos γ - sin x * (cos ta * sin γ)| ≤ 1 := by
      intro x
      rw [← sq_le_one_iff_abs_le_one]
      nlinarith [sq_nonneg (cos x * (cos ta * sin γ) + sin x * cos γ), sin_sq_add_cos_sq x, sin_sq_add_cos_sq γ,
        cos_sq_le_one ta, sq_nonneg (sin γ), mul_nonneg (sq_nonneg (sin γ)) (sub_nonneg.2 (cos_sq_le_one ta))]
    have a1 := abs_le.1 (hk (s / 10))
    have a2 := abs_le.1 (hk (t / 10))
    apply strictAntiOn_arccos ⟨a2.1, a2.2⟩ ⟨a1.1, a1.2⟩
    nlinarith [mul_pos hta hS, mul_pos (sub_pos.2 e2) (mul_pos hta hS), mul_nonneg (sub_nonneg.2 e1) hC]

/-- **C135 is violated for negative cone angles.** The arc starts at the pitch point and runs to the root. -/
theorem c135_cone_violated {asEuler : M3 → ℝ × ℝ × ℝ} (hE : EulerOk asEuler) (hrp : 0 < rp) (h1 : -π < coneAngle)
    (h2 : coneAngle < 0) (hta : cos (coneAngle / 2) < 19 * (cos ta * sin (-(coneAngle / 2)))) :
    ∃ (tooth : List Curve) (p : ℝ → V3), conicFlank asEuler pia rp coneAngle ta = some tooth ∧
      (∀ s, chainEval curveOps tooth s = some (p s)) ∧ p 0 = circlePoint rp (-pia) 0 ∧
      coneAngleOf (-1) (rp / tan (coneAngle / 2)) (p 0) = -(coneAngle / 2) ∧
      ∀ s, 0 < s → s ≤ 1 → coneAngleOf (-1) (rp / tan (coneAngle / 2)) (p s) < -(coneAngle / 2) := by
  obtain ⟨γ, hγ⟩ : ∃ γ, γ = coneAngle / 2 := ⟨_, rfl⟩
  have hpi := pi_gt_three
  have hS : sin γ < 0 := sin_neg_of_neg_of_neg_pi_lt (by linarith) (by linarith)
  have hC : 0 < cos γ := cos_pos_of_mem_Ioo ⟨by linarith, by linarith⟩
  obtain ⟨R, hRd⟩ : ∃ R, R = rp / sin γ := ⟨_, rfl⟩
  have hR : R < 0 := by rw [hRd]; exact div_neg_of_pos_of_neg hrp hS
  have ha : rp / tan γ = R * cos γ := by rw [tan_eq_sin_div_cos, div_div_eq_mul_div, hRd]; ring
  obtain ⟨c, c1, c2⟩ := cone_eval (pia := pia) (ta := ta) hE hrp (by rw [← hγ]; exact hS.ne) (by linarith) (by linarith)
  rw [← hγ] at hta c2 ⊢
  rw [← hRd] at c2
  rw [sin_neg] at hta
  rw [ha]
  have hang : ∀ s, coneAngleOf (-1) (R * cos γ) (tiltPoint R γ (-pia) ta (s / 10)) =
      arccos (cos (s / 10) * cos γ - sin (s / 10) * (cos ta * sin γ)) := by
    intro s
    rw [coneAngleOf, tiltPoint_norm, tiltPoint_z, abs_of_neg hR]
    congr 1
    have := hR.ne
    field_simp
  refine ⟨[c], fun s => tiltPoint R γ (-pia) ta (s / 10), c1, c2, ?_, ?_, fun s s0 s1 => ?_⟩
  · have : R * sin γ = rp := by rw [hRd]; exact div_mul_cancel₀ _ hS.ne
    rw [← this]
    apply V3.ext3 <;> simp [tiltPoint, dirRay, circlePoint] <;> ring
  · dsimp only
    rw [hang]
    simp only [zero_div, cos_zero, sin_zero]
    rw [show 1 * cos γ - 0 * (cos ta * sin γ) = cos γ by ring, ← cos_neg, arccos_cos (by linarith) (by linarith)]
  · dsimp only
    rw [hang]
    have hb : -γ = arccos (cos γ) := by rw [← cos_neg, arccos_cos (by linarith) (by linarith)]
    rw [hb]
    have hk : cos (s / 10) * cos γ - sin (s / 10) * (cos ta * sin γ) ≤ 1 := by
      apply le_of_abs_le
      rw [← sq_le_one_iff_abs_le_one]
      nlinarith [sq_nonneg (cos (s / 10) * (cos ta * sin γ) + sin (s / 10) * cos γ), sin_sq_add_cos_sq (s / 10),
        sin_sq_add_cos_sq γ, cos_sq_le_one ta, mul_nonneg (sq_nonneg (sin γ)) (sub_nonneg.2 (cos_sq_le_one ta))]
    have hlt : cos γ < cos (s / 10) * cos γ - sin (s / 10) * (cos ta * sin γ) := by
      obtain ⟨u, hu⟩ : ∃ u, u = s / 10 := ⟨_, rfl⟩
      rw [← hu]
      have u0 : 0 < u := by rw [hu]; positivity
      have u1 : u ≤ 1 / 10 := by rw [hu]; linarith
      have e1 := one_sub_sq_div_two_le_cos (x := u)
      have e2 := sin_gt_sub_cube u0
      have e3 : 0 < cos ta * -sin γ := by nlinarith
      have e4 : u * (99 / 100) < sin u := by nlinarith [mul_pos u0 u0]
      nlinarith [mul_lt_mul_of_pos_right e4 e3, mul_le_mul_of_nonneg_right e1 hC.le, mul_pos u0 e3, mul_pos u0 hC,
        mul_lt_mul_of_pos_left hta u0, mul_le_mul_of_nonneg_right u1 (mul_pos u0 hC).le]
    exact strictAntiOn_arccos ⟨by linarith [neg_one_le_cos γ], cos_le_one γ⟩ ⟨by linarith [neg_one_le_cos γ], hk⟩ hlt

/-- **C135, coupling.** A gear with a cone angle of 180° and straight teeth fits a copy of itself that is turned over and
turned by half a pitch (Hirth coupling): in every slice, and for every tooth angle, the flank of the copy lies on the
flank of the gear, with its tip part on the root part of the other. -/
theorem c135_hirth {asEuler : M3 → ℝ × ℝ × ℝ} (hE : EulerOk asEuler) (N : ℝ) (hN : 0 < N) (z : ℝ) :
    ∃ (tooth : List Curve) (p : ℝ → V3),
      conicFlank asEuler (defaultRecipeGenerator N π).2.2 (defaultRecipeGenerator N π).1 (defaultRecipeGenerator N π).2.1 ta =
        some tooth ∧
      (∀ s, chainEval curveOps tooth s = some (p s)) ∧
      ∀ s, app (Rz (π / N)) (app (Rx π) (applyGearTransform (p s) (defaultRecipeSlice N π z).transform)) =
        app (Rz (2 * π / N)) (applyGearTransform (p (-s)) (defaultRecipeSlice N π z).transform) := by
  have hpi := pi_pos
  obtain ⟨c, c1, c2⟩ := cone_eval (pia := 2 * π / N / 4) (rp := N / 2) (coneAngle := π) (ta := ta) hE (by positivity)
    (by rw [sin_pi_div_two]; norm_num) (by linarith) (by linarith)
  refine ⟨[c], _, c1, c2, fun s => ?_⟩
  obtain ⟨a, ha⟩ : ∃ a, a = 2 * π / N / 4 := ⟨_, rfl⟩
  rw [← ha, show π / N = 3 * a - a by rw [ha]; field_simp; ring, show 2 * π / N = 3 * a + a by rw [ha]; field_simp; ring]
  simp only [applyGearTransform_eq, defaultRecipeSlice, tiltPoint, dirRay, dirTip, dirRound, sin_pi_div_two, cos_pi_div_two]
  apply V3.ext3
  · simp [app_one, neg_div, cos_add, sin_add, cos_sub, sin_sub]; ring
  · simp [app_one, neg_div, cos_add, sin_add, cos_sub, sin_sub]; ring
  · simp [app_one, neg_div]

/-- **C135, default recipe.** All slices have the same apex, the pitch point moves along the pitch cone by the height, and
the teeth of the generator are half a pitch wide on the pitch circle. -/
theorem c135_recipe (N coneAngle z : ℝ) (hN : 0 < N) :
    let s := defaultRecipeSlice N coneAngle z
    let a := (gearPolarData s.coneAngle s.baseRadius).height
    (sin (coneAngle / 2) ≠ 0 → applyGearTransform (a • OUT) s.transform = a • OUT) ∧
      (∀ φ, applyGearTransform (circlePoint s.baseRadius φ 0) s.transform =
        circlePoint (N / 2) φ 0 - z • dirRay (coneAngle / 2) φ) ∧
      (defaultRecipeGenerator N coneAngle).1 = N / 2 ∧ (defaultRecipeGenerator N coneAngle).2.1 = coneAngle ∧
      2 * (defaultRecipeGenerator N coneAngle).2.2 * N = π := by
  intro s a
  refine ⟨fun hS => ?_, fun φ => ?_, rfl, rfl, ?_⟩
  · have ha : a = N / 2 / sin (coneAngle / 2) * cos (coneAngle / 2) := by
      simp only [a, s, ConicData.height, gearPolarData, ConicData.gamma, TransformData.default, mul_one, defaultRecipeSlice]
      rw [tan_eq_sin_div_cos, div_div_eq_mul_div]; ring
    rw [ha]
    simp only [applyGearTransform_eq, s, defaultRecipeSlice]
    apply V3.ext3 <;> simp [app_one, OUT]
    field_simp
    ring
  · simp only [applyGearTransform_eq, s, defaultRecipeSlice]
    apply V3.ext3 <;> simp [app_one, OUT, circlePoint, dirRay] <;> field_simp <;> ring
  · simp only [defaultRecipeGenerator]; field_simp; ring

/-- **C135, rack.** The flank of the default rack generator is a straight line of length 1 with its middle on the pitch line
at `y = -π/4`, leaning by `tooth_angle`. For the default tooth width `π/2` this is half a tooth from the middle. -/
theorem c135_rack_partial (width pitch ta : ℝ) :
    ∃ (p : ℝ → V3) (d : V3), (∀ s, chainEval curveOps (rackGeneratorFlank width pitch ta) s = some (p s)) ∧
      p (1 / 2) = ![0, -(π / 4), 0] ∧ (∀ s, p s - p (1 / 2) = (s - 1 / 2) • d) ∧ d = ![cos ta, sin ta, 0] ∧
      (width = π / 2 → p (1 / 2) = ![0, -(width / 2), 0]) := by
  have hd : app (Rz ta) RIGHT = ![cos ta, sin ta, 0] := by apply V3.ext3 <;> simp [RIGHT]
  have hn : norm3 (![cos ta, sin ta, 0] : V3) = 1 := by
    apply norm3_eq_of_dot zero_le_one
    simp [dot]; linear_combination sin_sq_add_cos_sq ta
  have h0 : (π / 4) • DOWN = ![0, -(π / 4), 0] := by apply V3.ext3 <;> simp [DOWN]
  refine ⟨fun s => ![0, -(π / 4), 0] + (s - 1 / 2) • ![cos ta, sin ta, 0], _, fun s => ?_, ?_, fun s => ?_, rfl, ?_⟩
  · rw [rackGeneratorFlank]
    simp only [hd, h0]
    change chainEval curveOps [lineC _ _] s = _
    rw [oneMember_eval _ (lineC_active _ _) (by
      rw [lineC_length, add_sub_sub_cancel, ← add_smul, norm3_smul, hn]; norm_num), lineC_eval]
    congr 1
    module
  · simp
  · dsimp only; module
  · rintro rfl; simp; ring

/-- **C135 is violated for racks.** The tooth width asked for has no effect on the flank. -/
theorem c135_rack_violated (width pitch ta : ℝ) (hw : width ≠ π / 2) (hta : cos ta ≠ 0) :
    ¬∃ s, chainEval curveOps (rackGeneratorFlank width pitch ta) s = some ![0, -(width / 2), 0] := by
  rintro ⟨s, hs⟩
  obtain ⟨p, d, h1, h2, h3, rfl, -⟩ := c135_rack_partial width pitch ta
  rw [h1 s] at hs
  have hs := Option.some.inj hs
  have h3 := h3 s
  rw [hs, h2] at h3
  have e0 := congrFun h3 0
  have e1 := congrFun h3 1
  simp at e0 e1
  rcases e0 with e0 | e0
  · rw [e0] at e1; apply hw; linarith
  · exact hta e0

/-- Concrete cases: a flank leaning by 60° at a pitch radius of 17, a cone of 90°, a negative cone of 90°, a rack. -/
theorem c135_case : (1 : ℝ) / 5 < cos (π / 3) ∧ (0 < π / 2 ∧ π / 2 ≤ π) ∧
    (-π < -(π / 2) ∧ -(π / 2) < 0 ∧ cos (-(π / 2) / 2) < 19 * (cos (π / 3) * sin (-(-(π / 2) / 2)))) ∧
    (∃ asEuler, EulerOk asEuler) := by
  have h := pi_pos
  have h2 : (0 : ℝ) < √2 := by positivity
  refine ⟨by rw [cos_pi_div_three]; norm_num, ⟨by linarith, by linarith⟩, ⟨by linarith, by linarith, ?_⟩, eulerOk_exists⟩
  rw [show -(π / 2) / 2 = -(π / 4) by ring, neg_neg, cos_neg, cos_pi_div_four, sin_pi_div_four, cos_pi_div_three]
  linarith

end C135
end Verif
