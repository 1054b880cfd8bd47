import Verif.Model.CycloidBevel
import Verif.Props.CycloidTooth
import Verif.Props.Cycloid

/-!
# C121: meshed conical cycloid gears are conjugate
-/

namespace Verif

open scoped Matrix
open Real
open Spec (circlePoint)

/-- The point that a cone with half angle `ρ`, touching the generator `e` of another one on the side of `τ`, has traced on
the sphere with radius `R` around `A` after turning by `-β` about its own axis. -/
noncomputable def rollPoint (A : V3) (R ρ β : ℝ) (e τ : V3) : V3 :=
  A + R • ((cos β + (1 - cos β) * cos ρ ^ 2) • e + ((1 - cos β) * cos ρ * sin ρ) • τ - (sin β * sin ρ) • cross τ e)

/-- The generator of the cone with half angle `γ` in the direction `ψ`, from the apex. -/
noncomputable def genDir (γ ψ : ℝ) : V3 := sin γ • polarVec ψ - cos γ • OUT

/-- The direction outwards from that generator, on the sphere. -/
noncomputable def outDir (γ ψ : ℝ) : V3 := cos γ • polarVec ψ + sin γ • OUT

theorem rollPoint_flip (A : V3) (R ρ β : ℝ) (e τ : V3) : rollPoint A R (-ρ) β e (-τ) = rollPoint A R ρ β e τ := by
  apply V3.ext3 <;> simp [rollPoint, cos_neg, sin_neg] <;> ring

theorem rollPoint_app {M : M3} (hM : IsRot M) (A : V3) (R ρ β : ℝ) (e τ : V3) :
    app M (rollPoint A R ρ β e τ) = rollPoint (app M A) R ρ β (app M e) (app M τ) := by
  simp only [rollPoint, app_add, app_sub, app_smul, hM.cross_app]

theorem rollPoint_affine (A c : V3) (R s ρ β : ℝ) (e τ : V3) :
    s • rollPoint A R ρ β e τ + c = rollPoint (s • A + c) (s * R) ρ β e τ := by
  simp only [rollPoint]; module

theorem cross_outDir (γ ψ : ℝ) : cross (outDir γ ψ) (genDir γ ψ) = ![-sin ψ, cos ψ, 0] := by
  have h := sin_sq_add_cos_sq γ
  apply V3.ext3
  · simp [outDir, genDir, polarVec, OUT]; linear_combination -sin ψ * h
  · simp [outDir, genDir, polarVec, OUT]; linear_combination cos ψ * h
  · simp [outDir, genDir, polarVec, OUT]; ring

theorem rollPoint_mirror (a R ρ β γ ψ : ℝ) :
    mulV (rollPoint (a • OUT) R ρ β (genDir γ ψ) (outDir γ ψ)) ![1, -1, 1] =
      rollPoint (a • OUT) R ρ (-β) (genDir γ (-ψ)) (outDir γ (-ψ)) := by
  rw [rollPoint, rollPoint, cross_outDir, cross_outDir]
  apply V3.ext3 <;> simp [genDir, outDir, mulV, polarVec, OUT] <;> ring

theorem Rz_genDir (x γ ψ : ℝ) : app (Rz x) (genDir γ ψ) = genDir γ (x + ψ) := by
  simp only [genDir, app_sub, app_smul, Rz_polarVec, Rz_app_OUT]

theorem Rz_outDir (x γ ψ : ℝ) : app (Rz x) (outDir γ ψ) = outDir γ (x + ψ) := by
  simp only [outDir, app_add, app_smul, Rz_polarVec, Rz_app_OUT]

/-- The conical cycloid in terms of the rolling cone. -/
theorem cycloidCone_rollPoint (t rb rc C angle : ℝ) (hC : 0 < C) (hb : |rb| ≤ 1 / C) (hc : |rc| ≤ 1 / C) :
    cycloidCone t rb rc C angle ORIGIN 0 = some (rollPoint ((1 / C * cos (arcsin (rb * C))) • OUT) (1 / C) (arcsin (rc * C))
      (t * rb / rc) (genDir (arcsin (rb * C)) (t + angle)) (outDir (arcsin (rb * C)) (t + angle))) := by
  have hR : 0 < 1 / C := by positivity
  obtain ⟨s1, c1⟩ := arcsin_div hR hb
  obtain ⟨s2, c2⟩ := arcsin_div hR hc
  have e1 : rb / (1 / C) = rb * C := by field_simp
  have e2 : rc / (1 / C) = rc * C := by field_simp
  have hsg : sgn C = 1 := by rw [sgn, if_neg (not_lt.2 hC.le), if_neg hC.ne']
  have h := cycloidCone_eq t rb rc C angle hC.ne'
  simp only [abs_of_pos hC, hsg, e1, e2] at h
  rw [h]
  refine congrArg some ?_
  rw [e1] at s1
  rw [e2] at s2
  have hb' : rb = 1 / C * sin (arcsin (rb * C)) := by rw [s1]; field_simp
  have hc' : rc = 1 / C * sin (arcsin (rc * C)) := by rw [s2]; field_simp
  rw [rollPoint, cross_outDir]
  obtain ⟨g, hg⟩ : ∃ g, g = arcsin (rb * C) := ⟨_, rfl⟩
  obtain ⟨r, hr⟩ : ∃ r, r = arcsin (rc * C) := ⟨_, rfl⟩
  obtain ⟨β, hβ⟩ : ∃ β, β = t * rb / rc := ⟨_, rfl⟩
  obtain ⟨ψ, hψ⟩ : ∃ ψ, ψ = t + angle := ⟨_, rfl⟩
  obtain ⟨R, hRd⟩ : ∃ R, R = 1 / C := ⟨_, rfl⟩
  rw [← hg, ← hRd] at hb'
  rw [← hr, ← hRd] at hc'
  simp only [← hg, ← hr, ← hβ, ← hψ, ← hRd]
  have q1 := sin_sq_add_cos_sq g
  have q2 := sin_sq_add_cos_sq r
  apply V3.ext3
  · simp [genDir, outDir, polarVec, OUT, sin_add, cos_add]
    linear_combination cos ψ * hb' + (cos ψ * (1 - cos β) * (cos g * cos r - sin g * sin r) + sin ψ * sin β) * hc' -
      cos ψ * (1 - cos β) * R * sin g * q2
  · simp [genDir, outDir, polarVec, OUT, sin_add, cos_add]
    linear_combination sin ψ * hb' + (sin ψ * (1 - cos β) * (cos g * cos r - sin g * sin r) - cos ψ * sin β) * hc' -
      sin ψ * (1 - cos β) * R * sin g * q2
  · simp [genDir, outDir, polarVec, OUT, sin_add, cos_add]
    linear_combination (1 - cos β) * (sin g * cos r + cos g * sin r) * hc' + (1 - cos β) * R * cos g * q2

/-- One side of a tooth or its mirror image. -/
noncomputable def mir (b : Bool) (v : V3) : V3 := if b then mulV v ![1, -1, 1] else v

theorem mir_sub (b : Bool) (v w : V3) : mir b (v - w) = mir b v - mir b w := by
  cases b
  · rfl
  · apply V3.ext3 <;> simp [mir, mulV] <;> ring

theorem mir_polar (b : Bool) (r x : ℝ) : mir b (r • polarVec x) = r • polarVec (side b * x) := by
  cases b
  · simp [mir, side]
  · apply V3.ext3 <;> simp [mir, side, mulV, polarVec]

theorem normal_transform {f : ℝ → V3} {t : ℝ} {n : V3} (h : NormalAt f t n) {M : M3} (hM : IsRot M) (s : ℝ) (c : V3)
    (b : Bool) : NormalAt (fun t => s • app M (mir b (f t)) + c) t (s • app M (mir b n)) := by
  obtain ⟨v, hv, h0⟩ := h
  have hm : HasDerivAt (fun t => mir b (f t)) (mir b v) t := by
    cases b
    · exact hv
    · have e0 := HasDerivAt.v3 hv 0
      have e1 := HasDerivAt.v3 hv 1
      have e2 := HasDerivAt.v3 hv 2
      apply hasDerivAt_v3
      · simpa [mir, mulV] using e0
      · simp [mir, mulV]; exact e1.neg
      · simpa [mir, mulV] using e2
  refine ⟨s • app M (mir b v), ((hasDerivAt_app M hm).const_smul s).add_const c, ?_⟩
  have hd : dot (mir b v) (mir b n) = dot v n := by cases b <;> simp [mir, mulV, dot]
  rw [dot_smul_left, dot_smul_right, hM.dot_app, hd, h0]; simp

/-- The flanks of a placed conical cycloid gear: where they are and which normals they have. -/
theorem cycloidConeFlank_place (p : GearInput) (hn : 0 < p.numTeeth) (h0 : 0 < p.coneAngle / 2) (h1 : p.coneAngle / 2 < π / 2)
    (hm : 0 < p.module_) (C : V3) {O : M3} (hO : IsRot O) (A z turn : ℝ) (k : ℤ) (out b : Bool)
    (hr0 : signedRolling p out ≠ 0) (hr : |signedRolling p out| * sin (p.coneAngle / 2) ≤ p.numTeeth / 2) (t : ℝ) :
    let γ := p.coneAngle / 2
    let ψ := rootDir p A z turn k b + side b * t
    let apex := C + (p.module_ * (p.numTeeth / 2) / tan γ) • app O OUT
    let R := p.module_ * (p.numTeeth / 2 / sin γ - z)
    let F := ((cycloidGear p).place C O A).cycloidConeFlank out b z turn k
    F t = rollPoint apex R (arcsin (signedRolling p out * (sin γ / (p.numTeeth / 2))))
      (side b * (t * (p.numTeeth / 2) / signedRolling p out)) (app O (genDir γ ψ)) (app O (outDir γ ψ)) ∧
    NormalAt F t (F t - (apex + R • app O (genDir γ ψ))) := by
  intro γ ψ apex R F
  replace h0 : 0 < γ := h0
  replace h1 : γ < π / 2 := h1
  have hs : 0 < sin γ := sin_pos_of_pos_of_lt_pi h0 (by linarith [pi_pos])
  have hc : 0 < cos γ := cos_pos_of_mem_Ioo ⟨by linarith [pi_pos], h1⟩
  obtain ⟨rp, hrp⟩ : ∃ rp, rp = p.numTeeth / 2 := ⟨_, rfl⟩
  have hrp0 : 0 < rp := by rw [hrp]; positivity
  obtain ⟨f, hf⟩ : ∃ f, f = p.crowningFunc z (2 * π / p.numTeeth / 4 - p.backlash / (p.numTeeth / 2)) := ⟨_, rfl⟩
  obtain ⟨rc, hrc⟩ : ∃ rc, rc = signedRolling p out := ⟨_, rfl⟩
  obtain ⟨Cs, hCs⟩ : ∃ Cs, Cs = 1 / (rp / sin γ) := ⟨_, rfl⟩
  have hCs0 : 0 < Cs := by rw [hCs]; positivity
  have hinv : 1 / Cs = rp / sin γ := by rw [hCs, one_div_one_div]
  have hne : p.coneAngle ≠ 0 := by intro h; have e : γ = p.coneAngle / 2 := rfl; rw [e, h] at h0; simp at h0
  have hgen : ∀ t, ((cycloidGear p).place C O A).core.recipe.gen.cycloidConeFlank out z t =
      (cycloidCone t rp rc Cs (-f) ORIGIN 0).getD 0 := by
    intro t
    have e : p.coneAngle / 2 * 2 = p.coneAngle := by ring
    rw [hCs, hrc]
    cases out
    · simp only [WGear.place, cycloidGear, GearInput.calcCycloid, ToothGen.cycloidConeFlank, cycloidLowerFn, signedRolling,
        Bool.false_eq_true, if_false, e, if_neg hne]
      rw [hrp, hf]
    · simp only [WGear.place, cycloidGear, GearInput.calcCycloid, ToothGen.cycloidConeFlank, cycloidUpperFn, signedRolling,
        if_true, e, if_neg hne]
      rw [hrp, hf]
  have hpa : ((cycloidGear p).place C O A).pitchAngle = 2 * π / p.numTeeth := by
    simp [WGear.pitchAngle, WGear.place, cycloidGear, GearInput.calcCycloid, make_pos hn, GearToothParam.pitchAngle]
  obtain ⟨x, hx⟩ : ∃ x, x = A + z * (tan p.helixAngle / (p.numTeeth / 2)) + turn + k * (2 * π / p.numTeeth) := ⟨_, rfl⟩
  have hF : F = fun t => (p.module_ * (1 - z * sin γ / rp)) • app (O * Rz x)
      (mir b ((cycloidCone t rp rc Cs (-f) ORIGIN 0).getD 0)) + (C + (p.module_ * (z * cos γ)) • app O OUT) := by
    funext t
    change WGear.cycloidConeFlank _ out b z turn k t = _
    rw [WGear.cycloidConeFlank, place_transformAt, hpa]
    simp only
    rw [hgen, applyGearTransform_eq]
    have hcz : (cycloidGear p).core.recipe.center z = (z * cos γ) • OUT := rfl
    have hsz : (cycloidGear p).core.recipe.scale z = 1 - z * sin γ / rp := by
      change 1 - z * 2 * sin γ / p.numTeeth = _
      rw [hrp]; field_simp
    have haz : (cycloidGear p).core.recipe.angle z = z * (tan p.helixAngle / (p.numTeeth / 2)) := rfl
    have hsc : (cycloidGear p).core.transform.scale = p.module_ := rfl
    simp only [hcz, hsz, haz, hsc, app_mul, app_smul, Rz_app_OUT, ← hx, smul_smul, mir]
  have hb1 : |rp| ≤ 1 / Cs := by
    rw [hinv, abs_of_pos hrp0, le_div_iff₀ hs]; nlinarith [sin_le_one γ]
  have hc1 : |rc| ≤ 1 / Cs := by rw [hinv, hrc, le_div_iff₀ hs, hrp]; exact hr
  have hγ : arcsin (rp * Cs) = γ := by
    rw [hCs, show rp * (1 / (rp / sin γ)) = sin γ by field_simp]
    exact arcsin_sin (by linarith [pi_pos]) h1.le
  have hρ : rc * Cs = rc * (sin γ / rp) := by rw [hCs]; field_simp
  have hMR : IsRot (O * Rz x) := hO.mul (IsRot.Rz x)
  have hψ : ψ = x + side b * (t - f) := by
    change rootDir p A z turn k b + side b * t = _
    rw [rootDir, ← hf, ← hx]; ring
  have hRs : p.module_ * (1 - z * sin γ / rp) * (1 / Cs) = R := by
    rw [hinv]; change _ = p.module_ * (p.numTeeth / 2 / sin γ - z); rw [← hrp]; field_simp
  have hap : (p.module_ * (1 - z * sin γ / rp)) • ((1 / Cs * cos γ) • app O OUT) + (C + (p.module_ * (z * cos γ)) • app O OUT) =
      apex := by
    change _ = C + (p.module_ * (p.numTeeth / 2) / tan γ) • app O OUT
    rw [add_left_comm, smul_smul, ← add_smul, hinv, ← hrp, tan_eq_sin_div_cos]
    congr 2
    field_simp
    ring
  have hval : ∀ t, (cycloidCone t rp rc Cs (-f) ORIGIN 0).getD 0 = rollPoint ((1 / Cs * cos γ) • OUT) (1 / Cs)
      (arcsin (rc * (sin γ / rp))) (t * rp / rc) (genDir γ (t - f)) (outDir γ (t - f)) := by
    intro t
    rw [cycloidCone_rollPoint t rp rc Cs (-f) hCs0 hb1 hc1, hγ, hρ, Option.getD_some, ← sub_eq_add_neg]
  have hmirP : mir b (rollPoint ((1 / Cs * cos γ) • OUT) (1 / Cs) (arcsin (rc * (sin γ / rp))) (t * rp / rc)
      (genDir γ (t - f)) (outDir γ (t - f))) = rollPoint ((1 / Cs * cos γ) • OUT) (1 / Cs) (arcsin (rc * (sin γ / rp)))
      (side b * (t * rp / rc)) (genDir γ (side b * (t - f))) (outDir γ (side b * (t - f))) := by
    cases b
    · simp [mir, side]
    · simp only [mir, if_true, side, rollPoint_mirror, neg_one_mul]
  have hFt : F t = rollPoint apex R (arcsin (rc * (sin γ / rp))) (side b * (t * rp / rc)) (app O (genDir γ ψ))
      (app O (outDir γ ψ)) := by
    rw [hF]
    simp only
    rw [hval, hmirP, rollPoint_app hMR, rollPoint_affine, hRs]
    simp only [app_mul, Rz_genDir, Rz_outDir, app_smul, Rz_app_OUT, hψ]
    rw [hap]
  refine ⟨by rw [hFt, hrp, hrc], ?_⟩
  obtain ⟨P, hP, -, -, hder⟩ := c120_cone_rolling t rp rc Cs (-f) hCs0.ne' (by rwa [abs_of_pos hCs0])
    (by rwa [abs_of_pos hCs0]) (by rwa [hrc])
  have hN : NormalAt (fun s => (cycloidCone s rp rc Cs (-f) ORIGIN 0).getD 0) t (P - circlePoint rp (t + -f) 0) :=
    ⟨_, hder, by rw [dot_smul_left, dot_comm, dot_cross_right, mul_zero]⟩
  have hN' := normal_transform hN hMR (p.module_ * (1 - z * sin γ / rp)) (C + (p.module_ * (z * cos γ)) • app O OUT) b
  rw [← hF] at hN'
  have hK : (p.module_ * (1 - z * sin γ / rp)) • app (O * Rz x) (mir b (circlePoint rp (t + -f) 0)) +
      (C + (p.module_ * (z * cos γ)) • app O OUT) = apex + R • app O (genDir γ ψ) := by
    have e1 : circlePoint rp (t + -f) 0 = rp • polarVec (t - f) := by
      apply V3.ext3 <;> simp [circlePoint, polarVec, sub_eq_add_neg]
    have e2 := mir_polar b rp (t - f)
    rw [e1, e2, app_smul, app_mul, Rz_polarVec, ← hψ, ← hap, ← hRs, genDir, app_sub, app_smul, app_smul, hinv]
    obtain ⟨w, hw⟩ : ∃ w, w = app O OUT := ⟨_, rfl⟩
    obtain ⟨u, hu⟩ : ∃ u, u = app O (polarVec ψ) := ⟨_, rfl⟩
    obtain ⟨s, hsd⟩ : ∃ s, s = p.module_ * (1 - z * sin γ / rp) := ⟨_, rfl⟩
    obtain ⟨q, hq⟩ : ∃ q, q = rp / sin γ := ⟨_, rfl⟩
    have e3 : rp = q * sin γ := by rw [hq]; field_simp
    rw [← hw, ← hu, ← hsd, ← hq, e3]
    module
  have hFt' : F t = (p.module_ * (1 - z * sin γ / rp)) • app (O * Rz x) (mir b P) + (C + (p.module_ * (z * cos γ)) • app O OUT) := by
    rw [hF]; simp only [hP, Option.getD_some]
  rw [← hK, hFt', add_sub_add_right_eq_sub, ← smul_sub, ← app_sub, ← mir_sub]
  exact hN'

theorem rollPoint_norm {A e τ : V3} (he : dot e e = 1) (hτ : dot τ τ = 1) (h : dot τ e = 0) (R ρ β : ℝ) :
    norm3 (rollPoint A R ρ β e τ - A) = |R| := by
  apply norm3_eq_of_dot (abs_nonneg R)
  have hn : dot (cross τ e) (cross τ e) = 1 := by rw [dot_cross_self, he, hτ, h]; norm_num
  have h1 : dot τ (cross τ e) = 0 := dot_cross_left _ _
  have h2 : dot e (cross τ e) = 0 := dot_cross_right _ _
  rw [rollPoint, add_sub_cancel_left, sq_abs]
  simp only [dot_smul_left, dot_smul_right, dot_add_left, dot_add_right, dot_sub_left, dot_sub_right, he, hτ, h, hn, h1, h2,
    dot_comm e τ, dot_comm (cross τ e)]
  have q1 := sin_sq_add_cos_sq ρ
  have q2 := sin_sq_add_cos_sq β
  have q3 : sin ρ ^ 2 = 1 - cos ρ ^ 2 := by linarith
  have q4 : sin β ^ 2 = 1 - cos β ^ 2 := by linarith
  ring_nf
  simp only [q3, q4]
  ring

theorem genDir_unit (γ ψ : ℝ) : dot (genDir γ ψ) (genDir γ ψ) = 1 ∧ dot (outDir γ ψ) (outDir γ ψ) = 1 ∧
    dot (outDir γ ψ) (genDir γ ψ) = 0 := by
  have q1 := sin_sq_add_cos_sq γ
  have q2 := sin_sq_add_cos_sq ψ
  refine ⟨?_, ?_, ?_⟩ <;> simp [dot, genDir, outDir, polarVec, OUT]
  · linear_combination q1 + sin γ ^ 2 * q2
  · linear_combination q1 + cos γ ^ 2 * q2
  · linear_combination sin γ * cos γ * q2

theorem outDir_eq (γ ψ : ℝ) : sin γ • outDir γ ψ = OUT + cos γ • genDir γ ψ := by
  have q1 := sin_sq_add_cos_sq γ
  apply V3.ext3 <;> simp [genDir, outDir, polarVec, OUT]
  · ring
  · ring
  · linear_combination q1

/-- A generator of a pitch cone that is seen in the direction `δ`. -/
theorem IsGenerator.genDir {g : GearObj} (hg : g.BevelOk) {e : V3} (he : IsGenerator g e) {δ : ℝ}
    (hs : SeenAt g.transform.orientation e δ) : app g.transform.orientation (Verif.genDir (g.coneAngle / 2) δ) = e := by
  obtain ⟨M, hMM⟩ : ∃ M, M = g.transform.orientation := ⟨_, rfl⟩
  have hM : IsRot M := hMM ▸ hg.sound.rot
  obtain ⟨h1, h2⟩ := he
  rw [zAxis_eq, ← hMM] at h2
  rw [← hMM] at hs ⊢
  obtain ⟨ρ, hρ, a0, a1⟩ := hs
  obtain ⟨v, hv⟩ : ∃ v, v = app Mᵀ e := ⟨_, rfl⟩
  have h3 := hg.sin_pos
  have v0 : v 0 = ρ * cos δ := by rw [← a0, hv]; simp [app_0]; ring
  have v1 : v 1 = ρ * sin δ := by rw [← a1, hv]; simp [app_1]; ring
  have v2 : v 2 = -cos (g.coneAngle / 2) := by
    rw [← h2, hv]; simp [dot, app_0, app_1, app_2, OUT]; ring
  have h4 : dot v v = 1 := by rw [hv, hM.transpose.dot_app, h1]
  have h5 : ρ = sin (g.coneAngle / 2) := by
    have q1 := sin_sq_add_cos_sq (g.coneAngle / 2)
    have q2 := sin_sq_add_cos_sq δ
    rw [dot, v0, v1, v2] at h4
    have : ρ ^ 2 = sin (g.coneAngle / 2) ^ 2 := by linear_combination h4 - ρ ^ 2 * q2 - q1
    nlinarith
  have e1 : Verif.genDir (g.coneAngle / 2) δ = v := by
    apply V3.ext3
    · rw [v0, h5]; simp [Verif.genDir, polarVec, OUT]
    · rw [v1, h5]; simp [Verif.genDir, polarVec, OUT]
    · rw [v2]; simp [Verif.genDir, polarVec, OUT]
  rw [e1, hv, hM.app_app_T]

/-- Two conical cycloid gears that can work together: whole tooth counts, the same module, the same cone distance, and no
rolling circle of radius 0. -/
structure BevelCycloidPair (p q : GearInput) (N1 N2 : ℕ) : Prop where
  posN : 0 < N1
  posN' : 0 < N2
  teeth : p.numTeeth = N1
  teeth' : q.numTeeth = N2
  gammaPos : 0 < p.coneAngle / 2
  gammaPos' : 0 < q.coneAngle / 2
  gammaLt : p.coneAngle / 2 < π / 2
  gammaLt' : q.coneAngle / 2 < π / 2
  sameCone : N1 / sin (p.coneAngle / 2) = N2 / sin (q.coneAngle / 2)
  modulePos : 0 < p.module_
  sameModule : q.module_ = p.module_
  inside : p.insideCycloid ≠ 0
  inside' : q.insideCycloid ≠ 0
  outside : p.outsideCycloid ≠ 0
  outside' : q.outsideCycloid ≠ 0

/-- The curves are on the sphere with radius `R` around `A` and touch there; the common normal goes through `P`. -/
def TouchOnSphere (F G : ℝ → V3) (t s : ℝ) (A : V3) (R : ℝ) (P : V3) : Prop :=
  TouchAt F G t s P ∧ (∀ x, norm3 (F x - A) = R) ∧ ∀ x, norm3 (G x - A) = R

/-- Touching of two placed conical cycloid gears. -/
theorem coneCycloid_touch (p q : GearInput) (N1 N2 : ℕ) (H : BevelCycloidPair p q N1 N2) (C1 C2 : V3) {O1 O2 : M3}
    (hO1 : IsRot O1) (hO2 : IsRot O2) (A1 A2 z turn φ : ℝ) (k1 k2 : ℤ) (out1 out2 b : Bool) (δ1 δ2 ε : ℝ)
    (hε : ε = 1 ∨ ε = -1)
    (hapex : C1 + (p.module_ * (p.numTeeth / 2) / tan (p.coneAngle / 2)) • app O1 OUT =
      C2 + (q.module_ * (q.numTeeth / 2) / tan (q.coneAngle / 2)) • app O2 OUT)
    (hgen : app O1 (genDir (p.coneAngle / 2) δ1) = app O2 (genDir (q.coneAngle / 2) δ2))
    (hout : app O1 (outDir (p.coneAngle / 2) δ1) = ε • app O2 (outDir (q.coneAngle / 2) δ2))
    (hroll : signedRolling p out1 = ε * signedRolling q out2)
    (hr : |signedRolling p out1| * sin (p.coneAngle / 2) ≤ p.numTeeth / 2)
    (harc : (δ1 - rootDir p A1 z turn k1 b) * p.numTeeth = ε * ((δ2 - rootDir q A2 z φ k2 b) * q.numTeeth)) :
    TouchOnSphere (((cycloidGear p).place C1 O1 A1).cycloidConeFlank out1 b z turn k1)
      (((cycloidGear q).place C2 O2 A2).cycloidConeFlank out2 b z φ k2)
      (side b * (δ1 - rootDir p A1 z turn k1 b)) (side b * (δ2 - rootDir q A2 z φ k2 b))
      (C2 + (q.module_ * (q.numTeeth / 2) / tan (q.coneAngle / 2)) • app O2 OUT)
      |p.module_ * (N2 / 2 / sin (q.coneAngle / 2) - z)|
      (C2 + (q.module_ * (q.numTeeth / 2) / tan (q.coneAngle / 2)) • app O2 OUT +
        (p.module_ * (N2 / 2 / sin (q.coneAngle / 2) - z)) • app O2 (genDir (q.coneAngle / 2) δ2)) := by
  have hN1 : (0 : ℝ) < N1 := by exact_mod_cast H.posN
  have hN2 : (0 : ℝ) < N2 := by exact_mod_cast H.posN'
  have hp : 0 < p.numTeeth := by rw [H.teeth]; exact hN1
  have hq : 0 < q.numTeeth := by rw [H.teeth']; exact hN2
  have hm := H.modulePos
  have n1 := signedRolling_ne hp H.inside H.outside out1
  have n2 := signedRolling_ne hq H.inside' H.outside' out2
  have hs1 : 0 < sin (p.coneAngle / 2) := sin_pos_of_pos_of_lt_pi H.gammaPos (by linarith [pi_pos, H.gammaLt])
  have hs2 : 0 < sin (q.coneAngle / 2) := sin_pos_of_pos_of_lt_pi H.gammaPos' (by linarith [pi_pos, H.gammaLt'])
  have hcone : p.numTeeth * sin (q.coneAngle / 2) = q.numTeeth * sin (p.coneAngle / 2) := by
    have := H.sameCone
    rw [div_eq_div_iff hs1.ne' hs2.ne', ← H.teeth, ← H.teeth'] at this
    exact this
  have hεε : ε * ε = 1 := by rcases hε with h | h <;> rw [h] <;> norm_num
  have hε0 : ε ≠ 0 := by rcases hε with h | h <;> rw [h] <;> norm_num
  have hr2 : |signedRolling q out2| * sin (q.coneAngle / 2) ≤ q.numTeeth / 2 := by
    have : |signedRolling p out1| = |signedRolling q out2| := by
      rw [hroll, abs_mul]; rcases hε with h | h <;> rw [h] <;> simp
    rw [this] at hr
    have h3 := mul_le_mul_of_nonneg_right hr hs2.le
    have h4 : sin (p.coneAngle / 2) * (|signedRolling q out2| * sin (q.coneAngle / 2)) ≤
      sin (p.coneAngle / 2) * (q.numTeeth / 2) := by linarith
    exact le_of_mul_le_mul_left h4 hs1
  have hR : p.numTeeth / 2 / sin (p.coneAngle / 2) = N2 / 2 / sin (q.coneAngle / 2) := by
    rw [← H.teeth', div_eq_div_iff hs1.ne' hs2.ne']; linarith
  have F1 := fun t => cycloidConeFlank_place p hp H.gammaPos H.gammaLt hm C1 hO1 A1 z turn k1 out1 b n1 hr t
  have F2 := fun t => cycloidConeFlank_place q hq H.gammaPos' H.gammaLt' (by rw [H.sameModule]; exact hm) C2 hO2 A2 z φ k2
    out2 b n2 hr2 t
  simp only [hapex, hR] at F1
  simp only [H.sameModule] at F1 F2 ⊢
  rw [H.teeth'] at F2 hcone harc ⊢
  simp only [H.teeth'] at F1
  obtain ⟨apex, hapexd⟩ : ∃ a, a = C2 + (p.module_ * (N2 / 2) / tan (q.coneAngle / 2)) • app O2 OUT := ⟨_, rfl⟩
  rw [← hapexd] at F1 F2 ⊢
  obtain ⟨R, hRd⟩ : ∃ R, R = p.module_ * (N2 / 2 / sin (q.coneAngle / 2) - z) := ⟨_, rfl⟩
  rw [← hRd] at F1 F2 ⊢
  have x1 : rootDir p A1 z turn k1 b + side b * (side b * (δ1 - rootDir p A1 z turn k1 b)) = δ1 := by
    rw [← mul_assoc, side_sq]; ring
  have x2 : rootDir q A2 z φ k2 b + side b * (side b * (δ2 - rootDir q A2 z φ k2 b)) = δ2 := by
    rw [← mul_assoc, side_sq]; ring
  obtain ⟨v1, w1⟩ := F1 (side b * (δ1 - rootDir p A1 z turn k1 b))
  obtain ⟨v2, w2⟩ := F2 (side b * (δ2 - rootDir q A2 z φ k2 b))
  rw [x1] at v1 w1
  rw [x2] at v2 w2
  refine ⟨⟨?_, ?_, w2⟩, fun x => ?_, fun x => ?_⟩
  · rw [v1, v2, hgen, hout]
    have b1 : side b * (side b * (δ1 - rootDir p A1 z turn k1 b) * (p.numTeeth / 2) / signedRolling p out1) =
        side b * (side b * (δ2 - rootDir q A2 z φ k2 b) * (N2 / 2) / signedRolling q out2) := by
      have : (δ1 - rootDir p A1 z turn k1 b) * (p.numTeeth / 2) = ε * ((δ2 - rootDir q A2 z φ k2 b) * (N2 / 2)) := by
        linarith
      rw [mul_assoc (side b) (δ1 - _), this, hroll, mul_left_comm (side b) ε, mul_div_mul_left _ _ hε0, mul_assoc (side b) (δ2 - _)]
    have b2 : sin (p.coneAngle / 2) / (p.numTeeth / 2) = sin (q.coneAngle / 2) / (N2 / 2) := by
      rw [div_eq_div_iff (by positivity) (by positivity)]; linarith
    rw [b1, b2, hroll]
    rcases hε with h | h
    · rw [h, one_mul, one_smul]
    · rw [h, neg_one_mul, neg_one_smul, neg_mul, arcsin_neg, rollPoint_flip]
  · rw [hgen] at w1; exact w1
  · rw [(F1 x).1]
    exact rollPoint_norm (by rw [hO1.dot_app, (genDir_unit _ _).1]) (by rw [hO1.dot_app, (genDir_unit _ _).2.1])
      (by rw [hO1.dot_app, (genDir_unit _ _).2.2]) _ _ _
  · rw [(F2 x).1]
    exact rollPoint_norm (by rw [hO2.dot_app, (genDir_unit _ _).1]) (by rw [hO2.dot_app, (genDir_unit _ _).2.1])
      (by rw [hO2.dot_app, (genDir_unit _ _).2.2]) _ _ _

/-- The outward directions of two cones at their common generator: opposite for cones that lie side by side, the same if
one is inside the other. -/
theorem bevel_outDir {g h : GearObj} {e : V3} {φ ε : ℝ} (hg : g.BevelOk) (hh : h.BevelOk) (hε : ε = 1 ∨ ε = -1)
    (hφ : φ = h.coneAngle / 2 - ε * (g.coneAngle / 2)) (hax : dot g.transform.zAxis h.transform.zAxis = cos φ)
    (he : IsGenerator g e) (he' : IsGenerator h e) {δ1 δ2 : ℝ} (s1 : SeenAt g.transform.orientation e δ1)
    (s2 : SeenAt h.transform.orientation e δ2) :
    app g.transform.orientation (outDir (g.coneAngle / 2) δ1) = ε • app h.transform.orientation (outDir (h.coneAngle / 2) δ2) := by
  have hew : dot e g.transform.zAxis = -cos (g.coneAngle / 2) := by
    have := he.2; rw [dot_neg_right] at this; linarith
  have hez : dot e h.transform.zAxis = -cos (h.coneAngle / 2) := by
    have := he'.2; rw [dot_neg_right] at this; linarith
  have e0 : h.coneAngle / 2 - φ = ε * (g.coneAngle / 2) := by rw [hφ]; ring
  have hs1 : sin (ε * (g.coneAngle / 2)) = ε * sin (g.coneAngle / 2) := by rcases hε with h | h <;> simp [h]
  have hc1 : cos (ε * (g.coneAngle / 2)) = cos (g.coneAngle / 2) := by rcases hε with h | h <;> simp [h]
  have hco := generator_coplanar (zAxis_unit hh.sound.rot) (zAxis_unit hg.sound.rot) hax he.1 hew hez (by rw [e0, hc1])
  rw [e0, hs1, hφ, sin_sub, hs1, hc1] at hco
  have g1 := congrArg (app g.transform.orientation) (outDir_eq (g.coneAngle / 2) δ1)
  have g2 := congrArg (app h.transform.orientation) (outDir_eq (h.coneAngle / 2) δ2)
  rw [app_smul, app_add, app_smul, he.genDir hg s1, ← zAxis_eq] at g1
  rw [app_smul, app_add, app_smul, he'.genDir hh s2, ← zAxis_eq] at g2
  obtain ⟨a, ha⟩ : ∃ a, a = app g.transform.orientation (outDir (g.coneAngle / 2) δ1) := ⟨_, rfl⟩
  obtain ⟨b, hb⟩ : ∃ b, b = app h.transform.orientation (outDir (h.coneAngle / 2) δ2) := ⟨_, rfl⟩
  rw [← ha] at g1 ⊢
  rw [← hb] at g2 ⊢
  have hw : g.transform.zAxis = sin (g.coneAngle / 2) • a - cos (g.coneAngle / 2) • e := by rw [g1]; abel
  have hz : h.transform.zAxis = sin (h.coneAngle / 2) • b - cos (h.coneAngle / 2) • e := by rw [g2]; abel
  rw [hw, hz] at hco
  have hne : sin (g.coneAngle / 2) * sin (h.coneAngle / 2) ≠ 0 := mul_ne_zero hg.sin_pos.ne' hh.sin_pos.ne'
  have k : (sin (g.coneAngle / 2) * sin (h.coneAngle / 2)) • (a - ε • b) = 0 := by
    have := sub_eq_zero.2 hco
    rw [← this]; module
  exact sub_eq_zero.1 ((smul_eq_zero.1 k).resolve_left hne)

/-- The distance of the centres of two gears with the same apex and the same cone distance. -/
theorem apex_dist_eq {g h : GearObj} {φ ε : ℝ} (hg : g.BevelOk) (hh : h.BevelOk) (hε : ε = 1 ∨ ε = -1)
    (hφ : φ = h.coneAngle / 2 - ε * (g.coneAngle / 2)) (hax : dot g.transform.zAxis h.transform.zAxis = cos φ)
    (ha : pitchApex g = pitchApex h)
    (hR : g.pitchRadius / sin (g.coneAngle / 2) = h.pitchRadius / sin (h.coneAngle / 2)) :
    norm3 (h.transform.center - g.transform.center) = h.pitchRadius / sin (h.coneAngle / 2) * |sin φ| := by
  have h1 := zAxis_unit hg.sound.rot
  have h2 := zAxis_unit hh.sound.rot
  have hs := hg.sin_pos
  have hs' := hh.sin_pos
  have hc := hg.cos_pos
  have hc' := hh.cos_pos
  have hr := hh.radius_pos
  obtain ⟨R, hRd⟩ : ∃ R, R = h.pitchRadius / sin (h.coneAngle / 2) := ⟨_, rfl⟩
  rw [← hRd] at hR ⊢
  have t1 : g.pitchRadius / tan (g.coneAngle / 2) = R * cos (g.coneAngle / 2) := by
    rw [← hR, tan_eq_sin_div_cos]; field_simp
  have t2 : h.pitchRadius / tan (h.coneAngle / 2) = R * cos (h.coneAngle / 2) := by
    rw [hRd, tan_eq_sin_div_cos]; field_simp
  rw [pitchApex, pitchApex, t1, t2] at ha
  have e : h.transform.center - g.transform.center = (R * cos (g.coneAngle / 2)) • g.transform.zAxis -
      (R * cos (h.coneAngle / 2)) • h.transform.zAxis := by
    rw [sub_eq_sub_iff_add_eq_add, ← ha]; abel
  have hRp : 0 < R := by rw [hRd]; positivity
  rw [e]
  apply norm3_eq_of_dot (by positivity)
  simp only [dot_sub_left, dot_sub_right, dot_smul_left, dot_smul_right, h1, h2, hax, dot_comm h.transform.zAxis, mul_pow, sq_abs]
  have hs1 : sin (ε * (g.coneAngle / 2)) = ε * sin (g.coneAngle / 2) := by rcases hε with h | h <;> simp [h]
  have hc1 : cos (ε * (g.coneAngle / 2)) = cos (g.coneAngle / 2) := by rcases hε with h | h <;> simp [h]
  have hεε : ε ^ 2 = 1 := by rcases hε with h | h <;> rw [h] <;> norm_num
  rw [hφ, sin_sub, cos_sub, hs1, hc1]
  have q1 := sin_sq_add_cos_sq (g.coneAngle / 2)
  have q2 := sin_sq_add_cos_sq (h.coneAngle / 2)
  linear_combination R ^ 2 * (-cos (g.coneAngle / 2) ^ 2 * q2 - cos (h.coneAngle / 2) ^ 2 * q1 -
    cos (h.coneAngle / 2) ^ 2 * sin (g.coneAngle / 2) ^ 2 * hεε)

theorem cycloidObj_bevelOk (p : GearInput) (N : ℕ) (hN : 0 < N) (hn : p.numTeeth = N) (hm : 0 < p.module_)
    (h0 : 0 < p.coneAngle / 2) (h1 : p.coneAngle / 2 < π / 2) (C : V3) {O : M3} (hO : IsRot O) (A : ℝ) :
    ((cycloidGear p).place C O A).cycloidObj.BevelOk := by
  have hN' : (0 : ℝ) < N := by exact_mod_cast hN
  exact ⟨⟨hO, rfl⟩, hm, by
    simp only [WGear.cycloidObj, WGear.place, cycloidGear, GearInput.calcCycloid, hn, make_pos hN']; exact hN', h0, h1⟩

theorem bevel_cycloid_meshTo (p q : GearInput) (N1 N2 : ℕ) (H : BevelCycloidPair p q N1 N2) (c C : V3) (o O : M3)
    (hO : IsRot O) (a A : ℝ) (d : V3) (φ : ℝ)
    (hproj : 1 / 10 ^ 12 ≤ norm3 (d - dot d (app O OUT) • app O OUT))
    (hφ : ∀ R, bevelAngleRef (p.coneAngle / 2) (q.coneAngle / 2) R 0 p.insideTeeth q.insideTeeth = φ)
    (hcos : cos (q.coneAngle / 2 - φ) = cos (p.coneAngle / 2)) (hsin : sin φ ≠ 0) :
    ∃ C1 O1 A1, IsRot O1 ∧ ((cycloidGear p).place c o a).meshToCycloid ((cycloidGear q).place C O A) d =
        some ((cycloidGear p).place C1 O1 A1) ∧
      pitchApex ((cycloidGear p).place C1 O1 A1).cycloidObj = pitchApex ((cycloidGear q).place C O A).cycloidObj ∧
      dot (app O1 OUT) (app O OUT) = cos φ ∧
      A1 = calcMeshAngle ((cycloidGear p).place C1 O1 A1).cycloidObj.transform
        ((cycloidGear q).place C O A).cycloidObj.transform (2 * π / N1) (2 * π / N2) p.insideTeeth q.insideTeeth ∧
      ∃ e, IsGenerator ((cycloidGear p).place C1 O1 A1).cycloidObj e ∧
        IsGenerator ((cycloidGear q).place C O A).cycloidObj e ∧
        0 < dot e (d - dot d (app O OUT) • app O OUT) := by
  have hp : (0 : ℝ) < N1 := by exact_mod_cast H.posN
  have hq : (0 : ℝ) < N2 := by exact_mod_cast H.posN'
  obtain ⟨G, hG⟩ : ∃ G, G = ((cycloidGear p).place c 1 a).cycloidObj := ⟨_, rfl⟩
  obtain ⟨h, hh⟩ : ∃ h, h = ((cycloidGear q).place C O A).cycloidObj := ⟨_, rfl⟩
  have hg1 : G.BevelOk := hG ▸ cycloidObj_bevelOk p N1 H.posN H.teeth H.modulePos H.gammaPos H.gammaLt c IsRot.one a
  have hh1 : h.BevelOk := hh ▸ cycloidObj_bevelOk q N2 H.posN' H.teeth' (by rw [H.sameModule]; exact H.modulePos) H.gammaPos'
    H.gammaLt' C hO A
  have hax : h.transform.zAxis = app O OUT := by rw [zAxis_eq, hh]; rfl
  obtain ⟨g', e1, e2, e3, e, e4, e5, e6, -⟩ := bevel_core (g := G) (h := h) (d := d) (φ := φ) hg1 hh1 (by rw [hax]; exact hproj)
    (by rw [hG, hh]; exact hφ) (by rw [hG, hh]; exact hcos) hsin
  have hcg : G.coneAngle ≠ 0 := by have := hg1.gammaPos; intro h0; rw [h0] at this; simp at this
  have hrot : IsRot g'.transform.orientation := by
    refine meshTo_rot (solve := fun _ => 0) (g := G) (h := h) (dir := d) (b := 0) (bias := 0) (hh ▸ hO) ?_
    rw [GearObj.meshTo, show G.kind = .cycloid by rw [hG]; rfl]
    simp only [GearObj.meshToCycloid]
    rw [if_pos (Or.inl hcg), e1]
  have hm : ((cycloidGear p).place c o a).cycloidObj.meshToBevel h d = G.meshToBevel h d := by rw [hG]; rfl
  have hshape : g' = { G with transform := g'.transform } ∧ g'.transform.scale = p.module_ ∧
      g'.transform.angle = calcMeshAngle g'.transform h.transform (2 * π / N1) (2 * π / N2) p.insideTeeth q.insideTeeth := by
    have hm' := e1
    rw [GearObj.meshToBevel] at hm'
    split at hm'
    · cases hm'
    · split at hm'
      · cases hm'
      · have := Option.some.inj hm'
        rw [← this]
        refine ⟨rfl, by rw [hG]; rfl, ?_⟩
        simp only [hG, hh, GearObj.pitchAngle, GearObj.insideTeeth, WGear.cycloidObj, WGear.place, cycloidGear,
          GearInput.calcCycloid, GearToothParam.pitchAngle, H.teeth, H.teeth', make_pos hp, make_pos hq]
        rfl
  obtain ⟨t1, t2, t3⟩ := hshape
  have hobj : ((cycloidGear p).place g'.transform.center g'.transform.orientation g'.transform.angle).cycloidObj = g' := by
    refine Eq.trans ?_ t1.symm
    rw [hG]
    simp only [WGear.cycloidObj, WGear.place]
    have : (cycloidGear p).core.transform.scale = g'.transform.scale := by rw [t2]; rfl
    rw [this]
    rfl
  refine ⟨g'.transform.center, g'.transform.orientation, g'.transform.angle, hrot, ?_, ?_, ?_, ?_, e, ?_, ?_, ?_⟩
  · rw [WGear.meshToCycloid, GearObj.meshToCycloid, if_pos (Or.inl (by rw [hG] at hcg; exact hcg)), ← hh, hm, e1]
    simp only [Option.map_some, WGear.place]
    have : (cycloidGear p).core.transform.scale = g'.transform.scale := by rw [t2]; rfl
    rw [this]
  · rw [hobj, e2, hh]
  · rw [← zAxis_eq, ← hax]; exact e3
  · rw [hobj, ← hh]; exact t3
  · rw [hobj]; exact e4
  · rw [← hh]; exact e5
  · rw [hax] at e6
    rw [dot_sub_right, dot_smul_right]; linarith

theorem rolling_bound (p : GearInput) (hn : 0 < p.numTeeth) (hb1 : |p.insideCycloid| * sin (p.coneAngle / 2) ≤ 1)
    (hb2 : |p.outsideCycloid| * sin (p.coneAngle / 2) ≤ 1) (out : Bool) :
    |signedRolling p out| * sin (p.coneAngle / 2) ≤ p.numTeeth / 2 := by
  have h : 0 < p.numTeeth / 2 := by linarith
  cases out
  · simp only [signedRolling, Bool.false_eq_true, if_false]
    rw [abs_mul, abs_neg, abs_of_pos h]
    have := mul_le_mul_of_nonneg_right hb1 h.le
    linarith
  · simp only [signedRolling, if_true]
    rw [abs_mul, abs_of_pos h]
    have := mul_le_mul_of_nonneg_right hb2 h.le
    linarith

theorem cycloid_pitchApex (q : GearInput) (N : ℕ) (hN : (0 : ℝ) < N) (hn : q.numTeeth = N) (C : V3) (O : M3) (A : ℝ) :
    pitchApex ((cycloidGear q).place C O A).cycloidObj =
      C + (q.module_ * (N / 2) / tan (q.coneAngle / 2)) • app O OUT := by
  have e : ((cycloidGear q).place C O A).cycloidObj.pitchRadius = q.module_ * (N / 2) := by
    simp only [GearObj.pitchRadius, WGear.cycloidObj, WGear.place, cycloidGear, GearInput.calcCycloid, hn, make_pos hN]
    ring
  rw [pitchApex, zAxis_eq, e]
  rfl

/-- What a meshed pair of conical cycloid gears does, for cones side by side (`ε = -1`) and inside each other (`ε = 1`). -/
theorem coneCycloid_mesh (p q : GearInput) (N1 N2 : ℕ) (H : BevelCycloidPair p q N1 N2) (c C : V3) (o O : M3)
    (hO : IsRot O) (a A : ℝ) (d : V3) (ε : ℝ) (other : Bool → Bool)
    (hproj : 1 / 10 ^ 12 ≤ norm3 (d - dot d (app O OUT) • app O OUT))
    (hk : ε = -1 ∧ p.insideTeeth = false ∧ q.insideTeeth = false ∨
      ε = 1 ∧ p.insideTeeth = false ∧ q.insideTeeth = true ∧ p.coneAngle < q.coneAngle ∨
      ε = 1 ∧ p.insideTeeth = true ∧ q.insideTeeth = false ∧ q.coneAngle < p.coneAngle)
    (hroll : ∀ out, signedRolling p out = ε * signedRolling q (other out))
    (hβ : tan p.helixAngle = ε * tan q.helixAngle)
    (hb1 : |p.insideCycloid| * sin (p.coneAngle / 2) ≤ 1) (hb2 : |p.outsideCycloid| * sin (p.coneAngle / 2) ≤ 1)
    (hbig : 1 / 10 ^ 12 ≤ p.module_ * (N2 / 2 / sin (q.coneAngle / 2)) * |sin (q.coneAngle / 2 - ε * (p.coneAngle / 2))|) :
    let h := (cycloidGear q).place C O A
    ∃ g' e, ((cycloidGear p).place c o a).meshToCycloid h d = some g' ∧
      pitchApex g'.cycloidObj = pitchApex h.cycloidObj ∧
      dot g'.cycloidObj.transform.zAxis h.cycloidObj.transform.zAxis = cos (q.coneAngle / 2 - ε * (p.coneAngle / 2)) ∧
      IsGenerator g'.cycloidObj e ∧ IsGenerator h.cycloidObj e ∧ 0 < dot e (d - dot d (app O OUT) • app O OUT) ∧
      ∀ (z φ : ℝ) (k2 : ℤ) (b : Bool), ∃ k1 : ℤ, (ε = 1 → ∀ b' : Bool, ∀ out : Bool, ∃ t s : ℝ,
        TouchOnSphere (g'.cycloidConeFlank out b' z (ε * (φ * N2) / N1 - side b' * (thinning p z - ε * thinning q z) * 2 / N1) k1)
          (h.cycloidConeFlank (other out) b' z φ k2) t s (pitchApex h.cycloidObj)
          |p.module_ * (N2 / 2 / sin (q.coneAngle / 2) - z)|
          (pitchApex h.cycloidObj + (p.module_ * (N2 / 2 / sin (q.coneAngle / 2) - z)) • e) ∧ t * N1 = ε * (s * N2)) ∧
        ∀ out : Bool, ∃ t s : ℝ,
        TouchOnSphere (g'.cycloidConeFlank out b z (ε * (φ * N2) / N1 - side b * (thinning p z - ε * thinning q z) * 2 / N1) k1)
          (h.cycloidConeFlank (other out) b z φ k2) t s (pitchApex h.cycloidObj)
          |p.module_ * (N2 / 2 / sin (q.coneAngle / 2) - z)|
          (pitchApex h.cycloidObj + (p.module_ * (N2 / 2 / sin (q.coneAngle / 2) - z)) • e) ∧ t * N1 = ε * (s * N2) := by
  intro h
  have hN1 : (0 : ℝ) < N1 := by exact_mod_cast H.posN
  have hN2 : (0 : ℝ) < N2 := by exact_mod_cast H.posN'
  have hnp : 0 < p.numTeeth := by rw [H.teeth]; exact hN1
  have hnq : 0 < q.numTeeth := by rw [H.teeth']; exact hN2
  have g0 := H.gammaPos
  have g0' := H.gammaPos'
  have g1 := H.gammaLt
  have g1' := H.gammaLt'
  have hm := H.modulePos
  obtain ⟨φ0, hφ0⟩ : ∃ φ0, φ0 = q.coneAngle / 2 - ε * (p.coneAngle / 2) := ⟨_, rfl⟩
  rw [← hφ0] at hbig ⊢
  have hε : ε = 1 ∨ ε = -1 := by
    rcases hk with h | h | h
    exacts [Or.inr h.1, Or.inl h.1, Or.inl h.1]
  have hsin : sin φ0 ≠ 0 := by
    intro h0; rw [h0] at hbig; norm_num at hbig
  have hcos : cos (q.coneAngle / 2 - φ0) = cos (p.coneAngle / 2) := by
    rw [hφ0, sub_sub_cancel]; rcases hε with h | h <;> simp [h]
  have href : ∀ R, bevelAngleRef (p.coneAngle / 2) (q.coneAngle / 2) R 0 p.insideTeeth q.insideTeeth = φ0 := by
    intro R
    rw [hφ0]
    rcases hk with ⟨x, y, z⟩ | ⟨x, y, z, -⟩ | ⟨x, y, z, -⟩ <;> simp [bevelAngleRef, x, y, z]
    ring
  obtain ⟨C1, O1, A1, hO1, hmesh, hap, hax, hA, e, he, he', hside⟩ := bevel_cycloid_meshTo p q N1 N2 H c C o O hO a A d φ0 hproj
    href hcos hsin
  obtain ⟨G, hG⟩ : ∃ G, G = ((cycloidGear p).place C1 O1 A1).cycloidObj := ⟨_, rfl⟩
  obtain ⟨B, hB⟩ : ∃ B, B = h.cycloidObj := ⟨_, rfl⟩
  have hB' : B = ((cycloidGear q).place C O A).cycloidObj := hB
  have hGok : G.BevelOk := hG ▸ cycloidObj_bevelOk p N1 H.posN H.teeth hm g0 g1 C1 hO1 A1
  have hBok : B.BevelOk := hB' ▸ cycloidObj_bevelOk q N2 H.posN' H.teeth' (by rw [H.sameModule]; exact hm) g0' g1' C hO A
  rw [← hG, ← hB'] at hap hA
  rw [← hG] at he
  rw [← hB'] at he'
  have cG : G.coneAngle = p.coneAngle := by rw [hG]; rfl
  have cB : B.coneAngle = q.coneAngle := by rw [hB']; rfl
  have oG : G.transform.orientation = O1 := by rw [hG]; rfl
  have oB : B.transform.orientation = O := by rw [hB']; rfl
  have aB : B.transform.angle = A := by rw [hB']; rfl
  have rG : G.pitchRadius = p.module_ * (p.numTeeth / 2) := by
    rw [hG]
    simp only [GearObj.pitchRadius, WGear.cycloidObj, WGear.place, cycloidGear, GearInput.calcCycloid, make_pos hnp]; ring
  have rB : B.pitchRadius = q.module_ * (q.numTeeth / 2) := by
    rw [hB']
    simp only [GearObj.pitchRadius, WGear.cycloidObj, WGear.place, cycloidGear, GearInput.calcCycloid, make_pos hnq]; ring
  have hax' : dot G.transform.zAxis B.transform.zAxis = cos φ0 := by rw [zAxis_eq, zAxis_eq, oG, oB]; exact hax
  have pG : pitchApex G = C1 + (p.module_ * (p.numTeeth / 2) / tan (p.coneAngle / 2)) • app O1 OUT := by
    rw [pitchApex, rG, cG, zAxis_eq, oG, hG]; rfl
  have pB : pitchApex B = C + (q.module_ * (q.numTeeth / 2) / tan (q.coneAngle / 2)) • app O OUT := by
    rw [pitchApex, rB, cB, zAxis_eq, oB, hB']; rfl
  have hs1 : 0 < sin (p.coneAngle / 2) := sin_pos_of_pos_of_lt_pi g0 (by linarith)
  have hs2 : 0 < sin (q.coneAngle / 2) := sin_pos_of_pos_of_lt_pi g0' (by linarith)
  have hR : G.pitchRadius / sin (G.coneAngle / 2) = B.pitchRadius / sin (B.coneAngle / 2) := by
    have := H.sameCone
    rw [rG, rB, cG, cB, H.sameModule, H.teeth, H.teeth']
    rw [div_eq_div_iff hs1.ne' hs2.ne'] at this ⊢
    linear_combination p.module_ / 2 * this
  obtain ⟨δ1, s1⟩ := he.seen hGok
  obtain ⟨δ2, s2⟩ := he'.seen hBok
  have hφ0' : φ0 = B.coneAngle / 2 - ε * (G.coneAngle / 2) := by rw [cB, cG]; exact hφ0
  have hout := bevel_outDir hGok hBok hε hφ0' hax' he he' s1 s2
  have hgen1 := he.genDir hGok s1
  have hgen2 := he'.genDir hBok s2
  have hgen3 : app O (genDir (q.coneAngle / 2) δ2) = e := by rw [← oB, ← cB]; exact hgen2
  have hfar : 1 / 10 ^ 12 ≤ norm3 (B.transform.center - G.transform.center) := by
    rw [apex_dist_eq hGok hBok hε hφ0' hax' hap hR, rB, cB, H.sameModule, H.teeth', mul_div_assoc]
    exact hbig
  obtain ⟨n, hn⟩ : ∃ n : ℤ, (A1 - δ1) * N1 = ε * ((A - δ2) * N2) + (1 - ε) / 2 * π + 2 * π * n := by
    have hsub : B.coneAngle / 2 - φ0 = ε * (G.coneAngle / 2) := by rw [hφ0']; ring
    obtain ⟨q1, q2, q3, q4, q5⟩ := bevel_seen hGok hBok hap hax' (by rw [cB, cG]; exact hcos) he he' s1 s2
    rw [hsub] at q1 q2 q4
    have hsG : 0 < sin (G.coneAngle / 2) := hGok.sin_pos
    rcases hk with ⟨x, y, z⟩ | ⟨x, y, z, w⟩ | ⟨x, y, z, w⟩
    · rw [y, z] at hA
      have hsφ : 0 < sin φ0 := by
        apply sin_pos_of_pos_of_lt_pi <;> rw [hφ0, x] <;> linarith
      have hneg : sin (ε * (G.coneAngle / 2)) < 0 := by rw [x, neg_one_mul, sin_neg]; linarith
      obtain ⟨n, hn⟩ := c30_external_whole G.transform B.transform N1 N2 H.posN H.posN' δ1 δ2 hfar (q1 hsφ hneg) (q3 hsφ)
      rw [← hA, aB] at hn
      refine ⟨n, ?_⟩
      field_simp at hn
      rw [x]
      linear_combination hn
    · rw [y, z] at hA
      have hsφ : 0 < sin φ0 := by
        apply sin_pos_of_pos_of_lt_pi <;> rw [hφ0, x] <;> linarith
      have hpos : 0 < sin (ε * (G.coneAngle / 2)) := by rw [x, one_mul]; exact hsG
      obtain ⟨n, hn⟩ := c30_ring2_whole G.transform B.transform N1 N2 H.posN H.posN' δ1 δ2 hfar (q2 hsφ hpos) (q3 hsφ)
      rw [← hA, aB] at hn
      refine ⟨n, ?_⟩
      field_simp at hn
      rw [x]
      linear_combination hn
    · rw [y, z] at hA
      have hsφ : sin φ0 < 0 := by
        apply sin_neg_of_neg_of_neg_pi_lt <;> rw [hφ0, x] <;> linarith
      have hpos : 0 < sin (ε * (G.coneAngle / 2)) := by rw [x, one_mul]; exact hsG
      obtain ⟨n, hn⟩ := c30_ring1_whole G.transform B.transform N1 N2 H.posN H.posN' false δ1 δ2 hfar (q4 hsφ hpos) (q5 hsφ)
      rw [← hA, aB] at hn
      refine ⟨n, ?_⟩
      field_simp at hn
      rw [x]
      linear_combination hn
  have key : ∀ (z φ : ℝ) (k2 k1 : ℤ) (b : Bool), (k1 : ℝ) = ε * k2 - n + (side b - 1) * (1 - ε) / 4 → ∀ out : Bool,
      ∃ t s : ℝ, TouchOnSphere (((cycloidGear p).place C1 O1 A1).cycloidConeFlank out b z
          (ε * (φ * N2) / N1 - side b * (thinning p z - ε * thinning q z) * 2 / N1) k1)
          (h.cycloidConeFlank (other out) b z φ k2) t s (pitchApex B)
          |p.module_ * (N2 / 2 / sin (q.coneAngle / 2) - z)|
          (pitchApex B + (p.module_ * (N2 / 2 / sin (q.coneAngle / 2) - z)) • e) ∧ t * N1 = ε * (s * N2) := by
    intro z φ k2 k1 b hk1 out
    have r1 := rootDir_arc p hnp A1 z (ε * (φ * N2) / N1 - side b * (thinning p z - ε * thinning q z) * 2 / N1) k1 b
    have r2 := rootDir_arc q hnq A z φ k2 b
    rw [H.teeth, hk1] at r1
    rw [H.teeth'] at r2
    have ht : (ε * (φ * N2) / N1 - side b * (thinning p z - ε * thinning q z) * 2 / N1) * N1 =
        ε * (φ * N2) - side b * (thinning p z - ε * thinning q z) * 2 := by field_simp
    have harc : (δ1 - rootDir p A1 z (ε * (φ * N2) / N1 - side b * (thinning p z - ε * thinning q z) * 2 / N1) k1 b) * N1 =
        ε * ((δ2 - rootDir q A z φ k2 b) * N2) := by
      linear_combination -hn - r1 + ε * r2 - ht - 2 * z * hβ
    refine ⟨side b * (δ1 - rootDir p A1 z (ε * (φ * N2) / N1 - side b * (thinning p z - ε * thinning q z) * 2 / N1) k1 b),
      side b * (δ2 - rootDir q A z φ k2 b), ?_, by linear_combination side b * harc⟩
    have hr : |signedRolling p out| * sin (p.coneAngle / 2) ≤ p.numTeeth / 2 :=
      rolling_bound p hnp hb1 hb2 out
    have := coneCycloid_touch p q N1 N2 H C1 C hO1 hO A1 A z
      (ε * (φ * N2) / N1 - side b * (thinning p z - ε * thinning q z) * 2 / N1) φ k1 k2 out (other out) b δ1 δ2 ε hε
      (by rw [← pG, ← pB, hap]) (by rw [← oG, ← oB, ← cG, ← cB, hgen1, hgen2]) (by rw [← oG, ← oB, ← cG, ← cB, hout])
      (hroll out) hr (by rw [H.teeth, H.teeth']; exact harc)
    rw [← pB, hgen3] at this
    exact this
  refine ⟨_, e, hmesh, ?_, ?_, ?_, ?_, hside, ?_⟩
  · rw [← hG, ← hB]; exact hap
  · rw [← hG, ← hB]; exact hax'
  · rw [← hG]; exact he
  · rw [← hB]; exact he'
  rw [← hB]
  intro z φ k2 b
  obtain ⟨k1, hk1, hk1'⟩ : ∃ k1 : ℤ, (k1 : ℝ) = ε * k2 - n + (side b - 1) * (1 - ε) / 4 ∧ (ε = 1 → (k1 : ℝ) = k2 - n) := by
    rcases hε with h | h
    · exact ⟨k2 - n, by rw [h]; push_cast; ring, fun _ => by push_cast; ring⟩
    · cases b
      · refine ⟨-n - k2, ?_, fun h1 => by rw [h] at h1; norm_num at h1⟩
        rw [h]; simp [side]; ring
      · refine ⟨-1 - n - k2, ?_, fun h1 => by rw [h] at h1; norm_num at h1⟩
        rw [h]; push_cast; norm_num [side]; ring
  exact ⟨k1, fun h1 b' out => key z φ k2 k1 b' (by rw [hk1' h1, h1]; ring) out, key z φ k2 k1 b hk1⟩

theorem adapted_bound {x N1 N2 a b : ℝ} (h1 : 0 < N1) (h2 : 0 < N2) (ha : 0 < a) (hb : 0 < b) (h : N1 / a = N2 / b)
    (hx : |x| * b ≤ 1) : |x / N1 * N2| * a ≤ 1 := by
  rw [div_eq_div_iff ha.ne' hb.ne'] at h
  have : |x / N1 * N2| * a = |x| * b := by
    rw [abs_mul, abs_div, abs_of_pos h1, abs_of_pos h2]
    field_simp
    linear_combination -|x| * h
  rw [this]; exact hx

/-- **C121, external pair.** Two conical cycloid gears with the same module and the same cone distance, adapted to each other,
the second one put anywhere, the first one meshed to it from any direction that is not along its axis. The pitch cones have a
common apex and a common generator, on the side of the target direction. When the second gear turns by any angle `φ` and the
first one by the opposite angle in the ratio of the tooth counts, back by the play, then in every slice every flank of every
tooth of the second gear, inside and outside the pitch cone, touches a flank of the first gear (outside and inside). All
flanks of the slice lie on one sphere around the apex. At the contact both flanks have the same normal, and it goes through
the point of the common generator on that sphere: the law of gearing. The same arc has been rolled on both. -/
theorem c121_external (p q : GearInput) (N1 N2 : ℕ) (H : BevelCycloidPair p q N1 N2) (hp : p.insideTeeth = false)
    (hq : q.insideTeeth = false) (hβ : tan p.helixAngle = -tan q.helixAngle) (c0 c0' c C : V3) (o0 o0' o O : M3)
    (a0 a0' a A : ℝ) (hO : IsRot O) (d : V3) (hproj : 1 / 10 ^ 12 ≤ norm3 (d - dot d (app O OUT) • app O OUT))
    (hb1 : |p.insideCycloid| * sin (p.coneAngle / 2) ≤ 1) (hb2 : |q.insideCycloid| * sin (q.coneAngle / 2) ≤ 1)
    (hbig : 1 / 10 ^ 12 ≤ p.module_ * (N2 / 2 / sin (q.coneAngle / 2)) * sin (q.coneAngle / 2 + p.coneAngle / 2)) :
    let r := adaptCycloidRadii ((cycloidGear p).place c0 o0 a0) ((cycloidGear q).place c0' o0' a0')
    let g := r.1.place c o a
    let h := r.2.place C O A
    let apex := C + (p.module_ * (N2 / 2) / tan (q.coneAngle / 2)) • app O OUT
    ∃ g' e, g.meshToCycloid h d = some g' ∧ pitchApex g'.cycloidObj = apex ∧ pitchApex h.cycloidObj = apex ∧
      IsGenerator g'.cycloidObj e ∧ IsGenerator h.cycloidObj e ∧ 0 < dot e (d - dot d (app O OUT) • app O OUT) ∧
      ∀ (z φ : ℝ) (k2 : ℤ) (b : Bool), ∃ k1 : ℤ, ∀ out : Bool, ∃ t s : ℝ,
        TouchOnSphere (g'.cycloidConeFlank out b z (-(φ * N2) / N1 - side b * (thinning p z + thinning q z) * 2 / N1) k1)
          (h.cycloidConeFlank (!out) b z φ k2) t s apex |p.module_ * (N2 / 2 / sin (q.coneAngle / 2) - z)|
          (apex + (p.module_ * (N2 / 2 / sin (q.coneAngle / 2) - z)) • e) ∧ t * N1 = -(s * N2) := by
  have hN1 : (0 : ℝ) < N1 := by exact_mod_cast H.posN
  have hN2 : (0 : ℝ) < N2 := by exact_mod_cast H.posN'
  have hs1 : 0 < sin (p.coneAngle / 2) := sin_pos_of_pos_of_lt_pi H.gammaPos (by linarith [pi_pos, H.gammaLt])
  have hs2 : 0 < sin (q.coneAngle / 2) := sin_pos_of_pos_of_lt_pi H.gammaPos' (by linarith [pi_pos, H.gammaLt'])
  obtain ⟨n1, i1, e1⟩ := cycloid_teeth p (by rw [H.teeth]; exact hN1) c0 o0 a0
  obtain ⟨n2, i2, e2⟩ := cycloid_teeth q (by rw [H.teeth']; exact hN2) c0' o0' a0'
  intro r
  have hr : r = adaptCycloidRadii ((cycloidGear p).place c0 o0 a0) ((cycloidGear q).place c0' o0' a0') := rfl
  rw [adaptCycloidRadii, adaptInputs, n1, n2, i1, i2, e1, e2, H.teeth, H.teeth', hp, hq] at hr
  simp only [Bool.false_eq_true, if_false] at hr
  rw [hr]
  have hi := H.inside
  have hi' := H.inside'
  obtain ⟨p', hp'⟩ : ∃ p' : GearInput, p' = { p with outsideCycloid := q.insideCycloid / N1 * N2 } := ⟨_, rfl⟩
  obtain ⟨q', hq'⟩ : ∃ q' : GearInput, q' = { q with outsideCycloid := p.insideCycloid / N2 * N1 } := ⟨_, rfl⟩
  have H' : BevelCycloidPair p' q' N1 N2 := by
    rw [hp', hq']
    exact { H with outside := by simp only; positivity, outside' := by simp only; positivity }
  have hpos : 0 < sin (q.coneAngle / 2 + p.coneAngle / 2) :=
    sin_pos_of_pos_of_lt_pi (by linarith [H.gammaPos, H.gammaPos']) (by linarith [H.gammaLt, H.gammaLt'])
  have M := coneCycloid_mesh p' q' N1 N2 H' c C o O hO a A d (-1) (fun b => !b) hproj
    (Or.inl ⟨rfl, by rw [hp']; exact hp, by rw [hq']; exact hq⟩)
    (by
      intro out
      cases out
      · simp only [signedRolling, H'.teeth, H'.teeth', Bool.not_false, Bool.false_eq_true, if_false, if_true]
        rw [hp', hq']; simp only; field_simp
      · simp only [signedRolling, H'.teeth, H'.teeth', Bool.not_true, Bool.false_eq_true, if_false, if_true]
        rw [hp', hq']; simp only; field_simp)
    (by rw [hp', hq', neg_one_mul]; exact hβ) (by rw [hp']; exact hb1)
    (by rw [hp']; exact adapted_bound hN1 hN2 hs1 hs2 H.sameCone hb2)
    (by rw [hp', hq', neg_one_mul, sub_neg_eq_add, abs_of_pos hpos]; exact hbig)
  simp only [← hp', ← hq']
  have hap : pitchApex ((cycloidGear q').place C O A).cycloidObj =
      C + (p.module_ * (N2 / 2) / tan (q.coneAngle / 2)) • app O OUT := by
    rw [cycloid_pitchApex q' N2 hN2 H'.teeth', H'.sameModule, hp', hq']
  obtain ⟨g', e, m1, m2, -, m4, m5, m6, m7⟩ := M
  rw [hap] at m2 m7
  refine ⟨g', e, m1, m2, hap, m4, m5, m6, fun z φ k2 b => ?_⟩
  obtain ⟨k1, -, hk⟩ := m7 z φ k2 b
  refine ⟨k1, fun out => ?_⟩
  obtain ⟨t, s, ht, hts⟩ := hk out
  refine ⟨t, s, ?_, by rw [hts]; ring⟩
  have t1 : thinning p' z = thinning p z := by rw [hp']; rfl
  have t2 : thinning q' z = thinning q z := by rw [hq']; rfl
  have t3 : p'.module_ = p.module_ := by rw [hp']
  have t4 : q'.coneAngle = q.coneAngle := by rw [hq']
  rw [t1, t2, t3, t4, neg_one_mul, neg_one_mul, sub_neg_eq_add] at ht
  exact ht

/-- **C121, gear and ring.** The same for a conical gear in a conical ring gear, either of them meshed to the other: both turn
the same way, and inside flanks meet inside flanks, outside flanks outside flanks. -/
theorem c121_ring (p q : GearInput) (N1 N2 : ℕ) (H : BevelCycloidPair p q N1 N2)
    (hk : p.insideTeeth = false ∧ q.insideTeeth = true ∧ p.coneAngle < q.coneAngle ∧
        |p.insideCycloid| * sin (p.coneAngle / 2) ≤ 1 ∧ |q.outsideCycloid| * sin (q.coneAngle / 2) ≤ 1 ∨
      p.insideTeeth = true ∧ q.insideTeeth = false ∧ q.coneAngle < p.coneAngle ∧
        |q.insideCycloid| * sin (q.coneAngle / 2) ≤ 1 ∧ |p.outsideCycloid| * sin (p.coneAngle / 2) ≤ 1)
    (hβ : tan p.helixAngle = tan q.helixAngle) (c0 c0' c C : V3) (o0 o0' o O : M3)
    (a0 a0' a A : ℝ) (hO : IsRot O) (d : V3) (hproj : 1 / 10 ^ 12 ≤ norm3 (d - dot d (app O OUT) • app O OUT))
    (hbig : 1 / 10 ^ 12 ≤ p.module_ * (N2 / 2 / sin (q.coneAngle / 2)) * |sin (q.coneAngle / 2 - p.coneAngle / 2)|) :
    let r := adaptCycloidRadii ((cycloidGear p).place c0 o0 a0) ((cycloidGear q).place c0' o0' a0')
    let g := r.1.place c o a
    let h := r.2.place C O A
    let apex := C + (p.module_ * (N2 / 2) / tan (q.coneAngle / 2)) • app O OUT
    ∃ g' e, g.meshToCycloid h d = some g' ∧ pitchApex g'.cycloidObj = apex ∧ pitchApex h.cycloidObj = apex ∧
      IsGenerator g'.cycloidObj e ∧ IsGenerator h.cycloidObj e ∧ 0 < dot e (d - dot d (app O OUT) • app O OUT) ∧
      ∀ (z φ : ℝ) (k2 : ℤ), ∃ k1 : ℤ, ∀ b out : Bool, ∃ t s : ℝ,
        TouchOnSphere (g'.cycloidConeFlank out b z (φ * N2 / N1 - side b * (thinning p z - thinning q z) * 2 / N1) k1)
          (h.cycloidConeFlank out b z φ k2) t s apex |p.module_ * (N2 / 2 / sin (q.coneAngle / 2) - z)|
          (apex + (p.module_ * (N2 / 2 / sin (q.coneAngle / 2) - z)) • e) ∧ t * N1 = s * N2 := by
  have hN1 : (0 : ℝ) < N1 := by exact_mod_cast H.posN
  have hN2 : (0 : ℝ) < N2 := by exact_mod_cast H.posN'
  have hs1 : 0 < sin (p.coneAngle / 2) := sin_pos_of_pos_of_lt_pi H.gammaPos (by linarith [pi_pos, H.gammaLt])
  have hs2 : 0 < sin (q.coneAngle / 2) := sin_pos_of_pos_of_lt_pi H.gammaPos' (by linarith [pi_pos, H.gammaLt'])
  obtain ⟨n1, i1, e1⟩ := cycloid_teeth p (by rw [H.teeth]; exact hN1) c0 o0 a0
  obtain ⟨n2, i2, e2⟩ := cycloid_teeth q (by rw [H.teeth']; exact hN2) c0' o0' a0'
  have hi := H.inside
  have hi' := H.inside'
  have ho := H.outside
  have ho' := H.outside'
  intro r
  obtain ⟨p', q', hr, H', hc1, hc2, hk', hroll, hb1, hb2, hp', hq'⟩ : ∃ p' q' : GearInput,
      r = (cycloidGear p', cycloidGear q') ∧ BevelCycloidPair p' q' N1 N2 ∧
      p'.coneAngle = p.coneAngle ∧ q'.coneAngle = q.coneAngle ∧
      (p'.insideTeeth = false ∧ q'.insideTeeth = true ∧ p.coneAngle < q.coneAngle ∨
        p'.insideTeeth = true ∧ q'.insideTeeth = false ∧ q.coneAngle < p.coneAngle) ∧
      (∀ out, signedRolling p' out = signedRolling q' out) ∧
      |p'.insideCycloid| * sin (p'.coneAngle / 2) ≤ 1 ∧ |p'.outsideCycloid| * sin (p'.coneAngle / 2) ≤ 1 ∧
      ((∀ z, thinning p' z = thinning p z) ∧ p'.module_ = p.module_ ∧ p'.helixAngle = p.helixAngle) ∧
      ((∀ z, thinning q' z = thinning q z) ∧ q'.numTeeth = N2 ∧ q'.helixAngle = q.helixAngle) := by
    have hr : r = adaptCycloidRadii ((cycloidGear p).place c0 o0 a0) ((cycloidGear q).place c0' o0' a0') := rfl
    rw [adaptCycloidRadii, adaptInputs, n1, n2, i1, i2, e1, e2, H.teeth, H.teeth'] at hr
    rcases hk with ⟨hp, hq, hlt, b1, b2⟩ | ⟨hp, hq, hlt, b1, b2⟩
    · rw [hp, hq] at hr
      refine ⟨{ p with outsideCycloid := q.outsideCycloid / N1 * N2 }, { q with insideCycloid := p.insideCycloid / N2 * N1 },
        hr, { H with outside := by simp only; positivity, inside' := by simp only; positivity }, rfl, rfl,
        Or.inl ⟨hp, hq, hlt⟩, ?_, b1, adapted_bound hN1 hN2 hs1 hs2 H.sameCone b2, ⟨fun _ => rfl, rfl, rfl⟩,
        fun _ => rfl, H.teeth', rfl⟩
      intro out
      cases out <;> simp only [signedRolling, H.teeth, H.teeth', Bool.false_eq_true, if_false, if_true] <;> field_simp
    · rw [hp] at hr
      refine ⟨{ p with insideCycloid := q.insideCycloid / N1 * N2 }, { q with outsideCycloid := p.outsideCycloid / N2 * N1 },
        hr, { H with inside := by simp only; positivity, outside' := by simp only; positivity }, rfl, rfl,
        Or.inr ⟨hp, hq, hlt⟩, ?_, adapted_bound hN1 hN2 hs1 hs2 H.sameCone b1, b2, ⟨fun _ => rfl, rfl, rfl⟩,
        fun _ => rfl, H.teeth', rfl⟩
      intro out
      cases out <;> simp only [signedRolling, H.teeth, H.teeth', Bool.false_eq_true, if_false, if_true] <;> field_simp
  rw [hr]
  have M := coneCycloid_mesh p' q' N1 N2 H' c C o O hO a A d 1 id hproj
    (by
      rw [hc1, hc2]
      rcases hk' with h | h
      exacts [Or.inr (Or.inl ⟨rfl, h⟩), Or.inr (Or.inr ⟨rfl, h⟩)])
    (by intro out; rw [hroll out, one_mul]; rfl) (by rw [hp'.2.2, hq'.2.2, one_mul]; exact hβ) hb1 hb2
    (by rw [hp'.2.1, hc1, hc2, one_mul]; exact hbig)
  have hap : pitchApex ((cycloidGear q').place C O A).cycloidObj =
      C + (p.module_ * (N2 / 2) / tan (q.coneAngle / 2)) • app O OUT := by
    rw [cycloid_pitchApex q' N2 hN2 H'.teeth', H'.sameModule, hp'.2.1, hc2]
  obtain ⟨g', e, m1, m2, -, m4, m5, m6, m7⟩ := M
  rw [hap] at m2 m7
  refine ⟨g', e, m1, m2, hap, m4, m5, m6, fun z φ k2 => ?_⟩
  obtain ⟨k1, hk, -⟩ := m7 z φ k2 true
  refine ⟨k1, fun b out => ?_⟩
  obtain ⟨t, s, ht, hts⟩ := hk rfl b out
  refine ⟨t, s, ?_, by rw [hts]; ring⟩
  rw [hp'.1, hq'.1, hp'.2.1, hc2, one_mul, one_mul] at ht
  exact ht

/-- Concrete case: cycloid gears with 24 and 12 teeth and module 2, the larger one with a half cone angle of 30°. -/
theorem bevelCycloid_example (β : ℝ) (i j : Bool) :
    BevelCycloidPair { exampleInput with coneAngle := π / 3, insideTeeth := i }
      { exampleInput with numTeeth := 12, coneAngle := 2 * arcsin (1 / 4), helixAngle := β, insideTeeth := j } 24 12 := by
  have h1 : (0 : ℝ) < arcsin (1 / 4) := arcsin_pos.2 (by norm_num)
  have h2 : arcsin (1 / 4) < π / 2 := arcsin_lt_pi_div_two.2 (by norm_num)
  have hs : sin (arcsin (1 / 4)) = 1 / 4 := sin_arcsin (by norm_num) (by norm_num)
  have h6 : π / 3 / 2 = π / 6 := by ring
  have h7 : 2 * arcsin (1 / 4) / 2 = arcsin (1 / 4) := by ring
  constructor <;> (try simp only [h6, h7, hs, sin_pi_div_six]) <;> first | exact h1 | exact h2 | norm_num [exampleInput] | skip
  all_goals (first | positivity | linarith [pi_pos])

example : let p : GearInput := { exampleInput with coneAngle := π / 3 }
    let q : GearInput := { exampleInput with numTeeth := 12, coneAngle := 2 * arcsin (1 / 4), helixAngle := -exampleInput.helixAngle }
    p.insideTeeth = false ∧ q.insideTeeth = false ∧ tan p.helixAngle = -tan q.helixAngle ∧
      |p.insideCycloid| * sin (p.coneAngle / 2) ≤ 1 ∧ |q.insideCycloid| * sin (q.coneAngle / 2) ≤ 1 ∧
      1 / 10 ^ 12 ≤ norm3 (RIGHT - dot RIGHT (app 1 OUT) • app 1 OUT) ∧
      1 / 10 ^ 12 ≤ p.module_ * ((12 : ℕ) / 2 / sin (q.coneAngle / 2)) * sin (q.coneAngle / 2 + p.coneAngle / 2) := by
  intro p q
  have h1 : (0 : ℝ) < arcsin (1 / 4) := arcsin_pos.2 (by norm_num)
  have h2 : arcsin (1 / 4) < π / 2 := arcsin_lt_pi_div_two.2 (by norm_num)
  have hs : sin (arcsin (1 / 4)) = 1 / 4 := sin_arcsin (by norm_num) (by norm_num)
  have h6 : p.coneAngle / 2 = π / 6 := by change π / 3 / 2 = π / 6; ring
  have h7 : q.coneAngle / 2 = arcsin (1 / 4) := by change 2 * arcsin (1 / 4) / 2 = arcsin (1 / 4); ring
  have hc : 0 < cos (arcsin (1 / 4)) := cos_pos_of_mem_Ioo ⟨by linarith [pi_pos], h2⟩
  have h3 : (3 : ℝ) / 2 ≤ √3 := by rw [Real.le_sqrt' (by norm_num)]; norm_num
  refine ⟨rfl, rfl, by rw [show q.helixAngle = -p.helixAngle from rfl, tan_neg, neg_neg], ?_, ?_, ?_, ?_⟩
  · rw [h6, sin_pi_div_six]; norm_num [p, exampleInput]
  · rw [h7, hs]; norm_num [q, exampleInput]
  · have : RIGHT - dot RIGHT (app 1 OUT) • app 1 OUT = RIGHT := by rw [app_one]; simp [dot, RIGHT, OUT]
    rw [this, norm3_eq_of_dot (r := 1) (by norm_num) (by simp [dot, RIGHT])]; norm_num
  · rw [h6, h7, hs, sin_add, hs, cos_pi_div_six, sin_pi_div_six]
    have hm : p.module_ = 2 := rfl
    rw [hm]
    norm_num
    nlinarith

/-- Concrete case for the ring: the larger gear has its teeth inside. -/
example : let p : GearInput := { exampleInput with coneAngle := π / 3, insideTeeth := true }
    let q : GearInput := { exampleInput with
      numTeeth := 12, coneAngle := 2 * arcsin (1 / 4), helixAngle := exampleInput.helixAngle, insideTeeth := false }
    BevelCycloidPair p q 24 12 ∧ q.coneAngle < p.coneAngle ∧
      |q.insideCycloid| * sin (q.coneAngle / 2) ≤ 1 ∧ |p.outsideCycloid| * sin (p.coneAngle / 2) ≤ 1 ∧
      1 / 10 ^ 12 ≤ p.module_ * ((12 : ℕ) / 2 / sin (q.coneAngle / 2)) * |sin (q.coneAngle / 2 - p.coneAngle / 2)| := by
  intro p q
  have hs : sin (arcsin (1 / 4)) = 1 / 4 := sin_arcsin (by norm_num) (by norm_num)
  have h6 : p.coneAngle / 2 = π / 6 := by change π / 3 / 2 = π / 6; ring
  have h7 : q.coneAngle / 2 = arcsin (1 / 4) := by change 2 * arcsin (1 / 4) / 2 = arcsin (1 / 4); ring
  have h3 : √3 ≤ (2 : ℝ) := by rw [Real.sqrt_le_left (by norm_num)]; norm_num
  have hc : 3 / 4 ≤ cos (arcsin (1 / 4)) := by
    rw [cos_arcsin, Real.le_sqrt' (by norm_num)]; norm_num
  refine ⟨bevelCycloid_example _ _ _, ?_, ?_, ?_, ?_⟩
  · have : arcsin (1 / 4) < π / 6 := by
      rw [arcsin_lt_iff_lt_sin' ⟨by linarith [pi_pos], by linarith [pi_pos]⟩, sin_pi_div_six]; norm_num
    linarith
  · rw [h7, hs]; norm_num [q, exampleInput]
  · rw [h6, sin_pi_div_six]; norm_num [p, exampleInput]
  · rw [h6, h7, hs, sin_sub, hs, cos_pi_div_six, sin_pi_div_six, abs_of_nonpos (by nlinarith)]
    have hm : p.module_ = 2 := rfl
    rw [hm]
    norm_num
    nlinarith

end Verif
