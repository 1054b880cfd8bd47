import Verif.Model.OctoidMesh
import Verif.Props.CycloidBevel

/-!
# C122: meshed octoid bevel gears are conjugate
-/

namespace Verif

open scoped Matrix
open Real
open Spec (circlePoint)

/-- The plane flank of a crown gear that touches a cone along the generator `e` and lies on the side `τ`: its normal, when
the crown gear is turned by `x` and the flank is inclined by `α`. -/
noncomputable def octNormal (α x : ℝ) (e τ : V3) : V3 :=
  cos α • (sin x • e + cos x • cross τ e) - sin α • τ

/-- The point of that plane, on the sphere with radius `R` around `A`, that is nearest to the generator. -/
noncomputable def octPoint (A : V3) (R α x : ℝ) (e τ : V3) : V3 :=
  A + (R / √(sin α ^ 2 * sin x ^ 2 + cos x ^ 2)) • (e - (cos α * sin x) • octNormal α x e τ)

theorem octNormal_flip (α x : ℝ) (e τ : V3) : octNormal α (-x) e (-τ) = -octNormal α x e τ := by
  apply V3.ext3 <;> simp [octNormal, cos_neg, sin_neg] <;> ring

theorem octPoint_flip (A : V3) (R α x : ℝ) (e τ : V3) : octPoint A R α (-x) e (-τ) = octPoint A R α x e τ := by
  rw [octPoint, octPoint, octNormal_flip, sin_neg, cos_neg]
  congr 1
  rw [neg_sq]
  module

theorem octNormal_app {M : M3} (hM : IsRot M) (α x : ℝ) (e τ : V3) :
    app M (octNormal α x e τ) = octNormal α x (app M e) (app M τ) := by
  simp only [octNormal, app_add, app_sub, app_smul, hM.cross_app]

theorem octPoint_app {M : M3} (hM : IsRot M) (A : V3) (R α x : ℝ) (e τ : V3) :
    app M (octPoint A R α x e τ) = octPoint (app M A) R α x (app M e) (app M τ) := by
  simp only [octPoint, app_add, app_sub, app_smul, octNormal_app hM]

theorem octPoint_affine (A c : V3) (R s α x : ℝ) (e τ : V3) :
    s • octPoint A R α x e τ + c = octPoint (s • A + c) (s * R) α x e τ := by
  simp only [octPoint]
  rw [mul_div_assoc]
  module

theorem octNormal_mirror (b : Bool) (γ ψ α x : ℝ) :
    mir b (octNormal α x (genDir γ ψ) (outDir γ ψ)) =
      side b • octNormal (side b * α) (side b * x) (genDir γ (side b * ψ)) (outDir γ (side b * ψ)) := by
  cases b
  · simp [mir, side]
  · rw [octNormal, octNormal, cross_outDir, cross_outDir]
    apply V3.ext3 <;> simp [mir, side, mulV, genDir, outDir, polarVec, OUT] <;> ring

theorem octPoint_mirror (b : Bool) (a R γ ψ α x : ℝ) :
    mir b (octPoint (a • OUT) R α x (genDir γ ψ) (outDir γ ψ)) =
      octPoint (a • OUT) R (side b * α) (side b * x) (genDir γ (side b * ψ)) (outDir γ (side b * ψ)) := by
  have h := octNormal_mirror b γ ψ α x
  have hg : mir b (genDir γ ψ) = genDir γ (side b * ψ) := by
    cases b
    · simp [mir, side]
    · apply V3.ext3 <;> simp [mir, side, mulV, genDir, polarVec, OUT]
  have hlin : ∀ (u v w : V3) (p q : ℝ), mir b (u + p • (v - q • w)) = mir b u + p • (mir b v - q • mir b w) := by
    intro u v w p q
    cases b
    · rfl
    · apply V3.ext3 <;> simp [mir, mulV] <;> ring
  have ho : mir b (a • OUT) = a • OUT := by
    cases b
    · rfl
    · apply V3.ext3 <;> simp [mir, mulV, OUT]
  rw [octPoint, octPoint, hlin, h, hg, ho]
  congr 1
  cases b
  · simp [side]
  · simp only [side, if_true, neg_one_mul, sin_neg, cos_neg, neg_sq]
    module

/-- The octoid curve of the code is traced by that point when the crown gear rolls on the cone. -/
theorem octoid_octPoint (t rb R α angle : ℝ) (hR : 0 < R) (hr : |rb| ≤ R) :
    octoid t rb R α angle ORIGIN 0 = octPoint ((R * cos (arcsin (rb / R))) • OUT) R α (t * sin (arcsin (rb / R)))
      (genDir (arcsin (rb / R)) (t + angle)) (outDir (arcsin (rb / R)) (t + angle)) := by
  obtain ⟨h1, h2⟩ := arcsin_div hR hr
  rw [octPoint, octNormal, cross_outDir]
  simp only [octoid]
  rw [← h2]
  obtain ⟨g, hg⟩ : ∃ g, g = arcsin (rb / R) := ⟨_, rfl⟩
  rw [← hg]
  obtain ⟨x, hx⟩ : ∃ x, x = t * sin g := ⟨_, rfl⟩
  rw [← hx]
  obtain ⟨k, hk⟩ : ∃ k, k = R / √(sin α ^ 2 * sin x ^ 2 + cos x ^ 2) := ⟨_, rfl⟩
  have hk' : -R / √(sin α ^ 2 * sin x ^ 2 + cos x ^ 2) = -k := by rw [hk]; ring
  rw [hk', ← hk]
  have ec : cos (π / 2 + angle) = -sin angle := by rw [add_comm, cos_add_pi_div_two]
  have es : sin (π / 2 + angle) = cos angle := by rw [add_comm, sin_add_pi_div_two]
  have hq : sin α ^ 2 * sin x ^ 2 + cos x ^ 2 = 1 - cos α ^ 2 * sin x ^ 2 := by
    have q1 := sin_sq_add_cos_sq α
    have q2 := sin_sq_add_cos_sq x
    linear_combination sin x ^ 2 * q1 + q2
  apply V3.ext3
  · simp [app_mul, Rz_app, Ry_app, es, ec, OUT, genDir, outDir, polarVec, cos_add, sin_add]
    linear_combination k * sin g * (cos t * cos angle - sin t * sin angle) * hq
  · simp [app_mul, Rz_app, Ry_app, es, ec, OUT, genDir, outDir, polarVec, cos_add, sin_add]
    linear_combination k * sin g * (sin t * cos angle + cos t * sin angle) * hq
  · simp [app_mul, Rz_app, Ry_app, OUT, genDir, outDir, polarVec]
    linear_combination -k * cos g * hq

/-- A point that stays in the plane through a moving line `e` across a plane with normal `m`, where the plane only turns
about `e`. -/
theorem normal_of_roll {e m : ℝ → V3} {c s : ℝ → ℝ} {t : ℝ} {e' m' : V3} {c' s' : ℝ} (he : HasDerivAt e e' t)
    (hm : HasDerivAt m m' t) (hc : HasDerivAt c c' t) (hs : HasDerivAt s s' t) (hss : ∀ t, s t = dot (e t) (m t))
    (h1 : dot (m t) (m t) = 1) (h2 : dot (e t) m' = 0) (h3 : dot (m t) m' = 0) (A : V3) :
    NormalAt (fun t => A + c t • (e t - s t • m t)) t (m t) := by
  refine ⟨_, (hc.smul (he.sub (hs.smul hm))).const_add A, ?_⟩
  have hd : HasDerivAt s (dot e' (m t) + dot (e t) m') t := by
    have : s = fun t => dot (e t) (m t) := funext hss
    rw [this]
    simp only [dot]
    refine ((((HasDerivAt.v3 he 0).mul (HasDerivAt.v3 hm 0)).add ((HasDerivAt.v3 he 1).mul (HasDerivAt.v3 hm 1))).add
      ((HasDerivAt.v3 he 2).mul (HasDerivAt.v3 hm 2))).congr_deriv ?_
    ring
  have hsd := hs.unique hd
  have e0 : (e - s • m) t = e t - s t • m t := rfl
  rw [e0]
  simp only [dot_add_left, dot_smul_left, dot_sub_left, h1, dot_comm m' (m t), h3]
  rw [hsd, h2, ← hss]
  ring

theorem octNormal_unit {e τ : V3} (he : dot e e = 1) (hτ : dot τ τ = 1) (h : dot τ e = 0) (α x : ℝ) :
    dot (octNormal α x e τ) (octNormal α x e τ) = 1 ∧ dot e (octNormal α x e τ) = cos α * sin x := by
  have hn : dot (cross τ e) (cross τ e) = 1 := by rw [dot_cross_self, he, hτ, h]; norm_num
  have h1 : dot τ (cross τ e) = 0 := dot_cross_left _ _
  have h2 : dot e (cross τ e) = 0 := dot_cross_right _ _
  have q1 := sin_sq_add_cos_sq x
  have q2 := sin_sq_add_cos_sq α
  constructor
  · simp only [octNormal, dot_smul_left, dot_smul_right, dot_add_left, dot_add_right, dot_sub_left, dot_sub_right, he, hτ, h, hn,
      h1, h2, dot_comm e τ, dot_comm (cross τ e)]
    linear_combination cos α ^ 2 * q1 + q2
  · simp only [octNormal, dot_smul_right, dot_add_right, dot_sub_right, he, h, h2, dot_comm e τ]
    ring

theorem oct_pos {α : ℝ} (hα : sin α ≠ 0) (x : ℝ) : 0 < sin α ^ 2 * sin x ^ 2 + cos x ^ 2 := by
  have q := sin_sq_add_cos_sq x
  have h1 : 0 < sin α ^ 2 := by positivity
  by_cases h : cos x = 0
  · rw [h] at q ⊢
    have : sin x ^ 2 = 1 := by linarith
    rw [this]; linarith
  · have : 0 < cos x ^ 2 := by positivity
    positivity

theorem octPoint_normal (γ f α R a : ℝ) (hα : sin α ≠ 0) (t : ℝ) :
    NormalAt (fun t => octPoint (a • OUT) R α (t * sin γ) (genDir γ (t - f)) (outDir γ (t - f))) t
      (octNormal α (t * sin γ) (genDir γ (t - f)) (outDir γ (t - f))) := by
  have hcos : ∀ t, HasDerivAt (fun t => cos (t - f)) (-sin (t - f)) t := fun t => by
    simpa [sub_eq_add_neg] using hasDerivAt_cos_lin 1 (-f) t
  have hsin : ∀ t, HasDerivAt (fun t => sin (t - f)) (cos (t - f)) t := fun t => by
    simpa [sub_eq_add_neg] using hasDerivAt_sin_lin 1 (-f) t
  have hsx : HasDerivAt (fun t => sin (t * sin γ)) (sin γ * cos (t * sin γ)) t := by
    simpa [mul_comm] using hasDerivAt_sin_lin (sin γ) 0 t
  have hcx : HasDerivAt (fun t => cos (t * sin γ)) (-(sin γ * sin (t * sin γ))) t := by
    simpa [mul_comm] using hasDerivAt_cos_lin (sin γ) 0 t
  have he : HasDerivAt (fun t => genDir γ (t - f)) (sin γ • ![-sin (t - f), cos (t - f), 0]) t := by
    apply hasDerivAt_v3
    · simpa [genDir, polarVec, OUT] using (hcos t).const_mul (sin γ)
    · simpa [genDir, polarVec, OUT] using (hsin t).const_mul (sin γ)
    · simpa [genDir, polarVec, OUT] using hasDerivAt_const t (-cos γ)
  have hτ : HasDerivAt (fun t => outDir γ (t - f)) (cos γ • ![-sin (t - f), cos (t - f), 0]) t := by
    apply hasDerivAt_v3
    · simpa [outDir, polarVec, OUT] using (hcos t).const_mul (cos γ)
    · simpa [outDir, polarVec, OUT] using (hsin t).const_mul (cos γ)
    · simpa [outDir, polarVec, OUT] using hasDerivAt_const t (sin γ)
  have hν : HasDerivAt (fun t => cross (outDir γ (t - f)) (genDir γ (t - f))) ![-cos (t - f), -sin (t - f), 0] t := by
    simp only [cross_outDir]
    apply hasDerivAt_v3
    · simp; exact (hsin t).neg
    · simpa using hcos t
    · simpa using hasDerivAt_const t (0 : ℝ)
  have hm := (((hsx.smul he).add (hcx.smul hν)).const_smul (cos α)).sub (hτ.const_smul (sin α))
  obtain ⟨he1, ht1, hte⟩ := genDir_unit γ (t - f)
  obtain ⟨w, hw⟩ : ∃ w, w = -cos γ • ((cos α * cos (t * sin γ)) • outDir γ (t - f) +
      sin α • cross (outDir γ (t - f)) (genDir γ (t - f))) := ⟨_, rfl⟩
  have hm' : HasDerivAt (fun t => octNormal α (t * sin γ) (genDir γ (t - f)) (outDir γ (t - f))) w t := by
    refine hm.congr_deriv ?_
    rw [hw, cross_outDir]
    have q1 := sin_sq_add_cos_sq γ
    apply V3.ext3
    · simp [genDir, outDir, polarVec, OUT]
      linear_combination cos α * cos (t * sin γ) * cos (t - f) * q1
    · simp [genDir, outDir, polarVec, OUT]
      linear_combination cos α * cos (t * sin γ) * sin (t - f) * q1
    · simp [genDir, outDir, polarVec, OUT]
      ring
  have hQ := oct_pos hα (t * sin γ)
  have hc := (hasDerivAt_const t R).div ((((hsx.pow 2).const_mul (sin α ^ 2)).add (hcx.pow 2)).sqrt hQ.ne')
    (by simpa using (Real.sqrt_pos.2 hQ).ne')
  have hn : dot (cross (outDir γ (t - f)) (genDir γ (t - f))) (cross (outDir γ (t - f)) (genDir γ (t - f))) = 1 := by
    rw [dot_cross_self, he1, ht1, hte]; norm_num
  have h1 : dot (outDir γ (t - f)) (cross (outDir γ (t - f)) (genDir γ (t - f))) = 0 := dot_cross_left _ _
  have h2 : dot (genDir γ (t - f)) (cross (outDir γ (t - f)) (genDir γ (t - f))) = 0 := dot_cross_right _ _
  refine normal_of_roll he hm' hc (hsx.const_mul (cos α)) (fun t => ?_) (octNormal_unit he1 ht1 hte _ _).1 ?_ ?_ (a • OUT)
  · obtain ⟨a1, a2, a3⟩ := genDir_unit γ (t - f)
    exact (octNormal_unit a1 a2 a3 _ _).2.symm
  · rw [hw]
    simp only [dot_smul_right, dot_add_right, dot_comm (genDir γ (t - f)) (outDir γ (t - f)), hte, h2]
    ring
  · rw [hw, octNormal]
    simp only [dot_smul_right, dot_add_right, dot_smul_left, dot_add_left, dot_sub_left, ht1, hn, h1, h2, hte,
      dot_comm (genDir γ (t - f)) (outDir γ (t - f)), dot_comm (cross (outDir γ (t - f)) (genDir γ (t - f)))]
    ring

theorem normal_transform' {f : ℝ → V3} {t : ℝ} {n : V3} (h : NormalAt f t n) {M : M3} (hM : IsRot M) (s : ℝ) (c : V3)
    (b : Bool) : NormalAt (fun t => s • app M (mir b (f t)) + c) t (app M (mir b n)) := by
  obtain ⟨v, hv, h0⟩ := h
  have hm : HasDerivAt (fun t => mir b (f t)) (mir b v) t := by
    cases b
    · exact hv
    · have e0 := HasDerivAt.v3 hv 0
      have e1 := HasDerivAt.v3 hv 1
      have e2 := HasDerivAt.v3 hv 2
      apply hasDerivAt_v3
      · simpa [mir, mulV] using e0
      · simp [mir, mulV]; exact e1.neg
      · simpa [mir, mulV] using e2
  refine ⟨s • app M (mir b v), ((hasDerivAt_app M hm).const_smul s).add_const c, ?_⟩
  have hd : dot (mir b v) (mir b n) = dot v n := by cases b <;> simp [mir, mulV, dot]
  rw [dot_smul_left, hM.dot_app, hd, h0]; simp

/-- Direction of the point of a flank on the pitch cone. -/
noncomputable def pitchDir (p : GearInput) (A z turn : ℝ) (k : ℤ) (b : Bool) : ℝ :=
  A + z * (tan p.helixAngle / (p.numTeeth / 2)) + turn + k * (2 * π / p.numTeeth) - side b * p.crowningFunc z p.toothAngle

/-- What one gear contributes to the play between the flanks, in modules along the pitch circle: `backlash` and the relief of
the tooth by the crowning, less what the profile shift adds to the tooth. -/
noncomputable def shiftedThinning (p : GearInput) (z : ℝ) : ℝ :=
  p.backlash + (z * 2 / p.height - 1) ^ 2 * p.crowning / 1000 - p.profileShift * tan p.pressureAngle

theorem pitchDir_arc (p : GearInput) (hn : 0 < p.numTeeth) (A z turn : ℝ) (k : ℤ) (b : Bool) :
    pitchDir p A z turn k b * p.numTeeth = A * p.numTeeth + 2 * z * tan p.helixAngle + turn * p.numTeeth + 2 * π * k -
      side b * (π / 2 - 2 * shiftedThinning p z) := by
  rw [pitchDir, shiftedThinning, GearInput.crowningFunc, GearInput.toothAngle]
  field_simp
  ring

/-- The flanks of a placed bevel gear: where they are and which normals they have. -/
theorem octoidFlank_place (p : GearInput) (hn : 0 < p.numTeeth) (h0 : 0 < p.coneAngle / 2) (h1 : p.coneAngle / 2 < π / 2)
    (hα : sin p.pressureAngle ≠ 0) (C : V3) {O : M3} (hO : IsRot O) (A z turn : ℝ) (k : ℤ) (b : Bool) (t : ℝ) :
    let γ := p.coneAngle / 2
    let ψ := pitchDir p A z turn k b + side b * t
    let apex := C + (p.module_ * (p.numTeeth / 2) / tan γ) • app O OUT
    let R := p.module_ * (p.numTeeth / 2 / sin γ - z)
    let F := ((involuteGear p).place C O A).octoidFlank b z turn k
    F t = octPoint apex R (side b * p.pressureAngle) (side b * (t * sin γ)) (app O (genDir γ ψ)) (app O (outDir γ ψ)) ∧
    NormalAt F t (octNormal (side b * p.pressureAngle) (side b * (t * sin γ)) (app O (genDir γ ψ)) (app O (outDir γ ψ))) := by
  intro γ ψ apex R F
  replace h0 : 0 < γ := h0
  replace h1 : γ < π / 2 := h1
  have hs : 0 < sin γ := sin_pos_of_pos_of_lt_pi h0 (by linarith [pi_pos])
  have hc : 0 < cos γ := cos_pos_of_mem_Ioo ⟨by linarith [pi_pos], h1⟩
  obtain ⟨rp, hrp⟩ : ∃ rp, rp = p.numTeeth / 2 := ⟨_, rfl⟩
  have hrp0 : 0 < rp := by rw [hrp]; positivity
  obtain ⟨f, hf⟩ : ∃ f, f = p.crowningFunc z p.toothAngle := ⟨_, rfl⟩
  obtain ⟨α, hαd⟩ : ∃ α, α = p.pressureAngle := ⟨_, rfl⟩
  rw [← hαd] at hα
  have hne : p.coneAngle ≠ 0 := by intro h; have e : γ = p.coneAngle / 2 := rfl; rw [e, h] at h0; simp at h0
  have hnorm : p.normalise = p := by rw [GearInput.normalise, if_neg (not_lt.2 hn.le)]
  have hgear : involuteGear p = ⟨p, p.calcParams (GearToothParam.make p.numTeeth 0 p.insideTeeth)⟩ := by
    rw [involuteGear, hnorm]
  have hRa : |rp / sin γ| = rp / sin γ := abs_of_pos (by positivity)
  have hgen : ∀ t, ((involuteGear p).place C O A).core.recipe.gen.octoidFlank z t =
      octoid t rp (rp / sin γ) α (-f) ORIGIN 0 := by
    intro t
    have e : p.involuteGen.octoidFlank z t = Verif.octoidFlank f rp p.coneAngle α t := by
      rw [GearInput.involuteGen, hf, hrp, hαd]
      split_ifs <;> rfl
    rw [hgear]
    refine e.trans ?_
    rw [Verif.octoidFlank]
    rw [one_div_one_div, show |rp / sin (p.coneAngle / 2)| = rp / sin γ from hRa]
  have hpa : ((involuteGear p).place C O A).pitchAngle = 2 * π / p.numTeeth := by
    rw [hgear]
    simp [WGear.pitchAngle, WGear.place, GearInput.calcParams, make_pos hn, GearToothParam.pitchAngle]
  obtain ⟨x, hx⟩ : ∃ x, x = A + z * (tan p.helixAngle / (p.numTeeth / 2)) + turn + k * (2 * π / p.numTeeth) := ⟨_, rfl⟩
  have hF : F = fun t => (p.module_ * (1 - z * sin γ / rp)) • app (O * Rz x)
      (mir b (octoid t rp (rp / sin γ) α (-f) ORIGIN 0)) + (C + (p.module_ * (z * cos γ)) • app O OUT) := by
    funext t
    change WGear.octoidFlank _ b z turn k t = _
    rw [WGear.octoidFlank, place_transformAt, hpa]
    simp only
    rw [hgen, applyGearTransform_eq]
    have hcz : (involuteGear p).core.recipe.center z = (z * cos γ) • OUT := by rw [hgear]; rfl
    have hsz : (involuteGear p).core.recipe.scale z = 1 - z * sin γ / rp := by
      rw [hgear]
      change 1 - z * 2 * sin γ / (GearToothParam.make p.numTeeth 0 p.insideTeeth).numTeeth = _
      rw [hrp, make_pos hn]; field_simp
    have haz : (involuteGear p).core.recipe.angle z = z * (tan p.helixAngle / (p.numTeeth / 2)) := by rw [hgear]; rfl
    have hsc : (involuteGear p).core.transform.scale = p.module_ := by rw [hgear]; rfl
    simp only [hcz, hsz, haz, hsc, app_mul, app_smul, Rz_app_OUT, ← hx, smul_smul, mir]
  have hγ : arcsin (rp / (rp / sin γ)) = γ := by
    rw [show rp / (rp / sin γ) = sin γ by field_simp]
    exact arcsin_sin (by linarith [pi_pos]) h1.le
  have hb1 : |rp| ≤ rp / sin γ := by
    rw [abs_of_pos hrp0, le_div_iff₀ hs]; nlinarith [sin_le_one γ]
  have hMR : IsRot (O * Rz x) := hO.mul (IsRot.Rz x)
  have hψ : ψ = x + side b * (t - f) := by
    change pitchDir p A z turn k b + side b * t = _
    rw [pitchDir, ← hf, ← hx]; ring
  have hRs : p.module_ * (1 - z * sin γ / rp) * (rp / sin γ) = R := by
    change _ = p.module_ * (p.numTeeth / 2 / sin γ - z); rw [← hrp]; field_simp
  have hap : (p.module_ * (1 - z * sin γ / rp)) • ((rp / sin γ * cos γ) • app O OUT) +
      (C + (p.module_ * (z * cos γ)) • app O OUT) = apex := by
    change _ = C + (p.module_ * (p.numTeeth / 2) / tan γ) • app O OUT
    rw [add_left_comm, smul_smul, ← add_smul, ← hrp, tan_eq_sin_div_cos]
    congr 2
    field_simp
    ring
  have hval : ∀ t, octoid t rp (rp / sin γ) α (-f) ORIGIN 0 = octPoint ((rp / sin γ * cos γ) • OUT) (rp / sin γ) α
      (t * sin γ) (genDir γ (t - f)) (outDir γ (t - f)) := by
    intro t
    rw [octoid_octPoint t rp (rp / sin γ) α (-f) (by positivity) hb1, hγ, ← sub_eq_add_neg]
  have hN := normal_transform' (octPoint_normal γ f α (rp / sin γ) (rp / sin γ * cos γ) hα t) hMR (p.module_ * (1 - z * sin γ / rp))
    (C + (p.module_ * (z * cos γ)) • app O OUT) b
  have hF' := hF
  simp only [hval] at hF'
  rw [← hF', octNormal_mirror, app_smul, octNormal_app hMR] at hN
  simp only [app_mul, Rz_genDir, Rz_outDir, ← hψ] at hN
  rw [← hαd]
  constructor
  · rw [hF']
    simp only
    rw [octPoint_mirror, octPoint_app hMR, octPoint_affine, hRs]
    simp only [app_mul, Rz_genDir, Rz_outDir, app_smul, Rz_app_OUT, hψ]
    rw [hap]
  · obtain ⟨v, hv, hd⟩ := hN
    refine ⟨v, hv, ?_⟩
    rw [dot_smul_right] at hd
    rcases mul_eq_zero.1 hd with h | h
    · have := side_sq b; rw [h] at this; norm_num at this
    · exact h

theorem octPoint_norm {A e τ : V3} (he : dot e e = 1) (hτ : dot τ τ = 1) (h : dot τ e = 0) {α : ℝ} (hα : sin α ≠ 0)
    (R x : ℝ) : norm3 (octPoint A R α x e τ - A) = |R| ∧ dot (octNormal α x e τ) (octPoint A R α x e τ - A) = 0 ∧
      dot (cross (octPoint A R α x e τ - A) (octNormal α x e τ)) e = 0 := by
  obtain ⟨h1, h2⟩ := octNormal_unit he hτ h α x
  have hQ := oct_pos hα x
  obtain ⟨m, hm⟩ : ∃ m, m = octNormal α x e τ := ⟨_, rfl⟩
  obtain ⟨Q, hQd⟩ : ∃ Q, Q = sin α ^ 2 * sin x ^ 2 + cos x ^ 2 := ⟨_, rfl⟩
  have hq : Q = 1 - (cos α * sin x) ^ 2 := by
    have q1 := sin_sq_add_cos_sq α
    have q2 := sin_sq_add_cos_sq x
    rw [hQd]
    linear_combination sin x ^ 2 * q1 + q2
  rw [← hQd] at hQ
  have hsq : √Q ^ 2 = Q := Real.sq_sqrt hQ.le
  have hs0 : √Q ≠ 0 := (Real.sqrt_pos.2 hQ).ne'
  rw [octPoint, add_sub_cancel_left, ← hm, ← hQd]
  rw [← hm] at h1 h2
  refine ⟨?_, ?_, ?_⟩
  · apply norm3_eq_of_dot (abs_nonneg R)
    simp only [dot_smul_left, dot_smul_right, dot_sub_left, dot_sub_right, he, h1, h2, dot_comm m e, sq_abs]
    field_simp
    rw [hsq, hq]
    ring
  · simp only [dot_smul_right, dot_sub_right, h1, h2, dot_comm m e]
    ring
  · simp only [dot, cross_0, cross_1, cross_2, Pi.smul_apply, Pi.sub_apply, smul_eq_mul]
    ring

/-- The curves are on the sphere with radius `R` around `A` and touch there: they have a common normal in the sphere, `m`, and the
great circle in its direction goes through the direction `e`. -/
def SphereContact (F G : ℝ → V3) (t s : ℝ) (A : V3) (R : ℝ) (e : V3) : Prop :=
  F t = G s ∧ (∀ x, norm3 (F x - A) = R) ∧ (∀ x, norm3 (G x - A) = R) ∧
    ∃ m, dot m m = 1 ∧ dot m (F t - A) = 0 ∧ NormalAt F t m ∧ NormalAt G s m ∧ dot (cross (F t - A) m) e = 0

/-- Two bevel gears that can work together: whole tooth counts, the same module and pressure angle, the same cone
distance. -/
structure OctoidPair (p q : GearInput) (N1 N2 : ℕ) : Prop where
  posN : 0 < N1
  posN' : 0 < N2
  teeth : p.numTeeth = N1
  teeth' : q.numTeeth = N2
  gammaPos : 0 < p.coneAngle / 2
  gammaPos' : 0 < q.coneAngle / 2
  gammaLt : p.coneAngle / 2 < π / 2
  gammaLt' : q.coneAngle / 2 < π / 2
  sameCone : N1 / sin (p.coneAngle / 2) = N2 / sin (q.coneAngle / 2)
  modulePos : 0 < p.module_
  sameModule : q.module_ = p.module_
  alphaPos : 0 < p.pressureAngle
  alphaLt : p.pressureAngle < π / 2
  sameAlpha : q.pressureAngle = p.pressureAngle

/-- Touching of two placed bevel gears. -/
theorem octoid_touch (p q : GearInput) (N1 N2 : ℕ) (H : OctoidPair p q N1 N2) (C1 C2 : V3) {O1 O2 : M3}
    (hO1 : IsRot O1) (hO2 : IsRot O2) (A1 A2 z turn φ : ℝ) (k1 k2 : ℤ) (b : Bool) (δ1 δ2 ε : ℝ) (hε : ε = 1 ∨ ε = -1)
    (hapex : C1 + (p.module_ * (p.numTeeth / 2) / tan (p.coneAngle / 2)) • app O1 OUT =
      C2 + (q.module_ * (q.numTeeth / 2) / tan (q.coneAngle / 2)) • app O2 OUT)
    (hgen : app O1 (genDir (p.coneAngle / 2) δ1) = app O2 (genDir (q.coneAngle / 2) δ2))
    (hout : app O1 (outDir (p.coneAngle / 2) δ1) = ε • app O2 (outDir (q.coneAngle / 2) δ2))
    (harc : (δ1 - pitchDir p A1 z turn k1 b) * p.numTeeth = ε * ((δ2 - pitchDir q A2 z φ k2 b) * q.numTeeth)) :
    SphereContact (((involuteGear p).place C1 O1 A1).octoidFlank b z turn k1)
      (((involuteGear q).place C2 O2 A2).octoidFlank b z φ k2)
      (side b * (δ1 - pitchDir p A1 z turn k1 b)) (side b * (δ2 - pitchDir q A2 z φ k2 b))
      (C2 + (q.module_ * (q.numTeeth / 2) / tan (q.coneAngle / 2)) • app O2 OUT)
      |p.module_ * (N2 / 2 / sin (q.coneAngle / 2) - z)| (app O2 (genDir (q.coneAngle / 2) δ2)) := by
  have hN1 : (0 : ℝ) < N1 := by exact_mod_cast H.posN
  have hN2 : (0 : ℝ) < N2 := by exact_mod_cast H.posN'
  have hp : 0 < p.numTeeth := by rw [H.teeth]; exact hN1
  have hq : 0 < q.numTeeth := by rw [H.teeth']; exact hN2
  have hs1 : 0 < sin (p.coneAngle / 2) := sin_pos_of_pos_of_lt_pi H.gammaPos (by linarith [pi_pos, H.gammaLt])
  have hs2 : 0 < sin (q.coneAngle / 2) := sin_pos_of_pos_of_lt_pi H.gammaPos' (by linarith [pi_pos, H.gammaLt'])
  have hα : sin p.pressureAngle ≠ 0 := (sin_pos_of_pos_of_lt_pi H.alphaPos (by linarith [pi_pos, H.alphaLt])).ne'
  have hα' : ∀ b, sin (side b * p.pressureAngle) ≠ 0 := by
    intro b
    cases b
    · simpa [side] using hα
    · simpa [side] using hα
  have hcone : p.numTeeth * sin (q.coneAngle / 2) = q.numTeeth * sin (p.coneAngle / 2) := by
    have := H.sameCone
    rw [div_eq_div_iff hs1.ne' hs2.ne', ← H.teeth, ← H.teeth'] at this
    exact this
  have hR : p.numTeeth / 2 / sin (p.coneAngle / 2) = N2 / 2 / sin (q.coneAngle / 2) := by
    rw [← H.teeth', div_eq_div_iff hs1.ne' hs2.ne']; linarith
  have F1 := fun t => octoidFlank_place p hp H.gammaPos H.gammaLt hα C1 hO1 A1 z turn k1 b t
  have F2 := fun t => octoidFlank_place q hq H.gammaPos' H.gammaLt' (by rw [H.sameAlpha]; exact hα) C2 hO2 A2 z φ k2 b t
  simp only [hapex, hR] at F1
  simp only [H.sameModule, H.sameAlpha] at F1 F2 ⊢
  have harc' : (δ1 - pitchDir p A1 z turn k1 b) * sin (p.coneAngle / 2) =
      ε * ((δ2 - pitchDir q A2 z φ k2 b) * sin (q.coneAngle / 2)) := by
    have : p.numTeeth * ((δ1 - pitchDir p A1 z turn k1 b) * sin (p.coneAngle / 2)) =
        p.numTeeth * (ε * ((δ2 - pitchDir q A2 z φ k2 b) * sin (q.coneAngle / 2))) := by
      linear_combination sin (p.coneAngle / 2) * harc - ε * (δ2 - pitchDir q A2 z φ k2 b) * hcone
    exact mul_left_cancel₀ hp.ne' this
  rw [H.teeth'] at F2 ⊢
  simp only [H.teeth'] at F1
  obtain ⟨apex, hapexd⟩ : ∃ a, a = C2 + (p.module_ * (N2 / 2) / tan (q.coneAngle / 2)) • app O2 OUT := ⟨_, rfl⟩
  rw [← hapexd] at F1 F2 ⊢
  obtain ⟨R, hRd⟩ : ∃ R, R = p.module_ * (N2 / 2 / sin (q.coneAngle / 2) - z) := ⟨_, rfl⟩
  rw [← hRd] at F1 F2 ⊢
  have x1 : pitchDir p A1 z turn k1 b + side b * (side b * (δ1 - pitchDir p A1 z turn k1 b)) = δ1 := by
    rw [← mul_assoc, side_sq]; ring
  have x2 : pitchDir q A2 z φ k2 b + side b * (side b * (δ2 - pitchDir q A2 z φ k2 b)) = δ2 := by
    rw [← mul_assoc, side_sq]; ring
  have y1 : side b * (side b * (δ1 - pitchDir p A1 z turn k1 b) * sin (p.coneAngle / 2)) =
      ε * ((δ2 - pitchDir q A2 z φ k2 b) * sin (q.coneAngle / 2)) := by
    rw [← harc', mul_assoc, ← mul_assoc, side_sq]; ring
  have y2 : side b * (side b * (δ2 - pitchDir q A2 z φ k2 b) * sin (q.coneAngle / 2)) =
      (δ2 - pitchDir q A2 z φ k2 b) * sin (q.coneAngle / 2) := by
    rw [mul_assoc, ← mul_assoc, side_sq]; ring
  obtain ⟨v1, w1⟩ := F1 (side b * (δ1 - pitchDir p A1 z turn k1 b))
  obtain ⟨v2, w2⟩ := F2 (side b * (δ2 - pitchDir q A2 z φ k2 b))
  rw [x1, hgen, hout, y1] at v1 w1
  rw [x2, y2] at v2 w2
  have hu : dot (app O2 (genDir (q.coneAngle / 2) δ2)) (app O2 (genDir (q.coneAngle / 2) δ2)) = 1 := by
    rw [hO2.dot_app, (genDir_unit _ _).1]
  have hu' : dot (app O2 (outDir (q.coneAngle / 2) δ2)) (app O2 (outDir (q.coneAngle / 2) δ2)) = 1 := by
    rw [hO2.dot_app, (genDir_unit _ _).2.1]
  have hu'' : dot (app O2 (outDir (q.coneAngle / 2) δ2)) (app O2 (genDir (q.coneAngle / 2) δ2)) = 0 := by
    rw [hO2.dot_app, (genDir_unit _ _).2.2]
  have heq : (((involuteGear p).place C1 O1 A1).octoidFlank b z turn k1) (side b * (δ1 - pitchDir p A1 z turn k1 b)) =
      (((involuteGear q).place C2 O2 A2).octoidFlank b z φ k2) (side b * (δ2 - pitchDir q A2 z φ k2 b)) := by
    rw [v1, v2]
    rcases hε with h | h
    · rw [h, one_mul, one_smul]
    · rw [h, neg_one_mul, neg_one_smul, octPoint_flip]
  obtain ⟨n1, n2, n3⟩ := octPoint_norm (A := apex) hu hu' hu'' (hα' b) R ((δ2 - pitchDir q A2 z φ k2 b) * sin (q.coneAngle / 2))
  refine ⟨heq, fun x => ?_, fun x => ?_, octNormal (side b * p.pressureAngle)
    ((δ2 - pitchDir q A2 z φ k2 b) * sin (q.coneAngle / 2)) (app O2 (genDir (q.coneAngle / 2) δ2))
    (app O2 (outDir (q.coneAngle / 2) δ2)), (octNormal_unit hu hu' hu'' _ _).1, ?_, ?_, w2, ?_⟩
  · rw [(F1 x).1]
    exact (octPoint_norm (by rw [hO1.dot_app, (genDir_unit _ _).1]) (by rw [hO1.dot_app, (genDir_unit _ _).2.1])
      (by rw [hO1.dot_app, (genDir_unit _ _).2.2]) (hα' b) _ _).1
  · rw [(F2 x).1]
    exact (octPoint_norm (by rw [hO2.dot_app, (genDir_unit _ _).1]) (by rw [hO2.dot_app, (genDir_unit _ _).2.1])
      (by rw [hO2.dot_app, (genDir_unit _ _).2.2]) (hα' b) _ _).1
  · rw [heq, v2]; exact n2
  · rcases hε with h | h
    · rw [h, one_mul, one_smul] at w1; exact w1
    · rw [h, neg_one_mul, neg_one_smul, octNormal_flip] at w1
      obtain ⟨v, hv, hd⟩ := w1
      exact ⟨v, hv, by rw [dot_neg_right] at hd; linarith⟩
  · rw [heq, v2]; exact n3

/-- Meshing two bevel gears of any kind, for cones side by side (`ε = -1`) and inside each other (`ε = 1`). -/
theorem bevel_objects {g h : GearObj} (N1 N2 : ℕ) (hN1 : 0 < N1) (hN2 : 0 < N2) (hkind : g.kind = .involute) (hg : g.BevelOk)
    (hh : h.BevelOk)
    (hp1 : g.pitchAngle = 2 * π / N1) (hp2 : h.pitchAngle = 2 * π / N2) (hi1 : g.insideTeeth = g.insideInput)
    (hi2 : h.insideTeeth = h.insideInput) (d : V3) (hd : d ≠ 0) (ε : ℝ)
    (hproj : norm3 d / 10 ^ 12 ≤ norm3 (d - dot d h.transform.zAxis • h.transform.zAxis))
    (hk : ε = -1 ∧ g.insideInput = false ∧ h.insideInput = false ∨
      ε = 1 ∧ g.insideInput = false ∧ h.insideInput = true ∧ g.coneAngle < h.coneAngle ∨
      ε = 1 ∧ g.insideInput = true ∧ h.insideInput = false ∧ h.coneAngle < g.coneAngle)
    (hR : g.pitchRadius / sin (g.coneAngle / 2) = h.pitchRadius / sin (h.coneAngle / 2))
    (hbig : 1 / 10 ^ 12 ≤ h.pitchRadius / sin (h.coneAngle / 2) * |sin (h.coneAngle / 2 - ε * (g.coneAngle / 2))|)
    (solve : (ℝ → ℝ) → ℝ) (backlash bias : ℝ) :
    ∃ g' e, g.meshToInvolute solve h d backlash bias = some g' ∧ g' = { g with transform := g'.transform } ∧
      g'.transform.scale = g.transform.scale ∧ g'.BevelOk ∧ pitchApex g' = pitchApex h ∧
      dot g'.transform.zAxis h.transform.zAxis = cos (h.coneAngle / 2 - ε * (g.coneAngle / 2)) ∧
      IsGenerator g' e ∧ IsGenerator h e ∧ 0 < dot e (d - dot d h.transform.zAxis • h.transform.zAxis) ∧
      ∃ δ1 δ2, app g'.transform.orientation (genDir (g.coneAngle / 2) δ1) = e ∧
        app h.transform.orientation (genDir (h.coneAngle / 2) δ2) = e ∧
        app g'.transform.orientation (outDir (g.coneAngle / 2) δ1) =
          ε • app h.transform.orientation (outDir (h.coneAngle / 2) δ2) ∧
        ∃ n : ℤ, (g'.transform.angle - δ1) * N1 = ε * ((h.transform.angle - δ2) * N2) + (1 - ε) / 2 * π + 2 * π * n := by
  obtain ⟨φ0, hφ0⟩ : ∃ φ0, φ0 = h.coneAngle / 2 - ε * (g.coneAngle / 2) := ⟨_, rfl⟩
  rw [← hφ0] at hbig ⊢
  have g0 := hg.gammaPos
  have g0' := hh.gammaPos
  have g1 := hg.gammaLt
  have g1' := hh.gammaLt
  have hε : ε = 1 ∨ ε = -1 := by
    rcases hk with h | h | h
    exacts [Or.inr h.1, Or.inl h.1, Or.inl h.1]
  have hsin : sin φ0 ≠ 0 := by
    intro h0; rw [h0] at hbig; norm_num at hbig
  have hcos : cos (h.coneAngle / 2 - φ0) = cos (g.coneAngle / 2) := by
    rw [hφ0, sub_sub_cancel]; rcases hε with h | h <;> simp [h]
  have href : ∀ R, bevelAngleRef (g.coneAngle / 2) (h.coneAngle / 2) R 0 g.insideInput h.insideInput = φ0 := by
    intro R
    rw [hφ0]
    rcases hk with ⟨x, y, z⟩ | ⟨x, y, z, -⟩ | ⟨x, y, z, -⟩ <;> simp [bevelAngleRef, x, y, z]
    ring
  have hdn := norm3_pos hd
  have hproj' : 1 / 10 ^ 12 ≤ norm3 ((norm3 d)⁻¹ • d - dot ((norm3 d)⁻¹ • d) h.transform.zAxis • h.transform.zAxis) := by
    rw [dot_smul_left, mul_smul, ← smul_sub, norm3_smul, abs_of_pos (inv_pos.2 hdn), inv_mul_eq_div, le_div_iff₀ hdn]
    linarith
  obtain ⟨g', e1, e2, e3, e, e4, e5, e6, -⟩ := bevel_core (d := (norm3 d)⁻¹ • d) (φ := φ0) hg hh hproj' href hcos hsin
  have hcg : g.coneAngle ≠ 0 := by intro h0; rw [h0] at g0; simp at g0
  have hmesh : g.meshToInvolute solve h d backlash bias = some g' := by
    rw [GearObj.meshToInvolute, normalizeVector_eq hd]
    simp only
    rw [if_pos (Or.inl hcg), e1]
  have hok : g'.BevelOk := meshTo_bevelOk (solve := solve) (dir := d) (b := backlash) (bias := bias) hkind hg hh
    (by rw [GearObj.meshTo, hkind]; exact hmesh)
  have hshape : g' = { g with transform := g'.transform } ∧ g'.transform.scale = g.transform.scale ∧
      g'.transform.angle = calcMeshAngle g'.transform h.transform (2 * π / N1) (2 * π / N2) g.insideInput h.insideInput := by
    have hm' := e1
    rw [GearObj.meshToBevel] at hm'
    split at hm'
    · cases hm'
    · split at hm'
      · cases hm'
      · have := Option.some.inj hm'
        rw [← this]
        refine ⟨rfl, rfl, ?_⟩
        simp only [← hp1, ← hp2, ← hi1, ← hi2]
        rfl
  obtain ⟨t1, t2, t3⟩ := hshape
  have cG : g'.coneAngle = g.coneAngle := by rw [t1]
  have rG : g'.pitchRadius = g.pitchRadius := by rw [t1]; rfl
  obtain ⟨δ1, s1⟩ := e4.seen hok
  obtain ⟨δ2, s2⟩ := e5.seen hh
  have hφ0' : φ0 = h.coneAngle / 2 - ε * (g'.coneAngle / 2) := by rw [cG]; exact hφ0
  have hout := bevel_outDir hok hh hε hφ0' e3 e4 e5 s1 s2
  have hgen1 := e4.genDir hok s1
  have hgen2 := e5.genDir hh s2
  have hfar : 1 / 10 ^ 12 ≤ norm3 (h.transform.center - g'.transform.center) := by
    rw [apex_dist_eq hok hh hε hφ0' e3 e2 (by rw [rG, cG]; exact hR)]
    exact hbig
  refine ⟨g', e, hmesh, t1, t2, hok, e2, e3, e4, e5, ?_, δ1, δ2, by rw [← cG]; exact hgen1, hgen2, by rw [← cG]; exact hout, ?_⟩
  · rw [dot_smul_left, dot_smul_right] at e6
    rw [dot_sub_right, dot_smul_right]
    have : (norm3 d)⁻¹ * (dot e d - dot d h.transform.zAxis * dot e h.transform.zAxis) > 0 := by linarith
    exact (mul_pos_iff_of_pos_left (inv_pos.2 hdn)).1 this
  · have hsub : h.coneAngle / 2 - φ0 = ε * (g'.coneAngle / 2) := by rw [hφ0']; ring
    obtain ⟨q1, q2, q3, q4, q5⟩ := bevel_seen hok hh e2 e3 (by rw [cG]; exact hcos) e4 e5 s1 s2
    rw [hsub] at q1 q2 q4
    have hsG : 0 < sin (g'.coneAngle / 2) := hok.sin_pos
    rcases hk with ⟨x, y, z⟩ | ⟨x, y, z, w⟩ | ⟨x, y, z, w⟩
    · rw [y, z] at t3
      have hsφ : 0 < sin φ0 := by
        apply sin_pos_of_pos_of_lt_pi <;> rw [hφ0, x] <;> linarith
      have hneg : sin (ε * (g'.coneAngle / 2)) < 0 := by rw [x, neg_one_mul, sin_neg]; linarith
      obtain ⟨n, hn⟩ := c30_external_whole g'.transform h.transform N1 N2 hN1 hN2 δ1 δ2 hfar (q1 hsφ hneg) (q3 hsφ)
      rw [← t3] at hn
      have hN1' : (0 : ℝ) < N1 := by exact_mod_cast hN1
      have hN2' : (0 : ℝ) < N2 := by exact_mod_cast hN2
      refine ⟨n, ?_⟩
      field_simp at hn
      rw [x]
      linear_combination hn
    · rw [y, z] at t3
      have hsφ : 0 < sin φ0 := by
        apply sin_pos_of_pos_of_lt_pi <;> rw [hφ0, x] <;> linarith
      have hpos : 0 < sin (ε * (g'.coneAngle / 2)) := by rw [x, one_mul]; exact hsG
      obtain ⟨n, hn⟩ := c30_ring2_whole g'.transform h.transform N1 N2 hN1 hN2 δ1 δ2 hfar (q2 hsφ hpos) (q3 hsφ)
      rw [← t3] at hn
      have hN1' : (0 : ℝ) < N1 := by exact_mod_cast hN1
      have hN2' : (0 : ℝ) < N2 := by exact_mod_cast hN2
      refine ⟨n, ?_⟩
      field_simp at hn
      rw [x]
      linear_combination hn
    · rw [y, z] at t3
      have hsφ : sin φ0 < 0 := by
        apply sin_neg_of_neg_of_neg_pi_lt <;> rw [hφ0, x] <;> linarith
      have hpos : 0 < sin (ε * (g'.coneAngle / 2)) := by rw [x, one_mul]; exact hsG
      obtain ⟨n, hn⟩ := c30_ring1_whole g'.transform h.transform N1 N2 hN1 hN2 false δ1 δ2 hfar (q4 hsφ hpos) (q5 hsφ)
      rw [← t3] at hn
      have hN1' : (0 : ℝ) < N1 := by exact_mod_cast hN1
      have hN2' : (0 : ℝ) < N2 := by exact_mod_cast hN2
      refine ⟨n, ?_⟩
      field_simp at hn
      rw [x]
      linear_combination hn

theorem involuteGear_pos {p : GearInput} (hn : 0 < p.numTeeth) :
    involuteGear p = ⟨p, p.calcParams ⟨p.numTeeth, 0, p.insideTeeth⟩⟩ := by
  rw [involuteGear, GearInput.normalise, if_neg (not_lt.2 hn.le), make_pos hn]

theorem bevelObj_facts (p : GearInput) (hn : 0 < p.numTeeth) (C : V3) (O : M3) (A : ℝ) :
    let G := ((involuteGear p).place C O A).bevelObj
    G.kind = .involute ∧ G.tooth = ⟨p.numTeeth, 0, p.insideTeeth⟩ ∧ G.insideInput = p.insideTeeth ∧
      G.coneAngle = p.coneAngle ∧ G.module_ = p.module_ ∧ G.transform.center = C ∧ G.transform.orientation = O ∧
      G.transform.angle = A ∧ G.transform.scale = p.module_ ∧ G.pitchRadius = p.module_ * (p.numTeeth / 2) ∧
      G.pitchAngle = 2 * π / p.numTeeth ∧ G.insideTeeth = p.insideTeeth := by
  intro G
  have hG : G = ((involuteGear p).place C O A).bevelObj := rfl
  rw [involuteGear_pos hn] at hG
  rw [hG]
  refine ⟨rfl, rfl, rfl, rfl, rfl, rfl, rfl, rfl, rfl, ?_, rfl, rfl⟩
  simp only [GearObj.pitchRadius, WGear.bevelObj, WGear.place, GearInput.calcParams]
  ring

/-- What a meshed pair of bevel gears does, for cones side by side (`ε = -1`) and inside each other (`ε = 1`). -/
theorem octoid_mesh (p q : GearInput) (N1 N2 : ℕ) (H : OctoidPair p q N1 N2) (c C : V3) (o O : M3) (ho : IsRot o)
    (hO : IsRot O) (a A : ℝ) (d : V3) (hd : d ≠ 0) (ε : ℝ)
    (hproj : norm3 d / 10 ^ 12 ≤ norm3 (d - dot d (app O OUT) • app O OUT))
    (hk : ε = -1 ∧ p.insideTeeth = false ∧ q.insideTeeth = false ∨
      ε = 1 ∧ p.insideTeeth = false ∧ q.insideTeeth = true ∧ p.coneAngle < q.coneAngle ∨
      ε = 1 ∧ p.insideTeeth = true ∧ q.insideTeeth = false ∧ q.coneAngle < p.coneAngle)
    (hβ : tan p.helixAngle = ε * tan q.helixAngle)
    (hbig : 1 / 10 ^ 12 ≤ p.module_ * (N2 / 2 / sin (q.coneAngle / 2)) * |sin (q.coneAngle / 2 - ε * (p.coneAngle / 2))|)
    (solve : (ℝ → ℝ) → ℝ) (backlash bias : ℝ) :
    let h := (involuteGear q).place C O A
    let apex := C + (p.module_ * (N2 / 2) / tan (q.coneAngle / 2)) • app O OUT
    ∃ g' e, ((involuteGear p).place c o a).meshToBevel solve h d backlash bias = some g' ∧
      pitchApex g'.bevelObj = apex ∧ pitchApex h.bevelObj = apex ∧
      IsGenerator g'.bevelObj e ∧ IsGenerator h.bevelObj e ∧ 0 < dot e (d - dot d (app O OUT) • app O OUT) ∧
      (∃ (C1 : V3) (O1 : M3) (A1 δ1 δ2 : ℝ) (n : ℤ), IsRot O1 ∧ g' = (involuteGear p).place C1 O1 A1 ∧
        app O1 (genDir (p.coneAngle / 2) δ1) = e ∧ app O (genDir (q.coneAngle / 2) δ2) = e ∧
        (A1 - δ1) * N1 = ε * ((A - δ2) * N2) + (1 - ε) / 2 * π + 2 * π * n) ∧
      ∀ (z φ : ℝ) (k2 : ℤ) (b : Bool), ∃ k1 : ℤ, (ε = 1 → ∀ b' : Bool, ∃ t s : ℝ,
        SphereContact (g'.octoidFlank b' z (ε * (φ * N2) / N1 - side b' * (shiftedThinning p z - ε * shiftedThinning q z) * 2 / N1) k1)
          (h.octoidFlank b' z φ k2) t s apex |p.module_ * (N2 / 2 / sin (q.coneAngle / 2) - z)| e ∧ t * N1 = ε * (s * N2)) ∧
        ∃ t s : ℝ,
        SphereContact (g'.octoidFlank b z (ε * (φ * N2) / N1 - side b * (shiftedThinning p z - ε * shiftedThinning q z) * 2 / N1) k1)
          (h.octoidFlank b z φ k2) t s apex |p.module_ * (N2 / 2 / sin (q.coneAngle / 2) - z)| e ∧ t * N1 = ε * (s * N2) := by
  intro h apex
  have hN1 : (0 : ℝ) < N1 := by exact_mod_cast H.posN
  have hN2 : (0 : ℝ) < N2 := by exact_mod_cast H.posN'
  have hnp : 0 < p.numTeeth := by rw [H.teeth]; exact hN1
  have hnq : 0 < q.numTeeth := by rw [H.teeth']; exact hN2
  have hm := H.modulePos
  have hs1 : 0 < sin (p.coneAngle / 2) := sin_pos_of_pos_of_lt_pi H.gammaPos (by linarith [pi_pos, H.gammaLt])
  have hs2 : 0 < sin (q.coneAngle / 2) := sin_pos_of_pos_of_lt_pi H.gammaPos' (by linarith [pi_pos, H.gammaLt'])
  obtain ⟨a1, a2, a3, a4, a5, a6, a7, a8, a9, a10, a11, a12⟩ := bevelObj_facts p hnp c o a
  obtain ⟨b1, b2, b3, b4, b5, b6, b7, b8, b9, b10, b11, b12⟩ := bevelObj_facts q hnq C O A
  obtain ⟨G, hG⟩ : ∃ G, G = ((involuteGear p).place c o a).bevelObj := ⟨_, rfl⟩
  obtain ⟨B, hB⟩ : ∃ B, B = h.bevelObj := ⟨_, rfl⟩
  have hB' : ((involuteGear q).place C O A).bevelObj = B := hB.symm
  rw [← hG] at a1 a2 a3 a4 a5 a6 a7 a8 a9 a10 a11 a12
  rw [hB'] at b1 b2 b3 b4 b5 b6 b7 b8 b9 b10 b11 b12
  have hGok : G.BevelOk := ⟨⟨by rw [a7]; exact ho, by rw [a9, a5]⟩, by rw [a5]; exact hm, by rw [a2]; exact hnp,
    by rw [a4]; exact H.gammaPos, by rw [a4]; exact H.gammaLt⟩
  have hBok : B.BevelOk := ⟨⟨by rw [b7]; exact hO, by rw [b9, b5]⟩, by rw [b5, H.sameModule]; exact hm, by rw [b2]; exact hnq,
    by rw [b4]; exact H.gammaPos', by rw [b4]; exact H.gammaLt'⟩
  have hε : ε = 1 ∨ ε = -1 := by
    rcases hk with h | h | h
    exacts [Or.inr h.1, Or.inl h.1, Or.inl h.1]
  have hzB : B.transform.zAxis = app O OUT := by rw [zAxis_eq, b7]
  have hR : G.pitchRadius / sin (G.coneAngle / 2) = B.pitchRadius / sin (B.coneAngle / 2) := by
    have := H.sameCone
    rw [a10, b10, a4, b4, H.sameModule, H.teeth, H.teeth']
    rw [div_eq_div_iff hs1.ne' hs2.ne'] at this ⊢
    linear_combination p.module_ / 2 * this
  obtain ⟨g', e, hmesh, t1, t2, hok, e2, e3, e4, e5, e6, δ1, δ2, u1, u2, u3, n, hn⟩ := bevel_objects (g := G) (h := B) N1 N2
    H.posN H.posN' a1 hGok hBok (by rw [a11, H.teeth]) (by rw [b11, H.teeth']) (by rw [a12, a3]) (by rw [b12, b3]) d hd ε
    (by rw [hzB]; exact hproj) (by rw [a3, b3, a4, b4]; exact hk) hR
    (by rw [b10, a4, b4, H.sameModule, H.teeth', mul_div_assoc]; exact hbig) solve backlash bias
  obtain ⟨C1, hC1⟩ : ∃ x, x = g'.transform.center := ⟨_, rfl⟩
  obtain ⟨O1, hO1⟩ : ∃ x, x = g'.transform.orientation := ⟨_, rfl⟩
  obtain ⟨A1, hA1⟩ : ∃ x, x = g'.transform.angle := ⟨_, rfl⟩
  have hO1r : IsRot O1 := by rw [hO1]; exact hok.sound.rot
  have htr : g'.transform = ((involuteGear p).place C1 O1 A1).core.transform := by
    have hsc : (involuteGear p).core.transform.scale = g'.transform.scale := by
      rw [t2, a9, involuteGear_pos hnp]; rfl
    rw [hC1, hO1, hA1, WGear.place, hsc]
  have hwg : ((involuteGear p).place c o a).meshToBevel solve h d backlash bias = some ((involuteGear p).place C1 O1 A1) := by
    rw [WGear.meshToBevel, ← hG, ← hB, hmesh, Option.map_some, htr]
    rfl
  have hobj : ((involuteGear p).place C1 O1 A1).bevelObj = g' := by
    refine Eq.trans ?_ t1.symm
    rw [htr, hG]
    rfl
  have cG : g'.coneAngle = p.coneAngle := by rw [t1]; exact a4
  have rG : g'.pitchRadius = p.module_ * (p.numTeeth / 2) := by rw [← a10, t1]; rfl
  have pB : pitchApex B = C + (q.module_ * (q.numTeeth / 2) / tan (q.coneAngle / 2)) • app O OUT := by
    rw [pitchApex, b10, b4, hzB, b6]
  have pB' : pitchApex B = apex := by rw [pB, H.sameModule, H.teeth']
  have pG : pitchApex g' = C1 + (p.module_ * (p.numTeeth / 2) / tan (p.coneAngle / 2)) • app O1 OUT := by
    rw [pitchApex, rG, cG, zAxis_eq, ← hO1, ← hC1]
  rw [a4, b4, b7, ← hO1] at u3
  rw [a4, ← hO1] at u1
  rw [b4, b7] at u2
  rw [← hA1, b8] at hn
  have key : ∀ (z φ : ℝ) (k2 k1 : ℤ) (b : Bool), (k1 : ℝ) = ε * k2 - n + (side b - 1) * (1 - ε) / 4 →
      ∃ t s : ℝ, SphereContact (((involuteGear p).place C1 O1 A1).octoidFlank b z
          (ε * (φ * N2) / N1 - side b * (shiftedThinning p z - ε * shiftedThinning q z) * 2 / N1) k1)
          (h.octoidFlank b z φ k2) t s apex |p.module_ * (N2 / 2 / sin (q.coneAngle / 2) - z)| e ∧ t * N1 = ε * (s * N2) := by
    intro z φ k2 k1 b hk1
    have r1 := pitchDir_arc p hnp A1 z (ε * (φ * N2) / N1 - side b * (shiftedThinning p z - ε * shiftedThinning q z) * 2 / N1) k1 b
    have r2 := pitchDir_arc q hnq A z φ k2 b
    rw [H.teeth, hk1] at r1
    rw [H.teeth'] at r2
    have ht : (ε * (φ * N2) / N1 - side b * (shiftedThinning p z - ε * shiftedThinning q z) * 2 / N1) * N1 =
        ε * (φ * N2) - side b * (shiftedThinning p z - ε * shiftedThinning q z) * 2 := by field_simp
    have harc : (δ1 - pitchDir p A1 z (ε * (φ * N2) / N1 - side b * (shiftedThinning p z - ε * shiftedThinning q z) * 2 / N1) k1 b) * N1 =
        ε * ((δ2 - pitchDir q A z φ k2 b) * N2) := by
      linear_combination -hn - r1 + ε * r2 - ht - 2 * z * hβ
    refine ⟨side b * (δ1 - pitchDir p A1 z
        (ε * (φ * N2) / N1 - side b * (shiftedThinning p z - ε * shiftedThinning q z) * 2 / N1) k1 b),
      side b * (δ2 - pitchDir q A z φ k2 b), ?_, by linear_combination side b * harc⟩
    have := octoid_touch p q N1 N2 H C1 C hO1r hO A1 A z
      (ε * (φ * N2) / N1 - side b * (shiftedThinning p z - ε * shiftedThinning q z) * 2 / N1) φ k1 k2 b δ1 δ2 ε hε
      (by rw [← pG, ← pB, e2]) (by rw [u1, u2]) u3 (by rw [H.teeth, H.teeth']; exact harc)
    rw [← pB, pB', u2] at this
    exact this
  refine ⟨_, e, hwg, by rw [hobj, e2, pB'], by rw [← hB, pB'], by rw [hobj]; exact e4, by rw [← hB]; exact e5,
    by rw [← hzB]; exact e6, ⟨C1, O1, A1, δ1, δ2, n, hO1r, rfl, u1, u2, hn⟩, ?_⟩
  intro z φ k2 b
  obtain ⟨k1, hk1, hk1'⟩ : ∃ k1 : ℤ, (k1 : ℝ) = ε * k2 - n + (side b - 1) * (1 - ε) / 4 ∧ (ε = 1 → (k1 : ℝ) = k2 - n) := by
    rcases hε with h | h
    · exact ⟨k2 - n, by rw [h]; push_cast; ring, fun _ => by push_cast; ring⟩
    · cases b
      · refine ⟨-n - k2, ?_, fun h1 => by rw [h] at h1; norm_num at h1⟩
        rw [h]; simp [side]; ring
      · refine ⟨-1 - n - k2, ?_, fun h1 => by rw [h] at h1; norm_num at h1⟩
        rw [h]; push_cast; norm_num [side]; ring
  exact ⟨k1, fun h1 b' => key z φ k2 k1 b' (by rw [hk1' h1, h1]; ring), key z φ k2 k1 b hk1⟩

/-- **C122, external pair.** Two bevel gears with the same module, pressure angle and cone distance, the second one put anywhere,
the first one meshed to it from any direction that is not along its axis. The pitch cones have a common apex and a common
generator, on the side of the target direction. When the second gear turns by any angle `φ` and the first one by the opposite
angle in the ratio of the tooth counts, back by the play (`shiftedThinning`; forth, if the profile shifts add more to the teeth than
the backlash takes), then in every slice every flank of every tooth of the second gear touches a flank of the first gear. All
flanks of the slice lie on one sphere around the apex. At the contact both flanks have the same normal in the sphere, and the
great circle in its direction goes through the common generator: the law of gearing. The same arc has been rolled on both. -/
theorem c122_external (p q : GearInput) (N1 N2 : ℕ) (H : OctoidPair p q N1 N2) (hp : p.insideTeeth = false)
    (hq : q.insideTeeth = false) (hβ : tan p.helixAngle = -tan q.helixAngle) (c C : V3) (o O : M3) (ho : IsRot o)
    (hO : IsRot O) (a A : ℝ) (d : V3) (hd : d ≠ 0)
    (hproj : norm3 d / 10 ^ 12 ≤ norm3 (d - dot d (app O OUT) • app O OUT))
    (hbig : 1 / 10 ^ 12 ≤ p.module_ * (N2 / 2 / sin (q.coneAngle / 2)) * sin (q.coneAngle / 2 + p.coneAngle / 2))
    (solve : (ℝ → ℝ) → ℝ) (backlash bias : ℝ) :
    let g := (involuteGear p).place c o a
    let h := (involuteGear q).place C O A
    let apex := C + (p.module_ * (N2 / 2) / tan (q.coneAngle / 2)) • app O OUT
    ∃ g' e, g.meshToBevel solve h d backlash bias = some g' ∧ pitchApex g'.bevelObj = apex ∧ pitchApex h.bevelObj = apex ∧
      IsGenerator g'.bevelObj e ∧ IsGenerator h.bevelObj e ∧ 0 < dot e (d - dot d (app O OUT) • app O OUT) ∧
      ∀ (z φ : ℝ) (k2 : ℤ) (b : Bool), ∃ (k1 : ℤ) (t s : ℝ),
        SphereContact (g'.octoidFlank b z (-(φ * N2) / N1 - side b * (shiftedThinning p z + shiftedThinning q z) * 2 / N1) k1)
          (h.octoidFlank b z φ k2) t s apex |p.module_ * (N2 / 2 / sin (q.coneAngle / 2) - z)| e ∧ t * N1 = -(s * N2) := by
  intro g h apex
  have hpos : 0 < sin (q.coneAngle / 2 + p.coneAngle / 2) :=
    sin_pos_of_pos_of_lt_pi (by linarith [H.gammaPos, H.gammaPos']) (by linarith [H.gammaLt, H.gammaLt'])
  obtain ⟨g', e, m1, m2, m3, m4, m5, m6, -, m7⟩ := octoid_mesh p q N1 N2 H c C o O ho hO a A d hd (-1) hproj (Or.inl ⟨rfl, hp, hq⟩)
    (by rw [neg_one_mul]; exact hβ) (by rw [neg_one_mul, sub_neg_eq_add, abs_of_pos hpos]; exact hbig) solve backlash bias
  refine ⟨g', e, m1, m2, m3, m4, m5, m6, fun z φ k2 b => ?_⟩
  obtain ⟨k1, -, t, s, ht, hts⟩ := m7 z φ k2 b
  refine ⟨k1, t, s, ?_, by rw [hts]; ring⟩
  rw [neg_one_mul, neg_one_mul, sub_neg_eq_add] at ht
  exact ht

/-- **C122, gear and ring.** The same for a bevel gear in a bevel ring gear, either of them meshed to the other: both turn the
same way. -/
theorem c122_ring (p q : GearInput) (N1 N2 : ℕ) (H : OctoidPair p q N1 N2)
    (hk : p.insideTeeth = false ∧ q.insideTeeth = true ∧ p.coneAngle < q.coneAngle ∨
      p.insideTeeth = true ∧ q.insideTeeth = false ∧ q.coneAngle < p.coneAngle)
    (hβ : tan p.helixAngle = tan q.helixAngle) (c C : V3) (o O : M3) (ho : IsRot o)
    (hO : IsRot O) (a A : ℝ) (d : V3) (hd : d ≠ 0)
    (hproj : norm3 d / 10 ^ 12 ≤ norm3 (d - dot d (app O OUT) • app O OUT))
    (hbig : 1 / 10 ^ 12 ≤ p.module_ * (N2 / 2 / sin (q.coneAngle / 2)) * |sin (q.coneAngle / 2 - p.coneAngle / 2)|)
    (solve : (ℝ → ℝ) → ℝ) (backlash bias : ℝ) :
    let g := (involuteGear p).place c o a
    let h := (involuteGear q).place C O A
    let apex := C + (p.module_ * (N2 / 2) / tan (q.coneAngle / 2)) • app O OUT
    ∃ g' e, g.meshToBevel solve h d backlash bias = some g' ∧ pitchApex g'.bevelObj = apex ∧ pitchApex h.bevelObj = apex ∧
      IsGenerator g'.bevelObj e ∧ IsGenerator h.bevelObj e ∧ 0 < dot e (d - dot d (app O OUT) • app O OUT) ∧
      ∀ (z φ : ℝ) (k2 : ℤ), ∃ k1 : ℤ, ∀ b : Bool, ∃ t s : ℝ,
        SphereContact (g'.octoidFlank b z (φ * N2 / N1 - side b * (shiftedThinning p z - shiftedThinning q z) * 2 / N1) k1)
          (h.octoidFlank b z φ k2) t s apex |p.module_ * (N2 / 2 / sin (q.coneAngle / 2) - z)| e ∧ t * N1 = s * N2 := by
  intro g h apex
  obtain ⟨g', e, m1, m2, m3, m4, m5, m6, -, m7⟩ := octoid_mesh p q N1 N2 H c C o O ho hO a A d hd 1 hproj
    (by rcases hk with h | h; exacts [Or.inr (Or.inl ⟨rfl, h⟩), Or.inr (Or.inr ⟨rfl, h⟩)])
    (by rw [one_mul]; exact hβ) (by rw [one_mul]; exact hbig) solve backlash bias
  refine ⟨g', e, m1, m2, m3, m4, m5, m6, fun z φ k2 => ?_⟩
  obtain ⟨k1, hk, -⟩ := m7 z φ k2 true
  refine ⟨k1, fun b => ?_⟩
  obtain ⟨t, s, ht, hts⟩ := hk rfl b
  refine ⟨t, s, ?_, by rw [hts]; ring⟩
  rw [one_mul, one_mul] at ht
  exact ht

/-- Concrete case: bevel gears with 24 and 12 teeth and module 2, the larger one with a half cone angle of 30°. -/
theorem octoidPair_example (β : ℝ) (i j : Bool) :
    OctoidPair { exampleInput with coneAngle := π / 3, insideTeeth := i }
      { exampleInput with numTeeth := 12, coneAngle := 2 * arcsin (1 / 4), helixAngle := β, insideTeeth := j } 24 12 := by
  have hb := bevelCycloid_example β i j
  exact ⟨hb.posN, hb.posN', hb.teeth, hb.teeth', hb.gammaPos, hb.gammaPos', hb.gammaLt, hb.gammaLt', hb.sameCone, hb.modulePos,
    hb.sameModule, by change 0 < π / 9; positivity, by change π / 9 < π / 2; linarith [pi_pos], rfl⟩

theorem octoid_example : let p : GearInput := { exampleInput with coneAngle := π / 3 }
    let q : GearInput := { exampleInput with numTeeth := 12, coneAngle := 2 * arcsin (1 / 4), helixAngle := -exampleInput.helixAngle }
    OctoidPair p q 24 12 ∧ p.insideTeeth = false ∧ q.insideTeeth = false ∧ tan p.helixAngle = -tan q.helixAngle ∧
      IsRot (1 : M3) ∧ (RIGHT : V3) ≠ 0 ∧ norm3 RIGHT / 10 ^ 12 ≤ norm3 (RIGHT - dot RIGHT (app 1 OUT) • app 1 OUT) ∧
      1 / 10 ^ 12 ≤ p.module_ * ((12 : ℕ) / 2 / sin (q.coneAngle / 2)) * sin (q.coneAngle / 2 + p.coneAngle / 2) := by
  intro p q
  have h2 : arcsin (1 / 4) < π / 2 := arcsin_lt_pi_div_two.2 (by norm_num)
  have h1 : (0 : ℝ) < arcsin (1 / 4) := arcsin_pos.2 (by norm_num)
  have hs : sin (arcsin (1 / 4)) = 1 / 4 := sin_arcsin (by norm_num) (by norm_num)
  have h6 : p.coneAngle / 2 = π / 6 := by change π / 3 / 2 = π / 6; ring
  have h7 : q.coneAngle / 2 = arcsin (1 / 4) := by change 2 * arcsin (1 / 4) / 2 = arcsin (1 / 4); ring
  have hc : 0 < cos (arcsin (1 / 4)) := cos_pos_of_mem_Ioo ⟨by linarith [pi_pos], h2⟩
  have h3 : (3 : ℝ) / 2 ≤ √3 := by rw [Real.le_sqrt' (by norm_num)]; norm_num
  have hr : norm3 RIGHT = 1 := norm3_eq_of_dot (by norm_num) (by simp [dot, RIGHT])
  refine ⟨octoidPair_example _ _ _, rfl, rfl, by rw [show q.helixAngle = -p.helixAngle from rfl, tan_neg, neg_neg], IsRot.one,
    fun h => ?_, ?_, ?_⟩
  · have := congrFun h 0
    simp [RIGHT] at this
  · have : RIGHT - dot RIGHT (app 1 OUT) • app 1 OUT = RIGHT := by rw [app_one]; simp [dot, RIGHT, OUT]
    rw [this, hr]; norm_num
  · rw [h6, h7, hs, sin_add, hs, cos_pi_div_six, sin_pi_div_six]
    have hm : p.module_ = 2 := rfl
    rw [hm]
    norm_num
    nlinarith

/-- Concrete case for the ring: the larger gear has its teeth inside. -/
example : let p : GearInput := { exampleInput with coneAngle := π / 3, insideTeeth := true }
    let q : GearInput := { exampleInput with
      numTeeth := 12, coneAngle := 2 * arcsin (1 / 4), helixAngle := exampleInput.helixAngle, insideTeeth := false }
    OctoidPair p q 24 12 ∧ p.insideTeeth = true ∧ q.insideTeeth = false ∧ q.coneAngle < p.coneAngle ∧
      1 / 10 ^ 12 ≤ p.module_ * ((12 : ℕ) / 2 / sin (q.coneAngle / 2)) * |sin (q.coneAngle / 2 - p.coneAngle / 2)| := by
  intro p q
  have hs : sin (arcsin (1 / 4)) = 1 / 4 := sin_arcsin (by norm_num) (by norm_num)
  have h6 : p.coneAngle / 2 = π / 6 := by change π / 3 / 2 = π / 6; ring
  have h7 : q.coneAngle / 2 = arcsin (1 / 4) := by change 2 * arcsin (1 / 4) / 2 = arcsin (1 / 4); ring
  have h3 : √3 ≤ (2 : ℝ) := by rw [Real.sqrt_le_left (by norm_num)]; norm_num
  have hc : 3 / 4 ≤ cos (arcsin (1 / 4)) := by
    rw [cos_arcsin, Real.le_sqrt' (by norm_num)]; norm_num
  refine ⟨octoidPair_example _ _ _, rfl, rfl, ?_, ?_⟩
  · have : arcsin (1 / 4) < π / 6 := by
      rw [arcsin_lt_iff_lt_sin' ⟨by linarith [pi_pos], by linarith [pi_pos]⟩, sin_pi_div_six]; norm_num
    linarith
  · rw [h6, h7, hs, sin_sub, hs, cos_pi_div_six, sin_pi_div_six, abs_of_nonpos (by nlinarith)]
    have hm : p.module_ = 2 := rfl
    rw [hm]
    norm_num
    nlinarith

end Verif
