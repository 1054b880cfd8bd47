import Verif.Model.SphereCurve
import Verif.Props.Flank
import Verif.Props.Curve

/-! # The sphere reported by spherical flank curves: C144 -/

namespace Verif

open Real Spec

/-- The points that are reported lie on the reported sphere. -/
def Spec.OnSphere (P : V3) (center : V3) (R : ℝ) : Prop := norm3 (P - center) = |R|

theorem sphere_report {a : SphereAttrs} (hC : a.cSphere ≠ 0) (hr : |a.r| ≤ 1 / |a.cSphere|) :
    a.sphereR = some (1 / a.cSphere) ∧
      a.center = some ((√((1 / |a.cSphere|) ^ 2 - a.r ^ 2) * sgn a.cSphere + a.zOffs) • OUT) := by
  have e : (1 / a.cSphere) ^ 2 = (1 / |a.cSphere|) ^ 2 := by
    rw [div_pow, div_pow, sq_abs]
  have h1 : a.sphereR = some (1 / a.cSphere) := by rw [SphereAttrs.sphereR, if_neg hC]
  refine ⟨h1, ?_⟩
  have h2 : ¬ (1 / a.cSphere) ^ 2 < a.r ^ 2 := by
    rw [not_lt, e, ← sq_abs a.r]
    exact pow_le_pow_left₀ (abs_nonneg _) hr 2
  rw [SphereAttrs.center, h1, Option.bind_some, if_neg h2, e]

/-- **C144, spherical involute.** Whatever trims and reversals the object went through (`c`) and whatever its attributes
are set to (`a`), every point it gives lies on the sphere with the reported centre and radius, and a point at the flank
parameter 0 is at the reported base radius from the axis. -/
theorem c144_involute (a : SphereAttrs) (c : Curve) (hC : a.cSphere ≠ 0) (hr : |a.r| ≤ 1 / |a.cSphere|)
    (hv : a.vOffs = 0) : ∃ center R, a.center = some center ∧ a.sphereR = some R ∧ 0 < R * a.cSphere ∧
      (∀ s P, sphereCurveCall sphericalInvoluteFn a c s = some P → OnSphere P center R) ∧
      ∀ s P, c.s2t s = some 0 → sphereCurveCall sphericalInvoluteFn a c s = some P →
        P = circlePoint a.baseRadius a.angle a.zOffs := by
  obtain ⟨h1, h2⟩ := sphere_report hC hr
  refine ⟨_, _, h2, h1, by rw [one_div, inv_mul_cancel₀ hC]; exact one_pos, ?_, ?_⟩
  · intro s P h
    rw [sphereCurveCall, Option.map_eq_some_iff] at h
    obtain ⟨t, -, rfl⟩ := h
    rw [OnSphere, sphericalInvoluteFn, hv, (c21_involute_sphere t a.r a.cSphere a.angle a.zOffs hC hr).1, abs_div, abs_one]
  · intro s P h0 h
    rw [sphereCurveCall, h0, Option.map_some, Option.some_inj] at h
    rw [← h, sphericalInvoluteFn, hv]
    exact (c21_involute_sphere 0 a.r a.cSphere a.angle a.zOffs hC hr).2

/-- **C144, octoid (partial).** The same for octoids with a positive curvature and no offset in z.
Missing: negative curvatures and offsets. -/
theorem c144_octoid_partial (a : SphereAttrs) (c : Curve) (hC : 0 < a.cSphere) (hr : |a.r| ≤ 1 / a.cSphere)
    (ha : sin a.alpha ≠ 0) (hz : a.zOffs = 0) :
    ∃ center R, a.center = some center ∧ a.sphereR = some R ∧ 0 < R * a.cSphere ∧
      ∀ s P, sphereCurveCall octoidCurveFn a c s = some P → OnSphere P center R := by
  obtain ⟨h1, h2⟩ := sphere_report hC.ne' (by rwa [abs_of_pos hC])
  refine ⟨_, _, h2, h1, by rw [one_div, inv_mul_cancel₀ hC.ne']; exact one_pos, ?_⟩
  intro s P h
  rw [sphereCurveCall, Option.map_eq_some_iff] at h
  obtain ⟨t, -, rfl⟩ := h
  have hs : sgn a.cSphere = 1 := by rw [sgn, if_neg (not_lt.2 hC.le), if_neg hC.ne']
  have hR : 0 < 1 / a.cSphere := by positivity
  rw [OnSphere, octoidCurveFn, abs_of_pos hC, hs, hz, mul_one, add_zero,
    c21_octoid t a.r (1 / a.cSphere) a.alpha a.angle 0 a.vOffs hR ha, abs_of_pos hR]

/-- The first point of an octoid, for every curvature. -/
theorem octoid_first (rb R alpha angle : ℝ) (v : V3) (z : ℝ) (hR : R ≠ 0) (hb : |rb| ≤ |R|) :
    octoid 0 rb R alpha angle v z = ![rb * cos angle, rb * sin angle,
      √(R ^ 2 - rb ^ 2) - R * cos (arcsin (rb / R))] := by
  have hab : 0 < |R| := abs_pos.2 hR
  have hq : |rb / R| ≤ 1 := by rw [abs_div, div_le_one hab]; exact hb
  have hs : sin (arcsin (rb / R)) = rb / R := Real.sin_arcsin (abs_le.1 hq).1 (abs_le.1 hq).2
  rw [octoid]
  simp only [zero_mul, sin_zero, cos_zero, hs]
  apply V3.ext3 <;>
    simp [Rz_app, Ry_app, app_mul, OUT, cos_add, sin_add] <;> field_simp
  ring

/-- **C144 is false for octoids with a negative curvature.** The apex of the curve is drawn above the base circle and
reported below it: no octoid with `c_sphere < 0` starts on the sphere it reports, except on the equator. -/
theorem c144_octoid_sign_violated (a : SphereAttrs) (hC : a.cSphere < 0) (hr : |a.r| < 1 / |a.cSphere|)
    (hz : a.zOffs = 0) :
    ∃ center R, a.center = some center ∧ a.sphereR = some R ∧ ¬ OnSphere (octoidCurveFn a 0) center R := by
  obtain ⟨h1, h2⟩ := sphere_report hC.ne hr.le
  refine ⟨_, _, h2, h1, ?_⟩
  have hs : sgn a.cSphere = -1 := by rw [sgn, if_pos hC]
  have hR : 1 / a.cSphere < 0 := one_div_neg.2 hC
  have hRa : |1 / a.cSphere| = 1 / |a.cSphere| := by rw [abs_div, abs_one]
  obtain ⟨R, hRd⟩ : ∃ R, R = 1 / a.cSphere := ⟨_, rfl⟩
  rw [← hRa, ← hRd] at hr
  rw [← hRd] at hR
  have hq : (rb : ℝ) → |rb| ≤ |R| → R * cos (arcsin (rb / R)) = -√(R ^ 2 - rb ^ 2) := by
    intro rb hb
    rw [cos_arcsin, show √(R ^ 2 - rb ^ 2) = √(R ^ 2 * (1 - (rb / R) ^ 2)) by congr 1; field_simp [hR.ne],
      Real.sqrt_mul (sq_nonneg R), Real.sqrt_sq_eq_abs, abs_of_neg hR]
    ring
  have hpos : 0 < R ^ 2 - a.r ^ 2 := by
    rw [← sq_abs R, ← sq_abs a.r]; nlinarith [abs_nonneg a.r]
  intro h
  rw [OnSphere, ← hRa, ← hRd, octoidCurveFn, ← hRd, octoid_first _ _ _ _ _ _ hR.ne hr.le, hq _ hr.le, hs, hz] at h
  have h' := congrArg (· ^ 2) h
  simp only [norm3_sq, sq_abs] at h'
  have hsq := Real.sq_sqrt hpos.le
  have ht := sin_sq_add_cos_sq a.angle
  simp [dot, OUT] at h'
  nlinarith [hsq]

/-- **C144 is false for octoids with an offset in z.** The offset moves the reported centre and not the curve. -/
theorem c144_octoid_offset_violated (a : SphereAttrs) (hC : 0 < a.cSphere) (hr : |a.r| ≤ 1 / a.cSphere)
    (hz : 0 < a.zOffs) :
    ∃ center R, a.center = some center ∧ a.sphereR = some R ∧ ¬ OnSphere (octoidCurveFn a 0) center R := by
  obtain ⟨h1, h2⟩ := sphere_report hC.ne' (by rwa [abs_of_pos hC])
  refine ⟨_, _, h2, h1, ?_⟩
  have hs : sgn a.cSphere = 1 := by rw [sgn, if_neg (not_lt.2 hC.le), if_neg hC.ne']
  have hR : 0 < 1 / a.cSphere := by positivity
  obtain ⟨R, hRd⟩ : ∃ R, R = 1 / a.cSphere := ⟨_, rfl⟩
  rw [abs_of_pos hC, ← hRd, hs]
  rw [← hRd] at hr hR
  have hge : 0 ≤ R ^ 2 - a.r ^ 2 := by
    rw [← sq_abs a.r]; nlinarith [abs_nonneg a.r]
  intro h
  rw [OnSphere, octoidCurveFn, ← hRd, octoid_first _ _ _ _ _ _ hR.ne' (by rwa [abs_of_pos hR]),
    (arcsin_div hR hr).2] at h
  have h' := congrArg (· ^ 2) h
  simp only [norm3_sq, sq_abs] at h'
  have hsq := Real.sq_sqrt hge
  have ht := sin_sq_add_cos_sq a.angle
  have hw := Real.sqrt_nonneg (R ^ 2 - a.r ^ 2)
  simp [dot, OUT] at h'
  nlinarith [mul_nonneg hw hz.le, mul_pos hz hz]

/-- **C144, flat curves.** A flank without curvature has no sphere: both properties raise. -/
theorem c144_flat (a : SphereAttrs) (hC : a.cSphere = 0) : a.sphereR = none ∧ a.center = none := by
  have : a.sphereR = none := by rw [SphereAttrs.sphereR, if_pos hC]
  exact ⟨this, by rw [SphereAttrs.center, this]; rfl⟩

/-- **C144, too large a base circle.** If the base circle does not fit on the sphere, no centre is reported. -/
theorem c144_too_large (a : SphereAttrs) (hC : a.cSphere ≠ 0) (hr : 1 / |a.cSphere| < |a.r|) : a.center = none := by
  have h2 : (1 / a.cSphere) ^ 2 < a.r ^ 2 := by
    rw [← sq_abs a.r, ← sq_abs (1 / a.cSphere), abs_div, abs_one]
    exact pow_lt_pow_left₀ hr (by positivity) two_ne_zero
  rw [SphereAttrs.center, SphereAttrs.sphereR, if_neg hC, Option.bind_some, if_pos h2]

/-- A concrete case: base radius 3 on a sphere of radius 5. The reported centre is 4 above (below for a negative curvature)
the base circle, and the new involute curve gives points on that sphere at every parameter from 0 to 1. -/
theorem c144_case : ({ r := 3, cSphere := 1 / 5 } : SphereAttrs).center = some ((4 : ℝ) • OUT) ∧
    ({ r := 3, cSphere := -(1 / 5) } : SphereAttrs).center = some ((-4 : ℝ) • OUT) ∧
    ∀ s, 0 ≤ s → s ≤ 1 → ∃ P, sphereCurveCall sphericalInvoluteFn { r := 3, cSphere := 1 / 5 }
        (sphereCurve sphericalInvoluteFn { r := 3, cSphere := 1 / 5 } 0 1 true) s = some P ∧
      OnSphere P ((4 : ℝ) • OUT) 5 := by
  have h4 : √(((5 : ℝ)) ^ 2 - 3 ^ 2) = 4 := by
    rw [show ((5 : ℝ)) ^ 2 - 3 ^ 2 = 4 ^ 2 by norm_num]; exact Real.sqrt_sq (by norm_num)
  have hc : ({ r := 3, cSphere := 1 / 5 } : SphereAttrs).center = some ((4 : ℝ) • OUT) := by
    rw [(sphere_report (by norm_num) (by norm_num [abs_of_pos])).2]
    simp only [abs_of_pos (show (0 : ℝ) < 1 / 5 by norm_num), one_div_one_div, h4]
    congr 2
    norm_num [sgn]
  refine ⟨hc, ?_, ?_⟩
  · rw [(sphere_report (by norm_num) (by norm_num [abs_of_pos])).2]
    simp only [abs_neg, abs_of_pos (show (0 : ℝ) < 1 / 5 by norm_num), one_div_one_div, h4]
    congr 2
    norm_num [sgn]
  · intro s h0 h1
    obtain ⟨center, R, e1, e2, -, hon, -⟩ := c144_involute { r := 3, cSphere := 1 / 5 }
      (sphereCurve sphericalInvoluteFn { r := 3, cSphere := 1 / 5 } 0 1 true) (by norm_num)
      (by norm_num [abs_of_pos]) rfl
    obtain ⟨x, _, hx, -, -⟩ := c38_monotone
      ⟨.generic (sphericalInvoluteFn { r := 3, cSphere := 1 / 5 }) 20, true, 0, 1, 0, Lookup.default⟩
      (by simp [CurveKind.Sampled]) s s h0 le_rfl h1
    have hcall : sphereCurveCall sphericalInvoluteFn { r := 3, cSphere := 1 / 5 }
        (sphereCurve sphericalInvoluteFn { r := 3, cSphere := 1 / 5 } 0 1 true) s =
        some (sphericalInvoluteFn { r := 3, cSphere := 1 / 5 } x) := by
      rw [sphereCurveCall, sphereCurve, Curve.make, if_pos rfl, hx]; rfl
    refine ⟨_, hcall, ?_⟩
    have := hon s _ hcall
    rw [hc, Option.some_inj] at e1
    rw [SphereAttrs.sphereR, if_neg (by norm_num), Option.some_inj] at e2
    rw [e1]
    rw [← e2] at this
    simpa using this

end Verif
