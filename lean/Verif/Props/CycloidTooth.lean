import Verif.Model.CycloidTooth
import Verif.Props.Flank3
import Verif.Props.Chain2
import Mathlib.Analysis.SpecialFunctions.Trigonometric.Inverse

/-!
# C120: the tooth curve of cycloid gears
-/

namespace Verif

open Real
open Spec (circlePoint)

/-! ### Closed forms -/

/-- The conical cycloid in coordinates; `θ` is the inclination of the rolling circle. -/
theorem cycloidCone_eq (t rb rc C angle : ℝ) (hC : C ≠ 0) :
    let R := 1 / |C|
    let θ := -sgn C * (arcsin (rb / R) + arcsin (rc / R))
    let β := t * rb / rc
    let u0 := rb + rc * cos θ * (1 - cos β)
    let u1 := -(rc * sin β)
    cycloidCone t rb rc C angle ORIGIN 0 = some ![cos (t + angle) * u0 - sin (t + angle) * u1,
      sin (t + angle) * u0 + cos (t + angle) * u1, -(rc * sin θ * (1 - cos β))] := by
  intro R θ β u0 u1
  rw [cycloidCone, if_neg hC]
  refine congrArg some ?_
  apply V3.ext3 <;> simp [RIGHT, LEFT, OUT, ORIGIN, u0, u1, θ, β, R] <;> ring

/-- The apex of the cone a conical cycloid is on. -/
noncomputable def Spec.cycloidApex (rb C : ℝ) : V3 := (√((1 / |C|) ^ 2 - rb ^ 2) * sgn C) • OUT

/-- **C120, rolling cones.** The conical cycloid is traced by a cone that rolls without slip on the base cone: its velocity
is that of a rotation about the line through the apex and the contact point, with angular velocity
`-sign C · sin (γ₁ + γ₂) / rc` times the contact point's position from the apex. -/
theorem c120_cone_rolling (t rb rc C angle : ℝ) (hC : C ≠ 0) (hb : |rb| ≤ 1 / |C|) (hc : |rc| ≤ 1 / |C|) (h0 : rc ≠ 0) :
    let A := Spec.cycloidApex rb C
    let K := circlePoint rb (t + angle) 0
    ∃ P, cycloidCone t rb rc C angle ORIGIN 0 = some P ∧ norm3 (K - A) = 1 / |C| ∧ norm3 (P - A) = 1 / |C| ∧
      HasDerivAt (fun s => (cycloidCone s rb rc C angle ORIGIN 0).getD 0)
        ((-(sgn C * sin (arcsin (rb * |C|) + arcsin (rc * |C|))) / rc) • cross (K - A) (P - K)) t := by
  intro A K
  have hR := abs_inv_pos hC
  have hCp : 0 < |C| := abs_pos.2 hC
  obtain ⟨s1, c1⟩ := arcsin_div hR hb
  obtain ⟨s2, c2⟩ := arcsin_div hR hc
  have h00 : ORIGIN = (0 : V3) := by apply V3.ext3 <;> simp [ORIGIN]
  obtain ⟨P, hP, hPn⟩ := c21_cycloid_cone t rb rc C angle 0 hC hb hc
  rw [add_zero] at hPn
  rw [← h00] at hP
  refine ⟨P, hP, ?_, hPn, ?_⟩
  · refine norm3_eq_of_dot hR.le ?_
    have hq : 0 ≤ (1 / |C|) ^ 2 - rb ^ 2 := by
      have := sq_le_sq' (by linarith [(abs_le.1 hb).1]) (abs_le.1 hb).2
      linarith
    have hs := sq_sqrt hq
    have hsg : sgn C ^ 2 = 1 := by rcases sgn_cases hC with h | h <;> rw [h] <;> norm_num
    simp [dot, K, A, Spec.cycloidApex, circlePoint, OUT]
    simp at hs
    linear_combination rb ^ 2 * sin_sq_add_cos_sq (t + angle) + hs +
      √((C ^ 2)⁻¹ - rb ^ 2) ^ 2 * hsg
  have e1 : rb / (1 / |C|) = rb * |C| := by field_simp
  have e2 : rc / (1 / |C|) = rc * |C| := by field_simp
  obtain ⟨θ, hθ⟩ : ∃ θ, θ = -sgn C * (arcsin (rb * |C|) + arcsin (rc * |C|)) := ⟨_, rfl⟩
  obtain ⟨z, hz⟩ : ∃ z, z = √((1 / |C|) ^ 2 - rb ^ 2) * sgn C := ⟨_, rfl⟩
  have hA : A = z • OUT := by rw [hz]; rfl
  rw [e1] at s1 c1
  rw [e2] at s2 c2
  have hsin : -(sgn C * sin (arcsin (rb * |C|) + arcsin (rc * |C|))) = sin θ := by
    rw [hθ]; rcases sgn_cases hC with h | h <;> rw [h]
    · rw [neg_one_mul, sin_neg, one_mul]
    · rw [neg_neg, one_mul]; ring
  have key : rc + rb * cos θ = -(sin θ * z) := by
    rw [hz, ← hsin, ← c1]
    have hcos : cos θ = cos (arcsin (rb * |C|) + arcsin (rc * |C|)) := by
      rw [hθ]; rcases sgn_cases hC with h | h <;> rw [h]
      · rw [neg_one_mul, cos_neg]
      · rw [neg_neg, one_mul]
    have hsg : sgn C * sgn C = 1 := by rcases sgn_cases hC with h | h <;> rw [h] <;> norm_num
    have hb' : rb = 1 / |C| * sin (arcsin (rb * |C|)) := by rw [s1]; field_simp
    have hc' : rc = 1 / |C| * sin (arcsin (rc * |C|)) := by rw [s2]; field_simp
    obtain ⟨g1, hg1⟩ : ∃ g, g = arcsin (rb * |C|) := ⟨_, rfl⟩
    obtain ⟨g2, hg2⟩ : ∃ g, g = arcsin (rc * |C|) := ⟨_, rfl⟩
    rw [← hg1] at hb' hcos ⊢
    rw [← hg2] at hc' hcos ⊢
    have hx : sin g2 + sin g1 * cos (g1 + g2) = sin (g1 + g2) * cos g1 := by
      rw [sin_add, cos_add]
      linear_combination -(sin g2) * sin_sq_add_cos_sq g1
    rw [hcos]
    linear_combination hc' + cos (g1 + g2) * hb' + 1 / |C| * hx - sin (g1 + g2) * (1 / |C| * cos g1) * hsg
  rw [hsin]
  have hP' := hP
  have hfun : ∀ s, (cycloidCone s rb rc C angle ORIGIN 0).getD 0 = ![cos (s + angle) * (rb + rc * cos θ * (1 - cos (rb / rc * s + 0))) -
      sin (s + angle) * -(rc * sin (rb / rc * s + 0)), sin (s + angle) * (rb + rc * cos θ * (1 - cos (rb / rc * s + 0))) +
      cos (s + angle) * -(rc * sin (rb / rc * s + 0)), -(rc * sin θ * (1 - cos (rb / rc * s + 0)))] := by
    intro s
    rw [cycloidCone_eq s rb rc C angle hC]
    simp only [e1, e2, ← hθ]
    rw [show rb / rc * s + 0 = s * rb / rc by ring]
    rfl
  have hPc := hfun t
  rw [hP] at hPc
  simp only [Option.getD_some] at hPc
  have hk : rc * (rb / rc) = rb := by field_simp
  have hc1 := hasDerivAt_cos_lin 1 angle t
  have hs1 := hasDerivAt_sin_lin 1 angle t
  have hc2 := hasDerivAt_cos_lin (rb / rc) 0 t
  have hs2 := hasDerivAt_sin_lin (rb / rc) 0 t
  simp only [one_mul] at hc1 hs1
  simp only [hfun]
  obtain ⟨k, hkd⟩ : ∃ k, k = rb / rc := ⟨_, rfl⟩
  rw [← hkd] at hk hc2 hs2 hPc
  simp only [← hkd]
  have hu0 := ((hasDerivAt_const t (1 : ℝ)).sub hc2).const_mul (rc * cos θ) |>.const_add rb
  have hu1 := (hs2.const_mul rc).neg
  have hτ := sin_sq_add_cos_sq (t + angle)
  have hθ2 := sin_sq_add_cos_sq θ
  apply hasDerivAt_v3
  · refine HasDerivAt.congr_deriv ((hc1.mul hu0).sub (hs1.mul hu1)) ?_
    rw [hPc, hA]; simp [K, circlePoint, OUT]
    rw [div_mul_eq_mul_div, eq_div_iff h0]
    linear_combination rc * ((cos (t + angle) * cos θ * sin (k * t) + sin (t + angle) * cos (k * t)) * hk + (cos (t + angle) * sin (k * t) - sin (t + angle) * (1 - cos (k * t)) * cos θ) * key +
      sin (t + angle) * (1 - cos (k * t)) * rb * hθ2)
  · refine HasDerivAt.congr_deriv ((hs1.mul hu0).add (hc1.mul hu1)) ?_
    rw [hPc, hA]; simp [K, circlePoint, OUT]
    rw [div_mul_eq_mul_div, eq_div_iff h0]
    linear_combination rc * ((sin (t + angle) * cos θ * sin (k * t) - cos (t + angle) * cos (k * t)) * hk + (sin (t + angle) * sin (k * t) + cos (t + angle) * (1 - cos (k * t)) * cos θ) * key -
      cos (t + angle) * (1 - cos (k * t)) * rb * hθ2)
  · refine HasDerivAt.congr_deriv ((((hasDerivAt_const t (1 : ℝ)).sub hc2).const_mul (rc * sin θ)).neg) ?_
    rw [hPc, hA]; simp [K, circlePoint, OUT]
    rw [div_mul_eq_mul_div, eq_div_iff h0]
    linear_combination rc * (-(sin θ * sin (k * t)) * hk + sin θ * rb * sin (k * t) * hτ)

/-! ### The flanks lead outwards -/

/-- The angle at the apex `A` between the direction `d` and the point `P`. -/
noncomputable def Spec.apexAngle (A d P : V3) : ℝ := arccos (dot (P - A) d / norm3 (P - A))

theorem apexAngle_strictMono {f : ℝ → V3} {a R : ℝ} {s : Set ℝ} (hR : 0 < R) (hf : ∀ t, norm3 (f t - a • OUT) = R)
    (hm : StrictMonoOn (fun t => f t 2) s) :
    StrictMonoOn (fun t => Spec.apexAngle (a • OUT) (-OUT) (f t)) s := by
  intro x hx y hy hxy
  have h := hm hx hy hxy
  have e : ∀ t, dot (f t - a • OUT) (-OUT) = a - f t 2 := by
    intro t; simp [dot, OUT]
  have hb : ∀ t, (a - f t 2) / R ∈ Set.Icc (-1 : ℝ) 1 := by
    intro t
    have h1 := norm3_sq (f t - a • OUT)
    rw [hf t] at h1
    have h2 : (a - f t 2) ^ 2 ≤ R ^ 2 := by
      rw [h1]
      simp [dot, OUT]
      nlinarith [mul_self_nonneg (f t 0), mul_self_nonneg (f t 1)]
    have h3 := abs_le_of_sq_le_sq' h2 hR.le
    constructor
    · rw [le_div_iff₀ hR]; linarith
    · rw [div_le_one hR]; linarith
  simp only [Spec.apexAngle, hf, e]
  refine strictAntiOn_arccos (hb y) (hb x) ?_
  have h' : f x 2 < f y 2 := h
  gcongr

theorem cycloidCircle_norm (t rp rc angle : ℝ) : norm3 (cycloidCircle t rp rc angle ORIGIN 0) =
    √((rp + rc) ^ 2 + rc ^ 2 - 2 * (rp + rc) * rc * cos (rp / rc * t)) := by
  have h00 : ORIGIN = (0 : V3) := by apply V3.ext3 <;> simp [ORIGIN]
  have e : (1 + rp / rc) * t + angle = (t + angle) + rp / rc * t := by ring
  rw [h00, cycloidCircle_eq, norm3, e]
  congr 1
  obtain ⟨τ, hτ⟩ : ∃ τ, τ = t + angle := ⟨_, rfl⟩
  obtain ⟨β, hβ⟩ : ∃ β, β = rp / rc * t := ⟨_, rfl⟩
  rw [← hτ, ← hβ]
  simp [dot, cos_add, sin_add]
  linear_combination ((rp + rc - rc * cos β) ^ 2 + rc ^ 2 * sin β ^ 2) * sin_sq_add_cos_sq τ +
    rc ^ 2 * sin_sq_add_cos_sq β

/-- **C120, cylindrical gears.** Along both parts of the flank the distance from the gear axis strictly grows: on the lower
part for half a turn of the rolling circle up to the pitch point, on the upper part for half a turn from there. -/
theorem c120_outward (pia rp rcIn rcOut : ℝ) (hr : 0 < rp) (hi : 0 < rcIn) (hi1 : rcIn < 1) (ho : 0 < rcOut) :
    StrictMonoOn (fun t => norm3 (cycloidLowerFn pia rp 0 rcIn t)) (Set.Icc (-(π * rcIn)) 0) ∧
      StrictMonoOn (fun t => norm3 (cycloidUpperFn pia rp 0 rcOut t)) (Set.Icc 0 (π * rcOut)) := by
  have hn : ∀ t rc, rc ≠ 0 → norm3 (cycloidCircle t rp rc (-pia) ORIGIN 0) = _ :=
    fun t rc _ => cycloidCircle_norm t rp rc (-pia)
  constructor
  · intro x hx y hy hxy
    simp only [cycloidLowerFn, if_pos, cycloidFlankLower]
    rw [hn _ _ (by have := mul_pos hi hr; linarith), hn _ _ (by have := mul_pos hi hr; linarith)]
    have e : ∀ t, rp / (-rcIn * rp) * t = -(t / rcIn) := by intro t; field_simp
    rw [e, e, cos_neg, cos_neg]
    have hc : cos (x / rcIn) < cos (y / rcIn) := by
      rw [← cos_neg (x / rcIn), ← cos_neg (y / rcIn)]
      refine cos_lt_cos_of_nonneg_of_le_pi ?_ ?_ ?_
      · rw [← neg_div]; exact div_nonneg (by linarith [hy.2]) hi.le
      · rw [← neg_div, div_le_iff₀ hi]; linarith [hx.1]
      · rw [neg_lt_neg_iff]; gcongr
    refine sqrt_lt_sqrt ?_ ?_
    · have h1 := cos_le_one (x / rcIn)
      have h2 := neg_one_le_cos (x / rcIn)
      have : 0 ≤ rcIn * (1 - rcIn) * (1 + cos (x / rcIn)) := by
        have := sub_pos.2 hi1
        have : 0 ≤ 1 + cos (x / rcIn) := by linarith
        positivity
      nlinarith [mul_nonneg (sq_nonneg rp) this, mul_nonneg (sq_nonneg rp) (sq_nonneg (1 - 2 * rcIn))]
    · have := sub_pos.2 hi1
      have h3 : 0 < rp ^ 2 * (rcIn * (1 - rcIn)) * (cos (y / rcIn) - cos (x / rcIn)) := by
        have := sub_pos.2 hc
        positivity
      nlinarith
  · intro x hx y hy hxy
    simp only [cycloidUpperFn, if_pos, cycloidFlankUpper]
    have hp : 0 < rcOut * rp := mul_pos ho hr
    rw [hn _ _ hp.ne', hn _ _ hp.ne']
    have e : ∀ t, rp / (rcOut * rp) * t = t / rcOut := by intro t; field_simp
    rw [e, e]
    have hc : cos (y / rcOut) < cos (x / rcOut) := by
      refine cos_lt_cos_of_nonneg_of_le_pi ?_ ?_ ?_
      · exact div_nonneg hx.1 ho.le
      · rw [div_le_iff₀ ho]; exact hy.2
      · gcongr
    refine sqrt_lt_sqrt ?_ ?_
    · have h1 := cos_le_one (x / rcOut)
      have : 0 ≤ rcOut * (1 + rcOut) * (1 - cos (x / rcOut)) := by
        have : 0 ≤ 1 - cos (x / rcOut) := by linarith
        positivity
      nlinarith [mul_nonneg (sq_nonneg rp) this, sq_nonneg rp]
    · have h3 : 0 < rp ^ 2 * (rcOut * (1 + rcOut)) * (cos (x / rcOut) - cos (y / rcOut)) := by
        have := sub_pos.2 hc
        positivity
      nlinarith

/-- Height of a point of the conical cycloid above the plane of the base circle. -/
theorem cycloidCone_height (t rb rc C angle : ℝ) (hC : 0 < C) :
    (cycloidCone t rb rc C angle ORIGIN 0).getD 0 2 =
      rc * sin (arcsin (rb * C) + arcsin (rc * C)) * (1 - cos (t * rb / rc)) := by
  rw [cycloidCone_eq t rb rc C angle hC.ne']
  have hs : sgn C = 1 := by rw [sgn, if_neg hC.le.not_gt, if_neg hC.ne']
  have e : ∀ r, r / (1 / |C|) = r * C := by intro r; rw [abs_of_pos hC]; field_simp
  simp only [Option.getD_some, hs, e]
  change -(rc * sin (-1 * _) * _) = _
  rw [neg_one_mul, sin_neg]; ring

/-- **C120, conical gears.** Along both parts of the flank the angle seen from the apex between the gear axis and the flank
strictly grows, on the lower part up to the half cone angle and on the upper part from there. -/
theorem c120_outward_cone (pia rp coneAngle rcIn rcOut : ℝ) (hr : 0 < rp) (h0 : 0 < coneAngle) (h1 : coneAngle ≤ π)
    (hi : 0 < rcIn) (hi1 : rcIn < 1) (ho : 0 < rcOut) (ho1 : rcOut * sin (coneAngle / 2) ≤ 1)
    (ho2 : coneAngle / 2 + arcsin (rcOut * sin (coneAngle / 2)) < π) :
    let A := (rp / tan (coneAngle / 2)) • OUT
    StrictMonoOn (fun t => Spec.apexAngle A (-OUT) (cycloidLowerFn pia rp coneAngle rcIn t)) (Set.Icc (-(π * rcIn)) 0) ∧
      StrictMonoOn (fun t => Spec.apexAngle A (-OUT) (cycloidUpperFn pia rp coneAngle rcOut t)) (Set.Icc 0 (π * rcOut)) ∧
      Spec.apexAngle A (-OUT) (cycloidLowerFn pia rp coneAngle rcIn 0) = coneAngle / 2 ∧
      Spec.apexAngle A (-OUT) (cycloidUpperFn pia rp coneAngle rcOut 0) = coneAngle / 2 := by
  intro A
  obtain ⟨g, hg⟩ : ∃ g, g = coneAngle / 2 := ⟨_, rfl⟩
  have hne : coneAngle ≠ 0 := h0.ne'
  have hg0 : 0 < g := by linarith
  have hg1 : g ≤ π / 2 := by linarith
  have hA : A = (rp / tan g) • OUT := by rw [hg]
  rw [← hg] at ho1 ho2 ⊢
  have hsg : 0 < sin g := sin_pos_of_pos_of_lt_pi hg0 (by linarith)
  have hcg : 0 ≤ cos g := cos_nonneg_of_mem_Icc ⟨by linarith, hg1⟩
  obtain ⟨C, hC⟩ : ∃ C, C = 1 / (rp / sin g) := ⟨_, rfl⟩
  have hC' : C = sin g / rp := by rw [hC]; field_simp
  have hCp : 0 < C := by rw [hC']; positivity
  have hR : 1 / |C| = rp / sin g := by rw [abs_of_pos hCp, hC']; field_simp
  have hRp : 0 < rp / sin g := by positivity
  have h00 : ORIGIN = (0 : V3) := by apply V3.ext3 <;> simp [ORIGIN]
  have has : arcsin (sin g) = g := arcsin_sin (by linarith) hg1
  have hrb : rp * C = sin g := by rw [hC']; field_simp
  have hsgn : sgn C = 1 := by rw [sgn, if_neg hCp.le.not_gt, if_neg hCp.ne']
  have hbd : |rp| ≤ 1 / |C| := by
    rw [hR, abs_of_pos hr, le_div_iff₀ hsg]
    nlinarith [sin_le_one g]
  have hap : √((1 / |C|) ^ 2 - rp ^ 2) * sgn C + 0 = rp / tan g := by
    rw [hsgn, mul_one, add_zero, hR, tan_eq_sin_div_cos, show (rp / sin g) ^ 2 - rp ^ 2 = (rp / (sin g / cos g)) ^ 2 by
      rw [div_div_eq_mul_div]
      field_simp
      linear_combination -sin_sq_add_cos_sq g]
    exact sqrt_sq (by positivity)
  have hnorm : ∀ t rc, |rc| ≤ 1 / |C| →
      norm3 ((cycloidCone t rp rc C (-pia) ORIGIN 0).getD 0 - (rp / tan g) • OUT) = rp / sin g := by
    intro t rc hrc
    obtain ⟨P, e1, e2⟩ := c21_cycloid_cone t rp rc C (-pia) 0 hCp.ne' hbd hrc
    rw [h00, e1, Option.getD_some, ← hR, ← e2, hap]
  have hstart : ∀ rc, |rc| ≤ 1 / |C| →
      Spec.apexAngle A (-OUT) ((cycloidCone 0 rp rc C (-pia) ORIGIN 0).getD 0) = g := by
    intro rc hrc
    rw [Spec.apexAngle, hA, hnorm _ _ hrc]
    have hz := cycloidCone_height 0 rp rc C (-pia) hCp
    have hd : dot ((cycloidCone 0 rp rc C (-pia) ORIGIN 0).getD 0 - (rp / tan g) • OUT) (-OUT) = rp / tan g := by
      simp only [dot, OUT, Fin.sum_univ_three, Pi.sub_apply, Pi.smul_apply, Pi.neg_apply, hz]
      simp
    rw [hd, tan_eq_sin_div_cos, show rp / (sin g / cos g) / (rp / sin g) = cos g by
      rw [div_div_eq_mul_div]; field_simp]
    exact arccos_cos hg0.le (by linarith)
  have hlo : |-rcIn * rp| ≤ 1 / |C| := by
    rw [neg_mul, abs_neg, abs_of_pos (mul_pos hi hr)]
    rw [abs_of_pos hr] at hbd
    nlinarith
  have hup : |rcOut * rp| ≤ 1 / |C| := by
    rw [hR, abs_of_pos (mul_pos ho hr), le_div_iff₀ hsg]
    nlinarith
  have hil : arcsin (rp * C) + arcsin (-rcIn * rp * C) = g - arcsin (rcIn * sin g) := by
    rw [hrb, has, show -rcIn * rp * C = -(rcIn * sin g) by rw [← hrb]; ring, arcsin_neg]; ring
  have hou : arcsin (rp * C) + arcsin (rcOut * rp * C) = g + arcsin (rcOut * sin g) := by
    rw [hrb, has, show rcOut * rp * C = rcOut * sin g by rw [← hrb]; ring]
  have hsl : 0 < sin (g - arcsin (rcIn * sin g)) := by
    have a1 : 0 ≤ arcsin (rcIn * sin g) := arcsin_nonneg.2 (by positivity)
    have a2 : arcsin (rcIn * sin g) < g := by
      have := strictMonoOn_arcsin (a := rcIn * sin g) (b := sin g) ⟨by nlinarith, by nlinarith [sin_le_one g]⟩
        ⟨by linarith, sin_le_one g⟩ (by nlinarith)
      rwa [has] at this
    exact sin_pos_of_pos_of_lt_pi (by linarith) (by linarith [pi_pos])
  have hsu : 0 < sin (g + arcsin (rcOut * sin g)) :=
    sin_pos_of_pos_of_lt_pi (by have : 0 ≤ arcsin (rcOut * sin g) := arcsin_nonneg.2 (by positivity)
                                linarith) ho2
  simp only [cycloidLowerFn, cycloidUpperFn, if_neg hne, ← hg, ← hC]
  refine ⟨?_, ?_, hstart _ hlo, hstart _ hup⟩
  · rw [hA]
    refine apexAngle_strictMono hRp (fun t => hnorm t _ hlo) fun x hx y hy hxy => ?_
    simp only [cycloidCone_height _ _ _ _ _ hCp, hil]
    have e : ∀ t, t * rp / (-rcIn * rp) = -(t / rcIn) := by intro t; field_simp
    rw [e, e, cos_neg, cos_neg]
    have hc : cos (x / rcIn) < cos (y / rcIn) := by
      rw [← cos_neg (x / rcIn), ← cos_neg (y / rcIn)]
      refine cos_lt_cos_of_nonneg_of_le_pi ?_ ?_ ?_
      · rw [← neg_div]; exact div_nonneg (by linarith [hy.2]) hi.le
      · rw [← neg_div, div_le_iff₀ hi]; linarith [hx.1]
      · rw [neg_lt_neg_iff]; gcongr
    have : 0 < rcIn * rp * sin (g - arcsin (rcIn * sin g)) * (cos (y / rcIn) - cos (x / rcIn)) := by
      have := sub_pos.2 hc
      positivity
    linarith
  · rw [hA]
    refine apexAngle_strictMono hRp (fun t => hnorm t _ hup) fun x hx y hy hxy => ?_
    simp only [cycloidCone_height _ _ _ _ _ hCp, hou]
    have e : ∀ t, t * rp / (rcOut * rp) = t / rcOut := by intro t; field_simp
    rw [e, e]
    have hc : cos (y / rcOut) < cos (x / rcOut) := by
      refine cos_lt_cos_of_nonneg_of_le_pi ?_ ?_ ?_
      · exact div_nonneg hx.1 ho.le
      · rw [div_le_iff₀ ho]; exact hy.2
      · gcongr
    have : 0 < rcOut * rp * sin (g + arcsin (rcOut * sin g)) * (cos (x / rcOut) - cos (y / rcOut)) := by
      have := sub_pos.2 hc
      positivity
    linarith

/-- Concrete case: a cone angle of 90° and rolling circles of half the pitch radius. -/
example : (0 : ℝ) < π / 2 ∧ π / 2 ≤ π ∧ 1 / 2 * sin (π / 2 / 2) ≤ 1 ∧
    π / 2 / 2 + arcsin (1 / 2 * sin (π / 2 / 2)) < π := by
  have hpi := pi_pos
  have h := arcsin_le_pi_div_two (1 / 2 * sin (π / 2 / 2))
  refine ⟨by linarith, by linarith, by linarith [sin_le_one (π / 2 / 2)], by linarith⟩

/-! ### The nearest point -/

theorem pickMin_spec (key : ℝ → ℝ) (xs : List ℝ) (x : ℝ) :
    pickMin key x xs ∈ x :: xs ∧ ∀ y ∈ x :: xs, key (pickMin key x xs) ≤ key y := by
  induction xs generalizing x with
  | nil => simp [pickMin]
  | cons a l ih =>
    have e : pickMin key x (a :: l) = pickMin key (if key a < key x then a else x) l := rfl
    rw [e]
    obtain ⟨h1, h2⟩ := ih (if key a < key x then a else x)
    by_cases h : key a < key x
    · rw [if_pos h] at h1 h2 ⊢
      refine ⟨List.mem_cons_of_mem _ h1, fun y hy => ?_⟩
      rcases List.mem_cons.1 hy with rfl | hy
      · exact (h2 a (List.mem_cons_self ..)).trans h.le
      · exact h2 y hy
    · rw [if_neg h] at h1 h2 ⊢
      refine ⟨?_, fun y hy => ?_⟩
      · rcases List.mem_cons.1 h1 with h1 | h1
        · rw [h1]; exact List.mem_cons_self ..
        · exact List.mem_cons_of_mem _ (List.mem_cons_of_mem _ h1)
      · rcases List.mem_cons.1 hy with rfl | hy
        · exact h2 _ (List.mem_cons_self ..)
        · rcases List.mem_cons.1 hy with rfl | hy
          · exact (h2 _ (List.mem_cons_self ..)).trans (not_lt.1 h)
          · exact h2 y (List.mem_cons_of_mem _ hy)

/-- **C120, the nearest point.** `find_curve_nearest_point` fails only without guesses. It returns an answer of the
minimiser, and none of the others is nearer. -/
theorem c120_nearest (S : ScalarSolvers) (f : ℝ → V3) (point : V3) (guesses : List ℝ) (h : guesses ≠ []) :
    ∃ x g, findCurveNearestPoint S (fun t => some (f t)) point guesses = some x ∧ g ∈ guesses ∧
      x = (S.minimize1 (distSq (fun t => some (f t)) point) g).x ∧
      ∀ g' ∈ guesses, norm3 (f x - point) ≤
        norm3 (f (S.minimize1 (distSq (fun t => some (f t)) point) g').x - point) := by
  obtain ⟨F, hF⟩ : ∃ F : ℝ → ℝ, F = fun g => (S.minimize1 (distSq (fun t => some (f t)) point) g).x := ⟨_, rfl⟩
  cases guesses with
  | nil => exact absurd rfl h
  | cons a l =>
    obtain ⟨h1, h2⟩ := pickMin_spec (fun t => (distSq (fun t => some (f t)) point t).getD 0) (l.map F) (F a)
    rw [← List.map_cons] at h1 h2
    obtain ⟨g, hg, e⟩ := List.mem_map.1 h1
    refine ⟨_, g, by rw [findCurveNearestPoint, ← hF]; rfl, hg, by rw [← e, hF], fun g' hg' => ?_⟩
    have := h2 (F g') (List.mem_map_of_mem hg')
    rw [hF] at this ⊢
    simp only [distSq, Option.map_some, Option.getD_some] at this
    exact sqrt_le_sqrt this


/-! ### The whole tooth curve -/

theorem generic_length_pos {f : ℝ → V3} {n : ℕ} (hn : 1 ≤ n) {c : Curve} (hk : c.kind = .generic f n)
    (h : f c.t0 ≠ f c.t1) : 0 < c.updateLengths.length := by
  have e : c.updateLengths.length = chordLen f (linspace c.t0 c.t1 n) n := by rw [Curve.updateLengths, hk]
  rw [e]
  refine lt_of_le_of_ne (chordLen_nonneg _ _ _) fun h0 => h ?_
  have := chordLen_eq_imp f (linspace c.t0 c.t1 n) (Nat.zero_le n) h0
  rwa [linspace_zero, linspace_last _ _ hn] at this

theorem cycloidFn_zero (pia rp coneAngle rc : ℝ) (hr : 0 < rp) (h0 : 0 ≤ coneAngle) (h1 : coneAngle ≤ π) :
    cycloidLowerFn pia rp coneAngle rc 0 = circlePoint rp (-pia) 0 ∧
      cycloidUpperFn pia rp coneAngle rc 0 = circlePoint rp (-pia) 0 := by
  have h00 : ORIGIN = (0 : V3) := by apply V3.ext3 <;> simp [ORIGIN]
  rcases h0.eq_or_lt with rfl | h0
  · simp only [cycloidLowerFn, cycloidUpperFn, if_pos, cycloidFlankLower, cycloidFlankUpper, h00]
    exact ⟨(c22_rolling 0 rp (-rc * rp) (-pia) 0).2, (c22_rolling 0 rp (rc * rp) (-pia) 0).2⟩
  · have hs : 0 < sin (coneAngle / 2) := sin_pos_of_pos_of_lt_pi (by linarith) (by linarith [pi_pos])
    have hC : (1 : ℝ) / (rp / sin (coneAngle / 2)) ≠ 0 := by positivity
    simp only [cycloidLowerFn, cycloidUpperFn, if_neg h0.ne', cycloidCone_eq _ _ _ _ _ hC, Option.getD_some]
    constructor <;> apply V3.ext3 <;> simp [circlePoint] <;> ring

theorem cycloidLower_ne (pia rp coneAngle rcIn : ℝ) (hr : 0 < rp) (h0 : 0 ≤ coneAngle) (h1 : coneAngle ≤ π)
    (hi : 0 < rcIn) (hi1 : rcIn < 1) :
    cycloidLowerFn pia rp coneAngle rcIn (-rcIn * π / 2) ≠ cycloidLowerFn pia rp coneAngle rcIn 0 := by
  have hpi := pi_pos
  have hm : -rcIn * π / 2 ∈ Set.Icc (-(π * rcIn)) 0 := by constructor <;> nlinarith
  have hm0 : (0 : ℝ) ∈ Set.Icc (-(π * rcIn)) 0 := by constructor <;> nlinarith
  have hlt : -rcIn * π / 2 < 0 := by nlinarith
  intro e
  rcases h0.eq_or_lt with rfl | h0
  · have := (c120_outward pia rp rcIn 1 hr hi hi1 one_pos).1 hm hm0 hlt
    simp only [e] at this
    exact lt_irrefl _ this
  · have hs1 := sin_le_one (coneAngle / 2)
    have hs0 : 0 < sin (coneAngle / 2) := sin_pos_of_pos_of_lt_pi (by linarith) (by linarith)
    have hlt1 : rcIn * sin (coneAngle / 2) < 1 := by nlinarith
    have := (c120_outward_cone pia rp coneAngle rcIn rcIn hr h0 h1 hi hi1 hi hlt1.le
      (by have := arcsin_lt_pi_div_two.2 hlt1; linarith)).1 hm hm0 hlt
    simp only [e] at this
    exact lt_irrefl _ this

/-- **C120, the tooth curve.** If the search for the middle plane answers truly, the tooth curve of a cylindrical or conical
cycloid gear consists of the two cycloids, joined on the pitch circle at the pitch intersect angle. It begins where the
inner circle has rolled back a quarter turn and ends in the middle plane of the tooth. -/
theorem c120_tooth (S : ScalarSolvers) (pia rp coneAngle rcIn rcOut : ℝ) (hr : 0 < rp) (h0 : 0 ≤ coneAngle)
    (h1 : coneAngle ≤ π) (hi : 0 < rcIn) (hi1 : rcIn < 1) (hp : sin pia ≠ 0)
    (hS : ∀ f, f = planeResidual (cycloidUpper pia rp coneAngle rcOut).eval UP ORIGIN →
      ∀ g, f (S.root1 f g).x = some 0) :
    ∃ lo up p, cycloidToothCurve S pia rp coneAngle rcIn rcOut = some [lo, up] ∧
      lo.kind.fn = cycloidLowerFn pia rp coneAngle rcIn ∧ up.kind.fn = cycloidUpperFn pia rp coneAngle rcOut ∧
      lo.eval 0 = some (cycloidLowerFn pia rp coneAngle rcIn (-rcIn * π / 2)) ∧
      lo.eval 1 = some (circlePoint rp (-pia) 0) ∧ up.eval 0 = some (circlePoint rp (-pia) 0) ∧
      up.eval 1 = some p ∧ p 1 = 0 ∧ chainEval curveOps [lo, up] 0 = lo.eval 0 ∧
      chainEval curveOps [lo, up] 1 = some p := by
  obtain ⟨z1, -⟩ := cycloidFn_zero pia rp coneAngle rcIn hr h0 h1
  obtain ⟨-, z2⟩ := cycloidFn_zero pia rp coneAngle rcOut hr h0 h1
  obtain ⟨U, hU⟩ : ∃ U, U = cycloidUpper pia rp coneAngle rcOut := ⟨_, rfl⟩
  obtain ⟨L, hL⟩ : ∃ L, L = cycloidLower pia rp coneAngle rcIn := ⟨_, rfl⟩
  have hUm : U = Curve.updateLengths ⟨.generic (cycloidUpperFn pia rp coneAngle rcOut) 20, true, 0, pia * 2, 0,
      Lookup.default⟩ := by rw [hU, cycloidUpper, Curve.make, if_pos rfl]
  have hLm : L = Curve.updateLengths ⟨.generic (cycloidLowerFn pia rp coneAngle rcIn) 20, true, -rcIn * π / 2, 0, 0,
      Lookup.default⟩ := by rw [hL, cycloidLower, Curve.make, if_pos rfl]
  have hUg : U.kind.Sampled ∧ U.updateLengths = U := by
    rw [hUm]; exact ⟨by rw [updateLengths_kind]; change 1 ≤ 20; norm_num, updateLengths_idem _⟩
  have hLg : L.kind.Sampled ∧ L.updateLengths = L := by
    rw [hLm]; exact ⟨by rw [updateLengths_kind]; change 1 ≤ 20; norm_num, updateLengths_idem _⟩
  have hUT : U.Tabled := by rw [← hUg.2]; exact updateLengths_tabled _ hUg.1
  have hLT : L.Tabled := by rw [← hLg.2]; exact updateLengths_tabled _ hLg.1
  have hUk : U.kind = .generic (cycloidUpperFn pia rp coneAngle rcOut) 20 := by rw [hUm, updateLengths_kind]
  have hLk : L.kind = .generic (cycloidLowerFn pia rp coneAngle rcIn) 20 := by rw [hLm, updateLengths_kind]
  have hUa : U.active = true := by rw [hUm]; exact updateLengths_active _
  have hLa : L.active = true := by rw [hLm]; exact updateLengths_active _
  have hU0 : U.eval 0 = some (circlePoint rp (-pia) 0) := by
    rw [hUT.eval_zero, hUk, show U.t0 = 0 by rw [hUm, updateLengths_t0], ← z2]; rfl
  have hL0 : L.eval 0 = some (cycloidLowerFn pia rp coneAngle rcIn (-rcIn * π / 2)) := by
    rw [hLT.eval_zero, hLk, show L.t0 = -rcIn * π / 2 by rw [hLm, updateLengths_t0]]; rfl
  have hL1 : L.eval 1 = some (circlePoint rp (-pia) 0) := by
    rw [hLT.eval_one, hLk, show L.t1 = 0 by rw [hLm, updateLengths_t1], ← z1]; rfl
  obtain ⟨sol0, hsol⟩ : ∃ x, findCurveNearestPoint S U.eval ((rp + rcOut * rp) • RIGHT) [1 / 10, 1 / 2, 9 / 10] = some x :=
    ⟨_, rfl⟩
  obtain ⟨x, hx⟩ : ∃ x, x = (S.root1 (planeResidual U.eval UP ORIGIN) sol0).x := ⟨_, rfl⟩
  have hroot := hS _ rfl sol0
  rw [← hU, ← hx, planeResidual, Option.map_eq_some_iff] at hroot
  obtain ⟨p, hpe, hpy⟩ := hroot
  obtain ⟨u, e1, e2, e3, e4, e5⟩ := curve_lawful.fin U x p hUg hpe
  have hpy' : p 1 = 0 := by simpa [dot, UP, ORIGIN] using hpy
  have huk : u.kind = U.kind := by
    change U.setEndOn x = some u at e1
    rw [Curve.setEndOn, Option.map_eq_some_iff] at e1
    obtain ⟨t, -, rfl⟩ := e1
    exact updateLengths_kind _
  refine ⟨L, u, p, ?_, by rw [hLk]; rfl, by rw [huk, hUk]; rfl, hL0, hL1, e5.trans hU0, e4, hpy', ?_⟩
  · rw [cycloidToothCurve]
    simp only [← hU, ← hL]
    rw [hsol, Option.bind_some, ← hx]
    change Option.map _ (curveOps.setEnd U x) = _
    rw [e1, Option.map_some]
    refine congrArg some (chainUpdate_eq curve_lawful ?_)
    intro a ha _
    rcases List.mem_cons.1 ha with rfl | ha
    · exact hLg
    · rw [List.mem_singleton.1 ha]; exact e2
  have hLl : 0 < L.length := by
    rw [← hLg.2]
    refine generic_length_pos (by norm_num) hLk ?_
    rw [show L.t0 = -rcIn * π / 2 by rw [hLm, updateLengths_t0], show L.t1 = 0 by rw [hLm, updateLengths_t1]]
    exact cycloidLower_ne pia rp coneAngle rcIn hr h0 h1 hi hi1
  have hul : 0 < u.length := by
    rw [← e2.2]
    refine generic_length_pos (by norm_num) (huk.trans hUk) ?_
    have huT : u.Tabled := by rw [← e2.2]; exact updateLengths_tabled _ e2.1
    have k0 := huT.eval_zero.symm.trans (e5.trans hU0)
    have k1 := huT.eval_one.symm.trans e4
    rw [huk, hUk] at k0 k1
    intro e
    have h2 := (Option.some.inj k0).symm.trans (e.trans (Option.some.inj k1))
    have h3 := congrFun h2 1
    rw [hpy'] at h3
    simp [circlePoint, hr.ne', hp] at h3
  have hall : AllPos curveOps [L, u] := by
    intro b hb _
    rcases List.mem_cons.1 hb with rfl | hb
    · exact hLl
    · rw [List.mem_singleton.1 hb]; exact hul
  obtain ⟨f1, f2⟩ := c44_ends _ hall 0 1 _ _ rfl rfl hLa (e3.trans hUa) (fun i c h _ => by omega)
    (fun i c h1 h2 => by
      have := (List.getElem?_eq_some_iff.1 h2).1
      simp at this; omega)
  exact ⟨f1, f2.trans e4⟩

theorem cycloidStart_norm (pia rp rcIn : ℝ) (hr : 0 < rp) (hi : 0 < rcIn) :
    norm3 (cycloidLowerFn pia rp 0 rcIn (-rcIn * π / 2)) = rp * √((1 - rcIn) ^ 2 + rcIn ^ 2) := by
  simp only [cycloidLowerFn, if_pos, cycloidFlankLower]
  rw [cycloidCircle_norm, show rp / (-rcIn * rp) * (-rcIn * π / 2) = π / 2 by field_simp, cos_pi_div_two,
    show (rp + -rcIn * rp) ^ 2 + (-rcIn * rp) ^ 2 - 2 * (rp + -rcIn * rp) * (-rcIn * rp) * 0 =
      rp ^ 2 * ((1 - rcIn) ^ 2 + rcIn ^ 2) by ring, sqrt_mul (sq_nonneg rp), sqrt_sq hr.le]

/-- **C120, depth.** The flank of a cylindrical gear begins at the distance `rp √((1 - rc_in)² + rc_in²)` from the axis:
it reaches a root circle at depth `h_d` exactly if `h_d ≤ rp (1 - √((1 - rc_in)² + rc_in²))`. -/
theorem c120_depth_partial (pia rp rcIn hD : ℝ) (hr : 0 < rp) (hi : 0 < rcIn) :
    norm3 (cycloidLowerFn pia rp 0 rcIn (-rcIn * π / 2)) ≤ rp - hD ↔ hD ≤ rp * (1 - √((1 - rcIn) ^ 2 + rcIn ^ 2)) := by
  rw [cycloidStart_norm pia rp rcIn hr hi, mul_sub, mul_one]
  constructor <;> intro h <;> linarith

/-- **C120 is violated for small gears.** With the default rolling circles (half the pitch radius) and dedendum 1.2 the flank
of every cylindrical gear with at most 8 teeth (pitch radius at most 4 in units of the module) ends above the root circle, and no
connector is added. -/
theorem c120_root_violated (S : ScalarSolvers) (pia rp rcOut : ℝ) (hr : 0 < rp) (h8 : rp ≤ 4) (hp : sin pia ≠ 0)
    (hS : ∀ f, f = planeResidual (cycloidUpper pia rp 0 rcOut).eval UP ORIGIN → ∀ g, f (S.root1 f g).x = some 0) :
    ∃ l p, cycloidToothCurve S pia rp 0 (1 / 2) rcOut = some l ∧ chainEval curveOps l 0 = some p ∧
      rp - 1.2 < norm3 p := by
  obtain ⟨lo, up, p, e1, -, -, e2, -, -, -, -, e3, -⟩ := c120_tooth S pia rp 0 (1 / 2) rcOut hr le_rfl pi_pos.le
    (by norm_num) (by norm_num) hp hS
  refine ⟨_, _, e1, e3.trans e2, ?_⟩
  have h := (c120_depth_partial pia rp (1 / 2) 1.2 hr (by norm_num)).not
  rw [not_le, not_le] at h
  refine h.2 ?_
  have h7 : (7 : ℝ) / 10 + 1 / 1000 < √((1 - 1 / 2) ^ 2 + (1 / 2) ^ 2) := by
    rw [lt_sqrt (by norm_num)]; norm_num
  nlinarith

/-- Concrete case: a cylindrical gear with pitch radius 4 and outer rolling circle of the same radius, with
`pitch_intersect_angle = π / 6`: the end of the upper curve is in the middle plane, so a solver that answers 1 is right. The
tooth curve ends at radius `4 √3`. -/
theorem c120_case (T : Solvers) :
    (∀ f, f = planeResidual (cycloidUpper (π / 6) 4 0 1).eval UP ORIGIN →
      f ((⟨T, fun _ _ => ⟨true, 1⟩, fun _ _ => ⟨true, 1⟩⟩ : ScalarSolvers).root1 f 0).x = some 0) ∧
      (cycloidUpper (π / 6) 4 0 1).eval 1 = some ![4 * √3, 0, 0] := by
  have h00 : ORIGIN = (0 : V3) := by apply V3.ext3 <;> simp [ORIGIN]
  have he : (cycloidUpper (π / 6) 4 0 1).eval 1 = some ![4 * √3, 0, 0] := by
    have hT : (cycloidUpper (π / 6) 4 0 1).Tabled := by
      rw [cycloidUpper, Curve.make, if_pos rfl]
      exact updateLengths_tabled _ (by change 1 ≤ 20; norm_num)
    have hk : (cycloidUpper (π / 6) 4 0 1).kind.fn = cycloidUpperFn (π / 6) 4 0 1 := by
      rw [cycloidUpper, Curve.make, if_pos rfl, updateLengths_kind]; rfl
    have ht : (cycloidUpper (π / 6) 4 0 1).t1 = π / 6 * 2 := by
      rw [cycloidUpper, Curve.make, if_pos rfl, updateLengths_t1]
    rw [hT.eval_one, hk, ht]
    simp only [cycloidUpperFn, if_pos, cycloidFlankUpper]
    rw [h00, cycloidCircle_eq, show (1 + 4 / (1 * 4)) * (π / 6 * 2) + -(π / 6) = π / 2 by ring,
      show π / 6 * 2 + -(π / 6) = π / 6 by ring, cos_pi_div_six, sin_pi_div_six, cos_pi_div_two, sin_pi_div_two]
    refine congrArg some ?_
    apply V3.ext3 <;> simp <;> ring
  refine ⟨?_, he⟩
  rintro f rfl
  change planeResidual _ _ _ 1 = _
  rw [planeResidual, he]
  simp [dot, UP, ORIGIN]

end Verif
