import Verif.Props.UndercutOutline
import Verif.Props.SpurOutlineEx

/-!
# Where the path of the corner of the rack meets the involute
-/

namespace Verif

open Real Set

/-! ### The path of the corner -/

/-- The graph of arctan lies below its tangents. -/
theorem arctan_tangent {t u : ℝ} (ht : 0 ≤ t) (hu : 0 ≤ u) : arctan u ≤ arctan t + (u - t) / (1 + t ^ 2) := by
  have hd : ∀ x : ℝ, HasDerivAt (fun x => arctan x - x / (1 + t ^ 2)) (1 / (1 + x ^ 2) - 1 / (1 + t ^ 2)) x := fun x =>
    (hasDerivAt_arctan x).sub ((hasDerivAt_id x).div_const _)
  have hc : Continuous fun x => arctan x - x / (1 + t ^ 2) := continuous_iff_continuousAt.2 fun x => (hd x).continuousAt
  have key : arctan u - u / (1 + t ^ 2) ≤ arctan t - t / (1 + t ^ 2) := by
    rcases le_total t u with h | h
    · refine antitoneOn_of_deriv_nonpos (convex_Ici t) hc.continuousOn (fun x _ => (hd x).differentiableAt.differentiableWithinAt)
        (fun x hx => ?_) (mem_Ici.2 (le_refl t)) (mem_Ici.2 h) h
      rw [interior_Ici] at hx
      rw [(hd x).deriv, sub_nonpos]
      exact one_div_le_one_div_of_le (by positivity) (by nlinarith [mem_Ioi.1 hx])
    · refine monotoneOn_of_deriv_nonneg (convex_Icc 0 t) hc.continuousOn (fun x _ => (hd x).differentiableAt.differentiableWithinAt)
        (fun x hx => ?_) ⟨hu, h⟩ ⟨ht, le_refl _⟩ h
      rw [interior_Icc] at hx
      rw [(hd x).deriv, sub_nonneg]
      exact one_div_le_one_div_of_le (by positivity) (by nlinarith [hx.1, hx.2])
  have : (u - t) / (1 + t ^ 2) = u / (1 + t ^ 2) - t / (1 + t ^ 2) := sub_div _ _ _
  linarith

theorem arctan_neck {t : ℝ} (h0 : 0 < t) (h1 : t ≤ 2) : arctan t - t / (1 + t ^ 2) < t ^ 2 / (1 + t ^ 2) := by
  have hp : 0 < 1 + t ^ 2 := by positivity
  have p4 := pi_lt_d2
  have e : t ^ 2 / (1 + t ^ 2) + t / (1 + t ^ 2) = 1 + (t - 1) / (1 + t ^ 2) := by
    field_simp
    ring
  rcases le_or_gt t 1 with h | h
  · have a : arctan t < t := by
      have := lt_tan (arctan_pos.2 h0) (arctan_lt_pi_div_two t)
      rwa [tan_arctan] at this
    have b : t ≤ t ^ 2 / (1 + t ^ 2) + t / (1 + t ^ 2) := by
      rw [← add_div, le_div_iff₀ hp]
      nlinarith [mul_nonneg h0.le (mul_nonneg h0.le (sub_nonneg.2 h))]
    linarith
  rcases le_or_gt t (7 / 4) with h' | h'
  · have a := arctan_tangent zero_le_one h0.le
    rw [arctan_one] at a
    have b : (t - 1) / (1 + 1 ^ 2) - (t - 1) / (1 + t ^ 2) < 21 / 100 := by
      have : (t - 1) / (1 + 1 ^ 2) - (t - 1) / (1 + t ^ 2) = (t - 1) * (t ^ 2 - 1) / (2 * (1 + t ^ 2)) := by
        field_simp
        ring
      rw [this, div_lt_iff₀ (by positivity)]
      nlinarith [mul_nonneg (sub_nonneg.2 h.le) (sub_nonneg.2 h'), mul_nonneg (mul_nonneg (sub_nonneg.2 h.le) (sub_nonneg.2 h')) (by linarith : (0 : ℝ) ≤ t + 1)]
    linarith
  · have a : arctan t ≤ arctan 2 := arctan_mono h1
    have b := arctan_two_le
    have c : 73 / 400 ≤ (t - 1) / (1 + t ^ 2) := by
      rw [le_div_iff₀ hp]
      nlinarith [mul_nonneg (sub_nonneg.2 h'.le) (sub_nonneg.2 h1)]
    linarith

/-- The corner of the rack does not reach the middle of the tooth. -/
theorem neck_free {rp h K : ℝ} (h0 : 0 < h) (h1 : h ≤ 4 / 5 * rp) (hK : h ≤ K) :
    ∀ v, 0 ≤ v → arctan (v / (rp - h)) < (K + v) / rp := by
  intro v hv
  have hrp : 0 < rp := by linarith
  obtain ⟨a, ea⟩ : ∃ a, a = rp - h := ⟨_, rfl⟩
  have ha : 0 < a := by linarith
  obtain ⟨t, et⟩ : ∃ t, t = √(h / a) := ⟨_, rfl⟩
  have ht2 : t ^ 2 = h / a := by rw [et, sq_sqrt (by positivity)]
  have ht0 : 0 < t := by rw [et]; positivity
  have ht1 : t ≤ 2 := by
    have : t ^ 2 ≤ 2 ^ 2 := by
      rw [ht2, div_le_iff₀ ha]
      linarith
    exact le_of_sq_le_sq this (by norm_num)
  have e1 : 1 + t ^ 2 = rp / a := by
    rw [ht2]
    field_simp
    linarith
  have n1 := arctan_neck ht0 ht1
  have n2 := arctan_tangent ht0.le (show 0 ≤ v / a by positivity)
  rw [sub_div] at n2
  have e2 : t ^ 2 / (1 + t ^ 2) = h / rp := by
    rw [e1, ht2]
    field_simp
  have e3 : v / a / (1 + t ^ 2) = v / rp := by
    rw [e1]
    field_simp
  rw [e2] at n1
  rw [e3] at n2
  have : h / rp ≤ K / rp := div_le_div_of_nonneg_right hK hrp.le
  rw [← ea, add_div]
  linarith

/-- The corner of the rack does not turn back before its deepest point if it lies within the pitch circle there. -/
theorem corner_turn {rp h K : ℝ} (hK : 0 < K) (h0 : 0 < h) (h1 : h < rp) (hr : K ^ 2 ≤ h * (2 * rp - h)) :
    K / rp < arctan (K / (rp - h)) := by
  obtain ⟨a, ea⟩ : ∃ a, a = rp - h := ⟨_, rfl⟩
  have ha : 0 < a := by linarith
  have hrp : 0 < rp := by linarith
  rw [← ea]
  have hpos : 0 < arctan (K / a) := arctan_pos.2 (by positivity)
  have h2 := sin_lt hpos
  rw [sin_arctan] at h2
  refine lt_of_le_of_lt ?_ h2
  rw [div_div]
  refine div_le_div_of_nonneg_left hK.le (by positivity) ?_
  have e : a * √(1 + (K / a) ^ 2) = √(a ^ 2 + K ^ 2) := by
    rw [show a ^ 2 + K ^ 2 = a ^ 2 * (1 + (K / a) ^ 2) by field_simp, sqrt_mul (by positivity), sqrt_sq ha.le]
  rw [e, sqrt_le_left hrp.le, ea]
  nlinarith

/-- How the path turns between two places. -/
theorem lift_step {r a u v : ℝ} (ha : 0 < a) (hu : 0 ≤ u) (hv : 0 ≤ v) :
    lift r a v - lift r a u ≤ (v - u) * (a / (a ^ 2 + u ^ 2) - 1 / r) := by
  have h := arctan_tangent (t := u / a) (u := v / a) (by positivity) (by positivity)
  have e : (v / a - u / a) / (1 + (u / a) ^ 2) = (v - u) * (a / (a ^ 2 + u ^ 2)) := by
    have : a ^ 2 + u ^ 2 ≠ 0 := by positivity
    field_simp
  have e2 : v / r - u / r = (v - u) * (1 / r) := by ring
  rw [e] at h
  rw [lift, lift, mul_sub]
  linarith

/-- Beyond a certain distance from the axis the path turns back. -/
theorem lift_falls {r a u v : ℝ} (hr : 0 < r) (ha : 0 < a) (hu : 0 ≤ u) (huv : u ≤ v) (h : a * r ≤ a ^ 2 + u ^ 2) :
    lift r a v ≤ lift r a u := by
  have := lift_step (r := r) ha hu (hu.trans huv)
  have h2 : a / (a ^ 2 + u ^ 2) - 1 / r ≤ 0 := by
    rw [sub_nonpos, div_le_div_iff₀ (by positivity) hr]
    linarith
  have := mul_nonpos_of_nonneg_of_nonpos (sub_nonneg.2 huv) h2
  linarith

/-- Up to this distance the path turns forward. -/
theorem lift_rises {r a u v : ℝ} (hr : 0 < r) (ha : 0 < a) (hu : 0 ≤ u) (huv : u ≤ v) (h : a ^ 2 + v ^ 2 ≤ a * r) :
    lift r a u ≤ lift r a v := by
  have := lift_step (r := r) ha (hu.trans huv) hu
  have h2 : 0 ≤ a / (a ^ 2 + v ^ 2) - 1 / r := by
    rw [sub_nonneg, div_le_div_iff₀ hr (by positivity)]
    linarith
  have := mul_nonpos_of_nonpos_of_nonneg (sub_nonpos.2 huv) h2
  linarith

/-! ### The involute -/

/-- How far the corner lies beyond the axis at the distance of the point `t` of the involute. -/
noncomputable def meetAt (rb a t : ℝ) : ℝ := √(rb ^ 2 * (1 + t ^ 2) - a ^ 2)

/-- The angle between the path of the corner and the point `t` of the involute, at the same distance from the axis: pitch radius
`r`, pressure angle `alpha`, depth `r - a`. -/
noncomputable def meetGap (r alpha a t : ℝ) : ℝ :=
  lift r a (meetAt (r * cos alpha) a t) + a * tan alpha / r - alpha - invAngle t

theorem meetAt_sq {rb a t : ℝ} (h : a ^ 2 ≤ rb ^ 2 * (1 + t ^ 2)) : a ^ 2 + meetAt rb a t ^ 2 = rb ^ 2 * (1 + t ^ 2) := by
  rw [meetAt, sq_sqrt (by linarith)]; ring

theorem meetAt_eq {rb a t v : ℝ} (hv : 0 ≤ v) (h : a ^ 2 + v ^ 2 = rb ^ 2 * (1 + t ^ 2)) : meetAt rb a t = v := by
  rw [meetAt, ← h, add_sub_cancel_left, sqrt_sq hv]

theorem base_le {rb a t : ℝ} (ha : 0 < a) (h : a ≤ rb) : a ^ 2 ≤ rb ^ 2 * (1 + t ^ 2) := by
  have h1 := pow_le_pow_left₀ ha.le h 2
  nlinarith [mul_nonneg (sq_nonneg rb) (sq_nonneg t)]

/-- Once the path turns back it does not come near the involute again. -/
theorem meet_falls {r alpha a t t' : ℝ} (hr : 0 < r) (ha : 0 < a) (hbase : a ≤ r * cos alpha) (h0 : 0 ≤ t) (ht : t < t')
    (h : a * r ≤ (r * cos alpha) ^ 2 * (1 + t ^ 2)) : meetGap r alpha a t' < meetGap r alpha a t := by
  have e := meetAt_sq (base_le (t := t) ha hbase)
  have h1 : meetAt (r * cos alpha) a t ≤ meetAt (r * cos alpha) a t' := by
    rw [meetAt, meetAt]
    refine sqrt_le_sqrt ?_
    have := mul_le_mul_of_nonneg_left (pow_le_pow_left₀ h0 ht.le 2) (sq_nonneg (r * cos alpha))
    linarith
  have h2 := lift_falls (u := meetAt (r * cos alpha) a t) hr ha (sqrt_nonneg _) h1 (by rw [e]; exact h)
  have h3 := invAngle_strict h0 (h0.trans ht.le) ht
  rw [meetGap, meetGap]
  linarith

/-- On the base circle. -/
theorem meet_base {r alpha a : ℝ} (hr : 0 < r) (hc : 0 < cos alpha) (ha : 0 < a) (hbase : a ≤ r * cos alpha) :
    ∃ x, lift r a (meetAt (r * cos alpha) a 0) + a * tan alpha / r - alpha = x - sin x ∧
      x = arctan (meetAt (r * cos alpha) a 0 / a) - alpha ∧
      cos (arctan (meetAt (r * cos alpha) a 0 / a)) = a / (r * cos alpha) := by
  obtain ⟨rb, erb⟩ : ∃ rb, rb = r * cos alpha := ⟨_, rfl⟩
  obtain ⟨v, ev⟩ : ∃ v, v = meetAt rb a 0 := ⟨_, rfl⟩
  have hrb : 0 < rb := by rw [erb]; positivity
  rw [← erb] at hbase ⊢
  have e := meetAt_sq (base_le (t := 0) ha hbase)
  rw [← ev] at e ⊢
  have hq : √(1 + (v / a) ^ 2) = rb / a := by
    rw [sqrt_eq_iff_mul_self_eq (by positivity) (by positivity)]
    field_simp
    linarith
  refine ⟨arctan (v / a) - alpha, ?_, rfl, ?_⟩
  · rw [sin_sub, sin_arctan, cos_arctan, hq, lift, erb, tan_eq_sin_div_cos]
    field_simp
    ring
  · rw [cos_arctan, hq]
    field_simp

/-- If the corner reaches beyond the place where the involute starts, its path crosses the base circle beyond the involute's start. -/
theorem meet_crossed {r alpha a : ℝ} (hr : 0 < r) (ha0 : 0 < alpha) (ha1 : alpha < π / 2) (ha : 0 < a) (hbase : a ≤ r * cos alpha)
    (h : a < r * cos alpha ^ 2) : 0 < meetGap r alpha a 0 := by
  have hc : 0 < cos alpha := cos_pos_of_mem_Ioo ⟨by linarith, ha1⟩
  obtain ⟨x, e1, e2, e3⟩ := meet_base (alpha := alpha) hr hc ha hbase
  rw [meetGap, e1, invAngle_zero, sub_zero, sub_pos]
  refine sin_lt ?_
  rw [e2, sub_pos]
  by_contra hcon
  have h1 : cos alpha ≤ cos (arctan (meetAt (r * cos alpha) a 0 / a)) :=
    cos_le_cos_of_nonneg_of_le_pi (arctan_nonneg.2 (div_nonneg (sqrt_nonneg _) ha.le)) (by linarith) (not_lt.1 hcon)
  rw [e3, le_div_iff₀ (by positivity)] at h1
  nlinarith

/-- If the corner does not reach that far, its path stays on the side of the gap up to the base circle. -/
theorem meet_free {r alpha a v : ℝ} (hr : 0 < r) (ha0 : 0 < alpha) (ha1 : alpha < π / 2) (ha : 0 < a) (hbase : a ≤ r * cos alpha)
    (h : r * cos alpha ^ 2 < a) (hv : 0 ≤ v) (hv1 : a ^ 2 + v ^ 2 ≤ (r * cos alpha) ^ 2) :
    lift r a v + a * tan alpha / r - alpha < 0 := by
  have hc : 0 < cos alpha := cos_pos_of_mem_Ioo ⟨by linarith, ha1⟩
  obtain ⟨x, e1, e2, e3⟩ := meet_base (alpha := alpha) hr hc ha hbase
  have e := meetAt_sq (base_le (t := 0) ha hbase)
  have h1 : v ≤ meetAt (r * cos alpha) a 0 := by
    rw [meetAt]
    exact le_sqrt_of_sq_le (by linarith)
  have h2 : a ^ 2 + meetAt (r * cos alpha) a 0 ^ 2 ≤ a * r := by
    rw [e]
    have := mul_lt_mul_of_pos_right h hr
    nlinarith
  have h3 := lift_rises hr ha hv h1 h2
  have hx : x < 0 := by
    rw [e2, sub_neg]
    by_contra hcon
    have h1 : cos (arctan (meetAt (r * cos alpha) a 0 / a)) ≤ cos alpha :=
      cos_le_cos_of_nonneg_of_le_pi ha0.le (by linarith [arctan_lt_pi_div_two (meetAt (r * cos alpha) a 0 / a), pi_pos]) (not_lt.1 hcon)
    rw [e3, div_le_iff₀ (by positivity)] at h1
    nlinarith
  have h4 := sin_lt (neg_pos.2 hx)
  rw [sin_neg] at h4
  linarith

/-- The place where the flank of the rack, which ends in the corner, leaves the involute or would leave its prolongation. -/
theorem meet_touch {r alpha a t0 : ℝ} (hr : 0 < r) (ha0 : 0 < alpha) (ha1 : alpha < π / 2) (ha : 0 < a)
    (e : t0 = tan alpha - (r - a) * (1 + tan alpha ^ 2) / (r * tan alpha)) :
    a ^ 2 + ((r - a) / tan alpha) ^ 2 = (r * cos alpha) ^ 2 * (1 + t0 ^ 2) ∧
      lift r a ((r - a) / tan alpha) + a * tan alpha / r - alpha = t0 - arctan t0 := by
  have hc : 0 < cos alpha := cos_pos_of_mem_Ioo ⟨by linarith, ha1⟩
  have hT : 0 < tan alpha := tan_pos_of_pos_of_lt_pi_div_two ha0 ha1
  have hcT : cos alpha ^ 2 = 1 / (1 + tan alpha ^ 2) := by
    rw [← inv_sqrt_one_add_tan_sq hc, inv_pow, sq_sqrt (by positivity), one_div]
  have hat : arctan (tan alpha) = alpha := arctan_tan (by linarith) ha1
  obtain ⟨T, eT⟩ : ∃ T, T = tan alpha := ⟨_, rfl⟩
  rw [← eT] at hT hcT e hat ⊢
  have hT2 : 1 + T ^ 2 ≠ 0 := by positivity
  constructor
  · rw [mul_pow, hcT, e]
    field_simp
    ring
  have k1 : T - t0 = (r - a) * (1 + T ^ 2) / (r * T) := by rw [e]; ring
  have k2 : 1 + T * t0 = (1 + T ^ 2) * a / r := by rw [e]; field_simp; ring
  have hk2 : 0 < 1 + T * t0 := by rw [k2]; positivity
  have k3 : (r - a) / T / a = (T - t0) / (1 + T * t0) := by
    rw [k1, k2]
    field_simp
  have hadd : arctan ((r - a) / T / a) + arctan t0 = alpha := by
    have h1 : 1 - (T - t0) / (1 + T * t0) * t0 = (1 + t0 ^ 2) / (1 + T * t0) := by field_simp; ring
    have h2 : (T - t0) / (1 + T * t0) * t0 < 1 := by
      have : 0 < (1 + t0 ^ 2) / (1 + T * t0) := by positivity
      linarith
    rw [k3, arctan_add h2, h1, ← hat]
    congr 1
    have : (1 + t0 ^ 2) ≠ 0 := by positivity
    field_simp
    ring
  rw [lift]
  have k4 : (r - a) / T / r = T - t0 - (r - a) * T / r := by rw [k1]; field_simp; ring
  have k5 : a * T / r = T - (r - a) * T / r := by field_simp; ring
  rw [k4, k5]
  linarith

/-- The path of the corner meets the involute. -/
theorem meet_exists {r alpha a : ℝ} (hr : 0 < r) (ha0 : 0 < alpha) (ha1 : alpha < π / 2) (ha : 0 < a) (har : a < r)
    (hbase : a ≤ r * cos alpha) (hne : a ≠ r * cos alpha ^ 2) : ∃ t, 0 < t ∧ meetGap r alpha a t = 0 := by
  have hc : 0 < cos alpha := cos_pos_of_mem_Ioo ⟨by linarith, ha1⟩
  have hT : 0 < tan alpha := tan_pos_of_pos_of_lt_pi_div_two ha0 ha1
  obtain ⟨t0, e⟩ : ∃ t0, t0 = tan alpha - (r - a) * (1 + tan alpha ^ 2) / (r * tan alpha) := ⟨_, rfl⟩
  obtain ⟨h1, h2⟩ := meet_touch hr ha0 ha1 ha e
  have hv : 0 ≤ (r - a) / tan alpha := div_nonneg (by linarith) hT.le
  have hcT : cos alpha ^ 2 * (1 + tan alpha ^ 2) = 1 := by
    rw [← inv_sqrt_one_add_tan_sq hc, inv_pow, sq_sqrt (by positivity), inv_mul_cancel₀ (by positivity)]
  have es : t0 * (r * tan alpha) * cos alpha ^ 2 = a - r * cos alpha ^ 2 := by
    rw [e, sub_mul, div_mul_cancel₀ _ (by positivity)]
    linear_combination a * hcT
  rcases hne.lt_or_gt with h | h
  · have hneg : t0 < 0 := by
      by_contra hcon
      have : 0 ≤ t0 * (r * tan alpha) * cos alpha ^ 2 := by have := not_lt.1 hcon; positivity
      linarith
    have h3 : meetGap r alpha a (-t0) < 0 := by
      rw [meetGap, meetAt_eq hv (by rw [h1]; ring), h2, invAngle, arctan_neg]
      have := invAngle_strict (le_refl (0 : ℝ)) (show (0 : ℝ) ≤ -t0 by linarith) (by linarith)
      rw [invAngle_zero, invAngle, arctan_neg] at this
      linarith
    have h4 := meet_crossed hr ha0 ha1 ha hbase h
    have hcont : ContinuousOn (meetGap r alpha a) (Icc 0 (-t0)) := by
      have hm : Continuous (meetAt (r * cos alpha) a) := by
        unfold meetAt
        fun_prop
      have hl : Continuous (meetGap r alpha a) := by
        unfold meetGap lift
        exact ((((continuous_arctan.comp (hm.div_const a)).sub (hm.div_const r)).add continuous_const).sub continuous_const).sub
          invAngle_continuous
      exact hl.continuousOn
    obtain ⟨t, mt, et⟩ := intermediate_value_Icc' (show (0 : ℝ) ≤ -t0 by linarith) hcont ⟨h3.le, h4.le⟩
    exact ⟨t, lt_of_le_of_ne mt.1 fun h5 => by rw [← h5] at et; linarith, et⟩
  · have hpos : 0 < t0 := by
      by_contra hcon
      have : t0 * (r * tan alpha) * cos alpha ^ 2 ≤ 0 :=
        mul_nonpos_of_nonpos_of_nonneg (mul_nonpos_of_nonpos_of_nonneg (not_lt.1 hcon) (by positivity)) (by positivity)
      linarith
    exact ⟨t0, hpos, by rw [meetGap, meetAt_eq hv h1, h2, invAngle, sub_self]⟩

/-- The place where the path, prolonged if necessary, is when the corner lies `v` beyond the axis and the involute at `t`. -/
theorem meet_zero {r alpha h pia v t : ℝ} (hr : 0 < r) (hv : 0 ≤ v)
    (e1 : √((r - h) ^ 2 + v ^ 2) = r * cos alpha * √(1 + t ^ 2))
    (e2 : arctan (v / (r - h)) - (r * pia + h * tan alpha + v) / r = invAngle t + -(pia + (tan alpha - alpha))) :
    meetGap r alpha (r - h) t = 0 := by
  have e3 : (r - h) ^ 2 + v ^ 2 = (r * cos alpha) ^ 2 * (1 + t ^ 2) := by
    have := congrArg (fun x => x ^ 2) e1
    simp only [mul_pow] at this
    rw [sq_sqrt (by positivity), sq_sqrt (by positivity)] at this
    rw [this]; ring
  rw [meetGap, meetAt_eq hv e3, lift]
  have e4 : (r * pia + h * tan alpha + v) / r = pia + h * tan alpha / r + v / r := by field_simp
  have e5 : (r - h) * tan alpha / r = tan alpha - h * tan alpha / r := by field_simp
  rw [e4] at e2
  rw [e5]
  linarith

/-- The path meets the involute only before a place where it has passed it and turns back. -/
theorem meet_before {r alpha a t t' : ℝ} (hr : 0 < r) (ha : 0 < a) (hbase : a ≤ r * cos alpha) (h0 : 0 ≤ t')
    (h : a * r ≤ (r * cos alpha) ^ 2 * (1 + t' ^ 2)) (hneg : meetGap r alpha a t' < 0) (hz : meetGap r alpha a t = 0) : t < t' := by
  by_contra hcon
  rcases (not_lt.1 hcon).lt_or_eq with h1 | h1
  · have := meet_falls hr ha hbase h0 h1 h
    linarith
  · rw [h1] at hneg; linarith

/-! ### The curve -/

/-- Beyond its end a curve is extrapolated with a constant positive speed. -/
theorem beyond_end {c : Curve} (h : c.PathOk) : ∃ m, 0 < m ∧ ∀ s, 1 < s → c.s2t s = some (c.t1 + m * (s - 1)) := by
  have hst := pathOk_strict h.sampled h.fresh h.lt h.inj
  have hT := hst.tab
  have hn := hT.pos
  have snn := hst.s_strict (c.lookup.n - 1) c.lookup.n (by omega) (le_refl _)
  have tnn := hst.t_strict (c.lookup.n - 1) c.lookup.n (by omega) (le_refl _)
  refine ⟨(c.lookup.t c.lookup.n - c.lookup.t (c.lookup.n - 1)) / (c.lookup.s c.lookup.n - c.lookup.s (c.lookup.n - 1)),
    div_pos (by linarith) (by linarith), fun s hs => ?_⟩
  have hne : c.lookup.s (c.lookup.n - 1) - c.lookup.s c.lookup.n ≠ 0 := by linarith
  have hne' : c.lookup.s c.lookup.n - c.lookup.s (c.lookup.n - 1) ≠ 0 := by linarith
  rw [Curve.s2t, if_neg (by linarith)]
  simp only [if_pos hs]
  rw [interpolate, if_neg hne, ← hT.t_last, Option.some_inj, ← hT.s_last]
  field_simp
  ring

theorem interpolate_neg (x x0 x1 y0 y1 : ℝ) : interpolate x x0 x1 (-y0) (-y1) = (interpolate x x0 x1 y0 y1).map fun t => -t := by
  rw [interpolate, interpolate]
  split_ifs
  · rfl
  · rw [Option.map_some, Option.some_inj]; ring

/-- The parameter of a backward curve falls, also beyond its end. -/
theorem back_far {c : Curve} (h : c.BackOk) : ∃ τ : ℝ → ℝ, StrictMonoOn τ (Ici 0) ∧ τ 0 = -c.t0 ∧ τ '' Ici 0 = Ici (-c.t0) ∧
    ∀ s, 0 ≤ s → c.s2t s = some (-τ s) := by
  obtain ⟨τ, t1, t2, t3⟩ := h.path.run
  obtain ⟨m, hm, t4⟩ := beyond_end h.path
  obtain ⟨τ0, τ1⟩ := mono_ends t1 t2
  have e1 : c.flip.t1 = -c.t1 := rfl
  have e0 : c.flip.t0 = -c.t0 := rfl
  rw [e1] at t4 τ1
  rw [e0] at τ0
  rw [e0, e1] at t2
  have m0 : (0 : ℝ) ∈ Icc (0 : ℝ) 1 := ⟨le_refl _, zero_le_one⟩
  have m1 : (1 : ℝ) ∈ Icc (0 : ℝ) 1 := ⟨zero_le_one, le_refl _⟩
  have hlt : -c.t0 < -c.t1 := by rw [← τ0, ← τ1]; exact t1 m0 m1 one_pos
  obtain ⟨υ, eυ⟩ : ∃ υ : ℝ → ℝ, υ = fun s => if s ≤ 1 then τ s else -c.t1 + m * (s - 1) := ⟨_, rfl⟩
  have u1 : ∀ s, s ≤ 1 → υ s = τ s := fun s hs => by rw [eυ]; exact if_pos hs
  have u2 : ∀ s, 1 < s → υ s = -c.t1 + m * (s - 1) := fun s hs => by rw [eυ]; exact if_neg (not_le.2 hs)
  have hmono : StrictMonoOn υ (Ici 0) := by
    intro x hx y hy hxy
    rcases le_or_gt y 1 with hy1 | hy1
    · rw [u1 x (hxy.le.trans hy1), u1 y hy1]
      exact t1 ⟨hx, hxy.le.trans hy1⟩ ⟨hy, hy1⟩ hxy
    · rw [u2 y hy1]
      rcases le_or_gt x 1 with hx1 | hx1
      · rw [u1 x hx1]
        have h1 : τ x ≤ τ 1 := t1.monotoneOn ⟨hx, hx1⟩ m1 hx1
        have h2 := mul_pos hm (sub_pos.2 hy1)
        linarith
      · rw [u2 x hx1]
        have := mul_lt_mul_of_pos_left hxy hm
        linarith
  have u0 : υ 0 = -c.t0 := by rw [u1 0 zero_le_one, τ0]
  refine ⟨υ, hmono, u0, ?_, fun s hs => ?_⟩
  · apply Subset.antisymm
    · rintro - ⟨s, hs, rfl⟩
      rw [← u0]
      exact hmono.monotoneOn (mem_Ici.2 (le_refl 0)) hs hs
    · intro y hy
      rcases le_or_gt y (-c.t1) with h1 | h1
      · obtain ⟨s, hs, es⟩ : y ∈ τ '' Icc 0 1 := by rw [t2]; exact ⟨hy, h1⟩
        exact ⟨s, hs.1, by rw [u1 s hs.2, es]⟩
      · have h2 : 0 < (y - -c.t1) / m := div_pos (by linarith) hm
        refine ⟨1 + (y - -c.t1) / m, by show (0 : ℝ) ≤ _; linarith, ?_⟩
        rw [u2 _ (by linarith)]
        field_simp
        ring
  · rcases le_or_gt s 1 with h1 | h1
    · have e := flip_s2t (c := c) (s := s) ⟨hs, h1⟩
      rw [t3 s ⟨hs, h1⟩] at e
      obtain ⟨t, ht, htt⟩ := Option.map_eq_some_iff.1 e.symm
      rw [ht, u1 s h1, ← htt, neg_neg]
    · have e : c.flip.s2t s = (c.s2t s).map fun t => -t := by
        simp only [Curve.s2t, if_neg (show ¬s < 0 by linarith), if_pos h1]
        exact interpolate_neg _ _ _ _ _
      rw [t4 s h1] at e
      obtain ⟨t, ht, htt⟩ := Option.map_eq_some_iff.1 e.symm
      rw [ht, u2 s h1, ← htt, neg_neg]

/-- A common point of the path of the corner, prolonged if necessary, and a flank. -/
theorem corner_common {r a b tc ang : ℝ} {G : ℝ → V3} {R θ : ℝ → ℝ} (hr : 0 < r) (ha : 0 < a) (hbr : b ≤ r)
    (hK : b / r < arctan (b / a)) (F : Fan G ang R θ) (hang : -(π / 2) ≤ ang) (hba : -(b / r) < ang) (hR : R 1 ≤ 5 / 2 * r)
    (h3 : -3 ≤ tc) (h0 : tc < 0) {s x : ℝ} (hs : s ∈ Icc (0 : ℝ) 1) (hx : 0 < x)
    (e : (cornerPath r a b tc).eval x = some (G s)) : ∃ v, 0 < v ∧ (cornerPath r a b tc).s2t x = some (-((b + v) / r)) ∧
      √(a ^ 2 + v ^ 2) = R s ∧ arctan (v / a) - (b + v) / r = θ s := by
  obtain ⟨τ, t1, t2, -, t4⟩ := back_far (cornerPath_ok hr ha hK h3 h0)
  rw [cornerPath_t0, neg_zero] at t2
  have hτ : 0 < τ x := by
    rw [← t2]
    exact t1 (le_refl (0 : ℝ)) hx.le hx
  obtain ⟨v, ev⟩ : ∃ v, v = -b + r * τ x := ⟨_, rfl⟩
  have eτ : τ x = (b + v) / r := by rw [ev]; field_simp; ring
  rw [Curve.eval, t4 x hx.le, Option.map_some, cornerPath_kind] at e
  have e : undercutCurve r ![a, -b, 0] (-τ x) = G s := Option.some.inj e
  rw [undercut_polar ha, show -b - r * -τ x = v by rw [ev]; ring] at e
  have hd := F.dist hs
  rw [← e] at hd
  have hd : a ^ 2 + v ^ 2 = R s ^ 2 := by
    rw [← hd]
    simp
    linear_combination (-(cos (-τ x + arctan (v / a)) ^ 2) - sin (-τ x + arctan (v / a)) ^ 2) *
      sq_sqrt (show 0 ≤ a ^ 2 + v ^ 2 by positivity) - (a ^ 2 + v ^ 2) * sin_sq_add_cos_sq (-τ x + arctan (v / a))
  have hRs : R s ≤ 5 / 2 * r := (F.grows.monotoneOn hs ⟨zero_le_one, le_refl _⟩ hs.2).trans hR
  have hv : v ≤ 5 / 2 * r := by
    by_contra hcon
    have h5 : R s ^ 2 ≤ (5 / 2 * r) ^ 2 := pow_le_pow_left₀ (F.radius hs).le hRs 2
    have h6 : (5 / 2 * r) ^ 2 < v ^ 2 := pow_lt_pow_left₀ (not_le.1 hcon) (by positivity) two_ne_zero
    nlinarith
  have hτ2 : τ x ≤ 7 / 2 := by
    rw [eτ, div_le_iff₀ hr]
    linarith
  have l1 := neg_pi_div_two_lt_arctan (v / a)
  have l2 := arctan_lt_pi_div_two (v / a)
  obtain ⟨q1, q2⟩ := F.range hs
  have hpi := pi_gt_three
  rw [F.polar s hs] at e
  obtain ⟨g1, g2⟩ := polar_unique (sqrt_pos.2 (by positivity)) (F.radius hs) (congrFun e 0) (congrFun e 1) (by linarith) (by linarith)
  have hθ : arctan (v / a) - (b + v) / r = θ s := by rw [← eτ]; linarith
  refine ⟨v, ?_, by rw [t4 x hx.le, eτ], g1, hθ⟩
  have hlift : 0 < lift r a v := by
    rw [lift]
    rw [add_div] at hθ
    linarith
  by_contra hcon
  have h1 : -b < v := by rw [ev]; nlinarith
  have h2 : lift r a v = -lift r a (-v) := by rw [← lift_neg, neg_neg]
  rcases (not_lt.1 hcon).lt_or_eq with h3 | h3
  · have := lift_pos' (r := r) (u := -v) (v := b) ha (by linarith) (by linarith) (by rw [lift]; linarith)
    linarith
  · rw [h3, lift_zero] at hlift; exact lt_irrefl _ hlift

end Verif
