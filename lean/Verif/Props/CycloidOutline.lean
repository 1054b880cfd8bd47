import Verif.Props.PairFan
import Verif.Props.SpurOutlineEx
import Verif.Props.CycloidTooth

/-!
# Property C141: the outline of a cycloid gear, from the parameters of its teeth
-/

namespace Verif

open Real Set

/-! ### Cycloids in polar coordinates -/

/-- The part of a cycloid's polar coordinates along the line from the axis to the centre of the rolling circle; `k` is the ratio
of the radii (negative inside), `w` the angle by which the rolling circle has turned. -/
noncomputable def cycD (k w : ℝ) : ℝ := 1 + k * (1 - cos w)

/-- The distance of a cycloid from the axis, for the base circle with radius 1. -/
noncomputable def cycR (k w : ℝ) : ℝ := √(cycD k w ^ 2 + (k * sin w) ^ 2)

/-- The polar angle of a cycloid. -/
noncomputable def cycAngle (k w : ℝ) : ℝ := k * w - arctan (k * sin w / cycD k w)

theorem cycR_eq (k w : ℝ) : cycR k w = √(1 + 2 * k * (1 + k) * (1 - cos w)) := by
  rw [cycR, cycD]
  congr 1
  linear_combination k ^ 2 * sin_sq_add_cos_sq w

theorem cycR_trig {k w : ℝ} (h : 0 < cycD k w) : cycR k w * cos (arctan (k * sin w / cycD k w)) = cycD k w ∧
    cycR k w * sin (arctan (k * sin w / cycD k w)) = k * sin w := by
  have hq : cycR k w = cycD k w * √(1 + (k * sin w / cycD k w) ^ 2) := by
    rw [cycR, show cycD k w ^ 2 + (k * sin w) ^ 2 = cycD k w ^ 2 * (1 + (k * sin w / cycD k w) ^ 2) by field_simp,
      sqrt_mul (by positivity), sqrt_sq h.le]
  have hs : 0 < √(1 + (k * sin w / cycD k w) ^ 2) := sqrt_pos.2 (by positivity)
  rw [cos_arctan, sin_arctan, hq]
  constructor
  · field_simp
  · field_simp

/-- A cycloid in polar coordinates. -/
theorem cycloid_polar {k w rp ang : ℝ} (hr : 0 < rp) (hk : k ≠ 0) (h : 0 < cycD k w) : cycloidCircle (k * w) rp (k * rp) ang ORIGIN 0 =
    ![rp * cycR k w * cos (ang + cycAngle k w), rp * cycR k w * sin (ang + cycAngle k w), 0] := by
  obtain ⟨h1, h2⟩ := cycR_trig h
  have e : k * w * rp / (k * rp) = w := by field_simp
  have e2 : ang + cycAngle k w = (k * w + ang) - arctan (k * sin w / cycD k w) := by rw [cycAngle]; ring
  rw [cycloidCircle, e2, cos_sub, sin_sub]
  simp only [e]
  rw [Rz_app, Rz_app]
  obtain ⟨β, hβ⟩ : ∃ β, β = arctan (k * sin w / cycD k w) := ⟨_, rfl⟩
  rw [← hβ] at h1 h2 ⊢
  rw [cycD] at h1
  apply V3.ext3
  · simp [RIGHT, LEFT, OUT, ORIGIN]
    linear_combination (-rp * cos (k * w + ang)) * h1 - (rp * sin (k * w + ang)) * h2
  · simp [RIGHT, LEFT, OUT, ORIGIN]
    linear_combination (-rp * sin (k * w + ang)) * h1 + (rp * cos (k * w + ang)) * h2
  · simp [RIGHT, LEFT, OUT, ORIGIN]

theorem cycAngle_deriv {k w : ℝ} (h : 0 < cycD k w) :
    HasDerivAt (cycAngle k) (k * (1 + k) * (1 + 2 * k) * (1 - cos w) / (cycD k w ^ 2 + (k * sin w) ^ 2)) w := by
  have hD : HasDerivAt (fun w => cycD k w) (k * sin w) w := by
    have := (((hasDerivAt_cos w).const_sub 1).const_mul k).const_add 1
    simpa [cycD] using this
  have hN : HasDerivAt (fun w => k * sin w) (k * cos w) w := (hasDerivAt_sin w).const_mul k
  have hq := (hN.div hD h.ne').arctan
  have := ((hasDerivAt_id w).const_mul k).sub hq
  refine this.congr_deriv ?_
  have h2 : 0 < cycD k w ^ 2 + (k * sin w) ^ 2 := by positivity
  have h3 : (1 + (k * sin w / cycD k w) ^ 2) ≠ 0 := by positivity
  have e : k * cos w * cycD k w - k * sin w * (k * sin w) = k * ((1 + k) * cos w - k) := by
    rw [cycD]; linear_combination -k ^ 2 * sin_sq_add_cos_sq w
  have e2 : cycD k w ^ 2 + (k * sin w) ^ 2 = 1 + 2 * k * (1 + k) * (1 - cos w) := by
    rw [cycD]; linear_combination k ^ 2 * sin_sq_add_cos_sq w
  have e3 : 1 / (1 + (k * sin w / cycD k w) ^ 2) * ((k * cos w * cycD k w - k * sin w * (k * sin w)) / cycD k w ^ 2) =
      k * ((1 + k) * cos w - k) / (cycD k w ^ 2 + (k * sin w) ^ 2) := by
    rw [e]; field_simp
  simp only [Pi.div_apply, mul_one]
  rw [e3, eq_div_iff h2.ne', sub_mul, div_mul_cancel₀ _ h2.ne', e2]
  ring

theorem cycD_pos_out {k : ℝ} (hk : 0 < k) (w : ℝ) : 0 < cycD k w := by
  have := mul_nonneg hk.le (sub_nonneg.2 (cos_le_one w))
  rw [cycD]; linarith

theorem cycD_pos_in {c w : ℝ} (hc : 0 < c) (hc2 : c ≤ 1 / 2) (h0 : -(π / 2) ≤ w) (h1 : w ≤ π / 2) : 0 < cycD (-c) w := by
  have := cos_nonneg_of_mem_Icc ⟨h0, h1⟩
  rw [cycD]
  nlinarith

theorem cycAngle_out {k : ℝ} (hk : 0 < k) : StrictMonoOn (cycAngle k) (Icc 0 π) := by
  apply strictMonoOn_of_deriv_pos (convex_Icc 0 π)
  · exact fun w _ => (cycAngle_deriv (cycD_pos_out hk w)).continuousAt.continuousWithinAt
  · intro w hw
    rw [interior_Icc] at hw
    rw [(cycAngle_deriv (cycD_pos_out hk w)).deriv]
    have : cos w < 1 := by
      rw [← cos_zero]; exact cos_lt_cos_of_nonneg_of_le_pi (le_refl 0) hw.2.le hw.1
    have h1 : 0 < 1 - cos w := by linarith
    have h2 := cycD_pos_out hk w
    positivity

theorem cycAngle_in {c : ℝ} (hc : 0 < c) (hc2 : c < 1 / 2) : StrictAntiOn (cycAngle (-c)) (Icc 0 (π / 2)) := by
  apply strictAntiOn_of_deriv_neg (convex_Icc 0 (π / 2))
  · exact fun w hw => (cycAngle_deriv (cycD_pos_in hc hc2.le (by linarith [hw.1, pi_pos]) hw.2)).continuousAt.continuousWithinAt
  · intro w hw
    rw [interior_Icc] at hw
    have h2 := cycD_pos_in hc hc2.le (by linarith [hw.1, pi_pos]) hw.2.le
    rw [(cycAngle_deriv h2).deriv]
    have : cos w < 1 := by
      rw [← cos_zero]; exact cos_lt_cos_of_nonneg_of_le_pi (le_refl 0) (by linarith [hw.2, pi_pos]) hw.1
    have h1 : 0 < 1 - cos w := by linarith
    apply div_neg_of_neg_of_pos _ (by positivity)
    have h3 : 0 < c * (1 - c) * (1 - 2 * c) := mul_pos (mul_pos hc (by linarith)) (by linarith)
    have := mul_pos h3 h1
    linarith

theorem cycAngle_half {w : ℝ} (h0 : 0 ≤ w) (h1 : w ≤ π / 2) : cycAngle (-(1 / 2)) w = 0 := by
  have e : -(1 / 2) * sin w / cycD (-(1 / 2)) w = -tan (w / 2) := by
    have hc : 0 < cos (w / 2) := cos_pos_of_mem_Ioo ⟨by linarith [pi_pos], by linarith [pi_pos]⟩
    have hs : sin w = 2 * sin (w / 2) * cos (w / 2) := by rw [← sin_two_mul]; ring_nf
    have hcw : cos w = 2 * cos (w / 2) ^ 2 - 1 := by rw [← cos_two_mul]; ring_nf
    rw [cycD, hs, hcw, tan_eq_sin_div_cos]
    have : (1 + -(1 / 2) * (1 - (2 * cos (w / 2) ^ 2 - 1))) = cos (w / 2) ^ 2 := by ring
    rw [this]
    field_simp
  rw [cycAngle, e, arctan_neg, arctan_tan (by linarith [pi_pos]) (by linarith [pi_pos])]
  ring

theorem cycAngle_zero (k : ℝ) : cycAngle k 0 = 0 := by simp [cycAngle]

theorem cycAngle_pi (k : ℝ) : cycAngle k π = k * π := by simp [cycAngle]

theorem cycR_zero (k : ℝ) : cycR k 0 = 1 := by rw [cycR_eq]; simp

theorem cycR_out {k : ℝ} (hk : 0 < k) : StrictMonoOn (cycR k) (Icc 0 π) := by
  intro x hx y hy hxy
  rw [cycR_eq, cycR_eq]
  have h := cos_lt_cos_of_nonneg_of_le_pi hx.1 hy.2 hxy
  have h1 := sub_nonneg.2 (cos_le_one x)
  have h2 : 0 < 2 * k * (1 + k) := by positivity
  exact sqrt_lt_sqrt (by positivity) (by nlinarith)

theorem cycR_in {c : ℝ} (hc : 0 < c) (hc2 : c ≤ 1 / 2) : StrictAntiOn (cycR (-c)) (Icc 0 π) := by
  intro x hx y hy hxy
  rw [cycR_eq, cycR_eq]
  have h := cos_lt_cos_of_nonneg_of_le_pi hx.1 hy.2 hxy
  have h2 : 0 < 2 * c * (1 - c) := mul_pos (by linarith) (by linarith)
  have h3 := neg_one_le_cos y
  refine sqrt_lt_sqrt ?_ (by nlinarith)
  nlinarith [sq_nonneg (1 - 2 * c)]

theorem cycR_pos {k w : ℝ} (h : 0 < cycD k w) : 0 < cycR k w := sqrt_pos.2 (by positivity)

theorem cycR_continuous (k : ℝ) : Continuous (cycR k) := by
  have : cycR k = fun w => √(1 + 2 * k * (1 + k) * (1 - cos w)) := funext fun w => cycR_eq k w
  rw [this]
  exact continuous_sqrt.comp (by fun_prop)

/-! ### The generated tooth curve -/

theorem cycloidUpper_polar {pia rp c t : ℝ} (hr : 0 < rp) (hc : 0 < c) : cycloidUpperFn pia rp 0 c t =
    ![rp * cycR c (t / c) * cos (-pia + cycAngle c (t / c)), rp * cycR c (t / c) * sin (-pia + cycAngle c (t / c)), 0] := by
  rw [cycloidUpperFn, if_pos rfl, cycloidFlankUpper, ← cycloid_polar hr hc.ne' (cycD_pos_out hc _), mul_div_cancel₀ _ hc.ne']

theorem cycloidLower_polar {pia rp c t : ℝ} (hr : 0 < rp) (hc : 0 < c) (hc2 : c ≤ 1 / 2) (h0 : -(c * π / 2) ≤ t) (h1 : t ≤ 0) :
    cycloidLowerFn pia rp 0 c t = ![rp * cycR (-c) (-t / c) * cos (-pia + cycAngle (-c) (-t / c)),
      rp * cycR (-c) (-t / c) * sin (-pia + cycAngle (-c) (-t / c)), 0] := by
  have hw0 : 0 ≤ -t / c := div_nonneg (by linarith) hc.le
  have hw1 : -t / c ≤ π / 2 := by rw [div_le_iff₀ hc]; linarith
  rw [cycloidLowerFn, if_pos rfl, cycloidFlankLower, ← cycloid_polar hr (neg_ne_zero.2 hc.ne')
    (cycD_pos_in hc hc2 (by linarith [pi_pos]) hw1)]
  congr 1
  field_simp

/-- Where the generated cycloid tooth starts: behind the pitch point by the angle that the inner rolling circle gains. -/
noncomputable def cycloidStart (pia rcIn : ℝ) : ℝ := -pia + cycAngle (-rcIn) (π / 2)

/-- The search for the middle of the tooth succeeds within the first half turn of the outer rolling circle, also when this is
beyond the end of the curve. -/
def CycloidSearch (S : ScalarSolvers) (pia rp rcOut : ℝ) : Prop :=
  ∀ guess, (S.root1 (planeResidual (cycloidUpper pia rp 0 rcOut).eval UP ORIGIN) guess).success = true ∧
    ∃ t, (cycloidUpper pia rp 0 rcOut).s2t (S.root1 (planeResidual (cycloidUpper pia rp 0 rcOut).eval UP ORIGIN) guess).x = some t ∧
      0 < t ∧ t ≤ π * rcOut

/-- The polar coordinates of the lower and the upper cycloid. -/
def CycloidShape (pia rp rcIn rcOut tb : ℝ) (R θ : ℝ → ℝ) : Prop :=
  ∀ s ∈ Icc (0 : ℝ) 1,
    (∃ w, 0 ≤ w ∧ w ≤ π / 2 ∧ R s = rp * cycR (-rcIn) w ∧ θ s = -pia + cycAngle (-rcIn) w) ∨
      ∃ w, 0 ≤ w ∧ w ≤ tb / rcOut ∧ R s = rp * cycR rcOut w ∧ θ s = -pia + cycAngle rcOut w

/-- The generated tooth curve as a flank in polar coordinates. -/
theorem cycloid_generated {S : ScalarSolvers} (hS : Honest S) {pia rp rcIn rcOut : ℝ} (hrp : 0 < rp) (hi : 0 < rcIn)
    (hi2 : rcIn ≤ 1 / 2) (ho : 0 < rcOut) (ho2 : rcOut ≤ 1) (h0 : 0 < pia) (hpi : pia < π) (hs : CycloidSearch S pia rp rcOut) :
    ∃ l G R θ, cycloidToothCurve S pia rp 0 rcIn rcOut = some l ∧ ChainPath l ∧ Fan G (cycloidStart pia rcIn) R θ ∧
      R 0 = rp * cycR (-rcIn) (π / 2) ∧ (∀ s ∈ Icc (0 : ℝ) 1, chainEval curveOps l s = some (G s)) ∧
      (∃ tb, 0 < tb ∧ tb ≤ π * rcOut ∧ cycAngle rcOut (tb / rcOut) = pia ∧ R 1 = rp * cycR rcOut (tb / rcOut) ∧
        CycloidShape pia rp rcIn rcOut tb R θ) ∧ ∀ a ∈ l, ∀ u A m M, a.kind ≠ .arc u A m M := by
  have pp := pi_pos
  have hin : 0 < rcIn * π / 2 := by positivity
  obtain ⟨F, eF⟩ : ∃ F, F = cycloidLowerFn pia rp 0 rcIn := ⟨_, rfl⟩
  obtain ⟨H, eH⟩ : ∃ H, H = cycloidUpperFn pia rp 0 rcOut := ⟨_, rfl⟩
  obtain ⟨out1, out2⟩ := c120_outward pia rp rcIn rcOut hrp hi (by linarith) ho
  have Finj : InjOn F (Icc (-(rcIn * π / 2)) 0) := by
    intro x hx y hy e
    refine out1.injOn ⟨by nlinarith [hx.1], hx.2⟩ ⟨by nlinarith [hy.1], hy.2⟩ ?_
    show norm3 _ = norm3 _
    rw [← eF, e]
  have Hinj : ∀ tb, tb ≤ π * rcOut → InjOn H (Icc 0 tb) := by
    intro tb htb x hx y hy e
    refine out2.injOn ⟨hx.1, hx.2.trans htb⟩ ⟨hy.1, hy.2.trans htb⟩ ?_
    show norm3 _ = norm3 _
    rw [← eH, e]
  -- the search
  obtain ⟨sol0, hsol⟩ : ∃ x, findCurveNearestPoint S (cycloidUpper pia rp 0 rcOut).eval ((rp + rcOut * rp) • RIGHT)
    [1 / 10, 1 / 2, 9 / 10] = some x := ⟨_, rfl⟩
  obtain ⟨x, hx⟩ : ∃ x, x = (S.root1 (planeResidual (cycloidUpper pia rp 0 rcOut).eval UP ORIGIN) sol0).x := ⟨_, rfl⟩
  obtain ⟨ok, tb, et, tb0, tb1⟩ := hs sol0
  rw [← hx] at et
  have hcost := hS.root1 _ _ ok
  rw [← hx, planeResidual, Curve.eval, et, Option.map_some, Option.map_some] at hcost
  have hkind : (cycloidUpper pia rp 0 rcOut).kind.fn = H := by
    rw [cycloidUpper, Curve.make, if_pos rfl, updateLengths_kind, eH]; rfl
  rw [hkind, eH, cycloidUpper_polar hrp ho] at hcost
  have wb : tb / rcOut ∈ Icc (0 : ℝ) π := ⟨by positivity, by rw [div_le_iff₀ ho]; exact tb1⟩
  have wb0 : 0 < tb / rcOut := by positivity
  have hz : rp * cycR rcOut (tb / rcOut) * sin (-pia + cycAngle rcOut (tb / rcOut)) = 0 := by
    have := Option.some.inj hcost
    simpa [dot, UP, ORIGIN] using this
  have hend : -pia + cycAngle rcOut (tb / rcOut) = 0 := by
    have h3 := mul_pos hrp (cycR_pos (cycD_pos_out ho (tb / rcOut)))
    have h4 := (cycAngle_out ho).monotoneOn wb ⟨pp.le, le_refl _⟩ wb.2
    have h5 := cycAngle_out ho ⟨le_refl _, pp.le⟩ wb wb0
    rw [cycAngle_pi] at h4
    rw [cycAngle_zero] at h5
    exact (sin_eq_zero_iff_of_lt_of_lt (by linarith) (by nlinarith)).1 ((mul_eq_zero.1 hz).resolve_left h3.ne')
  obtain ⟨C, eC⟩ : ∃ C, C = Curve.make (.generic F 20) true (-(rcIn * π / 2)) 0 := ⟨_, rfl⟩
  obtain ⟨J, eJ⟩ : ∃ J, J = Curve.make (.generic H 20) true 0 tb := ⟨_, rfl⟩
  have hC : C.PathOk := by rw [eC]; exact make_path (by norm_num) (by linarith) Finj
  have hJ : J.PathOk := by rw [eJ]; exact make_path (by norm_num) tb0 (Hinj tb tb1)
  have hCk : C.kind.fn = F := by rw [eC, Curve.make, if_pos rfl, updateLengths_kind]; rfl
  have hJk : J.kind.fn = H := by rw [eJ, Curve.make, if_pos rfl, updateLengths_kind]; rfl
  obtain ⟨τ, τ1, τ2, τ3⟩ := hC.run
  obtain ⟨υ, υ1, υ2, υ3⟩ := hJ.run
  rw [eC, Curve.make, if_pos rfl, updateLengths_t0, updateLengths_t1] at τ2
  rw [eJ, Curve.make, if_pos rfl, updateLengths_t0, updateLengths_t1] at υ2
  obtain ⟨τa, τb⟩ := mono_ends τ1 τ2
  obtain ⟨υa, υb⟩ := mono_ends υ1 υ2
  have τm : ∀ s ∈ Icc (0 : ℝ) 1, -(rcIn * π / 2) ≤ τ s ∧ τ s ≤ 0 := fun s hs' => by
    have : τ s ∈ Icc (-(rcIn * π / 2)) 0 := τ2 ▸ mem_image_of_mem τ hs'
    exact this
  have υm : ∀ s ∈ Icc (0 : ℝ) 1, 0 ≤ υ s ∧ υ s ≤ tb := fun s hs' => by
    have : υ s ∈ Icc 0 tb := υ2 ▸ mem_image_of_mem υ hs'
    exact this
  have τw : ∀ s ∈ Icc (0 : ℝ) 1, -τ s / rcIn ∈ Icc (0 : ℝ) (π / 2) := fun s hs' =>
    ⟨div_nonneg (by linarith [(τm s hs').2]) hi.le, by rw [div_le_iff₀ hi]; linarith [(τm s hs').1]⟩
  have τw' : ∀ s ∈ Icc (0 : ℝ) 1, -τ s / rcIn ∈ Icc (0 : ℝ) π := fun s hs' =>
    ⟨(τw s hs').1, (τw s hs').2.trans (by linarith)⟩
  have υw : ∀ s ∈ Icc (0 : ℝ) 1, υ s / rcOut ∈ Icc (0 : ℝ) π := fun s hs' =>
    ⟨div_nonneg (υm s hs').1 ho.le, (div_le_div_of_nonneg_right (υm s hs').2 ho.le).trans wb.2⟩
  have τc := run_continuous τ1 τ2
  have υc := run_continuous υ1 υ2
  have τwc : ContinuousOn (fun s => -τ s / rcIn) (Icc 0 1) := τc.neg.div_const _
  have υwc : ContinuousOn (fun s => υ s / rcOut) (Icc 0 1) := υc.div_const _
  have τanti : ∀ s ∈ Icc (0 : ℝ) 1, ∀ t ∈ Icc (0 : ℝ) 1, s < t → -τ t / rcIn < -τ s / rcIn := fun s hs' t ht hst =>
    div_lt_div_of_pos_right (by linarith [τ1 hs' ht hst]) hi
  have υmono : ∀ s ∈ Icc (0 : ℝ) 1, ∀ t ∈ Icc (0 : ℝ) 1, s < t → υ s / rcOut < υ t / rcOut := fun s hs' t ht hst =>
    div_lt_div_of_pos_right (υ1 hs' ht hst) ho
  have m0 : (0 : ℝ) ∈ Icc (0 : ℝ) 1 := ⟨le_refl _, zero_le_one⟩
  have m1 : (1 : ℝ) ∈ Icc (0 : ℝ) 1 := ⟨zero_le_one, le_refl _⟩
  have e0 : -τ 0 / rcIn = π / 2 := by rw [τa]; field_simp
  have e1 : -τ 1 / rcIn = 0 := by rw [τb]; simp
  have f0 : υ 0 / rcOut = 0 := by rw [υa]; simp
  have f1 : υ 1 / rcOut = tb / rcOut := by rw [υb]
  have angc : ContinuousOn (cycAngle (-rcIn)) (Icc 0 (π / 2)) := fun w hw =>
    (cycAngle_deriv (cycD_pos_in hi hi2 (by linarith [hw.1]) hw.2)).continuousAt.continuousWithinAt
  have angc' : ContinuousOn (cycAngle rcOut) (Icc 0 π) := fun w _ =>
    (cycAngle_deriv (cycD_pos_out ho w)).continuousAt.continuousWithinAt
  have strict : ∀ s ∈ Icc (0 : ℝ) 1, ∀ t ∈ Icc (0 : ℝ) 1, s < t →
      (rcIn < 1 / 2 → cycAngle (-rcIn) (-τ s / rcIn) < cycAngle (-rcIn) (-τ t / rcIn)) ∧
      cycAngle (-rcIn) (-τ s / rcIn) ≤ cycAngle (-rcIn) (-τ t / rcIn) := by
    intro s hs' t ht hst
    rcases hi2.lt_or_eq with h | h
    · have := cycAngle_in hi h (τw t ht) (τw s hs') (τanti s hs' t ht hst)
      exact ⟨fun _ => this, this.le⟩
    · have hz : ∀ w ∈ Icc (0 : ℝ) (π / 2), cycAngle (-rcIn) w = 0 := fun w hw => by rw [h]; exact cycAngle_half hw.1 hw.2
      rw [hz _ (τw s hs'), hz _ (τw t ht)]
      exact ⟨fun h' => absurd h h'.ne, le_refl _⟩
  obtain ⟨hP, G, R, θ, hF, R0, R1, hsplit, hG⟩ := pair_fan (ang := cycloidStart pia rcIn) hC hJ
    (RC := fun s => rp * cycR (-rcIn) (-τ s / rcIn)) (θC := fun s => -pia + cycAngle (-rcIn) (-τ s / rcIn))
    (RJ := fun s => rp * cycR rcOut (υ s / rcOut)) (θJ := fun s => -pia + cycAngle rcOut (υ s / rcOut))
    (fun s hs' => by
      rw [Curve.eval, τ3 s hs', Option.map_some, hCk, eF, cycloidLower_polar hrp hi hi2 (τm s hs').1 (τm s hs').2])
    (fun s hs' => by rw [Curve.eval, υ3 s hs', Option.map_some, hJk, eH, cycloidUpper_polar hrp ho])
    (fun s hs' t ht hst => mul_lt_mul_of_pos_left (cycR_in hi hi2 (τw' t ht) (τw' s hs') (τanti s hs' t ht hst)) hrp)
    (fun s hs' t ht hst => mul_lt_mul_of_pos_left (cycR_out ho (υw s hs') (υw t ht) (υmono s hs' t ht hst)) hrp)
    (continuousOn_const.mul ((cycR_continuous _).comp_continuousOn τwc))
    (continuousOn_const.add (angc.comp τwc τw))
    (continuousOn_const.mul ((cycR_continuous _).comp_continuousOn υwc))
    (continuousOn_const.add (angc'.comp υwc υw))
    (mul_pos hrp (cycR_pos (cycD_pos_in hi hi2 (by linarith [(τw 0 m0).1]) (τw 0 m0).2)))
    (by simp only [e1, f0, cycR_zero]) (by simp only [e1, f0, cycAngle_zero])
    (fun s hs' t ht hst => by
      rcases hst.lt_or_eq with h | h
      · exact add_le_add (le_refl _) (strict s hs' t ht h).2
      · rw [h])
    (fun s hs' t ht hst hlt => by
      rcases hi2.lt_or_eq with h | h
      · have := (strict s hs' t ht hst).1 h
        linarith
      · exfalso
        simp only [cycloidStart, h] at hlt
        rw [cycAngle_half (by linarith) (le_refl _), cycAngle_half (h ▸ (τw t ht).1) (h ▸ (τw t ht).2)] at hlt
        exact lt_irrefl _ hlt)
    (by simp only [e0, cycloidStart])
    (fun s hs' t ht hst => by
      have := cycAngle_out ho (υw s hs') (υw t ht) (υmono s hs' t ht hst)
      simp only
      linarith)
    (by simp only [f1, hend])
  refine ⟨[C, J], G, R, θ, ?_, hP, hF, by rw [R0, e0], hG, ⟨tb, tb0, tb1, by linarith, by rw [R1, f1], ?_⟩, ?_⟩
  · have hset : (cycloidUpper pia rp 0 rcOut).setEndOn x = some J := by
      rw [Curve.setEndOn, et, eJ, eH]
      rfl
    rw [cycloidToothCurve]
    simp only [hsol, Option.bind_some, ← hx, hset, Option.map_some]
    have hl : cycloidLower pia rp 0 rcIn = C := by
      rw [eC, cycloidLower, eF, show -rcIn * π / 2 = -(rcIn * π / 2) by ring]
    rw [hl, chainUpdate_eq curve_lawful fun a ha hact => ⟨(hP.1 a ha hact).sampled, (hP.1 a ha hact).fresh⟩]
  · intro s hs'
    rcases hsplit s hs' with ⟨σ, hσ, h1, h2⟩ | ⟨σ, hσ, h1, h2⟩
    · exact .inl ⟨_, (τw σ hσ).1, (τw σ hσ).2, h1, h2⟩
    · exact .inr ⟨_, (υw σ hσ).1, div_le_div_of_nonneg_right (υm σ hσ).2 ho.le, h1, h2⟩
  · intro a ha u A m M e
    rcases List.mem_cons.1 ha with rfl | ha
    · rw [eC, Curve.make, if_pos rfl, updateLengths_kind] at e; cases e
    · rw [List.mem_singleton.1 ha, eJ, Curve.make, if_pos rfl, updateLengths_kind] at e; cases e

/-- **C141.** The teeth of a cylindrical cycloid gear without fillets are generated from pitch radius, rolling circles and tooth
thickness and trimmed at the tip and the root. If the solvers report only true solutions, the middle of the tooth is found in the
first half turn of the outer rolling circle, the inner rolling circle is at most half as large as the pitch circle, and the places
found for tip and root lie on the curve, then the flank runs outwards between the middle of the gap and the middle of the tooth,
and the outline of the `n` teeth is closed and does not cross or touch itself. -/
theorem c141_cycloid_outline {asEuler : M3 → ℝ × ℝ × ℝ} (hE : EulerOk asEuler) {S : ScalarSolvers} (hS : Honest S) (hD : Descends S)
    {pia rp rcIn rcOut pitch : ℝ} (hrp : 0 < rp) (hi : 0 < rcIn) (hi2 : rcIn ≤ 1 / 2) (ho : 0 < rcOut) (ho2 : rcOut ≤ 1)
    (h0 : 0 < pia) (h1 : -(π / 2) ≤ cycloidStart pia rcIn) (hs : CycloidSearch S pia rp rcOut) (n : ℕ) (h2 : 2 ≤ n)
    (hn : n * pitch = 2 * π) (hne : cycloidStart pia rcIn ≠ -(pitch / 2)) (rA rD : Curve) {tipFillet rootFillet : ℝ}
    (ht : tipFillet ≤ 0) (hr : rootFillet ≤ 0) (htrim : ∀ l, cycloidToothCurve S pia rp 0 rcIn rcOut = some l →
      TrimSearches S l rA rD tipFillet pitch (cycloidStart pia rcIn)) (radA radD radO : ℝ) (centerO : V3) :
    ∃ l t t' T, cycloidToothCurve S pia rp 0 rcIn rcOut = some l ∧
      trimTip (chainOps curveOps) S ⟨l, true⟩ rA tipFillet pitch = some t ∧
      trimRoot (chainOps curveOps) S t rD rootFillet pitch = some t' ∧
      (∀ s, 0 ≤ s → s ≤ 1 → (chainOps curveOps).eval t' s = some (T s)) ∧ Spec.OutwardFlank T pitch ∧
      (∃ a, 0 ≤ a ∧ a < tipCut S (chainEval curveOps l) rA pitch ∧ chainEval curveOps l a = some (T 0) ∧
        chainEval curveOps l (tipCut S (chainEval curveOps l) rA pitch) = some (T 1)) ∧
      (ExactGaps T pitch → ∃ P, trimReferenceProfile (chainOps curveOps) asEuler S ⟨l, true⟩ rA rD radA radD radO centerO tipFillet
        rootFillet pitch = some P ∧
        Spec.SimpleOutline (chainEval (sumOps (chainOps curveOps) curveOps) (P.chain (chainOps curveOps))) pitch n) := by
  have hn2 : (2 : ℝ) ≤ n := by exact_mod_cast h2
  have hp : 0 < pitch := by
    by_contra hneg
    have := mul_nonpos_of_nonneg_of_nonpos (by linarith : (0 : ℝ) ≤ n) (not_lt.1 hneg)
    linarith [pi_pos]
  have hpi : pitch ≤ π := by nlinarith
  have hle : cycAngle (-rcIn) (π / 2) ≤ 0 := by
    rcases hi2.lt_or_eq with h | h
    · have := (cycAngle_in hi h).antitoneOn ⟨le_refl _, by linarith [pi_pos]⟩ ⟨by linarith [pi_pos], le_refl (π / 2)⟩
        (by linarith [pi_pos] : (0 : ℝ) ≤ π / 2)
      rwa [cycAngle_zero] at this
    · rw [h, cycAngle_half (by linarith [pi_pos]) (le_refl _)]
  have hst : cycloidStart pia rcIn ≤ -pia := by rw [cycloidStart]; linarith
  obtain ⟨l, G, R, θ, hl, hpath, F, -, hG, -, hk⟩ := cycloid_generated hS hrp hi hi2 ho ho2 h0 (by linarith [pi_pos]) hs
  obtain ⟨t, t', T, e1, e2, hT, a1, a2, a3, hout, hcont, -, hends⟩ := trim_outward hS hD hpath hk F hG h1 (by linarith)
    hp hpi hne ht hr (htrim l hl)
  refine ⟨l, t, t', T, hl, e1, e2, hT, hout, hends, fun hx => ?_⟩
  obtain ⟨P, hP, hsimple⟩ := c139_simple hE a1 a2 a3 hT hcont hout n h2 hn hx radA radD radO centerO
  refine ⟨P, ?_, hsimple⟩
  rw [trimReferenceProfile, e1, Option.bind_some, e2, Option.bind_some, hP]

/-! ### A case -/

/-- The search for the middle of the tooth, with the solvers that find a solution on the curve whenever there is one. -/
theorem exact_cycloid {pia rp c : ℝ} (hrp : 0 < rp) (hc : 0 < c) (h0 : 0 < pia) (hpi : pia < π)
    (h1 : 2 * pia ≤ π * c) (h2 : pia ≤ cycAngle c (2 * pia / c)) : CycloidSearch exactSolvers pia rp c := by
  have pp := pi_pos
  obtain ⟨-, out2⟩ := c120_outward pia rp (1 / 2) c hrp (by norm_num) (by norm_num) hc
  have hinj : InjOn (cycloidUpperFn pia rp 0 c) (Icc 0 (pia * 2)) := by
    intro x hx y hy e
    refine out2.injOn ⟨hx.1, hx.2.trans (by linarith)⟩ ⟨hy.1, hy.2.trans (by linarith)⟩ ?_
    show norm3 _ = norm3 _
    rw [e]
  have hU : (cycloidUpper pia rp 0 c).PathOk := make_path (by norm_num) (by linarith) hinj
  obtain ⟨υ, υ1, υ2, υ3⟩ := hU.run
  have ht : (cycloidUpper pia rp 0 c).t0 = 0 ∧ (cycloidUpper pia rp 0 c).t1 = pia * 2 := by
    rw [cycloidUpper, Curve.make, if_pos rfl, updateLengths_t0, updateLengths_t1]; exact ⟨rfl, rfl⟩
  have hk : (cycloidUpper pia rp 0 c).kind.fn = cycloidUpperFn pia rp 0 c := by
    rw [cycloidUpper, Curve.make, if_pos rfl, updateLengths_kind]; rfl
  rw [ht.1, ht.2] at υ2
  obtain ⟨υa, υb⟩ := mono_ends υ1 υ2
  have υm : ∀ s ∈ Icc (0 : ℝ) 1, 0 ≤ υ s ∧ υ s ≤ pia * 2 := fun s hs' => by
    have : υ s ∈ Icc 0 (pia * 2) := υ2 ▸ mem_image_of_mem υ hs'
    exact this
  have hev : ∀ s ∈ Icc (0 : ℝ) 1, (cycloidUpper pia rp 0 c).eval s = some ![rp * cycR c (υ s / c) * cos (-pia + cycAngle c (υ s / c)),
      rp * cycR c (υ s / c) * sin (-pia + cycAngle c (υ s / c)), 0] := by
    intro s hs
    rw [Curve.eval, υ3 s hs, Option.map_some, hk, cycloidUpper_polar hrp hc]
  have hcont : ContinuousOn (fun s => cycAngle c (υ s / c)) (Icc 0 1) := by
    have h : Continuous (cycAngle c) := continuous_iff_continuousAt.2 fun w => (cycAngle_deriv (cycD_pos_out hc w)).continuousAt
    exact h.comp_continuousOn ((run_continuous υ1 υ2).div_const _)
  obtain ⟨s, hs, es⟩ : pia ∈ (fun s => cycAngle c (υ s / c)) '' Icc 0 1 := intermediate_value_Icc zero_le_one hcont
    ⟨by
      show cycAngle c (υ 0 / c) ≤ pia
      rw [υa, zero_div, cycAngle_zero]; exact h0.le, by
      show pia ≤ cycAngle c (υ 1 / c)
      rw [υb, mul_comm pia]; exact h2⟩
  intro guess
  have ok := exact_plane_found (n := UP) guess (hev s hs) (by
    simp only at es
    rw [es]
    simp [dot, UP, ORIGIN]) hs.1 hs.2
  obtain ⟨x0, x1⟩ := exact_plane_mem (cycloidUpper pia rp 0 c).eval UP guess
  have hz := plane_cost exact_honest ok (hev _ ⟨x0, x1⟩)
  refine ⟨ok, υ (findCurvePlaneIntersect exactSolvers (cycloidUpper pia rp 0 c).eval UP guess).x, υ3 _ ⟨x0, x1⟩, ?_, ?_⟩
  · refine lt_of_le_of_ne (υm _ ⟨x0, x1⟩).1 fun e => ?_
    rw [← e, zero_div, cycAngle_zero, cycR_zero, add_zero] at hz
    have h3 : rp * sin (-pia) = 0 := by simpa [dot, UP, ORIGIN] using hz
    have h4 : sin pia = 0 := by
      have := (mul_eq_zero.1 h3).resolve_left hrp.ne'
      rwa [sin_neg, neg_eq_zero] at this
    exact (sin_pos_of_pos_of_lt_pi h0 hpi).ne' h4
  · exact (υm _ ⟨x0, x1⟩).2.trans (by linarith)

theorem tipSlope_bounds : 1 / 4 < 1 / 2 * sin (π / 4) / cycD (1 / 2) (π / 4) ∧ 1 / 2 * sin (π / 4) / cycD (1 / 2) (π / 4) < 1 := by
  have h1 : (1.4 : ℝ) < √2 := by rw [lt_sqrt (by norm_num)]; norm_num
  have h2 : √2 < (1.5 : ℝ) := by rw [sqrt_lt' (by norm_num)]; norm_num
  have hD := cycD_pos_out (by norm_num : (0 : ℝ) < 1 / 2) (π / 4)
  constructor
  · rw [lt_div_iff₀ hD, cycD, sin_pi_div_four, cos_pi_div_four]
    linarith
  · rw [div_lt_iff₀ hD, cycD, sin_pi_div_four, cos_pi_div_four]
    linarith

/-- A gear with four teeth, pitch radius 10 and the default rolling circles, cut at about 12 and at 9. -/
theorem c141_case {asEuler : M3 → ℝ × ℝ × ℝ} (hE : EulerOk asEuler) (radA radD radO : ℝ) (centerO : V3) : ∃ l P,
    cycloidToothCurve exactSolvers (π / 8) 10 0 (1 / 2) (1 / 2) = some l ∧
      trimReferenceProfile (chainOps curveOps) asEuler exactSolvers ⟨l, true⟩ (circ (10 * cycR (1 / 2) (π / 4))) (circ 9) radA radD radO
        centerO 0 0 (π / 2) = some P ∧
      Spec.SimpleOutline (chainEval (sumOps (chainOps curveOps) curveOps) (P.chain (chainOps curveOps))) (π / 2) 4 := by
  have p3 := pi_gt_d2
  have p4 := pi_lt_d2
  have half : (0 : ℝ) < 1 / 2 := by norm_num
  have hrp : (0 : ℝ) < 10 := by norm_num
  have hstart : cycloidStart (π / 8) (1 / 2) = -(π / 8) := by
    rw [cycloidStart, cycAngle_half (by linarith) (le_refl _), add_zero]
  have harc : arctan (1 / 3) ≤ π / 8 := by
    have h1 : 2 * arctan (1 / 3) = arctan (3 / 4) := by
      rw [two_mul_arctan (by norm_num) (by norm_num)]
      norm_num
    have h2 : arctan (3 / 4) ≤ π / 4 := by
      rw [← arctan_one]; exact arctan_strictMono.monotone (by norm_num)
    linarith
  have hs : CycloidSearch exactSolvers (π / 8) 10 (1 / 2) := exact_cycloid hrp half (by linarith) (by linarith)
    (by linarith) (by
      rw [show 2 * (π / 8) / (1 / 2) = π / 2 by ring, cycAngle, cycD, sin_pi_div_two, cos_pi_div_two,
        show (1 / 2 * 1 / (1 + 1 / 2 * (1 - 0)) : ℝ) = 1 / 3 by norm_num]
      linarith)
  obtain ⟨l, G, R, θ, hl, hpath, F, R0, hG, ⟨tb, b0, b1, b2, b3, hsh⟩, -⟩ := cycloid_generated exact_honest hrp half (le_refl _)
    half (by norm_num) (show (0 : ℝ) < π / 8 by linarith) (by linarith) hs
  rw [hstart] at F
  obtain ⟨q, hq⟩ : ∃ q, q = 1 / 2 * sin (π / 4) / cycD (1 / 2) (π / 4) := ⟨_, rfl⟩
  obtain ⟨q1, q2⟩ := tipSlope_bounds
  rw [← hq] at q1 q2
  have hθA : -(π / 8) + cycAngle (1 / 2) (π / 4) = -arctan q := by rw [cycAngle, hq]; ring
  have hq0 : 0 < arctan q := arctan_pos.2 (by linarith)
  have hq4 : arctan q < π / 4 := by rw [← arctan_one]; exact arctan_strictMono q2
  have wb : tb / (1 / 2) ∈ Icc (0 : ℝ) π := ⟨by positivity, by rw [div_le_iff₀ half]; exact b1⟩
  have m4 : π / 4 ∈ Icc (0 : ℝ) π := ⟨by linarith, by linarith⟩
  have hwb : π / 4 < tb / (1 / 2) := by
    by_contra hc
    have := (cycAngle_out half).monotoneOn wb m4 (not_lt.1 hc)
    linarith
  have hone : 1 < cycR (1 / 2) (π / 4) := by
    have := cycR_out half ⟨le_refl _, by linarith⟩ m4 (by linarith : (0 : ℝ) < π / 4)
    rwa [cycR_zero] at this
  have hsmall : ∀ w, 0 ≤ w → w ≤ π / 2 → cycR (-(1 / 2)) w ≤ 1 := by
    intro w w0 w1
    have := (cycR_in half (le_refl _)).antitoneOn ⟨le_refl _, by linarith⟩ ⟨w0, by linarith⟩ w0
    rwa [cycR_zero] at this
  have hRθ : ∀ s ∈ Icc (0 : ℝ) 1, R s = 10 * cycR (1 / 2) (π / 4) → θ s = -arctan q := by
    intro s hs' e
    rcases hsh s hs' with ⟨w, w0, w1, h3, -⟩ | ⟨w, w0, w1, h3, h4⟩
    · have := hsmall w w0 w1
      linarith
    · have e2 : cycR (1 / 2) w = cycR (1 / 2) (π / 4) := by linarith
      rw [h4, (cycR_out half).injOn ⟨w0, w1.trans wb.2⟩ m4 e2, hθA]
  have hA' : 10 * cycR (1 / 2) (π / 4) < R 1 := by
    rw [b3]
    exact mul_lt_mul_of_pos_left (cycR_out half m4 wb hwb) hrp
  have hA : R 0 < 10 * cycR (1 / 2) (π / 4) := by
    have := hsmall (π / 2) (by linarith) (le_refl _)
    rw [R0]; linarith
  have htrim := finds_trim exact_finds (pitch := π / 2) hpath F hG (by linarith) (by linarith) (by linarith) (by linarith) hA hA'
    (fun s hs' e => by rw [hRθ s hs' e]; linarith) (circ 9) (le_refl (0 : ℝ))
  obtain ⟨t0, t1, t2⟩ := finds_tip exact_finds (pitch := π / 2) F (by linarith) (by linarith) hG hA hA'
  obtain ⟨l', t, t', T, e1, -, -, -, -, ⟨a, a0, a1, a2, a3⟩, hall⟩ := c141_cycloid_outline hE exact_honest exact_descends hrp half
    (le_refl _) half (by norm_num) (show (0 : ℝ) < π / 8 by linarith) (by rw [hstart]; linarith) hs 4 (by norm_num)
    (by push_cast; ring : ((4 : ℕ) : ℝ) * (π / 2) = 2 * π) (by rw [hstart]; intro e; linarith)
    (circ (10 * cycR (1 / 2) (π / 4))) (circ 9) (le_refl (0 : ℝ)) (le_refl (0 : ℝ))
    (by
      intro l' h
      rw [hl] at h
      rw [← Option.some.inj h, hstart]
      exact htrim) radA radD radO centerO
  rw [hl] at e1
  obtain rfl := Option.some.inj e1
  have ma : a ∈ Icc (0 : ℝ) 1 := ⟨a0, a1.le.trans t1⟩
  have mb : tipCut exactSolvers (chainEval curveOps l) (circ (10 * cycR (1 / 2) (π / 4))) (π / 2) ∈ Icc (0 : ℝ) 1 := ⟨t0.le, t1⟩
  rw [hG _ ma] at a2
  rw [hG _ mb] at a3
  obtain ⟨P, hP, hsimple⟩ := hall (exactGaps_polar (by rw [← Option.some.inj a2, F.polar a ma])
    (by rw [← Option.some.inj a3, F.polar _ mb]) (Or.inr (by
      obtain ⟨g1, g2⟩ := F.range ma
      have hRa : R 0 ≤ R a := F.grows.monotoneOn ⟨le_refl _, zero_le_one⟩ ma ma.1
      have hR0 : 5 ≤ R 0 := by
        rw [R0, cycR_eq, cos_pi_div_two]
        have : (1 / 2 : ℝ) ≤ √(1 + 2 * -(1 / 2) * (1 + -(1 / 2)) * (1 - 0)) := by
          apply le_sqrt_of_sq_le; norm_num
        linarith
      have h5 := mul_le_sin (x := π / 2 / 2 + θ a) (by linarith) (by linarith)
      have h6 : 1 / 100 ≤ 2 / π * (π / 2 / 2 + θ a) := by
        rw [div_mul_eq_mul_div, le_div_iff₀ (by linarith)]
        linarith
      nlinarith)) (by
      rcases t2 with h | h
      · right
        rw [hRθ _ mb h, h, neg_neg, sin_arctan]
        have h5 : √(1 + q ^ 2) ≤ 2 := by
          rw [sqrt_le_left (by norm_num)]; nlinarith
        have h6 : 1 / 8 ≤ q / √(1 + q ^ 2) := by
          rw [le_div_iff₀ (sqrt_pos.2 (by positivity))]; linarith
        nlinarith
      · exact Or.inl h))
  exact ⟨l, P, hl, hP, hsimple⟩

end Verif
