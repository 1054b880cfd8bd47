import Verif.Model.Convert
import Verif.Spec.SamePath
import Verif.Props.Bezier2
import Verif.Props.Boundary
import Verif.Props.Edges
import Mathlib.Analysis.SpecialFunctions.Trigonometric.Arctan

/-! # Properties C09 (order), C111: conversion to NURBS -/

namespace Verif

open Real Set

/-- Turn of the rational quadratic arc at parameter `t`, as a fraction of the whole turn `2 h`. -/
noncomputable def arcClock (h t : ℝ) : ℝ := (2 * arctan ((2 * t - 1) * tan (h / 2)) + h) / (2 * h)

theorem tan_half_pos {h : ℝ} (h0 : 0 < h) (h1 : h < π / 2) : 0 < tan (h / 2) :=
  tan_pos_of_pos_of_lt_pi_div_two (by linarith) (by linarith)

theorem arcClock_ends {h : ℝ} (h0 : 0 < h) (h1 : h < π / 2) : arcClock h 0 = 0 ∧ arcClock h 1 = 1 := by
  have e : arctan (tan (h / 2)) = h / 2 := arctan_tan (by linarith [pi_pos]) (by linarith)
  constructor
  · rw [arcClock, show (2 * (0 : ℝ) - 1) * tan (h / 2) = -tan (h / 2) by ring, arctan_neg, e]
    rw [show 2 * -(h / 2) + h = 0 by ring, zero_div]
  · rw [arcClock, show (2 * (1 : ℝ) - 1) * tan (h / 2) = tan (h / 2) by ring, e]
    rw [show 2 * (h / 2) + h = 2 * h by ring]
    exact div_self (by positivity)

theorem arcClock_clock {h : ℝ} (h0 : 0 < h) (h1 : h < π / 2) : Spec.Clock (arcClock h) := by
  have hT := tan_half_pos h0 h1
  have mono : StrictMono (arcClock h) := by
    intro s t hst
    rw [arcClock, arcClock]
    apply div_lt_div_of_pos_right _ (by positivity)
    have : arctan ((2 * s - 1) * tan (h / 2)) < arctan ((2 * t - 1) * tan (h / 2)) :=
      arctan_strictMono (by nlinarith)
    linarith
  have cont : Continuous (arcClock h) := by
    unfold arcClock
    exact ((continuous_const.mul (continuous_arctan.comp (by fun_prop))).add continuous_const).div_const _
  refine ⟨mono.strictMonoOn _, ?_⟩
  obtain ⟨e0, e1⟩ := arcClock_ends h0 h1
  apply subset_antisymm
  · rintro _ ⟨s, ⟨s0, s1⟩, rfl⟩
    exact ⟨by rw [← e0]; exact mono.monotone s0, by rw [← e1]; exact mono.monotone s1⟩
  · have := intermediate_value_Icc (zero_le_one (α := ℝ)) cont.continuousOn
    rwa [e0, e1] at this

/-- The rational quadratic over an arc of turn `2 h`, in the plane. -/
theorem arc_plane {h t : ℝ} (h0 : 0 < h) (h1 : h < π / 2) :
    0 < (1 - t) ^ 2 + 2 * t * (1 - t) * cos h + t ^ 2 ∧
    ((1 - t) ^ 2 + 2 * t * (1 - t) * cos h + t ^ 2) * cos (2 * h * arcClock h t) =
      (1 - t) ^ 2 + t * (1 - t) / cos h + (t ^ 2 + t * (1 - t) / cos h) * cos (2 * h) ∧
    ((1 - t) ^ 2 + 2 * t * (1 - t) * cos h + t ^ 2) * sin (2 * h * arcClock h t) =
      (t ^ 2 + t * (1 - t) / cos h) * sin (2 * h) := by
  obtain ⟨S, hS⟩ : ∃ S, S = sin (h / 2) := ⟨_, rfl⟩
  obtain ⟨C, hC⟩ : ∃ C, C = cos (h / 2) := ⟨_, rfl⟩
  have hCpos : 0 < C := hC ▸ cos_pos_of_mem_Ioo ⟨by linarith, by linarith⟩
  have hSpos : 0 < S := hS ▸ sin_pos_of_pos_of_lt_pi (by linarith) (by linarith)
  have hSC : S ^ 2 = 1 - C ^ 2 := by have := sin_sq_add_cos_sq (h / 2); rw [← hS, ← hC] at this; linarith
  have hkpos : 0 < cos h := cos_pos_of_mem_Ioo ⟨by linarith, h1⟩
  have hk : cos h = 2 * C ^ 2 - 1 := by
    rw [hC, show h = 2 * (h / 2) by ring, cos_two_mul]; ring_nf
  have hsh : sin h = 2 * S * C := by
    rw [hC, hS, show h = 2 * (h / 2) by ring, sin_two_mul]; ring_nf
  have hc2 : cos (2 * h) = 2 * cos h ^ 2 - 1 := cos_two_mul h
  have hs2 : sin (2 * h) = 2 * sin h * cos h := sin_two_mul h
  have hT : tan (h / 2) = S / C := by rw [tan_eq_sin_div_cos, hS, hC]
  obtain ⟨x, hx⟩ : ∃ x, x = 2 * t - 1 := ⟨_, rfl⟩
  have ht : t = (x + 1) / 2 := by rw [hx]; ring
  have hD : (1 - t) ^ 2 + 2 * t * (1 - t) * cos h + t ^ 2 = C ^ 2 + x ^ 2 * S ^ 2 := by
    rw [hk, hSC, ht]; ring
  have hDpos : 0 < C ^ 2 + x ^ 2 * S ^ 2 := by positivity
  obtain ⟨g, hg⟩ : ∃ g, g = arctan (x * (S / C)) := ⟨_, rfl⟩
  have hang : 2 * h * arcClock h t = h + 2 * g := by
    rw [arcClock, hT, ← hx, ← hg]; field_simp; ring
  have hden : 1 + (x * (S / C)) ^ 2 = (C ^ 2 + x ^ 2 * S ^ 2) / C ^ 2 := by field_simp
  have hcg : cos g ^ 2 = C ^ 2 / (C ^ 2 + x ^ 2 * S ^ 2) := by
    rw [hg, cos_sq_arctan, hden]; field_simp
  have hsg : sin g = x * (S / C) * cos g := by
    have := tan_mul_cos (cos_arctan_pos (x * (S / C))).ne'
    rw [tan_arctan, ← hg] at this; exact this.symm
  have h2c : (C ^ 2 + x ^ 2 * S ^ 2) * cos (2 * g) = C ^ 2 - x ^ 2 * S ^ 2 := by
    rw [cos_two_mul, hcg]; field_simp; ring
  have h2s : (C ^ 2 + x ^ 2 * S ^ 2) * sin (2 * g) = 2 * x * S * C := by
    rw [sin_two_mul, hsg, show 2 * (x * (S / C) * cos g) * cos g = 2 * (x * (S / C)) * cos g ^ 2 by ring, hcg]
    field_simp
  refine ⟨by rw [hD]; exact hDpos, ?_, ?_⟩
  · rw [hD, hang, cos_add, mul_sub, show (C ^ 2 + x ^ 2 * S ^ 2) * (cos h * cos (2 * g)) =
      cos h * ((C ^ 2 + x ^ 2 * S ^ 2) * cos (2 * g)) by ring,
      show (C ^ 2 + x ^ 2 * S ^ 2) * (sin h * sin (2 * g)) = sin h * ((C ^ 2 + x ^ 2 * S ^ 2) * sin (2 * g)) by ring,
      h2c, h2s, hc2, hsh]
    have hk' : 2 * C ^ 2 - 1 ≠ 0 := by rw [← hk]; exact hkpos.ne'
    rw [hk, ht]
    field_simp
    have : S ^ 2 = 1 - C ^ 2 := hSC
    linear_combination (4 * (2 * C ^ 2 - 1) * (-(2 * C ^ 2 - 1) * x ^ 2 - 4 * x * C ^ 2)) * this
  · rw [hD, hang, sin_add, mul_add, show (C ^ 2 + x ^ 2 * S ^ 2) * (sin h * cos (2 * g)) =
      sin h * ((C ^ 2 + x ^ 2 * S ^ 2) * cos (2 * g)) by ring,
      show (C ^ 2 + x ^ 2 * S ^ 2) * (cos h * sin (2 * g)) = cos h * ((C ^ 2 + x ^ 2 * S ^ 2) * sin (2 * g)) by ring,
      h2c, h2s, hs2, hsh]
    have hk' : 2 * C ^ 2 - 1 ≠ 0 := by rw [← hk]; exact hkpos.ne'
    rw [hk, ht]
    field_simp
    linear_combination (-2 * x ^ 2) * hSC

/-- The NURBS arc between two points of a circle that are `d` apart runs through the arc from one to the other. -/
theorem nurbArc_run {n a c : V3} (hn : dot n n = 1) (hv : dot n a = 0) (h0 : a ≠ 0) {d : ℝ} (hd0 : d ≠ 0) (hd : |d| < π) :
    ∃ pts ws ψ, calcNurbezierArc (c + a) (c + rodrigues n d a) c = some (pts, ws) ∧ Spec.Clock ψ ∧
      ∀ t : ℝ, nurbezier t pts ws = some (c + rodrigues n (d * ψ t) a) := by
  wlog hpos : 0 < d generalizing n d
  · have hneg : 0 < -d := by
      rcases lt_or_gt_of_ne hd0 with h | h
      · linarith
      · exact absurd h hpos
    have hv' : dot (-n) a = 0 := by simp [dot] at hv ⊢; linarith
    obtain ⟨pts, ws, ψ, e, hψ, ht⟩ := this (n := -n) (by simpa [dot] using hn) hv' (d := -d) hneg.ne'
      (by rwa [abs_neg]) hneg
    rw [rodrigues_neg n a hv, neg_neg] at e
    refine ⟨pts, ws, ψ, e, hψ, fun t => ?_⟩
    rw [ht t, rodrigues_neg n a hv]; congr 3; ring
  rw [abs_of_pos hpos] at hd
  obtain ⟨h, hh⟩ : ∃ h, h = d / 2 := ⟨_, rfl⟩
  have hd2 : d = 2 * h := by rw [hh]; ring
  have hh0 : 0 < h := by rw [hh]; linarith
  have hh1 : h < π / 2 := by rw [hh]; linarith
  have hk : 0 < cos h := cos_pos_of_mem_Ioo ⟨by linarith, hh1⟩
  obtain ⟨r, hr⟩ : ∃ r, r = norm3 a := ⟨_, rfl⟩
  have hrpos : 0 < r := hr ▸ norm3_pos h0
  have haa : dot a a = r ^ 2 := by rw [hr, norm3_sq]
  have haa0 : 0 < dot a a := by rw [haa]; positivity
  have hn1 : norm3 n = 1 := by rw [norm3, hn, sqrt_one]
  obtain ⟨b, hb⟩ : ∃ b, b = rodrigues n d a := ⟨_, rfl⟩
  have hnb : norm3 b = r := by rw [hb, norm3_rodrigues hn, hr]
  have hang : angleBetween a b = d := by
    have e1 : norm3 (cross a b) = dot a a * sin d := by
      rw [hb, cross_turn hn hv, norm3_smul, hn1, mul_one, abs_of_pos]
      exact mul_pos haa0 (sin_pos_of_pos_of_lt_pi hpos hd)
    rw [angleBetween, e1, hb, dot_turn hv]
    exact arctan2_polar haa0 (by linarith) hd.le
  have hbw : b = cos d • a + sin d • cross n a := by
    rw [hb, rodrigues, hv]; module
  have hcd : cos d = 2 * cos h ^ 2 - 1 := by rw [hd2, cos_two_mul]
  have hnab : norm3 (a + b) = 2 * r * cos h := by
    apply norm3_eq_of_dot (by positivity)
    have hbb : dot b b = r ^ 2 := by rw [← norm3_sq, hnb]
    have hab : dot a b = r ^ 2 * cos d := by rw [hb, dot_turn hv, haa]
    rw [dot_add_left, dot_add_right, dot_add_right, dot_comm b a, haa, hbb, hab, hcd]; ring
  have hmid : (1 / 2 : ℝ) • (c + a + (c + b)) - c = (1 / 2 : ℝ) • (a + b) := by module
  have hmn : norm3 ((1 / 2 : ℝ) • (a + b)) = r * cos h := by
    rw [norm3_smul, hnab, abs_of_pos (by norm_num)]; ring
  have hsc : sin h ^ 2 / cos h + cos h = 1 / cos h := by
    have := sin_sq_add_cos_sq h
    field_simp; linarith
  obtain ⟨p1, hp1⟩ : ∃ p1, p1 = (1 / (2 * cos h ^ 2)) • (a + b) + c := ⟨_, rfl⟩
  have harc : calcNurbezierArc (c + a) (c + b) c = some ([c + a, p1, c + b], [1, cos h, 1]) := by
    rw [calcNurbezierArc]
    simp only [add_sub_cancel_left]
    rw [hmid, normalizeVector, hmn, if_neg (by positivity), hang, ← hh]
    simp only
    rw [if_neg hk.ne', ← hr, hnb, hsc, smul_smul, smul_smul, hp1]
    congr 6
    field_simp; ring
  refine ⟨_, _, arcClock h, hb ▸ harc, arcClock_clock hh0 hh1, fun t => ?_⟩
  obtain ⟨hD, hcos, hsin⟩ := arc_plane (t := t) hh0 hh1
  obtain ⟨D, hDe⟩ : ∃ D, D = (1 - t) ^ 2 + 2 * t * (1 - t) * cos h + t ^ 2 := ⟨_, rfl⟩
  rw [← hDe] at hD hcos hsin
  have hW : bezierdc t [1, cos h, 1] = some D := by
    simp [bezierdc, dcStep]; rw [hDe]; ring
  have hP : bezierdc t (weighted [c + a, p1, c + b] [1, cos h, 1]) = some
      (D • c + ((1 - t) ^ 2 + t * (1 - t) / cos h) • a + (t ^ 2 + t * (1 - t) / cos h) • b) := by
    rw [hp1]
    have : t * (1 - t) / cos h = 2 * t * (1 - t) * cos h * (1 / (2 * cos h ^ 2)) := by field_simp
    rw [this]
    simp [bezierdc, dcStep, weighted]; rw [hDe]; module
  rw [← hb, nurbezier, if_pos (by simp), hP, hW]
  simp only
  rw [if_neg hD.ne']
  congr 1
  have hrot : rodrigues n (d * arcClock h t) a =
      D⁻¹ • ((D * cos (2 * h * arcClock h t)) • a + (D * sin (2 * h * arcClock h t)) • cross n a) := by
    rw [rodrigues, hv, hd2, smul_add, smul_smul, smul_smul, inv_mul_cancel_left₀ hD.ne', inv_mul_cancel_left₀ hD.ne']
    module
  rw [hrot, hcos, hsin, hbw, hd2, smul_add, smul_add, smul_smul, inv_mul_cancel₀ hD.ne', smul_add]
  module

/-- **C09, order.** The NURBS arc runs through exactly the points of the circular arc, from the first point to the second
on the shorter side, and never turns back. -/
theorem c09_order (p0 p2 c n : V3) (hn : dot n n = 1) (hv : dot n (p0 - c) = 0) (h0 : p0 ≠ c) (d : ℝ) (hd0 : d ≠ 0)
    (hd : |d| < π) (h2 : p2 = c + rodrigues n d (p0 - c)) :
    ∃ pts ws, calcNurbezierArc p0 p2 c = some (pts, ws) ∧
      Spec.Runs (fun t => nurbezier t pts ws) fun s => c + rodrigues n (d * s) (p0 - c) := by
  obtain ⟨pts, ws, ψ, e, hψ, ht⟩ := nurbArc_run (c := c) hn hv (sub_ne_zero.2 h0) hd0 hd
  rw [add_sub_cancel, ← h2] at e
  exact ⟨pts, ws, e, ψ, hψ, fun t _ => ht t⟩

/-- Concrete case for `c09_order`: a quarter circle. -/
example : dot OUT OUT = 1 ∧ dot OUT (RIGHT - (0 : V3)) = 0 ∧ RIGHT ≠ (0 : V3) ∧
    UP = 0 + rodrigues OUT (π / 2) (RIGHT - 0) := by
  refine ⟨by simp [dot, OUT], by simp [dot, OUT, RIGHT], fun h => by have := congrFun h 0; simp [RIGHT] at this, ?_⟩
  apply V3.ext3 <;> simp [rodrigues, dot, OUT, RIGHT, UP]

/-! ## Length tables -/

theorem generic_strict (f : ℝ → V3) (hf : InjOn f (Icc 0 1)) (n : ℕ) (hn : 1 ≤ n) :
    (⟨.generic f n, true, 0, 1, 0, Lookup.default⟩ : Curve).updateLengths.Strict := by
  have mem : ∀ i, i ≤ n → linspace 0 1 n i ∈ Icc (0 : ℝ) 1 := by
    intro i hi
    have hn' : (0 : ℝ) < n := by exact_mod_cast hn
    have : (i : ℝ) ≤ n := by exact_mod_cast hi
    rw [linspace]
    refine ⟨by positivity, ?_⟩
    rw [zero_add, sub_zero, one_mul]; exact (div_le_one hn').2 this
  refine c39_strict _ hn one_pos ?_
  intro f' n' e i hi heq
  injection e with e1 e2
  subst e1; subst e2
  have := hf (mem i hi.le) (mem (i + 1) hi) heq
  have hn' : (0 : ℝ) < n := by exact_mod_cast hn
  rw [linspace, linspace] at this
  push_cast at this
  field_simp at this
  linarith

/-- The length table of a fresh curve without double points only changes the speed. -/
theorem generic_clock (f : ℝ → V3) (hf : InjOn f (Icc 0 1)) (n : ℕ) (hn : 1 ≤ n) (act : Bool) :
    ∃ χ, Spec.Clock χ ∧ ∀ s ∈ Icc (0 : ℝ) 1, (Curve.make (.generic f n) act 0 1).s2t s = some (χ s) := by
  cases act with
  | false =>
    refine ⟨fun s => s, Spec.Clock.id, fun s hs => ?_⟩
    have d0 : Lookup.default.s 0 = -10 ^ 6 := rfl
    have d1 : Lookup.default.s 1 = 10 ^ 6 := rfl
    have e0 : Lookup.default.t 0 = -10 ^ 6 := rfl
    have e1 : Lookup.default.t 1 = 10 ^ 6 := rfl
    rw [Curve.make, if_neg (by simp), Curve.s2t, if_neg (not_lt.2 hs.1), if_neg (not_lt.2 hs.2)]
    change some (npInterp Lookup.default.s Lookup.default.t 1 s) = _
    rw [npInterp, if_neg (by rw [d0]; have := hs.1; norm_num; linarith)]
    have hl : lastLe Lookup.default.s s 1 = 0 := by
      rw [lastLe, if_neg (by rw [d1]; have := hs.2; norm_num; linarith)]; rfl
    simp only [hl]
    rw [if_neg (by norm_num), e0, e1, d0, d1]
    norm_num
  | true =>
    obtain ⟨c, hc⟩ : ∃ c : Curve, c = ⟨.generic f n, true, 0, 1, 0, Lookup.default⟩ := ⟨_, rfl⟩
    have hk : c.kind = .generic f n := by rw [hc]
    have ht0 : c.t0 = 0 := by rw [hc]
    have ht1 : c.t1 = 1 := by rw [hc]
    have hs : c.kind.Sampled := by rw [hk]; exact hn
    have hm : Curve.make (.generic f n) true 0 1 = c.updateLengths := by rw [Curve.make, if_pos rfl, hc]
    have hst : c.updateLengths.Strict := by rw [hc]; exact generic_strict f hf n hn
    have hval : ∀ s ∈ Icc (0 : ℝ) 1, ∃ t, c.updateLengths.s2t s = some t := fun s hs' => by
      obtain ⟨a, b, ha, -⟩ := c38_monotone c hs s s hs'.1 le_rfl hs'.2
      exact ⟨a, ha⟩
    refine ⟨fun s => (c.updateLengths.s2t s).getD 0, ⟨?_, ?_⟩, ?_⟩
    · intro x hx y hy hxy
      obtain ⟨a, b, ha, hb, hle, -⟩ := c38_monotone c hs x y hx.1 hxy.le hy.2
      simp only [ha, hb, Option.getD_some]
      refine lt_of_le_of_ne (hle (by rw [ht0, ht1]; exact zero_le_one)).2.1 fun e => ?_
      obtain ⟨⟨t, h1, h2⟩, -⟩ := c39_inverse _ hst x
      obtain ⟨⟨t', h1', h2'⟩, -⟩ := c39_inverse _ hst y
      rw [ha] at h1; rw [hb] at h1'
      rw [← Option.some.inj h1] at h2
      rw [← Option.some.inj h1', ← e, h2] at h2'
      exact hxy.ne (Option.some.inj h2')
    · apply subset_antisymm
      · rintro _ ⟨x, hx, rfl⟩
        obtain ⟨a, b, ha, hb, hle, -⟩ := c38_monotone c hs x x hx.1 le_rfl hx.2
        simp only [ha, Option.getD_some]
        have := hle (by rw [ht0, ht1]; exact zero_le_one)
        rw [hb] at ha
        rw [Option.some.inj ha] at this
        rw [ht0, ht1] at this
        exact ⟨this.1, this.2.2⟩
      · intro u hu
        obtain ⟨s, hs1, hs2⟩ := (c39_inverse _ hst u).2
        refine ⟨s, ?_, by simp only [hs2, Option.getD_some]⟩
        by_contra hns
        obtain ⟨z, hz⟩ : ∃ z, c.updateLengths.s2t 0 = some z := hval 0 ⟨le_rfl, zero_le_one⟩
        -- outside [0, 1] the parameter would be outside too
        have hT := hst.tab
        rw [Curve.t2s, updateLengths_t0, updateLengths_t1, ht0, ht1, if_neg (not_lt.2 hu.1), if_neg (not_lt.2 hu.2)] at hs1
        have h01 := interp_inverse (xp := c.updateLengths.lookup.t) (fp := c.updateLengths.lookup.s)
          (n := c.updateLengths.lookup.n) (x := u) hst.t_strict hst.s_strict
          (by rw [hT.t_zero, updateLengths_t0, ht0]; exact hu.1)
          (by rw [hT.t_last, updateLengths_t1, ht1]; exact hu.2) hT.pos
        rw [Option.some.inj hs1, hT.s_zero, hT.s_last] at h01
        exact hns ⟨h01.2.1, h01.2.2⟩
    · intro s hs'
      obtain ⟨t, ht⟩ := hval s hs'
      rw [hm]; simp only [ht, Option.getD_some]

theorem Spec.Clock.inv {ψ : ℝ → ℝ} (h : Spec.Clock ψ) :
    ∃ χ, Spec.Clock χ ∧ ∀ s ∈ Icc (0 : ℝ) 1, ψ (χ s) = s := by
  have ex : ∀ s : ℝ, ∃ u, s ∈ Icc (0 : ℝ) 1 → u ∈ Icc (0 : ℝ) 1 ∧ ψ u = s := by
    intro s
    by_cases hs : s ∈ Icc (0 : ℝ) 1
    · rw [← h.2] at hs; obtain ⟨u, hu, e⟩ := hs; exact ⟨u, fun _ => ⟨hu, e⟩⟩
    · exact ⟨0, fun h' => absurd h' hs⟩
  choose χ hχ using ex
  refine ⟨χ, ⟨?_, ?_⟩, fun s hs => (hχ s hs).2⟩
  · intro x hx y hy hxy
    by_contra hle
    have := h.1.monotoneOn (hχ y hy).1 (hχ x hx).1 (not_lt.1 hle)
    rw [(hχ x hx).2, (hχ y hy).2] at this
    linarith
  · apply subset_antisymm
    · rintro _ ⟨x, hx, rfl⟩; exact (hχ x hx).1
    · intro u hu
      refine ⟨ψ u, h.mem hu, ?_⟩
      exact h.1.injOn (hχ _ (h.mem hu)).1 hu (hχ _ (h.mem hu)).2

/-! ## C111 -/

/-- The objects for which the conversion is exact: lines and short arcs after any calls that move their ends, and
unreversed, untrimmed `TransformedCurve`s of such objects. -/
inductive Convertible (h : NurbHeap) : CurveObj → Prop
  | line {p q : V3} (hpq : p ≠ q) (ops : List LineOp) {c : Curve}
      (hc : lineRun (Curve.make (.line p q) true 0 1) ops = some c) (ht : c.t0 ≠ c.t1) : Convertible h (.plain c)
  | arc {asEuler : M3 → ℝ × ℝ × ℝ} (hE : EulerOk asEuler) {r ang y p w : ℝ} {m : V3} (hr : 0 < r) (hang : |ang| < π)
      (ops : List ArcOp) (ho : ∀ R, .setRotmat R ∈ ops → IsRot R) {a : ArcObj}
      (ha : (ArcObj.make r ang m y p w true).run asEuler ops = some a)
      (h0 : ang * (a.curve.t1 - a.curve.t0) ≠ 0) (h1 : |ang * (a.curve.t1 - a.curve.t0)| < π) :
      Convertible h (.plain a.curve)
  | moved (T : V3 →ᵃ[ℝ] V3) (hT : Function.Injective T) {target : CurveObj} (ht : Convertible h target) :
      Convertible h (.transformed h T target)

/-- What a converted object and its source have in common: a path `g` without double points. -/
structure Matches (o : NurbObj) (obj : CurveObj) (g : ℝ → V3) : Prop where
  kind : o.curve.kind = .generic (nurbFn o.nurb.points o.nurb.weights) 20
  inj : InjOn g (Icc 0 1)
  nurb : ∃ ψ, Spec.Clock ψ ∧ ∀ t ∈ Icc (0 : ℝ) 1, nurbezier t o.nurb.points o.nurb.weights = some (g (ψ t))
  table : ∃ χ, Spec.Clock χ ∧ ∀ s ∈ Icc (0 : ℝ) 1, o.curve.s2t s = some (χ s)
  source : ∃ φ, Spec.Clock φ ∧ ∀ h : NurbHeap, ∀ s ∈ Icc (0 : ℝ) 1, obj.eval h s = some (g (φ s))

theorem Matches.samePath {o : NurbObj} {obj : CurveObj} {g : ℝ → V3} (m : Matches o obj g) (h : NurbHeap) :
    Spec.SamePath o.curve.eval (obj.eval h) := by
  obtain ⟨ψ, hψ, e1⟩ := m.nurb
  obtain ⟨χ, hχ, e2⟩ := m.table
  obtain ⟨φ, hφ, e3⟩ := m.source
  obtain ⟨ι, hι, e4⟩ := hφ.inv
  refine ⟨fun s => ι (ψ (χ s)), (hχ.comp hψ).comp hι, fun s hs => ?_⟩
  have hv : o.curve.eval s = some (g (ψ (χ s))) := by
    rw [Curve.eval, e2 s hs, m.kind]
    simp only [Option.map_some, CurveKind.fn, nurbFn, e1 _ (hχ.mem hs), Option.getD_some]
  have hm := hψ.mem (hχ.mem hs)
  rw [hv, e3 h _ (hι.mem hm), e4 _ hm]
  exact ⟨rfl, rfl⟩

theorem nurbObj_matches {pts : List V3} {ws : List ℝ} {g : ℝ → V3} {ψ : ℝ → ℝ} (hψ : Spec.Clock ψ)
    (hg : ∀ t ∈ Icc (0 : ℝ) 1, nurbezier t pts ws = some (g (ψ t))) (hi : InjOn g (Icc 0 1)) (act : Bool) {obj : CurveObj}
    (hs : ∃ φ, Spec.Clock φ ∧ ∀ h : NurbHeap, ∀ s ∈ Icc (0 : ℝ) 1, obj.eval h s = some (g (φ s))) :
    Matches (NurbObj.make pts ws act) obj g := by
  refine ⟨?_, hi, ⟨ψ, hψ, hg⟩, ?_, hs⟩
  · cases act <;> simp [NurbObj.make, Curve.make, updateLengths_kind]
  · apply generic_clock _ _ 20 (by norm_num)
    intro x hx y hy e
    simp only [nurbFn, hg x hx, hg y hy, Option.getD_some] at e
    exact hψ.1.injOn hx hy (hi (hψ.mem hx) (hψ.mem hy) e)

theorem turn_inj {n a c : V3} (hn : dot n n = 1) (hv : dot n a = 0) (h0 : a ≠ 0) {d : ℝ} (hd0 : d ≠ 0) (hd : |d| < 2 * π)
    (x0 : ℝ) : InjOn (fun s => c + rodrigues n (x0 + d * s) a) (Icc 0 1) := by
  intro s hs t ht e
  have e' := add_left_cancel (show c + _ = c + _ from e)
  by_contra hne
  have haa : 0 < dot a a := by have := norm3_pos h0; rw [← norm3_sq]; positivity
  have key : cos (d * (s - t)) = 1 := by
    have h1 : dot (rodrigues n (x0 + d * s) a) (rodrigues n (x0 + d * t) a) = dot a a := by
      rw [← e', dot_rodrigues hn]
    rw [show x0 + d * s = d * (s - t) + (x0 + d * t) by ring, ← rodrigues_add hn hv] at h1
    obtain ⟨W, hW⟩ : ∃ W, W = rodrigues n (x0 + d * t) a := ⟨_, rfl⟩
    have hW0 : dot n W = 0 := by rw [hW, dot_axis_rodrigues hn, hv]
    have hWW : dot W W = dot a a := by rw [hW, dot_rodrigues hn]
    rw [← hW, dot_comm, dot_turn hW0, hWW] at h1
    have : dot a a * cos (d * (s - t)) = dot a a * 1 := by rw [h1, mul_one]
    exact mul_left_cancel₀ haa.ne' this
  have hlt : |d * (s - t)| < 2 * π := by
    rw [abs_mul]
    have h1 : |s - t| ≤ 1 := abs_le.2 ⟨by linarith [hs.1, ht.2], by linarith [hs.2, ht.1]⟩
    have := mul_le_mul_of_nonneg_left h1 (abs_nonneg d)
    linarith
  rw [cos_eq_one_iff_of_lt_of_lt (by linarith [(abs_lt.1 hlt).1]) (abs_lt.1 hlt).2] at key
  rcases mul_eq_zero.1 key with h | h
  · exact hd0 h
  · exact hne (sub_eq_zero.1 h)

theorem nurb_line (p q : V3) (t : ℝ) : nurbezier t [p, q] [1, 1] = some ((1 - t) • p + t • q) := by
  simp [nurbezier, weighted, bezierdc, dcStep]

theorem line_eval_good {c : Curve} {p q : V3} (h : LineGood c p q) (s : ℝ) :
    c.eval s = some ((1 - (c.t0 + (c.t1 - c.t0) * s)) • p + (c.t0 + (c.t1 - c.t0) * s) • q) := by
  have hs : c.s2t s = some (c.t0 + (c.t1 - c.t0) * s) := by
    rw [s2t_two _ (by rw [h.lookup]) (by rw [h.lookup]; rfl) (by rw [h.lookup]; rfl), h.lookup]
    simp
  rw [Curve.eval, hs, h.kind]; rfl

theorem convert_matches (fit : Curve → List V3 × List ℝ) {h0 : NurbHeap} {obj : CurveObj} (hc : Convertible h0 obj)
    (skip : Bool) (h : NurbHeap) :
    ∃ o g, convertCurve fit obj skip h = some ([h.length], h ++ [o]) ∧ Matches o obj g := by
  induction hc generalizing skip with
  | @line p q hpq ops c hc ht =>
    have hg : LineGood c p q := lineRun_good ops (by rw [Curve.make, if_pos rfl]; exact LineGood.upd rfl) hc
    obtain ⟨P, hP⟩ : ∃ P, c.eval 0 = some P := ⟨_, line_eval_good hg 0⟩
    obtain ⟨Q, hQ⟩ : ∃ Q, c.eval 1 = some Q := ⟨_, line_eval_good hg 1⟩
    have eP := line_eval_good hg 0
    have eQ := line_eval_good hg 1
    rw [hP, Option.some.injEq] at eP
    rw [hQ, Option.some.injEq] at eQ
    refine ⟨NurbObj.make [P, Q] [1, 1] c.active, fun s => (1 - s) • P + s • Q, ?_, ?_⟩
    · rw [convertCurve, convertPlain, hg.kind]; simp only [hP, hQ, Option.map_some]
    · refine nurbObj_matches Spec.Clock.id (fun t _ => nurb_line P Q t) ?_ _ ⟨_, Spec.Clock.id, fun h s _ => ?_⟩
      · intro x _ y _ e
        have hPQ : P ≠ Q := by
          intro e'
          rw [eP, eQ] at e'
          have := line_param_inj hpq e'
          apply ht; linarith
        exact line_param_inj hPQ e
      · rw [CurveObj.eval, line_eval_good hg, eP, eQ]; congr 1; module
  | @arc asEuler hE r ang y p w m hr hang ops ho a ha h0 h1 =>
    obtain ⟨M, hg⟩ := ArcObj.run_good hE ops (ArcObj.make_good r ang m y p w) ho ha
    obtain ⟨hn, hv⟩ := arc_frame hg.rot r
    have hne := app_RIGHT_ne hg.rot hr
    obtain ⟨d, hd⟩ : ∃ d, d = ang * (a.curve.t1 - a.curve.t0) := ⟨_, rfl⟩
    rw [← hd] at h0 h1
    obtain ⟨A, hA⟩ : ∃ A, A = rodrigues (app M OUT) (ang * a.curve.t0) (app M (r • RIGHT)) := ⟨_, rfl⟩
    have hvA : dot (app M OUT) A = 0 := by rw [hA, dot_axis_rodrigues hn, hv]
    have hA0 : A ≠ 0 := by
      intro e
      have : norm3 A = norm3 (app M (r • RIGHT)) := by rw [hA, norm3_rodrigues hn]
      rw [e] at this
      exact (norm3_pos hne).ne (by rw [← this]; simp [norm3, dot])
    have hev : ∀ s, a.curve.eval s = some (m + rodrigues (app M OUT) (d * s) A) := by
      intro s
      rw [hg.eval, hA, rodrigues_add hn hv, hd]; congr 3; ring
    obtain ⟨pts, ws, ψ, e, hψ, ht⟩ := nurbArc_run (c := m) hn hvA hA0 h0 h1
    refine ⟨NurbObj.make pts ws a.curve.active, fun s => m + rodrigues (app M OUT) (d * s) A, ?_, ?_⟩
    · rw [convertCurve, convertPlain, hg.kind]
      simp only
      rw [if_pos hang, hev, hev]
      simp only [mul_one, mul_zero]
      rw [show rodrigues (app M OUT) 0 A = A by rw [rodrigues]; simp, e]; rfl
    · refine nurbObj_matches hψ (fun t _ => ht t) ?_ _ ⟨_, Spec.Clock.id, fun h s _ => hev s⟩
      have := turn_inj (c := m) hn hvA hA0 h0 (by linarith [pi_pos]) 0
      simpa using this
  | @moved T hT target _ ih =>
    obtain ⟨o, g, e, m⟩ := ih true
    refine ⟨o.applyTransform T, fun s => T (g s), ?_, ?_⟩
    · rw [CurveObj.transformed, convertCurve, e]
      simp [moveAll, List.modify_eq_set_getElem?]
    · obtain ⟨ψ, hψ, e1⟩ := m.nurb
      obtain ⟨χ, hχ, e2⟩ := m.table
      obtain ⟨φ, hφ, e3⟩ := m.source
      refine ⟨rfl, fun x hx y hy e => m.inj hx hy (hT e), ⟨ψ, hψ, fun t ht => ?_⟩, ⟨χ, hχ, e2⟩, ?_⟩
      · simp only [NurbObj.applyTransform]
        rw [c03_affine_invariance, e1 t ht]; rfl
      · obtain ⟨f, hf⟩ : ∃ f, f = fun t => ((target.eval h0 t).map T).getD 0 := ⟨_, rfl⟩
        have hfv : ∀ t ∈ Icc (0 : ℝ) 1, f t = T (g (φ t)) := by
          intro t ht; rw [hf]; simp only [e3 h0 t ht, Option.map_some, Option.getD_some]
        obtain ⟨κ, hκ, e4⟩ := generic_clock f (by
          intro x hx y hy e
          rw [hfv x hx, hfv y hy] at e
          exact hφ.1.injOn hx hy (m.inj (hφ.mem hx) (hφ.mem hy) (hT e))) 20 (by norm_num) (target.active h0)
        refine ⟨fun s => φ (κ s), hκ.comp hφ, fun h s hs => ?_⟩
        rw [CurveObj.transformed, CurveObj.eval, ← hf, e4 s hs]
        simp only [Option.bind_some, e3 h _ (hκ.mem hs), Option.map_some]

/-- **C111 (partial).** Conversion of a line, of an arc of less than half a turn, or of a fresh `TransformedCurve` of such a
curve creates one new `NurbCurve`, which runs through the same points in the same order. Nothing else changes. -/
theorem c111_partial (fit : Curve → List V3 × List ℝ) (h0 : NurbHeap) (obj : CurveObj) (hc : Convertible h0 obj)
    (skip : Bool) (h : NurbHeap) :
    ∃ o, convertCurve fit obj skip h = some ([h.length], h ++ [o]) ∧ Spec.SamePath o.curve.eval (obj.eval h) := by
  obtain ⟨o, g, e, m⟩ := convert_matches fit hc skip h
  exact ⟨o, e, m.samePath h⟩

theorem convertible_heap {h0 : NurbHeap} {obj : CurveObj} (hc : Convertible h0 obj) (h h' : NurbHeap) :
    obj.active h = obj.active h' ∧ ∀ s ∈ Icc (0 : ℝ) 1, obj.eval h s = obj.eval h' s := by
  refine ⟨by cases hc <;> rfl, fun s hs => ?_⟩
  obtain ⟨_, g, -, m⟩ := convert_matches (fun _ => ([], [])) hc true []
  obtain ⟨φ, -, e⟩ := m.source
  rw [e h s hs, e h' s hs]

/-- **C111, chains (partial).** A chain of such curves becomes the list of the conversions of its active members (of all
members with `skip_inactive=False`), in order. -/
theorem c111_chain_partial (fit : Curve → List V3 × List ℝ) (h0 : NurbHeap) (ms : List CurveObj) (flag skip : Bool)
    (hm : ∀ m ∈ ms, Convertible h0 m ∨ (skip = true ∧ ∀ h, m.active h = false)) (h : NurbHeap) :
    ∃ os, convertCurve fit (.chain ms flag) skip h = some (List.range' h.length os.length, h ++ os) ∧
      List.Forall₂ (fun o m => Spec.SamePath o.curve.eval (m.eval h)) os (ms.filter fun m => m.active h || !skip) := by
  rw [convertCurve]
  induction ms generalizing h with
  | nil => exact ⟨[], by simp [convertCurve.members], by simp⟩
  | cons m ms ih =>
    have ih := ih fun m' hm' => hm m' (List.mem_cons_of_mem _ hm')
    rw [convertCurve.members]
    rcases hm m List.mem_cons_self with hc | ⟨hsk, hin⟩
    · by_cases hact : (m.active h || !skip) = true
      · rw [if_pos hact]
        obtain ⟨o, e, sp⟩ := c111_partial fit h0 m hc true h
        obtain ⟨os, e', fa⟩ := ih (h ++ [o])
        refine ⟨o :: os, ?_, ?_⟩
        · rw [e]; simp only [Option.bind_some]
          rw [e']; simp [List.range'_succ]
        · rw [List.filter_cons_of_pos (by exact hact)]
          refine List.Forall₂.cons sp ?_
          have hf : (ms.filter fun m => m.active (h ++ [o]) || !skip) = ms.filter fun m => m.active h || !skip := by
            apply List.filter_congr
            intro m' hm'
            rcases hm m' (List.mem_cons_of_mem _ hm') with hc' | ⟨hsk, hin⟩
            · rw [(convertible_heap hc' (h ++ [o]) h).1]
            · rw [hin, hin]
          rw [hf] at fa
          refine List.forall₂_iff_get.2 ⟨(List.forall₂_iff_get.1 fa).1, fun i h1 h2 => ?_⟩
          obtain ⟨ψ, hψ, hv⟩ := (List.forall₂_iff_get.1 fa).2 i h1 h2
          refine ⟨ψ, hψ, fun s hs => ?_⟩
          have hmem : (ms.filter fun m => m.active h || !skip).get ⟨i, h2⟩ ∈ ms.filter fun m => m.active h || !skip :=
            List.get_mem _ _
          rw [List.mem_filter] at hmem
          rcases hm _ (List.mem_cons_of_mem _ hmem.1) with hc' | ⟨hsk, hin⟩
          · rw [(convertible_heap hc' h (h ++ [o])).2 _ (hψ.mem hs)]; exact hv s hs
          · have := hmem.2; rw [hin, Bool.false_or] at this; simp [hsk] at this
      · rw [if_neg hact, List.filter_cons_of_neg (by exact hact)]; exact ih h
    · have hact : ¬ (m.active h || !skip) = true := by rw [hin, hsk]; simp
      rw [if_neg hact, List.filter_cons_of_neg (by exact hact)]; exact ih h

/-! ### Existing `NurbCurve`s -/

mutual
/-- No `NurbCurve` in the object. -/
def CurveObj.Fresh : CurveObj → Prop
  | .nurb _ => False
  | .plain _ => True
  | .moved _ target _ => target.Fresh
  | .chain ms _ => CurveObj.AllFresh ms
/-- No `NurbCurve` in the members. -/
def CurveObj.AllFresh : List CurveObj → Prop
  | [] => True
  | m :: ms => m.Fresh ∧ CurveObj.AllFresh ms
end

mutual
/-- No `TransformedCurve` above a `NurbCurve`. -/
def CurveObj.Safe : CurveObj → Prop
  | .nurb _ => True
  | .plain _ => True
  | .moved _ target _ => target.Fresh
  | .chain ms _ => CurveObj.AllSafe ms
/-- The same for the members. -/
def CurveObj.AllSafe : List CurveObj → Prop
  | [] => True
  | m :: ms => m.Safe ∧ CurveObj.AllSafe ms
end

/-- `h'` contains the objects of `h` unchanged. -/
def Extends (h h' : NurbHeap) : Prop := h.length ≤ h'.length ∧ ∀ i < h.length, h'[i]? = h[i]?

theorem Extends.trans {h h' h'' : NurbHeap} (a : Extends h h') (b : Extends h' h'') : Extends h h'' :=
  ⟨a.1.trans b.1, fun i hi => (b.2 i (lt_of_lt_of_le hi a.1)).trans (a.2 i hi)⟩

theorem moveAll_extends (T : V3 → V3) (h : NurbHeap) : ∀ (refs : List ℕ) (h' : NurbHeap), Extends h h' →
    (∀ r ∈ refs, h.length ≤ r) → Extends h (moveAll T refs h')
  | [], h', e, _ => e
  | r :: refs, h', e, hr => by
    rw [moveAll, List.foldl_cons]
    refine moveAll_extends T h refs _ ⟨by rw [List.length_modify]; exact e.1, fun i hi => ?_⟩
      fun r' hr' => hr r' (List.mem_cons_of_mem _ hr')
    have hne : r ≠ i := by have := hr r List.mem_cons_self; omega
    rw [List.getElem?_modify, e.2 i hi]
    simp [hne]

mutual
theorem convert_fresh (fit : Curve → List V3 × List ℝ) : ∀ (obj : CurveObj) (skip : Bool) (h h' : NurbHeap)
    (refs : List ℕ), obj.Fresh → convertCurve fit obj skip h = some (refs, h') →
    Extends h h' ∧ ∀ r ∈ refs, h.length ≤ r
  | .nurb _, _, _, _, _, hf, _ => absurd hf (by simp [CurveObj.Fresh])
  | .plain c, skip, h, h', refs, _, e => by
    rw [convertCurve, Option.map_eq_some_iff] at e
    obtain ⟨x, -, e⟩ := e
    cases e
    exact ⟨⟨by simp, fun i hi => List.getElem?_append_left hi⟩, by simp⟩
  | .moved T target own, skip, h, h', refs, hf, e => by
    rw [convertCurve, Option.map_eq_some_iff] at e
    obtain ⟨x, hx, e⟩ := e
    cases e
    rw [CurveObj.Fresh] at hf
    obtain ⟨h1, h2⟩ := convert_fresh fit target true h x.2 x.1 hf hx
    exact ⟨moveAll_extends T h _ _ h1 h2, h2⟩
  | .chain ms flag, skip, h, h', refs, hf, e => by
    rw [convertCurve] at e
    rw [CurveObj.Fresh] at hf
    exact convert_fresh_members fit ms skip h h' refs hf e
theorem convert_fresh_members (fit : Curve → List V3 × List ℝ) : ∀ (ms : List CurveObj) (skip : Bool) (h h' : NurbHeap)
    (refs : List ℕ), CurveObj.AllFresh ms → convertCurve.members fit ms skip h = some (refs, h') →
    Extends h h' ∧ ∀ r ∈ refs, h.length ≤ r
  | [], _, h, h', refs, _, e => by
    rw [convertCurve.members] at e; cases e
    exact ⟨⟨le_rfl, fun _ _ => rfl⟩, by simp⟩
  | m :: ms, skip, h, h', refs, hf, e => by
    rw [convertCurve.members] at e
    rw [CurveObj.AllFresh] at hf
    split at e
    · rw [Option.bind_eq_some_iff] at e
      obtain ⟨x, hx, e⟩ := e
      rw [Option.map_eq_some_iff] at e
      obtain ⟨y, hy, e⟩ := e
      cases e
      obtain ⟨h1, h2⟩ := convert_fresh fit m true h x.2 x.1 hf.1 hx
      obtain ⟨h3, h4⟩ := convert_fresh_members fit ms skip x.2 y.2 y.1 hf.2 hy
      refine ⟨h1.trans h3, fun r hr => ?_⟩
      rcases List.mem_append.1 hr with hr | hr
      · exact h2 r hr
      · exact h1.1.trans (h4 r hr)
    · exact convert_fresh_members fit ms skip h h' refs hf.2 e
end

mutual
theorem convert_safe (fit : Curve → List V3 × List ℝ) : ∀ (obj : CurveObj) (skip : Bool) (h h' : NurbHeap)
    (refs : List ℕ), obj.Safe → convertCurve fit obj skip h = some (refs, h') → Extends h h'
  | .nurb _, _, h, h', refs, _, e => by
    rw [convertCurve] at e; cases e; exact ⟨le_rfl, fun _ _ => rfl⟩
  | .plain c, skip, h, h', refs, _, e => (convert_fresh fit (.plain c) skip h h' refs (by simp [CurveObj.Fresh]) e).1
  | .moved T target own, skip, h, h', refs, hf, e => by
    rw [CurveObj.Safe] at hf
    exact (convert_fresh fit (.moved T target own) skip h h' refs (by rw [CurveObj.Fresh]; exact hf) e).1
  | .chain ms flag, skip, h, h', refs, hf, e => by
    rw [convertCurve] at e
    rw [CurveObj.Safe] at hf
    exact convert_safe_members fit ms skip h h' refs hf e
theorem convert_safe_members (fit : Curve → List V3 × List ℝ) : ∀ (ms : List CurveObj) (skip : Bool) (h h' : NurbHeap)
    (refs : List ℕ), CurveObj.AllSafe ms → convertCurve.members fit ms skip h = some (refs, h') → Extends h h'
  | [], _, h, h', refs, _, e => by
    rw [convertCurve.members] at e; cases e
    exact ⟨le_rfl, fun _ _ => rfl⟩
  | m :: ms, skip, h, h', refs, hf, e => by
    rw [convertCurve.members] at e
    rw [CurveObj.AllSafe] at hf
    split at e
    · rw [Option.bind_eq_some_iff] at e
      obtain ⟨x, hx, e⟩ := e
      rw [Option.map_eq_some_iff] at e
      obtain ⟨y, hy, e⟩ := e
      cases e
      exact (convert_safe fit m true h x.2 x.1 hf.1 hx).trans (convert_safe_members fit ms skip x.2 y.2 y.1 hf.2 hy)
    · exact convert_safe_members fit ms skip h h' refs hf.2 e
end

/-- **C111, side effects (partial).** Unless a `TransformedCurve` stands above a `NurbCurve`, the conversion changes no
existing `NurbCurve`, however chains and transformations are nested. -/
theorem c111_pure_partial (fit : Curve → List V3 × List ℝ) (obj : CurveObj) (skip : Bool) (h h' : NurbHeap)
    (refs : List ℕ) (hs : obj.Safe) (e : convertCurve fit obj skip h = some (refs, h')) (i : ℕ) (hi : i < h.length) :
    h'[i]? = h[i]? := (convert_safe fit obj skip h h' refs hs e).2 i hi

theorem nurb_line_inj {p q : V3} (hpq : p ≠ q) : InjOn (nurbFn [p, q] [1, 1]) (Icc 0 1) := by
  intro x _ y _ e
  simp only [nurbFn, nurb_line, Option.getD_some] at e
  exact line_param_inj hpq e

/-- **C111 fails: a `NurbCurve` under a `TransformedCurve` is moved itself.** The conversion of a translated `NurbCurve`
translates the original object; the translated curve, which refers to it, is then displaced twice. -/
theorem c111_alias_violated (fit : Curve → List V3 × List ℝ) (p q v : V3) (hpq : p ≠ q) (hv : v ≠ 0) :
    ∃ h obj h', h = [NurbObj.make [p, q] [1, 1] true] ∧ obj = CurveObj.transformed h (fun x => x + v) (.nurb 0) ∧
      convertCurve fit obj true h = some ([0], h') ∧
      (CurveObj.nurb 0).eval h 0 = some p ∧ (CurveObj.nurb 0).eval h' 0 = some (p + v) ∧
      obj.eval h 0 = some (p + v) ∧ obj.eval h' 0 = some (p + v + v) ∧ p + v + v ≠ p + v := by
  obtain ⟨o, ho⟩ : ∃ o, o = NurbObj.make [p, q] [1, 1] true := ⟨_, rfl⟩
  have z : (0 : ℝ) ∈ Icc (0 : ℝ) 1 := ⟨le_rfl, zero_le_one⟩
  obtain ⟨χ, hχ, e⟩ := generic_clock _ (nurb_line_inj hpq) 20 (by norm_num) true
  have hev : ∀ s ∈ Icc (0 : ℝ) 1, o.curve.eval s = some ((1 - χ s) • p + χ s • q) := by
    intro s hs
    have hk : o.curve.kind = .generic (nurbFn [p, q] [1, 1]) 20 := by
      simp [ho, NurbObj.make, Curve.make, updateLengths_kind]
    have hs2 : o.curve.s2t s = some (χ s) := by rw [ho]; exact e s hs
    rw [Curve.eval, hs2, hk]
    simp [CurveKind.fn, nurbFn, nurb_line]
  have hmv : (o.applyTransform fun x => x + v).curve.eval 0 = some (p + v) := by
    have hs2 : (o.applyTransform fun x => x + v).curve.s2t 0 = some 0 := by
      change o.curve.s2t 0 = _
      rw [ho, ← hχ.ends.1, hχ.ends.1]; rw [show (NurbObj.make [p, q] [1, 1] true).curve.s2t 0 = some (χ 0) from e 0 z, hχ.ends.1]
    rw [Curve.eval, hs2]
    simp [NurbObj.applyTransform, ho, NurbObj.make, CurveKind.fn, nurbFn, nurb_line]
  obtain ⟨f, hf⟩ : ∃ f, f = fun t => (((CurveObj.nurb 0).eval [o] t).map fun x => x + v).getD 0 := ⟨_, rfl⟩
  have hfv : ∀ t ∈ Icc (0 : ℝ) 1, f t = (1 - χ t) • p + χ t • q + v := by
    intro t ht
    rw [hf]; simp [CurveObj.eval, hev t ht]
  obtain ⟨κ, hκ, e4⟩ := generic_clock f (by
    intro x hx y hy e
    rw [hfv x hx, hfv y hy] at e
    exact hχ.1.injOn hx hy (line_param_inj hpq (add_right_cancel e))) 20 (by norm_num) ((CurveObj.nurb 0).active [o])
  have hk0 := e4 0 z
  rw [hκ.ends.1] at hk0
  refine ⟨[o], _, [o.applyTransform fun x => x + v], by rw [ho], rfl, ?_, ?_, ?_, ?_, ?_, ?_⟩
  · simp [CurveObj.transformed, convertCurve, moveAll]
  · simp [CurveObj.eval, hev 0 z, hχ.ends.1]
  · simp [CurveObj.eval, hmv]
  · rw [CurveObj.transformed, CurveObj.eval, ← hf, hk0]
    simp [CurveObj.eval, hev 0 z, hχ.ends.1]
  · rw [CurveObj.transformed, CurveObj.eval, ← hf, hk0]
    simp [CurveObj.eval, hmv]
  · intro e; exact hv (by simpa using e)

/-- **C111 fails: a reversed `TransformedCurve` is converted in its old direction.** -/
theorem c111_reversed_violated (fit : Curve → List V3 × List ℝ) (T : V3 →ᵃ[ℝ] V3) (hT : Function.Injective T) (p q : V3)
    (hpq : p ≠ q) :
    ∃ obj o, obj = (CurveObj.transformed [] T (.plain (lineC p q))).reverseMoved ∧
      convertCurve fit obj true [] = some ([0], [o]) ∧ obj.eval [] 0 = some (T q) ∧ o.curve.eval 0 = some (T p) ∧
      T q ≠ T p := by
  have z : (0 : ℝ) ∈ Icc (0 : ℝ) 1 := ⟨le_rfl, zero_le_one⟩
  have hc : Convertible [] (.plain (lineC p q)) := Convertible.line hpq [] rfl (by
    rw [lineC, Curve.make, if_pos rfl, updateLengths_t0, updateLengths_t1]; norm_num)
  obtain ⟨o, e, ψ, hψ, sp⟩ := c111_partial fit [] _ (Convertible.moved T hT hc) true []
  obtain ⟨f, hf⟩ : ∃ f, f = fun t => (((CurveObj.plain (lineC p q)).eval [] t).map T).getD 0 := ⟨_, rfl⟩
  have hfv : ∀ t, f t = T ((1 - t) • p + t • q) := by
    intro t; rw [hf]; simp [CurveObj.eval, lineC_eval]
  have hinj : InjOn f (Icc 0 1) := by
    intro x _ y _ e'
    rw [hfv, hfv] at e'
    exact line_param_inj hpq (hT e')
  obtain ⟨κ, hκ, e4⟩ := generic_clock f hinj 20 (by norm_num) true
  have hact : (CurveObj.plain (lineC p q)).active [] = true := lineC_active p q
  have hev : (CurveObj.transformed [] T (.plain (lineC p q))).eval [] 0 = some (T p) := by
    rw [CurveObj.transformed, CurveObj.eval, ← hf, hact, e4 0 z, hκ.ends.1]
    simp [CurveObj.eval, lineC_eval]
  refine ⟨_, o, rfl, ?_, ?_, ?_, fun h => hpq (hT h).symm⟩
  · exact e
  · rw [CurveObj.transformed, CurveObj.reverseMoved, CurveObj.eval, ← hf, hact]
    have hrev : (Curve.make (.generic f 20) true 0 1).reverse.s2t 0 = some 1 := by
      have hst := generic_strict f hinj 20 (by norm_num)
      obtain ⟨c, hc⟩ : ∃ c, c = Curve.make (.generic f 20) true 0 1 := ⟨_, rfl⟩
      have hst' : c.Strict := by rw [hc, Curve.make, if_pos rfl]; exact hst
      have ht1 : c.t1 = 1 := by rw [hc, Curve.make, if_pos rfl, updateLengths_t1]
      have hT := hst'.tab
      rw [← hc, Curve.s2t, if_neg (lt_irrefl _), if_neg (by norm_num)]
      have := npInterp_seg' (xp := c.lookup.s) (fp := fun i => c.lookup.t (c.lookup.n - i)) (x := 0) (k := 0)
        (n := c.lookup.n) hT.pos hst'.s_strict hT.s_zero.le (by
          rw [← hT.s_zero]; exact (hst'.s_strict 0 1 one_pos hT.pos).le)
      change some (npInterp c.lookup.s (fun i => c.lookup.t (c.lookup.n - i)) c.lookup.n 0) = _
      rw [this, hT.s_zero]; simp [hT.t_last, ht1]
    rw [hrev]; simp [CurveObj.eval, lineC_eval]
  · rw [(sp 0 z).1, hψ.ends.1, hev]

/-- **C111 fails for arcs extended beyond a half turn.** The test for the exact conversion looks at the angle the arc was
built with; if `set_start_on` or `set_end_on` has extended the arc to between a half and a full turn, the converted curve
runs through the complementary arc. -/
theorem c111_arc_violated (fit : Curve → List V3 × List ℝ) {asEuler : M3 → ℝ × ℝ × ℝ} (hE : EulerOk asEuler) (r ang : ℝ)
    (m : V3) (y p w : ℝ) (hr : 0 < r) (hang : |ang| < π) (ops : List ArcOp) (ho : ∀ R, .setRotmat R ∈ ops → IsRot R)
    (a : ArcObj) (ha : (ArcObj.make r ang m y p w true).run asEuler ops = some a)
    (h0 : π < |ang * (a.curve.t1 - a.curve.t0)|) (h1 : |ang * (a.curve.t1 - a.curve.t0)| < 2 * π) (skip : Bool)
    (h : NurbHeap) :
    ∃ o q, convertCurve fit (.plain a.curve) skip h = some ([h.length], h ++ [o]) ∧
      a.curve.eval (1 / 2) = some q ∧ q ∉ Spec.trace o.curve.eval := by
  obtain ⟨M, hg⟩ := ArcObj.run_good hE ops (ArcObj.make_good r ang m y p w) ho ha
  obtain ⟨hn, hv⟩ := arc_frame hg.rot r
  have hne := app_RIGHT_ne hg.rot hr
  have hpi := pi_pos
  obtain ⟨D, hD⟩ : ∃ D, D = ang * (a.curve.t1 - a.curve.t0) := ⟨_, rfl⟩
  rw [← hD] at h0 h1
  obtain ⟨A, hA⟩ : ∃ A, A = rodrigues (app M OUT) (ang * a.curve.t0) (app M (r • RIGHT)) := ⟨_, rfl⟩
  have hvA : dot (app M OUT) A = 0 := by rw [hA, dot_axis_rodrigues hn, hv]
  have hA0 : A ≠ 0 := by
    intro e
    have : norm3 A = norm3 (app M (r • RIGHT)) := by rw [hA, norm3_rodrigues hn]
    rw [e] at this
    exact (norm3_pos hne).ne (by rw [← this]; simp [norm3, dot])
  have hev : ∀ s, a.curve.eval s = some (m + rodrigues (app M OUT) (D * s) A) := by
    intro s
    rw [hg.eval, hA, rodrigues_add hn hv, hD]; congr 3; ring
  have main : ∀ d : ℝ, d ≠ 0 → |d| < π → rodrigues (app M OUT) D A = rodrigues (app M OUT) d A →
      (∀ s : ℝ, 0 ≤ s → s ≤ 1 → cos (D / 2 - d * s) ≠ 1) →
      ∃ o q, convertCurve fit (.plain a.curve) skip h = some ([h.length], h ++ [o]) ∧
      a.curve.eval (1 / 2) = some q ∧ q ∉ Spec.trace o.curve.eval := by
    intro d hd0 hd he hcos
    obtain ⟨pts, ws, ψ, e, hψ, ht⟩ := nurbArc_run (c := m) hn hvA hA0 hd0 hd
    have hti := turn_inj (c := m) hn hvA hA0 hd0 (by linarith) 0
    obtain ⟨χ, hχ, e2⟩ := generic_clock (nurbFn pts ws) (by
      intro x hx y hy e'
      simp only [nurbFn, ht, Option.getD_some] at e'
      exact hψ.1.injOn hx hy (hti (hψ.mem hx) (hψ.mem hy) (by simpa using e'))) 20 (by norm_num) a.curve.active
    refine ⟨NurbObj.make pts ws a.curve.active, _, ?_, hev _, ?_⟩
    · rw [convertCurve, convertPlain, hg.kind]
      simp only
      rw [if_pos hang, hev, hev]
      simp only [mul_one, mul_zero]
      rw [show rodrigues (app M OUT) 0 A = A by rw [rodrigues]; simp, he, e]; rfl
    · rintro ⟨s, hs, es⟩
      have hk : (NurbObj.make pts ws a.curve.active).curve.kind = .generic (nurbFn pts ws) 20 := by
        cases a.curve.active <;> simp [NurbObj.make, Curve.make, updateLengths_kind]
      rw [Curve.eval, show (NurbObj.make pts ws a.curve.active).curve.s2t s = some (χ s) from e2 s hs, hk] at es
      simp only [Option.map_some, CurveKind.fn, nurbFn, ht, Option.getD_some, Option.some.injEq] at es
      have hm := hψ.mem (hχ.mem hs)
      apply hcos (ψ (χ s)) hm.1 hm.2
      have es := (add_left_cancel es).symm
      rw [show D * (1 / 2) = (D / 2 - d * ψ (χ s)) + d * ψ (χ s) by ring] at es
      obtain ⟨W, hW⟩ : ∃ W, W = rodrigues (app M OUT) (d * ψ (χ s)) A := ⟨_, rfl⟩
      have hWn : dot (app M OUT) W = 0 := by rw [hW, dot_axis_rodrigues hn, hvA]
      rw [← rodrigues_add hn hvA, ← hW] at es
      have hdt := dot_turn hWn (D / 2 - d * ψ (χ s))
      rw [es] at hdt
      have hWW : dot W W ≠ 0 := by
        rw [← norm3_sq, hW, norm3_rodrigues hn]
        exact pow_ne_zero _ (norm3_pos hA0).ne'
      exact (mul_right_eq_self₀.1 hdt.symm).resolve_right hWW
  have hlt : ∀ x : ℝ, 0 < x → x < 2 * π → cos x ≠ 1 := by
    intro x x0 x1 e
    have := (cos_eq_one_iff_of_lt_of_lt (by linarith) x1).1 e
    linarith
  rcases lt_or_ge D 0 with hneg | hpos
  · rw [abs_of_neg hneg] at h0 h1
    refine main (D + 2 * π) (by linarith) (by rw [abs_of_pos (by linarith)]; linarith) ?_ fun s s0 s1 => ?_
    · rw [rodrigues, rodrigues, cos_add_two_pi, sin_add_two_pi]
    · rw [← cos_neg]
      apply hlt <;> nlinarith
  · rw [abs_of_nonneg hpos] at h0 h1
    refine main (D - 2 * π) (by linarith) (by rw [abs_of_neg (by linarith)]; linarith) ?_ fun s s0 s1 => ?_
    · rw [rodrigues, rodrigues, cos_sub_two_pi, sin_sub_two_pi]
    · apply hlt <;> nlinarith

/-- A quarter circle extended to three quarters meets the conditions of `c111_arc_violated`. -/
theorem c111_arc_violated_case (asEuler : M3 → ℝ × ℝ × ℝ) : ∃ a,
    (ArcObj.make 1 (π / 2) 0 0 0 0 true).run asEuler [.setEnd 3] = some a ∧ |π / 2| < π ∧
    π < |π / 2 * (a.curve.t1 - a.curve.t0)| ∧ |π / 2 * (a.curve.t1 - a.curve.t0)| < 2 * π := by
  have hl := (ArcObj.make_good 1 (π / 2) 0 0 0 0).lookup
  have h0 : (ArcObj.make 1 (π / 2) 0 0 0 0 true).curve.t0 = 0 := by
    simp [ArcObj.make, arcInit, Curve.make, updateLengths_t0]
  have h1 : (ArcObj.make 1 (π / 2) 0 0 0 0 true).curve.t1 = 1 := by
    simp [ArcObj.make, arcInit, Curve.make, updateLengths_t1]
  rw [h0, h1] at hl
  obtain ⟨A, hA⟩ : ∃ A, A = ArcObj.make 1 (π / 2) 0 0 0 0 true := ⟨_, rfl⟩
  rw [← hA] at hl h0 h1 ⊢
  have hpi := pi_pos
  refine ⟨{ A with curve := ({ A.curve with t1 := 3 } : Curve).updateLengths }, ?_, ?_, ?_⟩
  · simp only [ArcObj.run, ArcOp.run, Curve.setEndOn]
    rw [s2t_two _ (by simp [hl]) (by simp [hl]) (by simp [hl])]
    simp [hl]
  · rw [abs_of_pos (by positivity)]; linarith
  · simp only [updateLengths_t0, updateLengths_t1, h0, sub_zero]
    rw [abs_of_pos (by positivity)]
    exact ⟨by linarith, by linarith⟩

/-- A quarter circle, mirrored and then moved, is convertible; so is a shortened and reversed line. -/
theorem c111_case (asEuler : M3 → ℝ × ℝ × ℝ) (hE : EulerOk asEuler) (S T : V3 →ᵃ[ℝ] V3) (hS : Function.Injective S)
    (hT : Function.Injective T) (h : NurbHeap) :
    Convertible h (.transformed h T (.transformed h S (.plain (ArcObj.make 2 (π / 2) OUT 0 1 0 true).curve))) ∧
    ∃ c, lineRun (Curve.make (.line 0 RIGHT) true 0 1) [.setEnd (1 / 2), .reverse] = some c ∧ Convertible h (.plain c) := by
  have hpi := pi_pos
  have h0 : (ArcObj.make 2 (π / 2) OUT 0 1 0 true).curve.t0 = 0 := by
    simp [ArcObj.make, arcInit, Curve.make, updateLengths_t0]
  have h1 : (ArcObj.make 2 (π / 2) OUT 0 1 0 true).curve.t1 = 1 := by
    simp [ArcObj.make, arcInit, Curve.make, updateLengths_t1]
  refine ⟨.moved T hT (.moved S hS (.arc hE (by norm_num) (by rw [abs_of_pos (by positivity)]; linarith) []
    (by simp) rfl ?_ ?_)), ?_⟩
  · rw [h0, h1]; positivity
  · rw [h0, h1, sub_zero, mul_one, abs_of_pos (by positivity)]; linarith
  · have hr : lineRun (Curve.make (.line 0 RIGHT) true 0 1) [.setEnd (1 / 2), .reverse] =
        some (Curve.make (.line 0 RIGHT) true 0 (0 + (1 - 0) * (1 / 2))).reverse := by
      simp only [lineRun, line_setEnd, Option.bind_some]
    refine ⟨_, hr, .line (fun e => ?_) _ hr ?_⟩
    · have := congrFun e 0; simp [RIGHT] at this
    · simp [Curve.reverse, Curve.make, updateLengths_t0, updateLengths_t1]

end Verif
