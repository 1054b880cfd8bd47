import Mathlib.Analysis.SpecialFunctions.Trigonometric.ArctanDeriv
import Mathlib.Analysis.SpecialFunctions.Trigonometric.Bounds

/-! # The involute function `inv a = tan a − a` is strictly monotone -/

namespace Verif

open Real

theorem lt_tan_sub {a b : ℝ} (ha : 0 ≤ a) (hab : a < b) (hb : b < π / 2) :
    tan a - a < tan b - b := by
  have h := strictMonoOn_of_deriv_pos (f := fun x => tan x - x) (convex_Ico 0 (π / 2)) ?_ ?_
  · exact h ⟨ha, by linarith⟩ ⟨by linarith, hb⟩ hab
  · apply ContinuousOn.sub _ continuousOn_id
    exact continuousOn_tan_Ioo.mono fun x hx => ⟨by linarith [hx.1, pi_pos], hx.2⟩
  · intro x hx
    rw [interior_Ico] at hx
    have hc : 0 < cos x := cos_pos_of_mem_Ioo ⟨by linarith [hx.1, pi_pos], hx.2⟩
    have hd : HasDerivAt (fun x => tan x - x) (1 / cos x ^ 2 - 1) x :=
      (hasDerivAt_tan hc.ne').sub (hasDerivAt_id x)
    rw [hd.deriv]
    have hs : 0 < sin x := sin_pos_of_pos_of_lt_pi hx.1 (by linarith [hx.2, pi_pos])
    have : cos x ^ 2 < 1 := by nlinarith [sin_sq_add_cos_sq x, sq_pos_of_pos hs]
    have h2 : 1 < 1 / cos x ^ 2 := by
      rw [lt_div_iff₀ (by positivity)]; linarith
    linarith

/-- `tan a − a` is strictly increasing on (−π/2, π/2). -/
theorem inv_lt_inv {a b : ℝ} (ha : -(π / 2) < a) (hab : a < b) (hb : b < π / 2) :
    tan a - a < tan b - b := by
  rcases le_or_gt 0 a with h | h
  · exact lt_tan_sub h hab hb
  rcases le_or_gt b 0 with h' | h'
  · have := lt_tan_sub (a := -b) (b := -a) (by linarith) (by linarith) (by linarith)
    rw [tan_neg, tan_neg] at this
    linarith
  · have h1 := lt_tan_sub (a := 0) (b := -a) le_rfl (by linarith) (by linarith)
    have h2 := lt_tan_sub (a := 0) (b := b) le_rfl h' hb
    rw [tan_zero, tan_neg] at h1
    rw [tan_zero] at h2
    linarith

theorem inv_injective {a b : ℝ} (ha : -(π / 2) < a) (ha' : a < π / 2) (hb : -(π / 2) < b)
    (hb' : b < π / 2) (h : tan a - a = tan b - b) : a = b := by
  rcases lt_trichotomy a b with h' | h' | h'
  · exact absurd h (inv_lt_inv ha h' hb').ne
  · exact h'
  · exact absurd h.symm (inv_lt_inv hb h' ha').ne

theorem inv_lt_inv_iff {a b : ℝ} (ha : -(π / 2) < a) (ha' : a < π / 2) (hb : -(π / 2) < b)
    (hb' : b < π / 2) : tan a - a < tan b - b ↔ a < b := by
  constructor
  · intro h
    by_contra h'
    rcases (not_lt.1 h').lt_or_eq with h2 | h2
    · exact absurd (inv_lt_inv hb h2 ha') (not_lt.2 h.le)
    · rw [h2] at h; exact lt_irrefl _ h
  · intro h; exact inv_lt_inv ha h hb'

end Verif
