import Verif.Props.SpurGearEx

/-!
# Default spur gears, with no hypothesis on the searches: C145
-/

namespace Verif

open Real Set

/-! ### Numbers -/

theorem arctan_five {x : ℝ} (h : 0 ≤ x) : arctan x ≤ x - x ^ 3 / 3 + x ^ 5 / 5 := by
  have hd : ∀ y : ℝ, HasDerivAt (fun x : ℝ => x - x ^ 3 / 3 + x ^ 5 / 5 - arctan x)
      (1 - 3 * y ^ 2 / 3 + 5 * y ^ 4 / 5 - 1 / (1 + y ^ 2)) y := by
    intro y
    refine (((hasDerivAt_id y).sub ?_).add ?_).sub (hasDerivAt_arctan y)
    · simpa using (hasDerivAt_pow 3 y).div_const 3
    · simpa using (hasDerivAt_pow 5 y).div_const 5
  have hm : MonotoneOn (fun x : ℝ => x - x ^ 3 / 3 + x ^ 5 / 5 - arctan x) (Ici 0) := by
    refine monotoneOn_of_deriv_nonneg (convex_Ici 0) (by fun_prop) (fun y _ => (hd y).differentiableAt.differentiableWithinAt) fun y _ => ?_
    rw [(hd y).deriv]
    have hy : (0 : ℝ) < 1 + y ^ 2 := by positivity
    rw [show 1 - 3 * y ^ 2 / 3 + 5 * y ^ 4 / 5 - 1 / (1 + y ^ 2) = y ^ 6 / (1 + y ^ 2) by field_simp; ring]
    positivity
  have := hm (mem_Ici.2 (le_refl 0)) (mem_Ici.2 h) h
  simp at this
  linarith

theorem quintic_low {y : ℝ} (hy : 0 ≤ y) (hy4 : y ≤ 562 / 1000) : 2 / 3 * y - 2 / 15 * y ^ 3 + y ^ 5 / 5 < 3639 / 10000 := by
  obtain ⟨g, eg⟩ : ∃ g : ℝ, g = 562 / 1000 := ⟨_, rfl⟩
  -- the left side grows with y
  have hg : 0 ≤ g := by rw [eg]; norm_num
  have h10 : g ^ 2 + g * y + y ^ 2 ≤ 3 := by rw [eg]; nlinarith
  have h11 : 0 ≤ g ^ 4 + g ^ 3 * y + g ^ 2 * y ^ 2 + g * y ^ 3 + y ^ 4 := by positivity
  have h9 : 0 ≤ (g - y) * (2 / 3 - 2 / 15 * (g ^ 2 + g * y + y ^ 2) + (g ^ 4 + g ^ 3 * y + g ^ 2 * y ^ 2 + g * y ^ 3 + y ^ 4) / 5) :=
    mul_nonneg (by linarith) (by linarith)
  have h12 : 2 / 3 * g - 2 / 15 * g ^ 3 + g ^ 5 / 5 < 3639 / 10000 := by rw [eg]; norm_num
  linear_combination h9 + h12

/-- On the pitch circle the path of the corner has passed the involute. -/
theorem gap_pitch {r h T y : ℝ} (h0 : 0 < h) (h1 : h < r) (hy : 0 ≤ y) (ey : y ^ 2 * (2 * r - h) = h)
    (hb : 2 / 3 * y - 2 / 15 * y ^ 3 + y ^ 5 / 5 < T) :
    arctan ((2 * r - h) * y / (r - h)) - (2 * r - h) * y / r < h * T / r := by
  have hr : 0 < r := h0.trans h1
  have hm : 0 < 2 * r - h := by linarith
  have hy0 : 0 < y := lt_of_le_of_ne hy fun e => by rw [← e] at ey; linarith [ey]
  have hy1 : y < 1 := by
    by_contra hc
    have : (1 : ℝ) ≤ y ^ 2 := one_le_pow₀ (not_lt.1 hc)
    nlinarith
  have e1 : (2 * r - h) * y / (r - h) = 2 * y / (1 - y ^ 2) := by
    rw [div_eq_div_iff (by linarith) (by nlinarith)]
    linear_combination (-y) * ey
  have e2 : (1 + y ^ 2) * (2 * r - h) = 2 * r := by linear_combination ey
  rw [e1, ← two_mul_arctan (by linarith) hy1]
  have h2 := arctan_five hy
  have h3 : (2 * r - h) * y / r = 2 * y / (1 + y ^ 2) := by
    rw [div_eq_div_iff hr.ne' (by positivity)]
    linear_combination y * e2
  have h4 : h * T / r = 2 * y ^ 2 * T / (1 + y ^ 2) := by
    rw [div_eq_div_iff hr.ne' (by positivity)]
    linear_combination (-T * (1 + y ^ 2)) * ey + y ^ 2 * T * e2
  rw [h3, h4, sub_lt_iff_lt_add, ← add_div, lt_div_iff₀ (by positivity)]
  have h5 : 2 * arctan y * (1 + y ^ 2) ≤ 2 * (y - y ^ 3 / 3 + y ^ 5 / 5) * (1 + y ^ 2) :=
    mul_le_mul_of_nonneg_right (by linarith) (by positivity)
  have h6 := mul_lt_mul_of_pos_left hb (show 0 < 2 * y ^ 2 by positivity)
  nlinarith

/-- The land at the tip is wide enough. -/
theorem land_wide {n rb tA tb : ℝ} (hn : 3 ≤ n) (hrb : 0 < rb) (hrn : rb ≤ n / 2) (hA : 36 / 100 ≤ tA) (hlt : tA < tb)
    (htop : invAngle tb ≤ π / 2) (hgap : rb * √(1 + tA ^ 2) + 1 / 10 ≤ rb * √(1 + tb ^ 2)) (hout : n / 2 < rb * √(1 + tA ^ 2)) :
    1 / 10 ^ 10 < 2 * (rb * √(1 + tA ^ 2)) * sin (invAngle tb - invAngle tA) := by
  have hA0 : 0 ≤ tA := by linarith
  have h1 : √(1 + tb ^ 2) - √(1 + tA ^ 2) ≤ tb - tA := by
    have : √(1 + tb ^ 2) ≤ √(1 + tA ^ 2) + (tb - tA) := by
      rw [sqrt_le_left (by have := sqrt_nonneg (1 + tA ^ 2); linarith)]
      have h2 : tA ≤ √(1 + tA ^ 2) := le_sqrt_of_sq_le (by linarith)
      have h3 := sq_sqrt (show (0 : ℝ) ≤ 1 + tA ^ 2 by positivity)
      nlinarith
    linarith
  have h2 : 1 / 10 ≤ rb * (tb - tA) := by
    have := mul_le_mul_of_nonneg_left h1 hrb.le
    linarith
  have h3 : 1 / 10 ≤ n / 2 * (tb - tA) := h2.trans (mul_le_mul_of_nonneg_right hrn (by linarith))
  have h4 : 11 / 100 * (tb - tA) ≤ invAngle tb - invAngle tA := by
    have h5 := arctan_tangent hA0 (show 0 ≤ tb by linarith)
    have h6 : (tb - tA) / (1 + tA ^ 2) ≤ 89 / 100 * (tb - tA) := by
      rw [div_le_iff₀ (by positivity)]
      have h7 : 1 ≤ 89 / 100 * (1 + tA ^ 2) := by nlinarith
      have := le_mul_of_one_le_right (sub_nonneg.2 hlt.le) h7
      linarith
    rw [invAngle, invAngle]
    linarith
  have hp := pi_gt_three
  have hp' := pi_lt_four
  have hpos : 0 ≤ invAngle tA := by
    have := invAngle_strict.monotoneOn (le_refl (0 : ℝ)) hA0 hA0
    rwa [invAngle_zero] at this
  have h7 := mul_le_sin (x := invAngle tb - invAngle tA) (by nlinarith) (by linarith)
  have h8 : 1 / 2 * (invAngle tb - invAngle tA) ≤ 2 / π * (invAngle tb - invAngle tA) := by
    refine mul_le_mul_of_nonneg_right ?_ (by nlinarith)
    rw [div_le_div_iff₀ (by norm_num) pi_pos]
    linarith
  have h9 : 11 / 200 * (tb - tA) ≤ sin (invAngle tb - invAngle tA) := by linarith
  have h10 : 2 * (n / 2) * (11 / 200 * (tb - tA)) ≤ 2 * (rb * √(1 + tA ^ 2)) * sin (invAngle tb - invAngle tA) :=
    mul_le_mul (by linarith) h9 (by nlinarith) (by nlinarith)
  have h11 : (1 : ℝ) / 10 ^ 10 < 1 / 1000 := by norm_num
  nlinarith

/-- Where the involute meets a circle outside the base circle. -/
theorem involute_place {rb RA : ℝ} (hrb : 0 < rb) (h : rb ≤ RA) : ∃ t, 0 ≤ t ∧ RA = rb * √(1 + t ^ 2) := by
  have h1 : 1 ≤ RA / rb := (one_le_div hrb).2 h
  refine ⟨√((RA / rb) ^ 2 - 1), sqrt_nonneg _, ?_⟩
  rw [sq_sqrt (by nlinarith), show 1 + ((RA / rb) ^ 2 - 1) = (RA / rb) ^ 2 by ring, sqrt_sq (by linarith)]
  field_simp

/-! ### Gears with undercut -/

/-- The place of the involute before which the undercut of a default gear ends. -/
noncomputable def underPlace (n : ℕ) : ℝ := if 5 ≤ n then tan (π / 9) else 1

theorem few_gap {n c T : ℝ} (h3 : 3 ≤ n) (h4 : n ≤ 4) (ec : c = cos (π / 9)) (eT : T = tan (π / 9)) (t1 : T < 364 / 1000)
    (hch : 8829 / 10000 < c ^ 2) : meetGap (n / 2) (π / 9) (n / 2 - 6 / 5) 1 < 0 := by
  have p3 := pi_gt_d4
  have p4 := pi_lt_d4
  obtain ⟨V, eV⟩ : ∃ V, V = meetAt (n / 2 * cos (π / 9)) (n / 2 - 6 / 5) 1 := ⟨_, rfl⟩
  have hV0 : 0 ≤ V := by rw [eV]; exact sqrt_nonneg _
  have hV : (n / 2 - 6 / 5) ^ 2 + V ^ 2 = n ^ 2 / 2 * c ^ 2 := by
    rw [eV, meetAt_sq]
    · rw [← ec]; ring
    · rw [← ec]; nlinarith [mul_nonneg (sq_nonneg n) (sub_nonneg.2 hch.le)]
  have hVr : 12 / 10 * (n / 2) ≤ V := by
    refine le_of_sq_le_sq ?_ hV0
    nlinarith [mul_nonneg (sq_nonneg n) (sub_nonneg.2 hch.le)]
  rw [meetGap, ← eV, lift, invAngle, arctan_one, ← eT]
  have h6 := arctan_lt_pi_div_two (V / (n / 2 - 6 / 5))
  have h7 : 12 / 10 ≤ V / (n / 2) := by rw [le_div_iff₀ (by linarith)]; exact hVr
  have h8 : (n / 2 - 6 / 5) * T / (n / 2) ≤ 146 / 1000 := by
    rw [div_le_iff₀ (by linarith)]
    nlinarith
  linarith

set_option maxHeartbeats 1000000 in
/-- The path of the corner meets the involute, for all default gears whose root circle lies inside the base circle. -/
theorem default_meets {n : ℕ} (h3 : 3 ≤ n) (h39 : n ≤ 39) :
    CornerMeets (n / 2) (π / (2 * n)) (π / 9) (2 * π / n) (underPlace n) ⟨1, 6 / 5, 2⟩ := by
  have p3 := pi_gt_d4
  have p4 := pi_lt_d4
  have hn3 : (3 : ℝ) ≤ n := by exact_mod_cast h3
  have hn39 : (n : ℝ) ≤ 39 := by exact_mod_cast h39
  have hn0 : (0 : ℝ) < n := by linarith
  obtain ⟨t0, t1⟩ := tan_twenty
  obtain ⟨hc, hct, hc2, hc3⟩ := cos_twenty
  obtain ⟨T, eT⟩ : ∃ T, T = tan (π / 9) := ⟨_, rfl⟩
  obtain ⟨c, ec⟩ : ∃ c, c = cos (π / 9) := ⟨_, rfl⟩
  have hu : underPlace n = if 5 ≤ n then T else 1 := by rw [underPlace, eT]
  have hlow : 9396 / 10000 < c := by
    rw [← ec, ← eT] at hct
    rw [← eT] at t1 t0
    rw [← ec] at hc
    by_contra hcon
    have h1 : c ^ 2 ≤ (9396 / 10000) ^ 2 := pow_le_pow_left₀ hc.le (not_lt.1 hcon) 2
    have h2 : T ^ 2 < (364 / 1000) ^ 2 := pow_lt_pow_left₀ t1 (by linarith) two_ne_zero
    nlinarith
  have ew : (n : ℝ) / 2 * (π / (2 * n)) = π / 4 := by field_simp; norm_num
  rw [← ec, ← eT] at hct
  rw [← eT] at t0 t1
  rw [← ec] at hc hc2 hc3
  have hs2 : c ^ 2 * T ^ 2 = 1 - c ^ 2 := by linarith
  have hcl : c ^ 2 < 8832 / 10000 := by nlinarith
  have hch : 8829 / 10000 < c ^ 2 := by nlinarith
  refine ⟨by linarith, by linarith, by linarith, by positivity, one_pos, ?_, ?_, ?_, ?_, ?_, ?_, ?_, ?_, ?_, ?_, ?_, ?_⟩
  · show (0 : ℝ) < 6 / 5; norm_num
  · show (6 : ℝ) / 5 < n / 2; linarith
  · show (n : ℝ) / 2 - 6 / 5 ≤ n / 2 * cos (π / 9)
    rw [← ec]; nlinarith
  · show 6 / 5 * tan (π / 9) < n / 2 * (2 * π / n / 2 - π / (2 * n))
    rw [mul_sub, ew, show (n : ℝ) / 2 * (2 * π / n / 2) = π / 2 by field_simp, ← eT]
    linarith
  · rw [div_le_iff₀ hn0]; nlinarith
  · show ((n : ℝ) / 2 * (π / (2 * n)) + 6 / 5 * tan (π / 9)) ^ 2 ≤ 6 / 5 * (2 * (n / 2) - 6 / 5)
    rw [ew, ← eT]
    nlinarith
  · show ∀ v, 0 ≤ v → arctan (v / (n / 2 - 6 / 5)) < ((n : ℝ) / 2 * (π / (2 * n)) + 6 / 5 * tan (π / 9) + v) / (n / 2)
    rw [ew, ← eT]
    exact neck_free (by norm_num) (by linarith) (by linarith)
  · show (n : ℝ) / 2 - 6 / 5 ≠ n / 2 * cos (π / 9) ^ 2
    rw [← ec]
    intro e
    rcases le_or_gt n 20 with hle | hgt
    · have : (n : ℝ) ≤ 20 := by exact_mod_cast hle
      nlinarith
    · have : (21 : ℝ) ≤ n := by exact_mod_cast hgt
      nlinarith
  · rw [hu]; split_ifs <;> linarith
  · show ((n : ℝ) / 2 - 6 / 5) * (n / 2) ≤ (n / 2 * cos (π / 9)) ^ 2 * (1 + underPlace n ^ 2)
    rw [hu, ← ec]
    split_ifs
    · rw [mul_pow, mul_assoc, hct]; nlinarith
    · rw [mul_pow]; nlinarith
  · show meetGap (n / 2) (π / 9) (n / 2 - 6 / 5) (underPlace n) < 0
    rw [hu]
    split_ifs with h5
    · have hn5 : (5 : ℝ) ≤ n := by exact_mod_cast h5
      obtain ⟨y, ey⟩ : ∃ y : ℝ, y = √(6 / 5 / (n - 6 / 5)) := ⟨_, rfl⟩
      have hy : 0 ≤ y := by rw [ey]; exact sqrt_nonneg _
      have hy2 : y ^ 2 * (2 * ((n : ℝ) / 2) - 6 / 5) = 6 / 5 := by
        rw [ey, sq_sqrt (div_nonneg (by norm_num) (by linarith)), show 2 * ((n : ℝ) / 2) - 6 / 5 = n - 6 / 5 by ring,
          div_mul_cancel₀ _ (by linarith)]
      have hy3 : y ^ 2 ≤ 6 / 19 := by nlinarith
      have hy4 : y ≤ 562 / 1000 := by nlinarith
      have hb : 2 / 3 * y - 2 / 15 * y ^ 3 + y ^ 5 / 5 < T := (quintic_low hy hy4).trans t0
      have h6 := gap_pitch (r := (n : ℝ) / 2) (h := 6 / 5) (by norm_num) (by linarith) hy hy2 hb
      have e1 : meetAt (n / 2 * cos (π / 9)) (n / 2 - 6 / 5) T = (2 * ((n : ℝ) / 2) - 6 / 5) * y := by
        refine meetAt_eq (mul_nonneg (by linarith) hy) ?_
        rw [← ec]
        linear_combination (2 * ((n : ℝ) / 2) - 6 / 5) * hy2 - ((n : ℝ) / 2) ^ 2 * hct
      rw [meetGap, e1, lift, invAngle, ← eT]
      have e2 : arctan T = π / 9 := by rw [eT, arctan_tan (by linarith) (by linarith)]
      have e3 : ((n : ℝ) / 2 - 6 / 5) * T / (n / 2) = T - 6 / 5 * T / (n / 2) := by field_simp
      rw [e2, e3]
      linarith
    · have hn4 : (n : ℝ) ≤ 4 := by exact_mod_cast (by omega : n ≤ 4)
      exact few_gap hn3 hn4 ec eT t1 hch
  · show (n / 2 * cos (π / 9)) ^ 2 * (1 + underPlace n ^ 2) ≤ (2 * ((n : ℝ) / 2)) ^ 2
    rw [hu, ← ec]
    split_ifs
    · rw [mul_pow, mul_assoc, hct]; nlinarith
    · rw [mul_pow]; nlinarith

/-- With solvers that find the sharp tip, all searches for it end at the end of the tooth curve. -/
theorem tipSearches_end {S : ScalarSolvers} (hS : Honest S) {f : ℝ → Option V3} {G : ℝ → V3} {R θ : ℝ → ℝ} {base : ℝ}
    (hf : ∀ s ∈ Icc (0 : ℝ) 1, f s = some (G s)) (hG : ∀ s ∈ Icc (0 : ℝ) 1, G s = ![R s * cos (θ s), R s * sin (θ s), 0])
    (hR : ∀ s ∈ Icc (0 : ℝ) 1, 0 < R s) (h1 : θ 1 = 0) (hθ : ∀ s ∈ Icc (0 : ℝ) 1, s < 1 → -π < θ s ∧ θ s < 0)
    (hpl : ∀ guess, (findCurvePlaneIntersect S f UP guess).success = true ∧ 0 ≤ (findCurvePlaneIntersect S f UP guess).x ∧
      (findCurvePlaneIntersect S f UP guess).x ≤ 1) : tipSearches S f 0 base = List.replicate 4 (true, R 1) := by
  have m1 : (1 : ℝ) ∈ Icc (0 : ℝ) 1 := ⟨zero_le_one, le_refl _⟩
  have hone : ∀ guess, (findCurvePlaneIntersect S f UP guess).x = 1 := by
    intro guess
    obtain ⟨hs1, n0, n1⟩ := hpl guess
    have hz := plane_cost hS hs1 (hf _ ⟨n0, n1⟩)
    rw [hG _ ⟨n0, n1⟩] at hz
    have hz' : R (findCurvePlaneIntersect S f UP guess).x * sin (θ (findCurvePlaneIntersect S f UP guess).x) = 0 := by
      simpa [dot, UP, ORIGIN] using hz
    by_contra hne
    obtain ⟨h2, h3⟩ := hθ _ ⟨n0, n1⟩ (lt_of_le_of_ne n1 hne)
    have := (sin_eq_zero_iff_of_lt_of_lt h2 (by linarith [pi_pos])).1 ((mul_eq_zero.1 hz').resolve_left (hR _ ⟨n0, n1⟩).ne')
    linarith
  have hp : polarTransform 0 base (G 1) = some ![R 1, 0, 0] := by
    rw [hG 1 m1, h1, cos_zero, sin_zero, mul_one, mul_zero]
    simp only [polarTransform, if_true]
    congr 1
    have := c13_cylindrical' (R 1) 0 0 ORIGIN (hR 1 m1) (by linarith [pi_pos]) pi_pos.le
    have e : cylindricalToXyz ![R 1, 0, 0] ORIGIN = ![R 1, 0, 0] := by
      apply V3.ext3 <;> simp [cylindricalToXyz, ORIGIN]
    rwa [e] at this
  have hk : ∀ guess, (match (f (findCurvePlaneIntersect S f UP guess).x).bind (polarTransform 0 base) with
      | some q => ((findCurvePlaneIntersect S f UP guess).success, q 0)
      | none => (false, 0)) = (true, R 1) := by
    intro guess
    rw [hone guess, (hpl guess).1, hf 1 m1, Option.bind_some, hp]
    rfl
  exact (List.map_congr_left (l := List.range 4) (g := fun _ => (true, R 1))
    (fun k _ => hk (linspaceAt (1 / 10) (9 / 10) 4 k))).trans rfl

theorem box_descends : Descends boxSolvers := by
  intro cost guess v h
  exact ⟨v, h, le_refl v⟩

/-- The tip of a default tooth with undercut lies beyond the undercut. -/
theorem place_low {n : ℕ} (h3 : 3 ≤ n) {tb : ℝ} (b0 : 0 < tb) (b2 : invAngle tb = π / (2 * n) + (tan (π / 9) - π / 9)) :
    invAngle (underPlace n) ≤ π / (2 * n) + (tan (π / 9) - π / 9) ∧
      n / 2 * cos (π / 9) * √(1 + underPlace n ^ 2) + 1 / 10 ≤ n / 2 * cos (π / 9) * √(1 + tb ^ 2) ∧
      n / 2 * cos (π / 9) * √(1 + underPlace n ^ 2) ≤ n / 2 + 1 := by
  have p3 := pi_gt_d4
  have p4 := pi_lt_d4
  have hn3 : (3 : ℝ) ≤ n := by exact_mod_cast h3
  have hn0 : (0 : ℝ) < n := by linarith
  obtain ⟨t0, t1⟩ := tan_twenty
  obtain ⟨hc, hct, hc2, hc3⟩ := cos_twenty
  have hpia0 : 0 < π / (2 * n) := by positivity
  have hinv : invAngle (tan (π / 9)) = tan (π / 9) - π / 9 := by rw [invAngle, arctan_tan (by linarith) (by linarith)]
  by_cases h5 : 5 ≤ n
  · have hroot : n / 2 * cos (π / 9) * √(1 + tan (π / 9) ^ 2) = n / 2 := by
      rw [← inv_sqrt_one_add_tan_sq hc, mul_assoc, inv_mul_cancel₀ (sqrt_pos.2 (by positivity)).ne', mul_one]
    rw [underPlace, if_pos h5, hroot, hinv]
    refine ⟨by linarith, ?_, by linarith⟩
    obtain ⟨k, ek⟩ : ∃ k, k = 1 / (n : ℝ) := ⟨_, rfl⟩
    have hk0 : 0 < k := by rw [ek]; positivity
    have hk1 : k ≤ 1 / 3 := by rw [ek]; exact one_div_le_one_div_of_le (by norm_num) hn3
    have hkn : k * n = 1 := by rw [ek]; field_simp
    have hpk : π / (2 * n) = π / 2 * k := by rw [ek]; field_simp
    have hub : tan (π / 9) + k < tb := by
      by_contra hcon
      have h5 := invAngle_strict.monotoneOn b0.le (show (0 : ℝ) ≤ tan (π / 9) + k by linarith) (not_lt.1 hcon)
      have h6 : invAngle (tan (π / 9) + k) - invAngle (tan (π / 9)) ≤ k := by
        rw [invAngle, invAngle]
        have := arctan_mono (show tan (π / 9) ≤ tan (π / 9) + k by linarith)
        linarith
      rw [b2, hpk] at h5
      nlinarith
    have := pointed_tip hn0 hk0 hk1 hkn t0 hc hct hc2 rfl hub
    linarith
  · have hn4 : (n : ℝ) ≤ 4 := by exact_mod_cast (by omega : n ≤ 4)
    have hpia : π / 8 ≤ π / (2 * n) := div_le_div_of_nonneg_left pi_pos.le (by positivity) (by linarith)
    rw [underPlace, if_neg h5]
    have hs2 : √(1 + (1 : ℝ) ^ 2) ≤ 1415 / 1000 := by rw [sqrt_le_left (by norm_num)]; norm_num
    have htb : 115 / 100 ≤ tb := by
      by_contra hcon
      have h6 := invAngle_strict b0.le (show (0 : ℝ) ≤ 115 / 100 by norm_num) (not_le.1 hcon)
      have h7 : invAngle (115 / 100) ≤ 115 / 100 - π / 4 := by
        rw [invAngle, ← arctan_one]
        have := arctan_mono (show (1 : ℝ) ≤ 115 / 100 by norm_num)
        linarith
      linarith
    have hs3 : 1523 / 1000 ≤ √(1 + tb ^ 2) := le_sqrt_of_sq_le (by nlinarith)
    have hc4 : 93 / 100 ≤ cos (π / 9) := by nlinarith
    have hrb : 139 / 100 ≤ n / 2 * cos (π / 9) := by nlinarith
    refine ⟨by rw [invAngle, arctan_one]; linarith, ?_, ?_⟩
    · nlinarith
    · have : n / 2 * cos (π / 9) ≤ n / 2 * (94 / 100) := mul_le_mul_of_nonneg_left (by linarith) (by linarith)
      nlinarith [sqrt_nonneg (1 + (1 : ℝ) ^ 2)]

set_option maxHeartbeats 1000000 in
/-- **C145, default gears with undercut and no condition on the searches.** `SpurGear(n)` with undercut, three to 39 teeth (whose root circle
lies inside the base circle) and the default parameters, of any height, module and placement, made with solvers that return the last solution on the
curve whenever there is one: the searches succeed, the profile exists, and the outline of the `n` teeth is closed and does not cross or touch
itself. -/
theorem c145_undercut_found {asEuler : M3 → ℝ × ℝ × ℝ} (hE : EulerOk asEuler) {n : ℕ} (h3 : 3 ≤ n) (h39 : n ≤ 39)
    (height angle module_ zAnchor : ℝ) (center : V3) {p : GearInput}
    (hp : p = { GearInput.spurDefault n with
      height := height, angle := angle, module_ := module_, zAnchor := zAnchor, center := center, undercut := true }) (z : ℝ) :
    SpurSearches asEuler boxSolvers p z ∧ ∃ P, (spurGear p).core.recipe.spurProfile asEuler boxSolvers z = some P ∧
      Spec.SimpleOutline (chainEval (sumOps (chainOps undercutOps) curveOps) (P.chain (chainOps undercutOps))) (2 * π / n) n := by
  have p3 := pi_gt_d4
  have p4 := pi_lt_d4
  have hn3 : (3 : ℝ) ≤ n := by exact_mod_cast h3
  have hn39 : (n : ℝ) ≤ 39 := by exact_mod_cast h39
  have hn0 : (0 : ℝ) < n := by linarith
  have hrp : (0 : ℝ) < n / 2 := by linarith
  obtain ⟨t0, t1⟩ := tan_twenty
  obtain ⟨hc, hct, hc2, hc3⟩ := cos_twenty
  have ealpha : p.pressureAngle = π / 9 := by rw [hp]; show 20 * π / 180 = π / 9; ring
  have en : p.numTeeth = n := by rw [hp]; rfl
  have eh : p.dedendum - p.profileShift = 6 / 5 := by rw [hp]; show (6 : ℝ) / 5 - 0 = 6 / 5; norm_num
  have eA : p.addendum + p.profileShift = 1 := by rw [hp]; show (1 : ℝ) + 0 = 1; norm_num
  have eu : p.undercut = true := by rw [hp]
  have etf : p.tipFillet = 0 := by rw [hp]; rfl
  have ett : p.tipTruncation = 1 / 10 := by rw [hp]; rfl
  have epia : p.crowningFunc z p.toothAngle = π / (2 * n) := by
    rw [hp]
    simp [GearInput.crowningFunc, GearInput.toothAngle, GearInput.spurDefault]
    field_simp
    norm_num
  have hpia0 : 0 < π / (2 * n) := by positivity
  have hpia1 : π / (2 * n) ≤ π / 6 := div_le_div_of_nonneg_left pi_pos.le (by norm_num) (by linarith)
  have h2 := arctan_two_le
  have hM := default_meets h3 h39
  obtain ⟨r1, r2, r3', r4, r5, r6, r7, r8⟩ := spur_recipe (p := p) (by rw [en]; exact hn0.le)
  rw [eu, if_pos rfl, en, ealpha] at r1
  rw [eA, eh] at r2
  rw [r2] at r1
  have hinv : invAngle (tan (π / 9)) = tan (π / 9) - π / 9 := by rw [invAngle, arctan_tan (by linarith) (by linarith)]
  have hlow : invAngle (underPlace n) ≤ π / (2 * n) + (tan (π / 9) - π / 9) := by
    rw [underPlace]
    split_ifs with h5
    · linarith
    · have hn4 : (n : ℝ) ≤ 4 := by exact_mod_cast (by omega : n ≤ 4)
      have hpia : π / 8 ≤ π / (2 * n) := div_le_div_of_nonneg_left pi_pos.le (by positivity) (by linarith)
      rw [invAngle, arctan_one]; linarith
  obtain ⟨hs, l, u, d, G, Q, φ, s0, tb, hl, hm, hu, hsys, D, hG, b0, b1, b2, b3, hside, htips⟩ := box_dip hM (by linarith)
    (by rw [invAngle]; linarith) hlow
  have hm' : undercutToothCurve boxSolvers l (n / 2 * cos (π / 9)) (n / 2) (π / (2 * n)) (2 * π / n) (π / 9) ⟨1, 6 / 5, 2⟩ =
      some [.inl u, .inr d] := hm
  obtain ⟨-, q2, q3⟩ := place_low h3 b0 b2
  have m1 : (1 : ℝ) ∈ Icc (0 : ℝ) 1 := ⟨zero_le_one, le_refl _⟩
  -- the tip circle
  have hR1 : n / 2 + 11 / 100 < Q 1 := by
    obtain ⟨k, ek⟩ : ∃ k, k = 1 / (n : ℝ) := ⟨_, rfl⟩
    have hk0 : 0 < k := by rw [ek]; positivity
    have hk1 : k ≤ 1 / 3 := by rw [ek]; exact one_div_le_one_div_of_le (by norm_num) hn3
    have hkn : k * n = 1 := by rw [ek]; field_simp
    have hpk : π / (2 * n) = π / 2 * k := by rw [ek]; field_simp
    have hub : tan (π / 9) + k < tb := by
      by_contra hcon
      have h5 := invAngle_strict.monotoneOn b0.le (show (0 : ℝ) ≤ tan (π / 9) + k by linarith) (not_lt.1 hcon)
      have h6 : invAngle (tan (π / 9) + k) - invAngle (tan (π / 9)) ≤ k := by
        rw [invAngle, invAngle]
        have := arctan_mono (show tan (π / 9) ≤ tan (π / 9) + k by linarith)
        linarith
      rw [b2, hpk] at h5
      nlinarith
    rw [b3]
    exact pointed_tip hn0 hk0 hk1 hkn t0 hc hct hc2 rfl hub
  have htop : tipSearches boxSolvers (chainEval undercutOps [.inl u, .inr d]) 0 (spurGear p).core.recipe.coneBase =
      List.replicate 4 (true, Q 1) := by
    refine tipSearches_end box_honest hG D.polar D.pos D.fin hside fun guess => ?_
    have hz : (fun t => (chainEval undercutOps [.inl u, .inr d] t).map fun p => dot (p - ORIGIN) UP) 1 = some 0 := by
      show (chainEval undercutOps [.inl u, .inr d] 1).map _ = _
      rw [hG 1 m1, D.polar 1 m1, D.fin]
      simp [dot, UP, ORIGIN]
    exact ⟨box_root1_success _ hz, box_root1_on _ hz zero_le_one (le_refl _)⟩
  have hgen : (spurGear p).core.recipe.gen.spurCurve boxSolvers z = some [.inl u, .inr d] := by
    rw [r1, ToothGen.spurCurve, epia, hl, Option.bind_some, hm']
  obtain ⟨C, hC, c1, -, c3, c4, cev⟩ := c54_cylindrical hE (n / 2) 1 (6 / 5) 2 (n / 2) hrp (by linarith) (by linarith)
  rw [abs_of_pos (by linarith)] at c1
  obtain ⟨rA, RA, a1, -, -, a4, a5⟩ := tip_circle hE (S := boxSolvers) (f := chainEval undercutOps [.inl u, .inr d]) r3'
    (x := n / 2 + 1) (y := n / 2 - 6 / 5) (by linarith) (by linarith) c1 (fun s => (cev s).1) (fun s => (cev s).2.2.1)
    (by rw [r7, ett]; linarith)
  rw [r7, ett, if_pos (by norm_num), htop,
    c57_reduced _ _ _ (by norm_num) _ (Q 1) (by simp) (by linarith) (fun r' h' _ => by simp at h'; linarith)] at a4
  have hRA0 : n / 2 < RA := by rw [a4]; exact lt_min (by linarith) (by linarith)
  have hRA1 : RA + 1 / 10 ≤ Q 1 := by
    rw [a4]
    linarith [min_le_right ((n : ℝ) / 2 + 1) (Q 1 - 1 / 10)]
  have hRA2 : n / 2 * cos (π / 9) * √(1 + underPlace n ^ 2) ≤ RA := by
    rw [a4, b3]
    exact le_min (by linarith) (by linarith)
  have ht := htips RA hRA0 hRA2
  have erA : rA.eval = (circ RA).eval := by funext s; rw [a5, circ_eval]
  have erD : C.d.eval = (circ (n / 2 - 6 / 5)).eval := by funext s; rw [(cev s).2.2.1, circ_eval]
  have hc0 : 0 < π / (2 * n) + 6 / 5 * tan (π / 9) / (n / 2) := add_pos hpia0 (div_pos (by linarith) hrp)
  have ecc : π / (2 * n) + 6 / 5 * tan (π / 9) / (n / 2) = (π / 2 + 12 / 5 * tan (π / 9)) / n := by field_simp; ring
  have hcp : π / (2 * n) + 6 / 5 * tan (π / 9) / (n / 2) < π := by
    rw [ecc, div_lt_iff₀ hn0]; nlinarith
  obtain ⟨hds, hcut, hRA⟩ := box_trim (pitch := 2 * π / n) hsys D hG hc0 hcp (show (n : ℝ) / 2 - 6 / 5 < RA by linarith) (by linarith) erA erD
    fun s ms e => (ht s ms e).1
  have hsearch : SpurSearches asEuler boxSolvers p z := by
    refine ⟨by rw [epia, en, ealpha]; exact hs, fun _ _ l' e1 => ?_, fun _ _ m C' rA' e1 e2 e3 => ?_, fun hno => ?_⟩
    · rw [epia, en, ealpha, hl] at e1
      rw [← Option.some.inj e1, epia, en, ealpha, r2]
      exact hu
    · rw [hgen] at e1
      obtain rfl := Option.some.inj e1
      rw [en, eA, eh, hC] at e2
      obtain rfl := Option.some.inj e2
      rw [a1] at e3
      obtain rfl := Option.some.inj e3
      rw [etf, en]
      exact hds
    · exfalso
      have := hno eu
      rw [en, eh, ealpha] at this
      exact absurd hM.base (not_le.2 this)
  refine ⟨hsearch, ?_⟩
  obtain ⟨C', m, rA', t, t', T, e1, e2, e3, -, -, -, -, e8, e9, -, hall⟩ := c145_default hE box_honest box_descends h3 height angle module_ zAnchor
    center true hp z hsearch
  rw [hC] at e1
  obtain rfl := Option.some.inj e1
  rw [hgen] at e2
  obtain rfl := Option.some.inj e2
  rw [a1] at e3
  obtain rfl := Option.some.inj e3
  have mζ : tipCut boxSolvers (chainEval undercutOps [.inl u, .inr d]) rA (2 * π / n) ∈ Icc (0 : ℝ) 1 :=
    ⟨D.s0_pos.le.trans hcut.1.le, hcut.2.le⟩
  obtain ⟨-, tA, g0, g1, g2⟩ := ht _ mζ hRA
  rw [hG _ mζ] at e8
  have hr0 : 0 < n / 2 * cos (π / 9) := mul_pos hrp hc
  have hroot : n / 2 * cos (π / 9) * √(1 + tan (π / 9) ^ 2) = n / 2 := by
    rw [← inv_sqrt_one_add_tan_sq hc, mul_assoc, inv_mul_cancel₀ (sqrt_pos.2 (by positivity)).ne', mul_one]
  have hmono : ∀ x y : ℝ, 0 ≤ x → 0 ≤ y → n / 2 * cos (π / 9) * √(1 + x ^ 2) < n / 2 * cos (π / 9) * √(1 + y ^ 2) → x < y := by
    intro x y hx hy h
    have h5 := lt_of_mul_lt_mul_left h hr0.le
    rw [sqrt_lt_sqrt_iff (by positivity)] at h5
    exact lt_of_pow_lt_pow_left₀ 2 hy (by linarith)
  have hlt1 : tan (π / 9) < tA := hmono _ _ (by linarith) g0 (by rw [hroot, ← g1]; exact hRA0)
  have hlt2 : tA < tb := hmono _ _ g0 b0.le (by rw [← g1, ← b3]; linarith)
  have hland := land_wide hn3 hr0 (mul_le_of_le_one_right hrp.le (cos_le_one _)) (show 36 / 100 ≤ tA by linarith) hlt2
    (by rw [b2]; linarith) (by rw [← g1, ← b3]; exact hRA1) (by rw [← g1]; exact hRA0)
  obtain ⟨P, hP, hsimple⟩ := hall (exactGaps_polar (R := n / 2 - 6 / 5) (θ := -((π / 4 + 6 / 5 * tan (π / 9)) / (n / 2)))
    (by rw [e9 rfl hM.base, cos_neg, sin_neg, mul_neg]) (by rw [← Option.some.inj e8, D.polar _ mζ]) (Or.inr (by
      have e : 2 * π / n / 2 + -((π / 4 + 6 / 5 * tan (π / 9)) / (n / 2)) = (π / 2 - 12 / 5 * tan (π / 9)) / n := by field_simp; ring
      rw [e]
      have h5 : 1 / 100 ≤ (π / 2 - 12 / 5 * tan (π / 9)) / n := by rw [le_div_iff₀ hn0]; linarith
      have h6 : (π / 2 - 12 / 5 * tan (π / 9)) / n ≤ π / 2 := by rw [div_le_iff₀ hn0]; nlinarith
      have h7 := mul_le_sin (x := (π / 2 - 12 / 5 * tan (π / 9)) / n) (by linarith) h6
      have h8 : 1 / 200 ≤ 2 / π * ((π / 2 - 12 / 5 * tan (π / 9)) / n) := by
        rw [div_mul_eq_mul_div, le_div_iff₀ pi_pos]
        linarith
      have h9 : 1 / 200 ≤ sin ((π / 2 - 12 / 5 * tan (π / 9)) / n) := h8.trans h7
      have h10 : (2 * (3 / 2 - 6 / 5)) * (1 / 200) ≤ 2 * ((n : ℝ) / 2 - 6 / 5) * sin ((π / 2 - 12 / 5 * tan (π / 9)) / n) :=
        mul_le_mul (by linarith) h9 (by norm_num) (by linarith)
      exact lt_of_lt_of_le (by norm_num) h10))
    (Or.inr (by
      rw [hRA, g2, show -(invAngle tA + -(π / (2 * n) + (tan (π / 9) - π / 9))) = invAngle tb - invAngle tA by rw [b2]; ring, g1]
      exact hland)))
  exact ⟨P, hP, hsimple⟩

end Verif
