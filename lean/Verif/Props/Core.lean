import Verif.Model.Core
import Verif.Model.Mesh
import Verif.Props.Arc
import Verif.Props.Coord

/-! # Properties C54, C57, C60 -/

namespace Verif

open Real

/-! ### C54: reference circles -/

section C54
variable {asEuler : M3 → ℝ × ℝ × ℝ}

/-- The horizontal circle through a point of the half plane `y = 0` off the z axis. -/
theorem circle_spec (hE : EulerOk asEuler) (x z : ℝ) (hx : x ≠ 0) :
    ∃ c, arcFromPointCenterAngle asEuler ![x, 0, z] ((![x, 0, z] : V3) 2 • OUT) (2 * π) OUT true = some c ∧
      c.active = true ∧ c.arcRadius = some |x| ∧
      ∀ s, c.eval s = some ![x * cos (2 * π * s), x * sin (2 * π * s), z] := by
  have hc : (![x, 0, z] : V3) 2 • OUT = ![0, 0, z] := by
    apply V3.ext3 <;> simp [OUT]
  have hd : (![x, 0, z] : V3) - ![0, 0, z] = ![x, 0, 0] := by
    apply V3.ext3 <;> simp
  have hne : (![x, 0, z] : V3) ≠ ![0, 0, z] := by
    intro e; have := congrFun e 0; simp at this; exact hx this
  have ho : OUT ≠ (0 : V3) := by
    intro e; have := congrFun e 2; simp [OUT] at this
  have hn1 : norm3 OUT = 1 := norm3_eq_of_dot zero_le_one (by simp [dot, OUT])
  obtain ⟨c, h1, h2, h3⟩ := c49_point_angle_perp hE ![x, 0, z] ![0, 0, z] (2 * π) OUT true hne ho
    (by rw [hd]; simp [dot, OUT])
  rw [hc]
  refine ⟨c, h1, h2, ?_, fun s => ?_⟩
  · have hn : norm3 ((![x, 0, z] : V3) - ![0, 0, z]) = |x| := by
      rw [hd]; exact norm3_eq_of_dot (abs_nonneg x) (by simp [dot]; ring)
    have hx2 : ((![x, 0, z] : V3) - ![0, 0, z]) ≠ 0 := sub_ne_zero.2 hne
    rw [arcFromPointCenterAngle, normalizeVector_some hx2] at h1
    simp only at h1
    split at h1
    · cases h1
    · cases h1
      simp only [arcInit, Curve.arcRadius, Curve.make, if_true, updateLengths_kind, hn]
  · rw [h3 s, hn1, hd]
    congr 1
    apply V3.ext3 <;> simp [rodrigues, OUT, dot, cross, Matrix.cons_val] <;> ring

/-- **C54, cylindrical gears.** All four circles lie in the plane `z = 0` around the origin and are run
through once, counter-clockwise; the radii are `rp + h_a`, `rp`, `|rp - h_d|` and the larger of `rp - h_o`
and `DELTA`. -/
theorem c54_cylindrical (hE : EulerOk asEuler) (rp hA hD hO baseRadius : ℝ) (hr : 0 < rp)
    (ha : rp + hA ≠ 0) (hd : rp ≠ hD) :
    ∃ c, referenceCircles asEuler rp hA hD hO 0 baseRadius = some c ∧
      c.a.arcRadius = some |rp + hA| ∧ c.p.arcRadius = some rp ∧ c.d.arcRadius = some |rp - hD| ∧
      c.o.arcRadius = some (max (rp - hO) DELTA) ∧
      ∀ s, c.a.eval s = some ![(rp + hA) * cos (2 * π * s), (rp + hA) * sin (2 * π * s), 0] ∧
        c.p.eval s = some ![rp * cos (2 * π * s), rp * sin (2 * π * s), 0] ∧
        c.d.eval s = some ![(rp - hD) * cos (2 * π * s), (rp - hD) * sin (2 * π * s), 0] ∧
        c.o.eval s = some ![max (rp - hO) DELTA * cos (2 * π * s),
          max (rp - hO) DELTA * sin (2 * π * s), 0] := by
  have hp0 : rp • RIGHT = ![rp, 0, 0] := by apply V3.ext3 <;> simp [RIGHT]
  have hpol : polarTransform 0 baseRadius ![rp, 0, 0] = some ![rp, 0, 0] := by
    simp only [polarTransform, if_true]
    congr 1
    have := c13_cylindrical' rp 0 0 ORIGIN hr (by linarith [pi_pos]) pi_pos.le
    have e : cylindricalToXyz ![rp, 0, 0] ORIGIN = ![rp, 0, 0] := by
      apply V3.ext3 <;> simp [cylindricalToXyz, ORIGIN]
    rwa [e] at this
  have hinv : ∀ h : ℝ, inversePolarTransform 0 baseRadius (![rp, 0, 0] + ![h, 0, 0]) = ![rp + h, 0, 0] := by
    intro h
    simp only [inversePolarTransform, if_true]
    apply V3.ext3 <;> simp [cylindricalToXyz, ORIGIN]
  have hD0 : (0 : ℝ) < DELTA := by norm_num [DELTA]
  have hmax : rp + -(if hO > rp - DELTA then rp - DELTA else hO) = max (rp - hO) DELTA := by
    split_ifs with h
    · rw [max_eq_right (by linarith)]; ring
    · rw [max_eq_left (by linarith)]; ring
  have hm0 : 0 < max (rp - hO) DELTA := lt_max_of_lt_right hD0
  obtain ⟨ca, a1, a2, a3, a4⟩ := circle_spec hE (rp + hA) 0 ha
  obtain ⟨cp, p1, p2, p3, p4⟩ := circle_spec hE rp 0 hr.ne'
  obtain ⟨cd, d1, d2, d3, d4⟩ := circle_spec hE (rp - hD) 0 (sub_ne_zero.2 hd)
  obtain ⟨co, o1, o2, o3, o4⟩ := circle_spec hE (max (rp - hO) DELTA) 0 hm0.ne'
  rw [abs_of_pos hr] at p3
  rw [abs_of_pos hm0] at o3
  refine ⟨⟨ca, cp, cd, co⟩, ?_, a3, p3, d3, o3, fun s => ⟨a4 s, p4 s, d4 s, o4 s⟩⟩
  simp only [referenceCircles, hp0, hpol, hinv, hmax, ← sub_eq_add_neg rp hD]
  rw [p1, a1, d1, o1]

/-- Distances on a bevel gear: the point of the gear's sphere (centre = apex of the pitch cone, radius the
cone distance `rp / sin g`) on the x side, at angle `a` from the axis. `σ` is the side of the apex. -/
noncomputable def conePoint (rp g σ a : ℝ) : V3 :=
  ![rp / sin g * sin a, 0, σ * (rp / tan g - rp / sin g * cos a)]

theorem polar_pitch_point {coneAngle rp : ℝ} (hr : 0 < rp) (h0 : coneAngle ≠ 0) (h1 : |coneAngle| < π) :
    polarTransform coneAngle rp ![rp, 0, 0] =
      some ![(|coneAngle| / 2 - π / 2) * (rp / sin (|coneAngle| / 2)), 0, 0] ∧
    ∀ h : ℝ, inversePolarTransform coneAngle rp
        (![(|coneAngle| / 2 - π / 2) * (rp / sin (|coneAngle| / 2)), 0, 0] + ![h, 0, 0]) =
      conePoint rp (|coneAngle| / 2) (sgn coneAngle)
        (|coneAngle| / 2 + h / (rp / sin (|coneAngle| / 2))) := by
  obtain ⟨g, hg⟩ : ∃ g, g = |coneAngle| / 2 := ⟨_, rfl⟩
  have hg0 : 0 < g := by rw [hg]; have := abs_pos.2 h0; linarith
  have hg1 : g < π / 2 := by rw [hg]; linarith
  have hsin : 0 < sin g := sin_pos_of_pos_of_lt_pi hg0 (by linarith)
  have hcos : 0 < cos g := cos_pos_of_mem_Ioo ⟨by linarith, by linarith⟩
  obtain ⟨σ, hσ⟩ : ∃ σ, σ = sgn coneAngle := ⟨_, rfl⟩
  have hσ2 : σ * σ = 1 := by rw [hσ]; exact sgn_mul_self h0
  have hgam : coneAngle / 2 = σ * g := by
    rw [hσ, hg, sgn]
    rcases lt_or_gt_of_ne h0 with h | h
    · rw [if_pos h, abs_of_neg h]; ring
    · rw [if_neg (by linarith), if_neg h0, abs_of_pos h]; ring
  have hσ1 : σ = 1 ∨ σ = -1 := by
    have : (σ - 1) * (σ + 1) = 0 := by linear_combination hσ2
    rcases mul_eq_zero.1 this with h | h
    · left; linarith
    · right; linarith
  have hsg : sin (coneAngle / 2) = σ * sin g := by
    rw [hgam]; rcases hσ1 with h | h <;> simp [h]
  have hcg : cos (coneAngle / 2) = cos g := by
    rw [hgam]; rcases hσ1 with h | h <;> simp [h]
  have hR : (gearPolarData coneAngle rp).R = rp / sin g := by
    simp only [ConicData.R, gearPolarData, TransformData.default, ConicData.gamma, mul_one]
    rw [hsg, abs_div, abs_mul, abs_of_pos hr, abs_of_pos hsin]
    rcases hσ1 with h | h <;> simp [h]
  have hcen : mulV (gearPolarData coneAngle rp).center ![1, 1, sgn coneAngle] =
      ![0, 0, rp * cos g / sin g] := by
    simp only [ConicData.center, gearPolarData, TransformData.default, ConicData.gamma,
      applyTransform, ← hσ]
    apply V3.ext3 <;> simp [OUT, mulV, tan_eq_sin_div_cos, hsg, hcg]
    field_simp
    rw [div_eq_iff (by intro h; rw [h] at hσ2; simp at hσ2), one_mul]
  rw [← hg, ← hσ]
  constructor
  · have hpt : mulV (![rp, 0, 0] : V3) ![1, 1, sgn coneAngle] =
        sphericalToXyz ![rp / sin g, 0, π - g] ![0, 0, rp * cos g / sin g] := by
      apply V3.ext3 <;> simp [mulV, sphericalToXyz] <;> field_simp <;> simp
    simp only [polarTransform, if_neg h0, hcen, hpt, hR]
    rw [c13_spherical' _ _ _ _ (div_pos hr hsin) (by linarith [pi_pos]) pi_pos.le (by linarith)
      (by linarith)]
    simp only [Matrix.cons_val_zero, Matrix.cons_val_one, Matrix.cons_val, sub_self]
    congr 2
    ring
  · intro h
    simp only [inversePolarTransform, if_neg h0, hcen, hR]
    rw [← hσ]
    have hθ : π / 2 - ((![(g - π / 2) * (rp / sin g), 0, 0] + ![h, 0, 0] : V3) 0) / (rp / sin g) =
        π - (g + h / (rp / sin g)) := by
      simp only [Pi.add_apply, Matrix.cons_val_zero]
      field_simp; ring
    rw [hθ]
    apply V3.ext3 <;> simp [mulV, sphericalToXyz, conePoint, tan_eq_sin_div_cos]
    field_simp
    ring

/-- **C54, conical gears.** The circles are horizontal circles of the gear's sphere at the cone half-angles
`g + h_a/R`, `g`, `g - h_d/R` and `g - min(h_o, rp - DELTA)/R`, where `g` is half the cone angle and
`R = rp / sin g` the cone distance. A negative cone angle puts the apex below. -/
theorem c54_conical (hE : EulerOk asEuler) (rp hA hD hO coneAngle : ℝ) (hr : 0 < rp)
    (h0 : coneAngle ≠ 0) (h1 : |coneAngle| < π)
    (ha : sin (|coneAngle| / 2 + hA / (rp / sin (|coneAngle| / 2))) ≠ 0)
    (hd : sin (|coneAngle| / 2 - hD / (rp / sin (|coneAngle| / 2))) ≠ 0)
    (ho : sin (|coneAngle| / 2 - min hO (rp - DELTA) / (rp / sin (|coneAngle| / 2))) ≠ 0) :
    let g := |coneAngle| / 2
    let R := rp / sin g
    let apex : V3 := ![0, 0, sgn coneAngle * (rp / tan g)]
    ∃ c, referenceCircles asEuler rp hA hD hO coneAngle rp = some c ∧
      ∀ s, ∃ a p d o, c.a.eval s = some a ∧ c.p.eval s = some p ∧ c.d.eval s = some d ∧
        c.o.eval s = some o ∧
        a = app (Rz (2 * π * s)) (conePoint rp g (sgn coneAngle) (g + hA / R)) ∧
        p = app (Rz (2 * π * s)) ![rp, 0, 0] ∧
        d = app (Rz (2 * π * s)) (conePoint rp g (sgn coneAngle) (g - hD / R)) ∧
        o = app (Rz (2 * π * s)) (conePoint rp g (sgn coneAngle) (g - min hO (rp - DELTA) / R)) ∧
        norm3 (a - apex) = R ∧ norm3 (p - apex) = R ∧ norm3 (d - apex) = R ∧ norm3 (o - apex) = R := by
  intro g R apex
  have hg0 : 0 < g := by have := abs_pos.2 h0; simp only [g]; linarith
  have hsin : 0 < sin g := sin_pos_of_pos_of_lt_pi hg0 (by simp only [g]; linarith [pi_pos])
  have hcos : 0 < cos g := cos_pos_of_mem_Ioo ⟨by linarith [pi_pos], by simp only [g]; linarith⟩
  have hRpos : 0 < R := div_pos hr hsin
  have hσ2 : sgn coneAngle * sgn coneAngle = 1 := sgn_mul_self h0
  have hp0 : rp • RIGHT = ![rp, 0, 0] := by apply V3.ext3 <;> simp [RIGHT]
  obtain ⟨hpol, hinv⟩ := polar_pitch_point hr h0 h1
  have hx : ∀ a, sin a ≠ 0 → rp / sin g * sin a ≠ 0 := fun a h => mul_ne_zero hRpos.ne' h
  have hmin : -(if hO > rp - DELTA then rp - DELTA else hO) = -min hO (rp - DELTA) := by
    split_ifs with h
    · rw [min_eq_right (le_of_lt h)]
    · rw [min_eq_left (not_lt.1 h)]
  obtain ⟨ca, a1, a2, a3, a4⟩ := circle_spec hE _
    (sgn coneAngle * (rp / tan g - rp / sin g * cos (g + hA / R))) (hx _ ha)
  obtain ⟨cp, p1, p2, p3, p4⟩ := circle_spec hE rp 0 hr.ne'
  obtain ⟨cd, d1, d2, d3, d4⟩ := circle_spec hE _
    (sgn coneAngle * (rp / tan g - rp / sin g * cos (g - hD / R))) (hx _ hd)
  obtain ⟨co, o1, o2, o3, o4⟩ := circle_spec hE _
    (sgn coneAngle * (rp / tan g - rp / sin g * cos (g - min hO (rp - DELTA) / R))) (hx _ ho)
  have hrot : ∀ x z s : ℝ, (![x * cos (2 * π * s), x * sin (2 * π * s), z] : V3) =
      app (Rz (2 * π * s)) ![x, 0, z] := by
    intro x z s; rw [Rz_app]; apply V3.ext3 <;> simp [Matrix.cons_val] <;> ring
  have hdist : ∀ a s : ℝ, norm3 (app (Rz (2 * π * s)) (conePoint rp g (sgn coneAngle) a) - apex) = R := by
    intro a s
    have e : app (Rz (2 * π * s)) apex = apex := by
      rw [Rz_app]; apply V3.ext3 <;> simp [apex, Matrix.cons_val]
    rw [← e, ← app_sub, (IsRot.Rz _).norm_app]
    refine norm3_eq_of_dot hRpos.le ?_
    simp only [dot, conePoint, apex, Pi.sub_apply, Matrix.cons_val_zero, Matrix.cons_val_one, Matrix.cons_val]
    simp only [R]
    linear_combination (rp / sin g * cos a) ^ 2 * hσ2 + (rp / sin g) ^ 2 * sin_sq_add_cos_sq a
  have hp : (![rp, 0, 0] : V3) = conePoint rp g (sgn coneAngle) g := by
    apply V3.ext3 <;> simp [conePoint, tan_eq_sin_div_cos] <;> field_simp
    simp
  refine ⟨⟨ca, cp, cd, co⟩, ?_, fun s => ⟨_, _, _, _, a4 s, p4 s, d4 s, o4 s, hrot _ _ _, hrot _ _ _,
    hrot _ _ _, hrot _ _ _, ?_, ?_, ?_, ?_⟩⟩
  · simp only [referenceCircles, hp0, hpol, hinv, hmin, neg_div, ← sub_eq_add_neg]
    simp only [conePoint]
    rw [p1, a1, d1, o1]
  · rw [hrot]; exact hdist _ s
  · rw [hrot, hp]; exact hdist _ s
  · rw [hrot]; exact hdist _ s
  · rw [hrot]; exact hdist _ s

/-- Concrete case for C54: pitch radius 10, addendum 1, dedendum 1.25 and an outer ring of 20, more than the
gear has: the radii are 11, 10, 8.75 and `DELTA`. -/
example (hE : EulerOk asEuler) : ∃ c, referenceCircles asEuler 10 1 1.25 20 0 10 = some c ∧
    c.a.arcRadius = some 11 ∧ c.p.arcRadius = some 10 ∧ c.d.arcRadius = some 8.75 ∧
    c.o.arcRadius = some DELTA := by
  obtain ⟨c, h1, h2, h3, h4, h5, -⟩ := c54_cylindrical hE 10 1 1.25 20 10 (by norm_num) (by norm_num)
    (by norm_num)
  refine ⟨c, h1, ?_, h3, ?_, ?_⟩
  · rw [h2]; norm_num
  · rw [h4]; norm_num
  · rw [h5, max_eq_right (by norm_num [DELTA])]

/-- Concrete case for C54 on a cone: a mitre gear (cone angle 90°) of pitch radius 1 and cone distance `√2`
meets the guards, here with no addendum and no dedendum. -/
example (hE : EulerOk asEuler) : ∃ c, referenceCircles asEuler 1 0 0 0 (π / 2) 1 = some c := by
  have hpi := pi_pos
  have h : |π / 2| / 2 = π / 4 := by rw [abs_of_pos (by positivity)]; ring
  have hs : sin (π / 4) ≠ 0 := (sin_pos_of_pos_of_lt_pi (by positivity) (by linarith)).ne'
  have hm : min (0 : ℝ) (1 - DELTA) = 0 := min_eq_left (by norm_num [DELTA])
  obtain ⟨c, h1, -⟩ := c54_conical hE 1 0 0 0 (π / 2) one_pos (by positivity)
    (by rw [abs_of_pos (by positivity)]; linarith) (by rw [h, zero_div, add_zero]; exact hs)
    (by rw [h, zero_div, sub_zero]; exact hs) (by rw [h, hm, zero_div, sub_zero]; exact hs)
  exact ⟨c, h1⟩

end C54

/-! ### C57: tip reduction -/

theorem foldl_min_mem (r : ℝ) (rs : List ℝ) : rs.foldl min r ∈ r :: rs ∧ ∀ x ∈ r :: rs, rs.foldl min r ≤ x := by
  induction rs generalizing r with
  | nil => simp
  | cons a rs ih =>
    obtain ⟨h1, h2⟩ := ih (min r a)
    simp only [List.foldl_cons]
    constructor
    · rcases List.mem_cons.1 h1 with h | h
      · rw [h]
        rcases min_choice r a with h' | h' <;> simp [h']
      · simp [h]
    · intro x hx
      have h3 := h2 _ List.mem_cons_self
      rcases List.mem_cons.1 hx with rfl | hx
      · exact h3.trans (min_le_left _ _)
      rcases List.mem_cons.1 hx with rfl | hx
      · exact h3.trans (min_le_right _ _)
      · exact h2 _ (List.mem_cons_of_mem _ hx)

/-- **C57, the tooth never gets longer.** For every solver outcome the returned height is at most the
requested addendum height. -/
theorem c57_never_longer (rah rdh tr : ℝ) (sols : List (Bool × ℝ)) :
    applyTipReduction rah rdh tr sols ≤ rah := by
  unfold applyTipReduction
  simp only
  split
  · exact le_rfl
  · split_ifs <;> linarith

/-- **C57, which height.** If a reported solution lies above the dedendum and, reduced by the tip reduction,
below the requested height, then the result is the lowest such solution, reduced by the tip reduction. -/
theorem c57_reduced (rah rdh tr : ℝ) (htr : 0 < tr) (sols : List (Bool × ℝ)) (r : ℝ)
    (hr : (true, r) ∈ sols) (hd : rdh < r) (hlow : ∀ r', (true, r') ∈ sols → rdh < r' → r ≤ r') :
    applyTipReduction rah rdh tr sols = min rah (r - tr) := by
  unfold applyTipReduction
  simp only
  have hmem : ∀ x, x ∈ (sols.filter fun s => s.1 && decide (s.2 > rdh)).map Prod.snd ↔
      (true, x) ∈ sols ∧ rdh < x := by
    intro x
    simp only [List.mem_map, List.mem_filter, Bool.and_eq_true, decide_eq_true_eq, Prod.exists,
      exists_eq_right]
    constructor
    · rintro ⟨b, h1, h2, h3⟩; exact ⟨h2 ▸ h1, h3⟩
    · rintro ⟨h1, h2⟩; exact ⟨true, h1, rfl, h2⟩
  have hin := (hmem r).2 ⟨hr, hd⟩
  split
  · rename_i h; rw [h] at hin; cases hin
  · rename_i x xs h
    obtain ⟨h1, h2⟩ := foldl_min_mem x xs
    rw [← h] at h1 h2
    have e : xs.foldl min x = r := by
      have h3 := (hmem _).1 h1
      exact le_antisymm (h2 r hin) (hlow _ h3.1 h3.2)
    rw [e, if_pos htr]
    split_ifs with h4
    · rw [min_eq_right h4.le]
    · rw [min_eq_left (not_lt.1 h4)]

/-- **C57, lower limit (partial).** The result stays above the dedendum height less the tip reduction.
Missing: above the dedendum height itself, which is false. -/
theorem c57_lower_partial (rah rdh tr : ℝ) (h : rdh < rah) (sols : List (Bool × ℝ)) :
    rdh - max tr 0 < applyTipReduction rah rdh tr sols := by
  have hm := le_max_left tr 0
  have hm0 := le_max_right tr 0
  unfold applyTipReduction
  simp only
  split
  · linarith
  · rename_i x xs hx
    have h1 := (foldl_min_mem x xs).1
    rw [← hx] at h1
    simp only [List.mem_map, List.mem_filter, Bool.and_eq_true, decide_eq_true_eq] at h1
    obtain ⟨s, ⟨-, -, hs⟩, e⟩ := h1
    rw [e] at hs
    split_ifs <;> linarith

/-- **C57 violated.** The flanks meet just above the dedendum circle and the tip reduction is larger than
that distance: the returned tip lies below the root. -/
theorem c57_violated : ∃ (rah rdh tr : ℝ) (sols : List (Bool × ℝ)), rdh < rah ∧ 0 < tr ∧
    sols.length = 4 ∧ applyTipReduction rah rdh tr sols < rdh := by
  refine ⟨10, 8, 1, List.replicate 4 (true, 8.5), by norm_num, by norm_num, rfl, ?_⟩
  norm_num [applyTipReduction, List.replicate]

/-! ### C60: tooth parameters -/

/-- **C60, negative counts.** A negative count equals the positive count with the inside flag toggled. -/
theorem c60_negative (n cutout : ℝ) (inside : Bool) (hn : 0 < n) :
    GearToothParam.make (-n) cutout inside = GearToothParam.make n cutout (!inside) := by
  rw [GearToothParam.make, GearToothParam.make, if_pos (by linarith), if_neg (by linarith), neg_neg]

/-- **C60, counts and pitch.** The count is positive afterwards, the number of real teeth is the count less
the cut out ones, rounded down, and the pitch angles of all teeth fill the circle. -/
theorem c60_counts (n cutout : ℝ) (inside : Bool) (hn : n ≠ 0) :
    0 < (GearToothParam.make n cutout inside).numTeeth ∧
      ((GearToothParam.make n cutout inside).numTeethAct : ℝ) ≤ |n| - cutout ∧
      |n| - cutout - 1 < (GearToothParam.make n cutout inside).numTeethAct ∧
      (GearToothParam.make n cutout inside).pitchAngle * |n| = 2 * π := by
  have e : (GearToothParam.make n cutout inside).numTeeth = |n| ∧
      (GearToothParam.make n cutout inside).numCutoutTeeth = cutout := by
    rw [GearToothParam.make]
    split_ifs with h
    · exact ⟨(abs_of_neg h).symm, rfl⟩
    · exact ⟨(abs_of_nonneg (not_lt.1 h)).symm, rfl⟩
  have hp := abs_pos.2 hn
  rw [GearToothParam.numTeethAct, GearToothParam.pitchAngle, e.1, e.2]
  refine ⟨hp, Int.floor_le _, Int.sub_one_lt_floor _, ?_⟩
  field_simp

/-- **C60, whole gears.** With a whole number of teeth and of cut out teeth nothing is rounded, and the real
teeth together with the cut out ones fill the circle. -/
theorem c60_whole (n k : ℕ) (inside : Bool) (hn : 0 < n) :
    (GearToothParam.make n k inside).numTeethAct = (n : ℤ) - k ∧
      ((GearToothParam.make n k inside).numTeethAct + (k : ℝ)) *
        (GearToothParam.make n k inside).pitchAngle = 2 * π := by
  have hn' : (0 : ℝ) < n := by exact_mod_cast hn
  have e : GearToothParam.make n k inside = ⟨n, k, inside⟩ := by
    rw [GearToothParam.make, if_neg (by linarith)]
  have h : (GearToothParam.make n k inside).numTeethAct = (n : ℤ) - k := by
    rw [e, GearToothParam.numTeethAct]
    simp only
    rw [show (n : ℝ) - k = (((n : ℤ) - k : ℤ) : ℝ) by push_cast; ring, Int.floor_intCast]
  refine ⟨h, ?_⟩
  rw [h, e, GearToothParam.pitchAngle]
  push_cast
  field_simp
  ring

/-- Concrete case for C60: 10.5 teeth, one cut out, gives nine real teeth; a negative count an inside
gear. -/
example : (GearToothParam.make (-10.5) 1 false).numTeethAct = 9 ∧
    (GearToothParam.make (-10.5) 1 false).insideTeeth = true := by
  have e : GearToothParam.make (-10.5) 1 false = ⟨10.5, 1, true⟩ := by
    rw [GearToothParam.make, if_pos (by norm_num)]; norm_num
  rw [e]
  refine ⟨?_, rfl⟩
  rw [GearToothParam.numTeethAct, Int.floor_eq_iff]
  norm_num

end Verif
