import Verif.Model.Fillet
import Verif.Props.Arc
import Verif.Props.Chain2
import Mathlib.Analysis.SpecialFunctions.Trigonometric.Deriv
import Mathlib.Data.List.Chain

/-! # Properties C100, C101, C102: fillets -/

namespace Verif

open Real

/-- `arc` is a circular arc of radius `r` from `p1` to `p2`: it leaves `p1` in the direction `d1` and arrives
at `p2` in the direction `d2` (unit vectors), turning by the angle between the two, less than half a turn, in
their plane. The centre lies across `d1` and `d2`, on the side to which the arc turns. -/
def SmoothArc (arc : Curve) (p1 p2 d1 d2 : V3) (r : ℝ) : Prop :=
  ∃ center θ, 0 < θ ∧ θ < π ∧ cos θ = dot d1 d2 ∧ arc.active = true ∧ arc.length = r * θ ∧
    arc.eval 0 = some p1 ∧ arc.eval 1 = some p2 ∧
    (∀ s, ∃ p, arc.eval s = some p ∧ norm3 (p - center) = r ∧ dot (p - center) (cross d1 d2) = 0) ∧
    HasDerivAt (fun s => (arc.eval s).getD 0) ((r * θ) • d1) 0 ∧
    HasDerivAt (fun s => (arc.eval s).getD 0) ((r * θ) • d2) 1 ∧
    center = p1 - r • cross d1 ((norm3 (cross d1 d2))⁻¹ • cross d1 d2) ∧
    center = p2 - r • cross d2 ((norm3 (cross d1 d2))⁻¹ • cross d1 d2)

theorem hasDerivAt_rodrigues {n v : V3} (hn : dot n n = 1) (hv : dot n v = 0) (c : V3) (θ s : ℝ) :
    HasDerivAt (fun s => c + rodrigues n (θ * s) v) (θ • cross n (rodrigues n (θ * s) v)) s := by
  have hl : HasDerivAt (fun s : ℝ => θ * s) θ s := by simpa using (hasDerivAt_id s).const_mul θ
  have h1 : HasDerivAt (fun s : ℝ => cos (θ * s) • v) ((-sin (θ * s) * θ) • v) s := hl.cos.smul_const v
  have h2 : HasDerivAt (fun s : ℝ => sin (θ * s) • cross n v) ((cos (θ * s) * θ) • cross n v) s :=
    hl.sin.smul_const _
  have h3 := (h1.add h2).const_add c
  have ef : (fun s => c + rodrigues n (θ * s) v) =
      fun s : ℝ => c + ((fun s : ℝ => cos (θ * s) • v) + fun s : ℝ => sin (θ * s) • cross n v) s := by
    funext x
    rw [rodrigues, hv]
    simp
  have ev : (-sin (θ * s) * θ) • v + (cos (θ * s) * θ) • cross n v =
      θ • cross n (rodrigues n (θ * s) v) := by
    rw [rodrigues, hv, cross_add_right, cross_add_right, cross_smul_right, cross_smul_right,
      cross_cross_right, hn, hv]
    have : ((1 - cos (θ * s)) * 0 : ℝ) • n = 0 := by simp
    rw [this, show cross n (0 : V3) = 0 by apply V3.ext3 <;> simp]
    module
  rw [ef, ← ev]
  exact h3

/-- The geometry of a tangent arc: the two offset points coincide. -/
theorem smoothArc_of_center {asEuler : M3 → ℝ × ℝ × ℝ} (hE : EulerOk asEuler) {p1 p2 d1 d2 : V3} {r : ℝ}
    (hr : 0 < r) (h1 : dot d1 d1 = 1) (h2 : dot d2 d2 = 1) (hw : cross d1 d2 ≠ 0) (c : V3)
    (e1 : c = p1 - r • cross d1 ((norm3 (cross d1 d2))⁻¹ • cross d1 d2))
    (e2 : c = p2 - r • cross d2 ((norm3 (cross d1 d2))⁻¹ • cross d1 d2)) :
    ∃ arc, arcFrom2PointCenter asEuler p1 p2 c 0 true = some arc ∧ SmoothArc arc p1 p2 d1 d2 r ∧
      norm3 (p1 - c) = r ∧ ∃ n θ, dot n n = 1 ∧ dot n (p1 - c) = 0 ∧ 0 < θ ∧ θ < π ∧
        (∀ s, arc.eval s = some (c + rodrigues n (θ * s) (p1 - c))) ∧ cross n (p2 - c) = r • d2 ∧
        cross n (p1 - c) = r • d1 := by
  obtain ⟨w, hwd⟩ : ∃ w, w = norm3 (cross d1 d2) := ⟨_, rfl⟩
  obtain ⟨a, ha⟩ : ∃ a, a = w⁻¹ • cross d1 d2 := ⟨_, rfl⟩
  have hwp : 0 < w := by rw [hwd]; exact norm3_pos hw
  have hcen := And.intro e1 e2
  rw [← hwd, ← ha] at e1 e2
  have haa : dot a a = 1 := by rw [ha, hwd]; exact dot_inv_smul hw
  have had1 : dot a d1 = 0 := by rw [ha, dot_smul_left, dot_comm, dot_cross_left, mul_zero]
  have had2 : dot a d2 = 0 := by rw [ha, dot_smul_left, dot_comm, dot_cross_right, mul_zero]
  have hwa : w • a = cross d1 d2 := by rw [ha, hwd]; exact norm3_smul_inv hw
  have q1 : p1 - c = r • cross d1 a := by rw [e1]; abel
  have q2 : p2 - c = r • cross d2 a := by rw [e2]; abel
  have hdd : ∀ d, dot a d = 0 → dot d d = 1 → dot (cross d a) (cross d a) = 1 := by
    intro d h h'
    rw [dot_cross_self, haa, h', dot_comm d a, h]; ring
  have hn : ∀ d, dot a d = 0 → dot d d = 1 → norm3 (r • cross d a) = r := by
    intro d h h'
    rw [norm3_smul, abs_of_pos hr, norm3_eq_of_dot zero_le_one (by rw [hdd d h h']; ring), mul_one]
  have hback : ∀ d, dot a d = 0 → cross a (r • cross d a) = r • d := by
    intro d h
    rw [cross_smul_right, cross_cross_right, haa, h, zero_smul, sub_zero, one_smul]
  have hcr : cross (r • cross d1 a) (r • cross d2 a) = (r ^ 2 * w) • a := by
    rw [cross_smul_left, cross_smul_right, cross_cross_left, mul_smul, hwa]
    have t1 : dot d1 (cross d2 a) = w := by
      have : dot d1 (cross d2 a) = dot a (cross d1 d2) := by simp [dot]; ring
      rw [this, ← hwa, dot_smul_right, haa, mul_one]
    have t2 : dot a (cross d2 a) = 0 := dot_cross_right _ _
    rw [t1, t2, zero_smul, sub_zero, hwa, smul_smul, sq]
  have hl : norm3 (p1 - c) = norm3 (p2 - c) := by
    rw [q1, q2, hn d1 had1 h1, hn d2 had2 h2]
  have hwc : cross (p1 - c) (p2 - c) ≠ 0 := by
    rw [q1, q2, hcr]
    intro e
    have := congrArg (dot a) e
    rw [dot_smul_right, haa, dot_zero_right] at this
    have : 0 < r ^ 2 * w := by positivity
    linarith
  have hnc : norm3 (cross (p1 - c) (p2 - c)) = r ^ 2 * w := by
    rw [q1, q2, hcr, norm3_smul, abs_of_pos (by positivity), norm3_eq_of_dot zero_le_one (by rw [haa]; ring),
      mul_one]
  obtain ⟨arc, harc, hact, h0, h1', hpl, n, θ, hnn, hnm, hθ0, hθ1, hev⟩ :=
    c49_two_points hE p1 p2 c 0 true hl hwc
  have hna : n = a := by
    rw [hnc, q1, q2, hcr] at hnm
    have h5 : (r ^ 2 * w) ≠ 0 := by positivity
    exact smul_right_injective V3 h5 hnm
  subst hna
  have hev' : ∀ s, arc.eval s = some (c + rodrigues n (θ * s) (p1 - c)) := by
    intro s
    rw [hev]
    simp
  have hperp : dot n (p1 - c) = 0 := by rw [q1, dot_smul_right, dot_cross_right, mul_zero]
  have hfun : (fun s => (arc.eval s).getD 0) = fun s => c + rodrigues n (θ * s) (p1 - c) := by
    funext s; rw [hev' s]; rfl
  have hR0 : rodrigues n (θ * 0) (p1 - c) = p1 - c := by
    have := hev' 0
    rw [h0] at this
    rw [← add_right_inj c, ← Option.some.inj this]; abel
  have hR1 : rodrigues n (θ * 1) (p1 - c) = p2 - c := by
    have := hev' 1
    rw [h1'] at this
    rw [← add_right_inj c, ← Option.some.inj this]; abel
  -- the angle between the tangents
  have hcos : ∀ φ, rodrigues n φ (p1 - c) = p2 - c → cos φ = dot d1 d2 := by
    intro φ hφ
    have h7 : dot (p1 - c) (p2 - c) = r ^ 2 * cos φ := by
      rw [← hφ, rodrigues, hperp, dot_add_right, dot_add_right, dot_smul_right, dot_smul_right,
        dot_cross_right, ← norm3_mul_self, q1, hn d1 had1 h1, dot_smul_right]
      ring
    have h8 : dot (p1 - c) (p2 - c) = r ^ 2 * dot d1 d2 := by
      rw [q1, q2, dot_smul_left, dot_smul_right, dot_cross_cross, haa, dot_comm d1 n, had1]
      ring
    have : r ^ 2 * (cos φ - dot d1 d2) = 0 := by linarith
    rcases mul_eq_zero.1 this with h | h
    · exact absurd h (by positivity)
    · linarith
  have hθ : angleBetween (p1 - c) (p2 - c) = θ := by
    obtain ⟨g1, g2, g3⟩ := rodrigues_angleBetween hl hwc 0
    have hnn' : (norm3 (cross (p1 - c) (p2 - c)))⁻¹ • cross (p1 - c) (p2 - c) = n := by
      rw [hnc] at hnm ⊢
      rw [← hnm, smul_smul, inv_mul_cancel₀ (by positivity), one_smul]
    rw [hnn', Int.cast_zero, zero_mul, zero_mul, add_zero] at g1
    exact injOn_cos ⟨g2.le, g3.le⟩ ⟨hθ0.le, hθ1.le⟩
      ((hcos _ g1).trans (hcos θ (by rw [← mul_one θ]; exact hR1)).symm)
  refine ⟨arc, harc, ⟨c, θ, hθ0, hθ1, hcos θ (by rw [← mul_one θ]; exact hR1), hact, ?_, h0, h1', ?_, ?_, ?_, hcen⟩,
    by rw [q1]; exact hn d1 had1 h1, n, θ, hnn, hperp, hθ0, hθ1, hev', by rw [q2]; exact hback d2 had2,
    by rw [q1]; exact hback d1 had1⟩
  · have hne : p1 - c ≠ 0 := by
      intro e; rw [e] at hwc; apply hwc; apply V3.ext3 <;> simp
    rw [arcFrom2PointCenter, normalizeVector_some hne, normalizeVector_some hwc] at harc
    rw [← Option.some.inj harc, arcInit, Curve.make, if_pos rfl, hθ]
    change norm3 (p1 - c) * (θ + (0 : ℤ) * π * 2) = _
    rw [q1, hn d1 had1 h1]
    simp
  · intro s
    obtain ⟨p, hp, hp1, hp2⟩ := hpl s
    refine ⟨p, hp, by rw [hp1, q1, hn d1 had1 h1], ?_⟩
    rw [q1, q2, hcr, dot_smul_right] at hp2
    rw [← hwa, dot_smul_right]
    have : dot (p - c) n = 0 := by
      rcases mul_eq_zero.1 hp2 with h | h
      · exact absurd h (by positivity)
      · exact h
    rw [this, mul_zero]
  · rw [hfun]
    have := hasDerivAt_rodrigues hnn hperp c θ 0
    rw [hR0, q1, hback d1 had1, smul_smul, mul_comm θ r] at this
    rw [q1]; exact this
  · rw [hfun]
    have := hasDerivAt_rodrigues hnn hperp c θ 1
    rw [hR1, q2, hback d2 had2, smul_smul, mul_comm θ r] at this
    exact this

theorem normalizeVector_dir {v d : V3} (h : normalizeVector v = some d) :
    dot d d = 1 ∧ v = norm3 v • d := by
  have hv : v ≠ 0 := by
    rintro rfl
    rw [normalizeVector, if_pos (norm3_eq_zero.2 rfl)] at h
    cases h
  rw [normalizeVector_some hv] at h
  cases h
  exact ⟨dot_inv_smul hv, (norm3_smul_inv hv).symm⟩

theorem unitTangent_unit {f : ℝ → Option V3} {t : ℝ} {d : V3} (h : unitTangent f t = some d) :
    dot d d = 1 := by
  rw [unitTangent, Option.bind_eq_some_iff] at h
  obtain ⟨v, -, hv⟩ := h
  exact (normalizeVector_dir hv).1

/-- What is known when `calc_centers` succeeds. -/
theorem calcCenters_some {f1 f2 : ℝ → Option V3} {r t1 t2 : ℝ} {c : V3 × V3}
    (h : calcCenters f1 f2 r t1 t2 = some c) :
    ∃ p1 p2 d1 d2, f1 t1 = some p1 ∧ f2 t2 = some p2 ∧ unitTangent f1 t1 = some d1 ∧
      unitTangent f2 t2 = some d2 ∧ cross d1 d2 ≠ 0 ∧
      c = (p1 - r • cross d1 ((norm3 (cross d1 d2))⁻¹ • cross d1 d2),
        p2 - r • cross d2 ((norm3 (cross d1 d2))⁻¹ • cross d1 d2)) := by
  rw [calcCenters] at h
  split at h
  · rename_i p1 p2 d1 d2 h1 h2 h3 h4
    dsimp only at h
    split_ifs at h with hz
    refine ⟨p1, p2, d1, d2, h1, h2, h3, h4, fun e => hz (by rw [e]; exact norm3_eq_zero.2 rfl), ?_⟩
    exact (Option.some.inj h).symm
  · cases h

theorem calcCenters_intro {f1 f2 : ℝ → Option V3} {r t1 t2 : ℝ} {p1 p2 d1 d2 : V3} (h1 : f1 t1 = some p1)
    (h2 : f2 t2 = some p2) (h3 : unitTangent f1 t1 = some d1) (h4 : unitTangent f2 t2 = some d2)
    (hw : cross d1 d2 ≠ 0) : calcCenters f1 f2 r t1 t2 =
      some (p1 - r • cross d1 ((norm3 (cross d1 d2))⁻¹ • cross d1 d2),
        p2 - r • cross d2 ((norm3 (cross d1 d2))⁻¹ • cross d1 d2)) := by
  rw [calcCenters, h1, h2, h3, h4]
  dsimp only
  rw [if_neg (fun e => hw (norm3_eq_zero.1 e))]

/-- If the two centres coincide, the arc between the two points is tangent to both curves. -/
theorem arcBetween_smooth {asEuler : M3 → ℝ × ℝ × ℝ} (hE : EulerOk asEuler) {f1 f2 : ℝ → Option V3}
    {r t1 t2 : ℝ} (hr : 0 < r) {c : V3} (h : calcCenters f1 f2 r t1 t2 = some (c, c)) :
    ∃ arc p1 p2 d1 d2, arcBetween asEuler f1 f2 r t1 t2 = some arc ∧ f1 t1 = some p1 ∧ f2 t2 = some p2 ∧
      unitTangent f1 t1 = some d1 ∧ unitTangent f2 t2 = some d2 ∧ SmoothArc arc p1 p2 d1 d2 r := by
  obtain ⟨p1, p2, d1, d2, h1, h2, h3, h4, hw, e⟩ := calcCenters_some h
  obtain ⟨arc, harc, hs, -⟩ := smoothArc_of_center hE hr (unitTangent_unit h3) (unitTangent_unit h4) hw c
    (congrArg Prod.fst e) (congrArg Prod.snd e)
  refine ⟨arc, p1, p2, d1, d2, ?_, h1, h2, h3, h4, hs⟩
  rw [arcBetween, h, h1, h2]
  have : (1 / 2 : ℝ) • (c + c) = c := by module
  simp only [this]
  exact harc

/-- **C100, `calc_tangent_arc`.** If the solver's answer is an exact root of the cost function, the returned
arc runs from a point of the first curve to a point of the second, has the requested radius, and is tangent
to both curves there, in the direction in which they run; the returned parameters are those of the two
points. With the method `MINDISTANCE` the same holds if the distance reached is zero. -/
theorem c100_tangent_arc {asEuler : M3 → ℝ × ℝ × ℝ} (hE : EulerOk asEuler) (S : Solvers)
    (f1 f2 : ℝ → Option V3) (r : ℝ) (hr : 0 < r) (start : ℝ × ℝ) (method : IntersectMethod)
    (hsol : match method with
      | .equality => tangentCost f1 f2 r start (S.root (tangentCost f1 f2 r start) 0).x = some 0
      | .minDistance => tangentCost2 f1 f2 r start (S.minimize (tangentCost2 f1 f2 r start) (0, 0)).x =
          some 0) :
    ∃ arc t1 t2 ok p1 p2 d1 d2, calcTangentArc asEuler S f1 f2 r start method = some (arc, t1, t2, ok) ∧
      f1 t1 = some p1 ∧ f2 t2 = some p2 ∧ unitTangent f1 t1 = some d1 ∧ unitTangent f2 t2 = some d2 ∧
      SmoothArc arc p1 p2 d1 d2 r := by
  have key : ∀ t1 t2 : ℝ, ∀ c : V3 × V3, calcCenters f1 f2 r t1 t2 = some c → c.1 = c.2 →
      ∃ arc p1 p2 d1 d2, arcBetween asEuler f1 f2 r t1 t2 = some arc ∧ f1 t1 = some p1 ∧ f2 t2 = some p2 ∧
        unitTangent f1 t1 = some d1 ∧ unitTangent f2 t2 = some d2 ∧ SmoothArc arc p1 p2 d1 d2 r := by
    rintro t1 t2 ⟨c, c'⟩ hc he
    cases he
    exact arcBetween_smooth hE hr hc
  cases method with
  | equality =>
    dsimp only at hsol
    rw [tangentCost, Option.map_eq_some_iff] at hsol
    obtain ⟨c, hc, he⟩ := hsol
    obtain ⟨arc, p1, p2, d1, d2, ha, h1, h2, h3, h4, h5⟩ := key _ _ c hc (sub_eq_zero.1 he)
    refine ⟨arc, _, _, (S.root (tangentCost f1 f2 r start) 0).success, p1, p2, d1, d2, ?_, h1, h2, h3, h4, h5⟩
    rw [calcTangentArc]
    dsimp only
    rw [ha]
    rfl
  | minDistance =>
    dsimp only at hsol
    rw [tangentCost2, Option.map_eq_some_iff] at hsol
    obtain ⟨c, hc, he⟩ := hsol
    obtain ⟨arc, p1, p2, d1, d2, ha, h1, h2, h3, h4, h5⟩ := key _ _ c hc (sub_eq_zero.1 (dot_self_eq_zero.1 he))
    refine ⟨arc, _, _, (S.minimize (tangentCost2 f1 f2 r start) (0, 0)).success, p1, p2, d1, d2, ?_, h1, h2, h3, h4, h5⟩
    rw [calcTangentArc, ha]
    rfl

/-- **C100, `fillet_curve`.** The same for two places of one curve: `sol` is the answer that is used, the first
successful one of three attempts or else the last. -/
theorem c100_fillet_curve {asEuler : M3 → ℝ × ℝ × ℝ} (hE : EulerOk asEuler) (S : Solvers)
    (f : ℝ → Option V3) (len r : ℝ) (hr : 0 < r) (start : ℝ × ℝ)
    (hsol : tangentCost f f r start (filletRoot S f len r start).x = some 0) :
    ∃ arc t1 t2 p1 p2 d1 d2, filletCurve asEuler S f len r start = some (arc, t1, t2) ∧
      t1 = start.1 - (filletRoot S f len r start).x 0 ∧ t2 = start.2 + (filletRoot S f len r start).x 1 ∧
      f t1 = some p1 ∧ f t2 = some p2 ∧ unitTangent f t1 = some d1 ∧ unitTangent f t2 = some d2 ∧
      SmoothArc arc p1 p2 d1 d2 r := by
  rw [tangentCost, Option.map_eq_some_iff] at hsol
  obtain ⟨⟨c, c'⟩, hc, he⟩ := hsol
  cases sub_eq_zero.1 he
  obtain ⟨arc, p1, p2, d1, d2, ha, h1, h2, h3, h4, h5⟩ := arcBetween_smooth hE hr hc
  refine ⟨arc, _, _, p1, p2, d1, d2, ?_, rfl, rfl, h1, h2, h3, h4, h5⟩
  rw [filletCurve, ha]
  rfl

/-- On a straight part of a curve that reaches `DELTA` to both sides, the tangent used is the direction of
the line. -/
theorem c100_tangent_line {f : ℝ → Option V3} {t : ℝ} {q v : V3} (hv : v ≠ 0)
    (hf : ∀ x, t - DELTA ≤ x → x ≤ t + DELTA → f x = some (q + x • v)) :
    unitTangent f t = some ((norm3 v)⁻¹ • v) := by
  have hD : 0 < DELTA := by rw [DELTA]; norm_num
  rw [unitTangent, numericDiff, if_pos rfl, PyFun.call, PyFun.call, hf _ (by linarith) (le_refl _),
    hf _ (le_refl _) (by linarith)]
  simp only [Option.bind_some]
  have : (1 / 2 / DELTA) • (q + (t + DELTA) • v - (q + (t - DELTA) • v)) = v := by
    have h : q + (t + DELTA) • v - (q + (t - DELTA) • v) = (2 * DELTA) • v := by module
    rw [h, smul_smul, show 1 / 2 / DELTA * (2 * DELTA) = 1 by field_simp, one_smul]
  rw [this, normalizeVector_some hv]

/-- On a circular part of a curve that reaches `DELTA` to both sides, the tangent used is the direction of
the tangent of the circle: a positive multiple of it is the derivative. -/
theorem c100_tangent_circle {f : ℝ → Option V3} {t ω φ : ℝ} {c n u : V3} (hn : dot n n = 1)
    (hu : dot n u = 0) (hu0 : u ≠ 0) (hω : ω ≠ 0) (hsmall : |ω| * DELTA < π)
    (hf : ∀ x, t - DELTA ≤ x → x ≤ t + DELTA → f x = some (c + rodrigues n (ω * x + φ) u)) :
    ∃ d v, unitTangent f t = some d ∧ HasDerivAt (fun x => c + rodrigues n (ω * x + φ) u) v t ∧
      v = norm3 v • d ∧ v ≠ 0 := by
  have hD : 0 < DELTA := by rw [DELTA]; norm_num
  obtain ⟨E, hEd⟩ : ∃ E, E = cross n (rodrigues n (ω * t + φ) u) := ⟨_, rfl⟩
  have hE' : E = (-sin (ω * t + φ)) • u + cos (ω * t + φ) • cross n u := by
    rw [hEd, rodrigues, hu, cross_add_right, cross_add_right, cross_smul_right, cross_smul_right,
      cross_cross_right, hn, hu]
    have : ((1 - cos (ω * t + φ)) * 0 : ℝ) • n = 0 := by simp
    rw [this, show cross n (0 : V3) = 0 by apply V3.ext3 <;> simp]
    module
  have hE0 : E ≠ 0 := by
    intro h0
    have h1 : dot E E = dot u u := by
      rw [hE']
      simp only [dot_add_left, dot_add_right, dot_smul_left, dot_smul_right]
      rw [dot_comm (cross n u) u, dot_cross_right, dot_cross_self, hn, hu]
      linear_combination dot u u * sin_sq_add_cos_sq (ω * t + φ)
    rw [h0, dot_zero_right] at h1
    exact hu0 (dot_self_eq_zero.1 h1.symm)
  have hsin : 0 < ω * sin (ω * DELTA) := by
    rcases lt_or_gt_of_ne hω with h | h
    · rw [abs_of_neg h] at hsmall
      have : 0 < sin (-(ω * DELTA)) := sin_pos_of_pos_of_lt_pi (by nlinarith) (by linarith)
      rw [sin_neg] at this
      nlinarith
    · rw [abs_of_pos h] at hsmall
      exact mul_pos h (sin_pos_of_pos_of_lt_pi (by positivity) hsmall)
  obtain ⟨k, hk⟩ : ∃ k, k = sin (ω * DELTA) / DELTA := ⟨_, rfl⟩
  have hk0 : 0 < ω * k := by rw [hk, ← mul_div_assoc]; positivity
  have hk1 : k ≠ 0 := by rintro rfl; simp at hk0
  have hdiff : (1 / 2 / DELTA) • (c + rodrigues n (ω * (t + DELTA) + φ) u -
      (c + rodrigues n (ω * (t - DELTA) + φ) u)) = k • E := by
    rw [show ω * (t + DELTA) + φ = (ω * t + φ) + ω * DELTA by ring,
      show ω * (t - DELTA) + φ = (ω * t + φ) - ω * DELTA by ring, rodrigues, rodrigues, hu, hE', hk]
    generalize ω * t + φ = A
    rw [cos_add, sin_add, cos_sub, sin_sub]
    have hD' := hD.ne'
    have e : ∀ x y : ℝ, (1 / 2 / DELTA) • (2 * x * y : ℝ) • u = (y / DELTA * x) • u := by
      intro x y; rw [smul_smul]; congr 1; field_simp
    have e2 : ∀ x y : ℝ, (1 / 2 / DELTA) • (2 * x * y : ℝ) • cross n u = (y / DELTA * x) • cross n u := by
      intro x y; rw [smul_smul]; congr 1; field_simp
    rw [smul_add, smul_smul, smul_smul, ← e, ← e2]
    module
  have hkE : k • E ≠ 0 := smul_ne_zero hk1 hE0
  refine ⟨(norm3 (k • E))⁻¹ • (k • E), ω • E, ?_, ?_, ?_, smul_ne_zero hω hE0⟩
  · rw [unitTangent, numericDiff, if_pos rfl, PyFun.call, PyFun.call, hf _ (by linarith) (le_refl _),
      hf _ (le_refl _) (by linarith)]
    simp only [Option.bind_some]
    rw [hdiff, normalizeVector_some hkE]
  · have hl : HasDerivAt (fun x : ℝ => ω * x + φ) ω t := by
      simpa using ((hasDerivAt_id t).const_mul ω).add_const φ
    have h1 : HasDerivAt (fun x : ℝ => cos (ω * x + φ) • u) ((-sin (ω * t + φ) * ω) • u) t :=
      hl.cos.smul_const u
    have h2 : HasDerivAt (fun x : ℝ => sin (ω * x + φ) • cross n u) ((cos (ω * t + φ) * ω) • cross n u) t :=
      hl.sin.smul_const _
    have h3 := (h1.add h2).const_add c
    have ef : (fun x => c + rodrigues n (ω * x + φ) u) = fun x : ℝ => c +
        ((fun x : ℝ => cos (ω * x + φ) • u) + fun x : ℝ => sin (ω * x + φ) • cross n u) x := by
      funext x
      rw [rodrigues, hu]
      simp
    have ev : (-sin (ω * t + φ) * ω) • u + (cos (ω * t + φ) * ω) • cross n u = ω • E := by
      rw [hE']; module
    rw [ef, ← ev]
    exact h3
  · have hEp := norm3_pos hE0
    rw [norm3_smul, norm3_smul, smul_smul, smul_smul]
    congr 1
    have h5 : |ω| * k = ω * |k| := by
      rcases lt_or_gt_of_ne hω with h | h
      · have : k < 0 := by nlinarith
        rw [abs_of_neg h, abs_of_neg this]; ring
      · have : 0 < k := by nlinarith
        rw [abs_of_pos h, abs_of_pos this]
    have := abs_pos.2 hk1
    field_simp
    linear_combination -h5

/-! ### C101 -/

section
variable {α : Type} {o : CurveOps α}

theorem meets_cons (a : α) (l : List α) : Meets o (a :: l) ↔
    (o.active a = true → ∀ b ∈ (l.filter o.active).head?, o.eval a 1 = o.eval b 0) ∧ Meets o l := by
  constructor
  · intro h
    refine ⟨fun ha b hb => ?_, fun j k c d hjk hc hd hca hda hbet => ?_⟩
    · rw [List.head?_filter, Option.mem_def, List.find?_eq_some_iff_getElem] at hb
      obtain ⟨hbact, i, hi, rfl, hmin⟩ := hb
      refine h 0 (i + 1) a l[i] (by omega) rfl (by simp) ha hbact fun m c hm0 hm1 hc => ?_
      obtain ⟨m', rfl⟩ := Nat.exists_eq_succ_of_ne_zero hm0.ne'
      have := hmin m' (by omega)
      rw [List.getElem?_cons_succ, List.getElem?_eq_getElem (by omega)] at hc
      cases hc
      simpa using this
    · refine h (j + 1) (k + 1) c d (by omega) (by simpa using hc) (by simpa using hd) hca hda
        fun m e hm0 hm1 he => ?_
      obtain ⟨m', rfl⟩ := Nat.exists_eq_succ_of_ne_zero (show m ≠ 0 by omega)
      exact hbet m' e (by omega) (by omega) (by simpa using he)
  · rintro ⟨h1, h2⟩ j k c d hjk hc hd hca hda hbet
    obtain ⟨k', rfl⟩ := Nat.exists_eq_succ_of_ne_zero (show k ≠ 0 by omega)
    rw [Nat.succ_eq_add_one, List.getElem?_cons_succ] at hd
    rcases Nat.eq_zero_or_pos j with rfl | hj
    · rw [List.getElem?_cons_zero] at hc
      cases hc
      apply h1 hca
      rw [List.head?_filter, Option.mem_def, List.find?_eq_some_iff_getElem]
      obtain ⟨hk, hd'⟩ := List.getElem?_eq_some_iff.1 hd
      refine ⟨hda, k', hk, hd', fun m hm => ?_⟩
      rw [hbet (m + 1) l[m] (by omega) (by omega) (by simp)]
      rfl
    · obtain ⟨j', rfl⟩ := Nat.exists_eq_succ_of_ne_zero hj.ne'
      rw [Nat.succ_eq_add_one, List.getElem?_cons_succ] at hc
      exact h2 j' k' c d (by omega) hc hd hca hda fun m e hm0 hm1 he =>
        hbet (m + 1) e (by omega) (by omega) (by simpa using he)

/-- The active members meet one after the other. -/
theorem meets_iff (l : List α) :
    Meets o l ↔ (l.filter o.active).IsChain fun a b => o.eval a 1 = o.eval b 0 := by
  induction l with
  | nil =>
    simp only [List.filter_nil, List.IsChain.nil, iff_true]
    intro j k a b _ h
    simp at h
  | cons a l ih =>
    rw [meets_cons, ih]
    by_cases ha : o.active a = true
    · rw [List.filter_cons_of_pos ha, List.isChain_cons]
      simp [ha]
    · rw [List.filter_cons_of_neg ha]
      simp [ha]

/-- Replacing the rest of a chain after a trimmed member, and joining another chain there. -/
theorem meets_join {x y : List α} {a a' e b b' : α} {x2 y2 : List α} (h1 : Meets o (x ++ a :: y))
    (h2 : Meets o (x2 ++ b :: y2)) (ha : o.active a = true) (ha' : o.active a' = true)
    (hb : o.active b = true) (hb' : o.active b' = true) (he : o.active e = true)
    (ea : o.eval a' 0 = o.eval a 0) (eb : o.eval b' 1 = o.eval b 1)
    (j1 : o.eval a' 1 = o.eval e 0) (j2 : o.eval e 1 = o.eval b' 0) :
    Meets o ((x ++ [a']) ++ e :: (b' :: y2)) := by
  rw [meets_iff] at h1 h2 ⊢
  rw [List.filter_append, List.filter_cons_of_pos ha] at h1
  rw [List.filter_append, List.filter_cons_of_pos hb] at h2
  rw [List.filter_append, List.filter_append, List.filter_cons_of_pos he, List.filter_cons_of_pos hb',
    List.filter_cons_of_pos ha', List.filter_nil]
  have c1 := (List.isChain_append.1 h1)
  have c2 := (List.isChain_append.1 h2).2.1
  rw [List.isChain_cons] at c2
  rw [List.isChain_append, List.isChain_append]
  refine ⟨⟨c1.1, List.IsChain.singleton _, ?_⟩, ?_, ?_⟩
  · intro u hu v hv
    simp only [List.head?_cons, Option.mem_def, Option.some.injEq] at hv
    subst hv
    rw [ea]
    exact c1.2.2 u hu a (by simp)
  · rw [List.isChain_cons, List.isChain_cons]
    refine ⟨?_, ?_, c2.2⟩
    · intro v hv
      simp only [List.head?_cons, Option.mem_def, Option.some.injEq] at hv
      subst hv; exact j2
    · intro v hv
      rw [eb]; exact c2.1 v hv
  · intro u hu v hv
    simp only [List.head?_cons, Option.mem_def, Option.some.injEq] at hv
    simp only [List.getLast?_append, List.getLast?_singleton, Option.some_or, Option.mem_def,
      Option.some.injEq] at hu
    subst hu hv; exact j1

/-- The shape of `set_end_on` without preserved members. -/
theorem setEnd_shape {Good : α → Prop} (hl : Lawful o Good) {l : List α} (h : AllPos o l)
    (hL : 0 < chainLen o l) (hg : ∀ a ∈ l, o.active a = true → Good a) {s : ℝ} (h0 : 0 < s) (h1 : s ≤ 1)
    {p : V3} (hp : chainEval o l s = some p) :
    ∃ x a y a', l = x ++ a :: y ∧ chainSetEnd o l s false = some (x ++ [a']) ∧ o.active a = true ∧
      o.active a' = true ∧ Good a' ∧ o.eval a' 0 = o.eval a 0 ∧ o.eval a' 1 = some p ∧
      ∃ σ, 0 < σ ∧ σ ≤ 1 ∧ o.setEnd a σ = some a' ∧ chainLen o x + σ * o.len a = s * chainLen o l := by
  obtain ⟨k, σ, a, e, ha, hact, -, s1, hs, hpos, -⟩ := c43_lookup l h.nonNeg hL s h0.le h1
  have hev : o.eval a σ = some p := by
    rw [chainEval, e] at hp
    simpa [ha] using hp
  obtain ⟨a', q1, q2, q3, q4, q5⟩ := hl.fin a σ p (hg a (List.mem_of_getElem? ha) hact) hev
  refine ⟨l.take k, a, l.drop (k + 1), a', split_at ha, ?_, hact, by rw [q3, hact], q2, q5, q4, σ,
    (hpos h0).1, s1, q1, hs⟩
  rw [chainSetEnd, endRaw, e]
  simp only [Option.bind_some, ha, q1, Option.map_some, Bool.false_eq_true, if_false]
  rw [chainUpdate_eq hl]
  intro b hb hbact
  rcases List.mem_append.1 hb with hb | hb
  · exact hg b (List.mem_of_mem_take hb) hbact
  · rw [List.mem_singleton.1 hb]; exact q2

/-- The shape of `set_start_on` without preserved members. -/
theorem setStart_shape {Good : α → Prop} (hl : Lawful o Good) {l : List α} (h : AllPos o l)
    (hL : 0 < chainLen o l) (hg : ∀ a ∈ l, o.active a = true → Good a) {s : ℝ} (h0 : 0 ≤ s) (h1 : s ≤ 1)
    {p : V3} (hp : chainEval o l s = some p) :
    ∃ x a y a', l = x ++ a :: y ∧ chainSetStart o l s false = some (a' :: y) ∧ o.active a = true ∧
      o.active a' = true ∧ Good a' ∧ o.eval a' 1 = o.eval a 1 ∧ o.eval a' 0 = some p ∧
      ∃ σ, 0 ≤ σ ∧ σ ≤ 1 ∧ o.setStart a σ = some a' ∧ chainLen o x + σ * o.len a = s * chainLen o l := by
  obtain ⟨k, σ, a, e, ha, hact, s0, s1, hs, hpos, -⟩ := c43_lookup l h.nonNeg hL s h0 h1
  have hev : o.eval a σ = some p := by
    rw [chainEval, e] at hp
    simpa [ha] using hp
  obtain ⟨a', q1, q2, q3, q4, q5⟩ := hl.start a σ p (hg a (List.mem_of_getElem? ha) hact) hev
  refine ⟨l.take k, a, l.drop (k + 1), a', split_at ha, ?_, hact, by rw [q3, hact], q2, q5, q4, σ,
    s0, s1, q1, hs⟩
  rw [chainSetStart, startRaw, e]
  simp only [Option.bind_some, ha, q1, Option.map_some, Bool.false_eq_true, if_false, List.nil_append]
  rw [chainUpdate_eq hl]
  intro b hb hbact
  rcases List.mem_cons.1 hb with rfl | hb
  · exact q2
  · exact hg b (List.mem_of_mem_drop hb) hbact

theorem chainLen_pos {x y : List α} {a : α} (h : AllPos o (x ++ a :: y)) (ha : o.active a = true) :
    0 < chainLen o (x ++ a :: y) := by
  have hn := h.nonNeg
  have hx : 0 ≤ chainLen o x := chainLen_nonneg fun b hb => hn b (by simp [hb])
  have hy : 0 ≤ chainLen o y := chainLen_nonneg fun b hb => hn b (by simp [hb])
  have hl : 0 < o.len a := by rw [len_of_active ha]; exact h a (by simp) ha
  rw [chainLen_append, chainLen_cons]; linarith

/-- A chain starts where its first active member starts. -/
theorem chainEval_zero_find {l : List α} (h : AllPos o l) {a : α} (ha : l.find? o.active = some a) :
    chainEval o l 0 = o.eval a 0 := by
  obtain ⟨hact, x, y, rfl, hx⟩ := List.find?_eq_some_iff_append.1 ha
  rw [chainEval_zero h.nonNeg (chainLen_pos h hact) (fun b hb => by simpa using hx b hb) hact, if_pos]
  rw [len_of_active hact]; exact (h a (by simp) hact).ne'

/-- A chain ends where its last active member ends. -/
theorem chainEval_one_find {l : List α} (h : AllPos o l) {a : α} (ha : l.reverse.find? o.active = some a) :
    chainEval o l 1 = o.eval a 1 := by
  obtain ⟨hact, x, y, e, hx⟩ := List.find?_eq_some_iff_append.1 ha
  have e' : l = y.reverse ++ a :: x.reverse := by
    rw [← List.reverse_reverse l, e]; simp
  subst e'
  apply chainEval_one h.nonNeg
  · rw [len_of_active hact]; exact h a (by simp) hact
  · apply chainLen_inactive
    intro b hb
    simpa using hx b (List.mem_reverse.1 hb)

end

theorem SmoothArc.pos {arc : Curve} {p1 p2 d1 d2 : V3} {r : ℝ} (h : SmoothArc arc p1 p2 d1 d2 r)
    (hr : 0 < r) : 0 < arc.length := by
  obtain ⟨c, θ, h0, -, -, -, hl, -⟩ := h
  rw [hl]; positivity

/-- The arc made by `from_2_point_center` has up-to-date lengths. -/
theorem arcFrom2PointCenter_fresh {asEuler : M3 → ℝ × ℝ × ℝ} {p q c : V3} {k : ℤ} {arc : Curve}
    (h : arcFrom2PointCenter asEuler p q c k true = some arc) :
    arc.kind.Sampled ∧ arc.updateLengths = arc := by
  rw [arcFrom2PointCenter] at h
  split at h
  · rw [← Option.some.inj h, arcInit, Curve.make, if_pos rfl]
    exact ⟨by rw [updateLengths_kind]; trivial, updateLengths_idem _⟩
  · cases h

theorem arcBetween_fresh {asEuler : M3 → ℝ × ℝ × ℝ} {f1 f2 : ℝ → Option V3} {r t1 t2 : ℝ} {arc : Curve}
    (h : arcBetween asEuler f1 f2 r t1 t2 = some arc) : arc.kind.Sampled ∧ arc.updateLengths = arc := by
  rw [arcBetween] at h
  split at h
  · exact arcFrom2PointCenter_fresh h
  · cases h

/-- **C101.** Filleting a connected chain: if the solver's answer is an exact root with both parameters on the
chain, `fillet_at_locations` returns the part of the chain up to `t1`, the arc, and the part from `t2` on
(`a'` and `b'` are the trimmed members), and these pieces are connected. The arc has the requested radius and
is tangent to the chain at both ends. If the trimmed members keep a positive length, the new chain starts and
ends where the old one did. -/
theorem c101_fillet {asEuler : M3 → ℝ × ℝ × ℝ} (hE : EulerOk asEuler) (S : Solvers) (l : List Curve)
    (h : AllPos curveOps l) (hm : Meets curveOps l) (hL : 0 < chainLen curveOps l)
    (hg : ∀ a ∈ l, a.active = true → a.kind.Sampled ∧ a.updateLengths = a) (r : ℝ) (hr : 0 < r)
    (start : ℝ × ℝ) (x : V3)
    (hx : x = (filletRoot S (chainEval curveOps l) (chainLen curveOps l) r start).x)
    (hsol : tangentCost (chainEval curveOps l) (chainEval curveOps l) r start x = some 0)
    (ht1 : 0 < start.1 - x 0 ∧ start.1 - x 0 ≤ 1) (ht2 : 0 ≤ start.2 + x 1 ∧ start.2 + x 1 ≤ 1) :
    ∃ R before arc after l1 l2 a a' b b' p1 p2 d1 d2,
      filletAtLocations asEuler S l r start = some R ∧ R = before ++ arc :: after ∧
      chainSetEnd curveOps l (start.1 - x 0) false = some before ∧
      chainSetStart curveOps l (start.2 + x 1) false = some after ∧
      l = before.dropLast ++ a :: l1 ∧ before.getLast? = some a' ∧ l = l2 ++ b :: after.tail ∧
      after.head? = some b' ∧ a'.eval 0 = a.eval 0 ∧ a'.eval 1 = some p1 ∧ b'.eval 0 = some p2 ∧
      b'.eval 1 = b.eval 1 ∧
      chainEval curveOps l (start.1 - x 0) = some p1 ∧ chainEval curveOps l (start.2 + x 1) = some p2 ∧
      unitTangent (chainEval curveOps l) (start.1 - x 0) = some d1 ∧
      unitTangent (chainEval curveOps l) (start.2 + x 1) = some d2 ∧
      SmoothArc arc p1 p2 d1 d2 r ∧ Meets curveOps R ∧
      (0 < a'.length → 0 < b'.length → AllPos curveOps R ∧
        chainEval curveOps R 0 = chainEval curveOps l 0 ∧ chainEval curveOps R 1 = chainEval curveOps l 1) := by
  subst hx
  obtain ⟨arc, t1, t2, p1, p2, d1, d2, hf, e1, e2, h1, h2, h3, h4, h5⟩ :=
    c100_fillet_curve hE S (chainEval curveOps l) (chainLen curveOps l) r hr start hsol
  rw [← e1] at ht1 ⊢
  rw [← e2] at ht2 ⊢
  obtain ⟨x, a, y, a', s1, s2, s3, s4, s5, s6, s7, -⟩ :=
    setEnd_shape curve_lawful h hL hg ht1.1 ht1.2 h1
  obtain ⟨x2, b, y2, b', u1, u2, u3, u4, u5, u6, u7, -⟩ :=
    setStart_shape curve_lawful h hL hg ht2.1 ht2.2 h2
  have harcf : arc.kind.Sampled ∧ arc.updateLengths = arc := by
    rw [filletCurve, Option.map_eq_some_iff] at hf
    obtain ⟨arc', ha, hb⟩ := hf
    cases hb
    exact arcBetween_fresh ha
  obtain ⟨c, θ, g0, g1, g2, g3, g4, g5, g6, g7, g8⟩ := id h5
  have hupd : chainUpdate curveOps ((x ++ [a']) ++ arc :: (b' :: y2)) = (x ++ [a']) ++ arc :: (b' :: y2) := by
    apply chainUpdate_eq curve_lawful
    intro m hmem hact
    simp only [List.mem_append, List.mem_cons, List.not_mem_nil, or_false] at hmem
    rcases hmem with (hmem | rfl) | rfl | rfl | hmem
    · exact hg m (by rw [s1]; simp [hmem]) hact
    · exact s5
    · exact harcf
    · exact u5
    · exact hg m (by rw [u1]; simp [hmem]) hact
  have hmeet : Meets curveOps ((x ++ [a']) ++ arc :: (b' :: y2)) :=
    meets_join (s1 ▸ hm) (u1 ▸ hm) s3 s4 u3 u4 g3 s6 u6 (s7.trans g5.symm) (g6.trans u7.symm)
  refine ⟨(x ++ [a']) ++ arc :: (b' :: y2), x ++ [a'], arc, b' :: y2, y, x2, a, a', b, b', p1, p2, d1, d2, ?_,
    rfl, s2, u2, by simpa using s1, by simp, by simpa using u1, by simp, s6, s7, u7, u6, h1, h2, h3, h4, h5,
    hmeet, ?_⟩
  · rw [filletAtLocations, hf]
    simp only [Option.bind_some, s2, u2, Option.map_some]
    rw [hupd]
  · intro la lb
    have hall : AllPos curveOps ((x ++ [a']) ++ arc :: (b' :: y2)) := by
      intro m hmem hact
      simp only [List.mem_append, List.mem_cons, List.not_mem_nil, or_false] at hmem
      rcases hmem with (hmem | rfl) | rfl | rfl | hmem
      · exact h m (by rw [s1]; simp [hmem]) hact
      · exact la
      · exact h5.pos hr
      · exact lb
      · exact h m (by rw [u1]; simp [hmem]) hact
    refine ⟨hall, ?_, ?_⟩
    · rcases hc : x.find? curveOps.active with _ | c
      · rw [chainEval_zero_find hall (a := a') (by simp [List.find?_append, hc, s4]),
          chainEval_zero_find h (a := a) (by rw [s1]; simp [List.find?_append, hc, s3])]
        exact s6
      · rw [chainEval_zero_find hall (a := c) (by simp [List.find?_append, hc]),
          chainEval_zero_find h (a := c) (by rw [s1]; simp [List.find?_append, hc])]
    · rcases hc : y2.reverse.find? curveOps.active with _ | c
      · rw [chainEval_one_find hall (a := b') (by simp [List.find?_append, hc, u4]),
          chainEval_one_find h (a := b) (by rw [u1]; simp [List.find?_append, hc, u3])]
        exact u6
      · rw [chainEval_one_find hall (a := c) (by simp [List.find?_append, hc]),
          chainEval_one_find h (a := c) (by rw [u1]; simp [List.find?_append, hc])]

/-! ### C102 -/

/-- The centres on the two sides of a corner `b` with unit directions `d1` before and `d2` after it coincide
exactly if both points are `r·tan(φ/2)` away from the corner. -/
theorem corner_centers {b d1 d2 : V3} {r u v φ : ℝ} (h1 : dot d1 d1 = 1) (h2 : dot d2 d2 = 1)
    (hφ0 : 0 < φ) (hφ1 : φ < π) (hφ : cos φ = dot d1 d2) (hw : cross d1 d2 ≠ 0) :
    b - u • d1 - r • cross d1 ((norm3 (cross d1 d2))⁻¹ • cross d1 d2) =
      b + v • d2 - r • cross d2 ((norm3 (cross d1 d2))⁻¹ • cross d1 d2) ↔
      u = r * tan (φ / 2) ∧ v = r * tan (φ / 2) := by
  have hs : 0 < sin φ := sin_pos_of_pos_of_lt_pi hφ0 hφ1
  have hnw : norm3 (cross d1 d2) = sin φ := by
    apply norm3_eq_of_dot hs.le
    rw [dot_cross_self, h1, h2, ← hφ]
    linear_combination -(sin_sq_add_cos_sq φ)
  have ht : tan (φ / 2) = (1 - cos φ) / sin φ := by
    have hc : cos (φ / 2) ≠ 0 := (cos_pos_of_mem_Ioo ⟨by linarith, by linarith⟩).ne'
    have hs2 : sin (φ / 2) ≠ 0 := (sin_pos_of_pos_of_lt_pi (by linarith) (by linarith)).ne'
    have e1 : cos φ = 2 * cos (φ / 2) ^ 2 - 1 := by
      rw [← cos_two_mul]; congr 1; ring
    have e2 : sin φ = 2 * sin (φ / 2) * cos (φ / 2) := by
      rw [← sin_two_mul]; congr 1; ring
    rw [e1, e2, tan_eq_sin_div_cos]
    field_simp
    linear_combination 2 * sin_sq_add_cos_sq (φ / 2)
  rw [hnw, ht]
  have hs' := hs.ne'
  -- in the basis of the two directions
  have n1 : cross d1 ((sin φ)⁻¹ • cross d1 d2) = (sin φ)⁻¹ • (cos φ • d1 - d2) := by
    rw [cross_smul_right, cross_cross_right, h1, hφ, one_smul]
  have n2 : cross d2 ((sin φ)⁻¹ • cross d1 d2) = (sin φ)⁻¹ • (d1 - cos φ • d2) := by
    rw [cross_smul_right, cross_cross_right, h2, dot_comm d2 d1, hφ, one_smul]
  rw [n1, n2]
  have key : (b - u • d1 - r • (sin φ)⁻¹ • (cos φ • d1 - d2)) -
      (b + v • d2 - r • (sin φ)⁻¹ • (d1 - cos φ • d2)) =
      (r * (1 - cos φ) * (sin φ)⁻¹ - u) • d1 + (r * (1 - cos φ) * (sin φ)⁻¹ - v) • d2 := by module
  rw [← sub_eq_zero, key]
  constructor
  · intro h
    have c1 := congrArg (cross d2) h
    have c2 := congrArg (cross d1) h
    rw [cross_add_right, cross_smul_right, cross_smul_right, cross_self, smul_zero, add_zero,
      show cross d2 (0 : V3) = 0 by apply V3.ext3 <;> simp, cross_anticomm d2 d1] at c1
    rw [cross_add_right, cross_smul_right, cross_smul_right, cross_self, smul_zero, zero_add,
      show cross d1 (0 : V3) = 0 by apply V3.ext3 <;> simp] at c2
    have g1 := (smul_eq_zero.1 c1).resolve_right (neg_ne_zero.2 hw)
    have g2 := (smul_eq_zero.1 c2).resolve_right hw
    constructor
    · rw [← mul_div_assoc, div_eq_mul_inv]; linarith
    · rw [← mul_div_assoc, div_eq_mul_inv]; linarith
  · rintro ⟨rfl, rfl⟩
    have : r * (1 - cos φ) * (sin φ)⁻¹ - r * ((1 - cos φ) / sin φ) = 0 := by
      rw [div_eq_mul_inv]; ring
    rw [this, zero_smul, zero_smul, add_zero]

/-- Two consecutive straight members of a chain, meeting at the corner `b`. -/
structure CornerOk (x y : List Curve) (a b c : V3) : Prop where
  pos : AllPos curveOps (x ++ lineC a b :: lineC b c :: y)
  meets : Meets curveOps (x ++ lineC a b :: lineC b c :: y)
  fresh : ∀ m ∈ x ++ lineC a b :: lineC b c :: y, m.active = true →
    m.kind.Sampled ∧ m.updateLengths = m
  turn : cross (b - a) (c - b) ≠ 0

theorem lineC_len (p q : V3) : curveOps.len (lineC p q) = norm3 (q - p) := by
  rw [len_of_active (lineC_active p q)]; exact lineC_length p q

section
variable {x y : List Curve} {a b c : V3}

theorem CornerOk.total (h : CornerOk x y a b c) : 0 < chainLen curveOps (x ++ lineC a b :: lineC b c :: y) :=
  chainLen_pos h.pos (lineC_active a b)

theorem CornerOk.leg1 (h : CornerOk x y a b c) : 0 < norm3 (b - a) := by
  apply norm3_pos
  intro e
  apply h.turn
  rw [e]
  apply V3.ext3 <;> simp

theorem CornerOk.leg2 (h : CornerOk x y a b c) : 0 < norm3 (c - b) := by
  apply norm3_pos
  intro e
  apply h.turn
  rw [e]
  apply V3.ext3 <;> simp

/-- Reading the first leg: at the distance `u` before the corner. -/
theorem CornerOk.eval1 (h : CornerOk x y a b c) {t u : ℝ}
    (ht : t * chainLen curveOps (x ++ lineC a b :: lineC b c :: y) = chainLen curveOps x + norm3 (b - a) - u)
    (h0 : 0 ≤ u) (h1 : u ≤ norm3 (b - a)) :
    chainEval curveOps (x ++ lineC a b :: lineC b c :: y) t = some (b - u • ((norm3 (b - a))⁻¹ • (b - a))) := by
  have hl := h.leg1
  rw [chainEval_member h.pos h.meets h.total (k := x.length) (a := lineC a b) (by simp) (lineC_active a b)
    (by rw [preLen_split, ht]; linarith) (by rw [preLen_split, ht, lineC_len]; linarith), preLen_split, ht,
    lineC_len]
  change (lineC a b).eval _ = _
  rw [lineC_eval]
  congr 1
  have e : (chainLen curveOps x + norm3 (b - a) - u - chainLen curveOps x) / norm3 (b - a) =
      1 - u * (norm3 (b - a))⁻¹ := by field_simp; ring
  rw [e]
  module

/-- Reading the second leg: at the distance `u` after the corner. -/
theorem CornerOk.eval2 (h : CornerOk x y a b c) {t u : ℝ}
    (ht : t * chainLen curveOps (x ++ lineC a b :: lineC b c :: y) = chainLen curveOps x + norm3 (b - a) + u)
    (h0 : 0 ≤ u) (h1 : u ≤ norm3 (c - b)) :
    chainEval curveOps (x ++ lineC a b :: lineC b c :: y) t = some (b + u • ((norm3 (c - b))⁻¹ • (c - b))) := by
  have hl := h.leg2
  have hp : preLen curveOps (x ++ lineC a b :: lineC b c :: y) (x.length + 1) =
      chainLen curveOps x + norm3 (b - a) := by
    rw [preLen_succ curveOps (a := lineC a b) (by simp), preLen_split, lineC_len]
  rw [chainEval_member h.pos h.meets h.total (k := x.length + 1) (a := lineC b c) (by simp) (lineC_active b c)
    (by rw [hp, ht]; linarith) (by rw [hp, ht, lineC_len]; linarith), hp, ht, lineC_len]
  change (lineC b c).eval _ = _
  rw [lineC_eval]
  congr 1
  have e : (chainLen curveOps x + norm3 (b - a) + u - (chainLen curveOps x + norm3 (b - a))) / norm3 (c - b) =
      u * (norm3 (c - b))⁻¹ := by rw [add_sub_cancel_left, div_eq_mul_inv]
  rw [e]
  module

/-- The tangents used on the two legs are the directions of the legs. -/
theorem CornerOk.tangent1 (h : CornerOk x y a b c) {t u : ℝ}
    (ht : t * chainLen curveOps (x ++ lineC a b :: lineC b c :: y) = chainLen curveOps x + norm3 (b - a) - u)
    (h0 : DELTA * chainLen curveOps (x ++ lineC a b :: lineC b c :: y) ≤ u)
    (h1 : u + DELTA * chainLen curveOps (x ++ lineC a b :: lineC b c :: y) ≤ norm3 (b - a)) :
    unitTangent (chainEval curveOps (x ++ lineC a b :: lineC b c :: y)) t =
      some ((norm3 (b - a))⁻¹ • (b - a)) := by
  have hL := h.total
  have hd := dot_inv_smul (v := b - a) (fun e => h.leg1.ne' (norm3_eq_zero.2 e))
  obtain ⟨L, hLd⟩ : ∃ L, L = chainLen curveOps (x ++ lineC a b :: lineC b c :: y) := ⟨_, rfl⟩
  obtain ⟨d, hdd⟩ : ∃ d, d = (norm3 (b - a))⁻¹ • (b - a) := ⟨_, rfl⟩
  rw [← hLd] at ht h0 h1 hL
  rw [← hdd] at hd ⊢
  have hn : norm3 d = 1 := norm3_eq_of_dot zero_le_one (by rw [hd]; ring)
  have hnL : norm3 (L • d) = L := by rw [norm3_smul, hn, abs_of_pos hL, mul_one]
  have hne : L • d ≠ 0 := fun e => hL.ne' (by rw [← hnL, e]; exact norm3_eq_zero.2 rfl)
  rw [c100_tangent_line (q := b - (chainLen curveOps x + norm3 (b - a)) • d) hne, hnL, smul_smul,
    inv_mul_cancel₀ hL.ne', one_smul]
  intro s hs0 hs1
  have e1 : (t - DELTA) * L ≤ s * L := mul_le_mul_of_nonneg_right hs0 hL.le
  have e2 : s * L ≤ (t + DELTA) * L := mul_le_mul_of_nonneg_right hs1 hL.le
  rw [h.eval1 (u := chainLen curveOps x + norm3 (b - a) - s * L) (by rw [← hLd]; ring) (by linarith)
    (by linarith), ← hdd]
  congr 1
  module

theorem CornerOk.tangent2 (h : CornerOk x y a b c) {t u : ℝ}
    (ht : t * chainLen curveOps (x ++ lineC a b :: lineC b c :: y) = chainLen curveOps x + norm3 (b - a) + u)
    (h0 : DELTA * chainLen curveOps (x ++ lineC a b :: lineC b c :: y) ≤ u)
    (h1 : u + DELTA * chainLen curveOps (x ++ lineC a b :: lineC b c :: y) ≤ norm3 (c - b)) :
    unitTangent (chainEval curveOps (x ++ lineC a b :: lineC b c :: y)) t =
      some ((norm3 (c - b))⁻¹ • (c - b)) := by
  have hL := h.total
  have hd := dot_inv_smul (v := c - b) (fun e => h.leg2.ne' (norm3_eq_zero.2 e))
  obtain ⟨L, hLd⟩ : ∃ L, L = chainLen curveOps (x ++ lineC a b :: lineC b c :: y) := ⟨_, rfl⟩
  obtain ⟨d, hdd⟩ : ∃ d, d = (norm3 (c - b))⁻¹ • (c - b) := ⟨_, rfl⟩
  rw [← hLd] at ht h0 h1 hL
  rw [← hdd] at hd ⊢
  have hn : norm3 d = 1 := norm3_eq_of_dot zero_le_one (by rw [hd]; ring)
  have hnL : norm3 (L • d) = L := by rw [norm3_smul, hn, abs_of_pos hL, mul_one]
  have hne : L • d ≠ 0 := fun e => hL.ne' (by rw [← hnL, e]; exact norm3_eq_zero.2 rfl)
  rw [c100_tangent_line (q := b - (chainLen curveOps x + norm3 (b - a)) • d) hne, hnL, smul_smul,
    inv_mul_cancel₀ hL.ne', one_smul]
  intro s hs0 hs1
  have e1 : (t - DELTA) * L ≤ s * L := mul_le_mul_of_nonneg_right hs0 hL.le
  have e2 : s * L ≤ (t + DELTA) * L := mul_le_mul_of_nonneg_right hs1 hL.le
  rw [h.eval2 (u := s * L - (chainLen curveOps x + norm3 (b - a))) (by rw [← hLd]; ring) (by linarith)
    (by linarith), ← hdd]
  congr 1
  module

theorem CornerOk.dirs (h : CornerOk x y a b c) : dot ((norm3 (b - a))⁻¹ • (b - a)) ((norm3 (b - a))⁻¹ • (b - a)) = 1 ∧
    dot ((norm3 (c - b))⁻¹ • (c - b)) ((norm3 (c - b))⁻¹ • (c - b)) = 1 ∧
    cross ((norm3 (b - a))⁻¹ • (b - a)) ((norm3 (c - b))⁻¹ • (c - b)) ≠ 0 := by
  refine ⟨dot_inv_smul (fun e => h.leg1.ne' (norm3_eq_zero.2 e)),
    dot_inv_smul (fun e => h.leg2.ne' (norm3_eq_zero.2 e)), ?_⟩
  rw [cross_smul_left, cross_smul_right, smul_smul]
  exact smul_ne_zero (mul_ne_zero (inv_ne_zero h.leg1.ne') (inv_ne_zero h.leg2.ne')) h.turn

/-- **C102, where the arc begins and ends.** At a corner between two straight legs that turns by `φ`, points
`u` before and `v` after the corner (not within `DELTA` of the ends of the legs, in parameter) solve the
equation of the fillet exactly if both are `r·tan(φ/2)` away from the corner. -/
theorem c102_root (h : CornerOk x y a b c) {φ : ℝ} (hφ0 : 0 < φ) (hφ1 : φ < π)
    (hφ : dot (b - a) (c - b) = norm3 (b - a) * norm3 (c - b) * cos φ) (r t1 t2 u v : ℝ)
    (ht1 : t1 * chainLen curveOps (x ++ lineC a b :: lineC b c :: y) = chainLen curveOps x + norm3 (b - a) - u)
    (ht2 : t2 * chainLen curveOps (x ++ lineC a b :: lineC b c :: y) = chainLen curveOps x + norm3 (b - a) + v)
    (hu0 : DELTA * chainLen curveOps (x ++ lineC a b :: lineC b c :: y) ≤ u)
    (hu1 : u + DELTA * chainLen curveOps (x ++ lineC a b :: lineC b c :: y) ≤ norm3 (b - a))
    (hv0 : DELTA * chainLen curveOps (x ++ lineC a b :: lineC b c :: y) ≤ v)
    (hv1 : v + DELTA * chainLen curveOps (x ++ lineC a b :: lineC b c :: y) ≤ norm3 (c - b)) :
    (∃ m, calcCenters (chainEval curveOps (x ++ lineC a b :: lineC b c :: y))
        (chainEval curveOps (x ++ lineC a b :: lineC b c :: y)) r t1 t2 = some (m, m)) ↔
      u = r * tan (φ / 2) ∧ v = r * tan (φ / 2) := by
  obtain ⟨g1, g2, g3⟩ := h.dirs
  have hD : 0 < DELTA * chainLen curveOps (x ++ lineC a b :: lineC b c :: y) :=
    mul_pos (by rw [DELTA]; norm_num) h.total
  have hc : cos φ = dot ((norm3 (b - a))⁻¹ • (b - a)) ((norm3 (c - b))⁻¹ • (c - b)) := by
    have := h.leg1.ne'
    have := h.leg2.ne'
    rw [dot_smul_left, dot_smul_right, hφ]
    field_simp
  rw [calcCenters_intro (h.eval1 ht1 (by linarith) (by linarith)) (h.eval2 ht2 (by linarith) (by linarith))
    (h.tangent1 ht1 hu0 hu1) (h.tangent2 ht2 hv0 hv1) g3, ← corner_centers (b := b) g1 g2 hφ0 hφ1 hc g3]
  constructor
  · rintro ⟨m, hm⟩
    have := Option.some.inj hm
    exact (congrArg Prod.fst this).trans (congrArg Prod.snd this).symm
  · intro e
    exact ⟨_, by rw [e]⟩

/-- Trimming the chain on the first leg. -/
theorem CornerOk.setEnd (h : CornerOk x y a b c) {t u : ℝ}
    (ht : t * chainLen curveOps (x ++ lineC a b :: lineC b c :: y) = chainLen curveOps x + norm3 (b - a) - u)
    (h0 : 0 ≤ u) (h1 : u < norm3 (b - a)) :
    chainSetEnd curveOps (x ++ lineC a b :: lineC b c :: y) t false =
      some (x ++ [Curve.make (.line a b) true 0 (1 - u / norm3 (b - a))]) := by
  have hl := h.leg1
  have hg : (x ++ lineC a b :: lineC b c :: y)[x.length]? = some (lineC a b) := by simp
  have he : curveOps.setEnd (lineC a b) (1 - u / norm3 (b - a)) =
      some (Curve.make (.line a b) true 0 (1 - u / norm3 (b - a))) := by
    change (Curve.make _ _ _ _).setEndOn _ = _
    rw [line_setEnd]; simp
  rw [chainSetEnd, endRaw, getSIndex_eq h.pos.nonNeg h.total hg (by rw [preLen_split, ht]; linarith)
    (by rw [preLen_split, ht, lineC_len]; linarith), preLen_split, ht, lineC_len,
    show (chainLen curveOps x + norm3 (b - a) - u - chainLen curveOps x) / norm3 (b - a) =
      1 - u / norm3 (b - a) by field_simp; ring]
  simp only [Option.bind_some, hg, he, Option.map_some, Bool.false_eq_true, if_false, List.take_left']
  rw [chainUpdate_eq curve_lawful]
  intro m hm hact
  rcases List.mem_append.1 hm with hm | hm
  · exact h.fresh m (by simp [hm]) hact
  · rw [List.mem_singleton.1 hm]
    exact ⟨by rw [Curve.make, if_pos rfl, updateLengths_kind]; trivial, line_upd _ _ _ _⟩

/-- Trimming the chain on the second leg. -/
theorem CornerOk.setStart (h : CornerOk x y a b c) {t u : ℝ}
    (ht : t * chainLen curveOps (x ++ lineC a b :: lineC b c :: y) = chainLen curveOps x + norm3 (b - a) + u)
    (h0 : 0 < u) (h1 : u ≤ norm3 (c - b)) :
    chainSetStart curveOps (x ++ lineC a b :: lineC b c :: y) t false =
      some (Curve.make (.line b c) true (u / norm3 (c - b)) 1 :: y) := by
  have hl := h.leg2
  have hp : preLen curveOps (x ++ lineC a b :: lineC b c :: y) (x.length + 1) =
      chainLen curveOps x + norm3 (b - a) := by
    rw [preLen_succ curveOps (a := lineC a b) (by simp), preLen_split, lineC_len]
  have hg : (x ++ lineC a b :: lineC b c :: y)[x.length + 1]? = some (lineC b c) := by simp
  have he : curveOps.setStart (lineC b c) (u / norm3 (c - b)) =
      some (Curve.make (.line b c) true (u / norm3 (c - b)) 1) := by
    change (Curve.make _ _ _ _).setStartOn _ = _
    rw [line_setStart]; simp
  rw [chainSetStart, startRaw, getSIndex_eq h.pos.nonNeg h.total hg (by rw [hp, ht]; linarith)
    (by rw [hp, ht, lineC_len]; linarith), hp, ht, lineC_len, add_sub_cancel_left]
  have hdrop : (x ++ lineC a b :: lineC b c :: y).drop (x.length + 1 + 1) = y := by
    rw [show x ++ lineC a b :: lineC b c :: y = (x ++ [lineC a b, lineC b c]) ++ y by simp]
    exact List.drop_left' (by simp)
  simp only [Option.bind_some, hg, he, Option.map_some, Bool.false_eq_true, if_false, List.nil_append, hdrop]
  rw [chainUpdate_eq curve_lawful]
  intro m hm hact
  rcases List.mem_cons.1 hm with rfl | hm
  · exact ⟨by rw [Curve.make, if_pos rfl, updateLengths_kind]; trivial, line_upd _ _ _ _⟩
  · exact h.fresh m (by simp [hm]) hact

/-- **C102, the filleted corner.** If the solver answers with a root on the two legs, `fillet_at_locations`
replaces the corner by the arc of radius `r` that touches both legs at the distance `r·tan(φ/2)` from the
corner, shortens the legs by that amount and leaves all other members as they are; the length changes by
`r·φ - 2·r·tan(φ/2)`. -/
theorem c102_fillet {asEuler : M3 → ℝ × ℝ × ℝ} (hE : EulerOk asEuler) (S : Solvers) (h : CornerOk x y a b c)
    {φ : ℝ} (hφ0 : 0 < φ) (hφ1 : φ < π)
    (hφ : dot (b - a) (c - b) = norm3 (b - a) * norm3 (c - b) * cos φ) (r : ℝ) (hr : 0 < r)
    (start : ℝ × ℝ) (l : List Curve) (hl : l = x ++ lineC a b :: lineC b c :: y) (ξ : V3)
    (hξ : ξ = (filletRoot S (chainEval curveOps l) (chainLen curveOps l) r start).x)
    (hsol : tangentCost (chainEval curveOps l) (chainEval curveOps l) r start ξ = some 0)
    (hu0 : chainLen curveOps x ≤ (start.1 - ξ 0 - DELTA) * chainLen curveOps l)
    (hu1 : (start.1 - ξ 0 + DELTA) * chainLen curveOps l ≤ chainLen curveOps x + norm3 (b - a))
    (hv0 : chainLen curveOps x + norm3 (b - a) ≤ (start.2 + ξ 1 - DELTA) * chainLen curveOps l)
    (hv1 : (start.2 + ξ 1 + DELTA) * chainLen curveOps l ≤
      chainLen curveOps x + norm3 (b - a) + norm3 (c - b)) :
    ∃ R arc, filletAtLocations asEuler S l r start = some R ∧
      R = x ++ Curve.make (.line a b) true 0 (1 - r * tan (φ / 2) / norm3 (b - a)) :: arc ::
        Curve.make (.line b c) true (r * tan (φ / 2) / norm3 (c - b)) 1 :: y ∧
      SmoothArc arc (b - (r * tan (φ / 2)) • ((norm3 (b - a))⁻¹ • (b - a)))
        (b + (r * tan (φ / 2)) • ((norm3 (c - b))⁻¹ • (c - b)))
        ((norm3 (b - a))⁻¹ • (b - a)) ((norm3 (c - b))⁻¹ • (c - b)) r ∧
      chainLen curveOps R = chainLen curveOps l + r * φ - 2 * (r * tan (φ / 2)) := by
  subst hl hξ
  obtain ⟨arc, t1, t2, p1, p2, d1, d2, hf, e1, e2, h1, h2, h3, h4, h5⟩ :=
    c100_fillet_curve hE S _ _ r hr start hsol
  rw [← e1] at hu0 hu1
  rw [← e2] at hv0 hv1
  rw [tangentCost, Option.map_eq_some_iff] at hsol
  obtain ⟨⟨m, m'⟩, hm, hmm⟩ := hsol
  cases sub_eq_zero.1 hmm
  rw [← e1, ← e2] at hm
  obtain ⟨L, hL⟩ : ∃ L, L = chainLen curveOps (x ++ lineC a b :: lineC b c :: y) := ⟨_, rfl⟩
  have hLp : 0 < L := hL ▸ h.total
  have hD : 0 < DELTA * L := mul_pos (by rw [DELTA]; norm_num) hLp
  rw [← hL] at hu0 hu1 hv0 hv1 ⊢
  obtain ⟨u, hu⟩ : ∃ u, u = chainLen curveOps x + norm3 (b - a) - t1 * L := ⟨_, rfl⟩
  obtain ⟨v, hv⟩ : ∃ v, v = t2 * L - (chainLen curveOps x + norm3 (b - a)) := ⟨_, rfl⟩
  have g1 : t1 * chainLen curveOps (x ++ lineC a b :: lineC b c :: y) =
      chainLen curveOps x + norm3 (b - a) - u := by rw [← hL, hu]; ring
  have g2 : t2 * chainLen curveOps (x ++ lineC a b :: lineC b c :: y) =
      chainLen curveOps x + norm3 (b - a) + v := by rw [← hL, hv]; ring
  have k1 : DELTA * L ≤ u := by rw [hu]; linarith
  have k2 : u + DELTA * L ≤ norm3 (b - a) := by rw [hu]; linarith
  have k3 : DELTA * L ≤ v := by rw [hv]; linarith
  have k4 : v + DELTA * L ≤ norm3 (c - b) := by rw [hv]; linarith
  obtain ⟨hur, hvr⟩ := (c102_root h hφ0 hφ1 hφ r t1 t2 u v g1 g2 (by rwa [← hL]) (by rwa [← hL])
    (by rwa [← hL]) (by rwa [← hL])).1 ⟨m, hm⟩
  have f1 := h.eval1 g1 (by linarith) (by linarith)
  have f2 := h.eval2 g2 (by linarith) (by linarith)
  rw [h1] at f1
  rw [h2] at f2
  have f3 := h.tangent1 g1 (by rwa [← hL]) (by rwa [← hL])
  have f4 := h.tangent2 g2 (by rwa [← hL]) (by rwa [← hL])
  rw [h3] at f3
  rw [h4] at f4
  rw [← hur]
  have hvu : v = u := by rw [hur, hvr]
  rw [hvu] at g2 k3 k4 f2
  have harcf : arc.kind.Sampled ∧ arc.updateLengths = arc := by
    rw [filletCurve, Option.map_eq_some_iff] at hf
    obtain ⟨arc', ha, hb⟩ := hf
    cases hb
    exact arcBetween_fresh ha
  rw [← Option.some.inj f1, ← Option.some.inj f2, ← Option.some.inj f3, ← Option.some.inj f4]
  refine ⟨_, arc, ?_, rfl, h5, ?_⟩
  · rw [filletAtLocations, hf]
    simp only [Option.bind_some, Option.map_some]
    rw [h.setEnd g1 (by linarith) (by linarith), h.setStart g2 (by linarith) (by linarith)]
    simp only [Option.bind_some, Option.map_some]
    rw [chainUpdate_eq curve_lawful]
    · simp
    · intro m hmem hact
      simp only [List.mem_append, List.mem_cons, List.not_mem_nil, or_false] at hmem
      rcases hmem with (hmem | rfl) | rfl | rfl | hmem
      · exact h.fresh m (by simp [hmem]) hact
      · exact ⟨by rw [Curve.make, if_pos rfl, updateLengths_kind]; trivial, line_upd _ _ _ _⟩
      · exact harcf
      · exact ⟨by rw [Curve.make, if_pos rfl, updateLengths_kind]; trivial, line_upd _ _ _ _⟩
      · exact h.fresh m (by simp [hmem]) hact
  · obtain ⟨cc, θ, q0, q1, q2, q3, q4, -⟩ := h5
    have hθ : θ = φ := by
      apply injOn_cos ⟨q0.le, q1.le⟩ ⟨hφ0.le, hφ1.le⟩
      rw [q2, Option.some.inj f3, Option.some.inj f4, dot_smul_left, dot_smul_right, hφ]
      have := h.leg1.ne'
      have := h.leg2.ne'
      field_simp
    rw [hL]
    simp only [chainLen_append, chainLen_cons, lineC_len]
    have hlin : ∀ p q s t, curveOps.len (Curve.make (.line p q) true s t) = norm3 (q - p) * |t - s| := by
      intro p q s t
      rw [← line_trim]
      exact len_of_active (o := curveOps) (line_act p q s t)
    rw [hlin, hlin, len_of_active (o := curveOps) q3]
    change _ + (_ + (arc.length + (_ + _))) = _
    rw [q4, hθ]
    have z1 : u / norm3 (b - a) ≤ 1 := (div_le_one h.leg1).2 (by linarith)
    have z2 : u / norm3 (c - b) ≤ 1 := (div_le_one h.leg2).2 (by linarith)
    rw [abs_of_nonneg (by linarith), abs_of_nonneg (by linarith)]
    have y1 : norm3 (b - a) * (1 - u / norm3 (b - a) - 0) = norm3 (b - a) - u := by
      have := h.leg1.ne'
      field_simp
      ring
    have y2 : norm3 (c - b) * (1 - u / norm3 (c - b)) = norm3 (c - b) - u := by
      have := h.leg2.ne'
      field_simp
    rw [y1, y2]
    ring

/-- **C102, existence.** If both legs are longer than `r·tan(φ/2)` (by `DELTA` in parameter), such a root exists,
whatever the starting locations. -/
theorem c102_exists (h : CornerOk x y a b c) {φ : ℝ} (hφ0 : 0 < φ) (hφ1 : φ < π)
    (hφ : dot (b - a) (c - b) = norm3 (b - a) * norm3 (c - b) * cos φ) (r : ℝ) (start : ℝ × ℝ) (l : List Curve)
    (hl : l = x ++ lineC a b :: lineC b c :: y)
    (h0 : DELTA * chainLen curveOps l ≤ r * tan (φ / 2))
    (h1 : r * tan (φ / 2) + DELTA * chainLen curveOps l ≤ norm3 (b - a))
    (h2 : r * tan (φ / 2) + DELTA * chainLen curveOps l ≤ norm3 (c - b)) :
    ∃ ξ : V3, tangentCost (chainEval curveOps l) (chainEval curveOps l) r start ξ = some 0 ∧
      chainLen curveOps x ≤ (start.1 - ξ 0 - DELTA) * chainLen curveOps l ∧
      (start.1 - ξ 0 + DELTA) * chainLen curveOps l ≤ chainLen curveOps x + norm3 (b - a) ∧
      chainLen curveOps x + norm3 (b - a) ≤ (start.2 + ξ 1 - DELTA) * chainLen curveOps l ∧
      (start.2 + ξ 1 + DELTA) * chainLen curveOps l ≤
        chainLen curveOps x + norm3 (b - a) + norm3 (c - b) := by
  subst hl
  obtain ⟨L, hL⟩ : ∃ L, L = chainLen curveOps (x ++ lineC a b :: lineC b c :: y) := ⟨_, rfl⟩
  have hLp : 0 < L := hL ▸ h.total
  rw [← hL] at h0 h1 h2 ⊢
  obtain ⟨u, hu⟩ : ∃ u, u = r * tan (φ / 2) := ⟨_, rfl⟩
  rw [← hu] at h0 h1 h2
  obtain ⟨t1, ht1⟩ : ∃ t1, t1 = (chainLen curveOps x + norm3 (b - a) - u) / L := ⟨_, rfl⟩
  obtain ⟨t2, ht2⟩ : ∃ t2, t2 = (chainLen curveOps x + norm3 (b - a) + u) / L := ⟨_, rfl⟩
  have g1 : t1 * L = chainLen curveOps x + norm3 (b - a) - u := by rw [ht1]; field_simp
  have g2 : t2 * L = chainLen curveOps x + norm3 (b - a) + u := by rw [ht2]; field_simp
  refine ⟨![start.1 - t1, t2 - start.2, 0], ?_, ?_, ?_, ?_, ?_⟩
  · obtain ⟨m, hm⟩ := (c102_root h hφ0 hφ1 hφ r t1 t2 u u (hL ▸ g1) (hL ▸ g2) (hL ▸ h0) (hL ▸ h1) (hL ▸ h0)
      (hL ▸ h2)).2 ⟨hu, hu⟩
    rw [tangentCost]
    simp only [Matrix.cons_val_zero, Matrix.cons_val_one, sub_sub_cancel, add_sub_cancel]
    rw [hm, Option.map_some, sub_self]
  all_goals simp only [Matrix.cons_val_zero, Matrix.cons_val_one, sub_sub_cancel, add_sub_cancel]
  all_goals linarith

end

/-- A right-angled corner with legs of length 1. -/
theorem corner_example : CornerOk [] [] 0 ![1, 0, 0] ![1, 1, 0] := by
  have n1 : norm3 (![1, 0, 0] - 0 : V3) = 1 := norm3_eq_of_dot zero_le_one (by simp [dot])
  have n2 : norm3 (![1, 1, 0] - ![1, 0, 0] : V3) = 1 := norm3_eq_of_dot zero_le_one (by simp [dot])
  refine ⟨?_, ?_, ?_, ?_⟩
  · intro m hm _
    simp only [List.nil_append, List.mem_cons, List.not_mem_nil, or_false] at hm
    rcases hm with rfl | rfl
    · change 0 < (lineC _ _).length
      rw [lineC_length, n1]; exact zero_lt_one
    · change 0 < (lineC _ _).length
      rw [lineC_length, n2]; exact zero_lt_one
  · have ha : ∀ p q, curveOps.active (lineC p q) = true := lineC_active
    rw [meets_iff, List.nil_append, List.filter_cons_of_pos (ha _ _),
      List.filter_cons_of_pos (ha _ _), List.filter_nil, List.isChain_pair]
    change (lineC _ _).eval 1 = (lineC _ _).eval 0
    rw [lineC_eval, lineC_eval]; simp
  · intro m hm _
    simp only [List.nil_append, List.mem_cons, List.not_mem_nil, or_false] at hm
    rcases hm with rfl | rfl <;> exact lineC_fresh _ _
  · intro e
    have := congrFun e 2
    simp at this

/-- A right-angled corner filleted with radius 1/4: a solver that finds the root makes `fillet` at the corner
(location 1/2) return the two legs shortened to 3/4 and a quarter circle; the length is `3/2 + π/8`. -/
example : ∃ (asEuler : M3 → ℝ × ℝ × ℝ) (S : Solvers) (R : List Curve) (arc : Curve),
    fillet asEuler S [lineC 0 ![1, 0, 0], lineC ![1, 0, 0] ![1, 1, 0]] (1 / 4) (1 / 2) = some R ∧
    R = [Curve.make (.line 0 ![1, 0, 0]) true 0 (3 / 4), arc,
      Curve.make (.line ![1, 0, 0] ![1, 1, 0]) true (1 / 4) 1] ∧
    SmoothArc arc ![3 / 4, 0, 0] ![1, 1 / 4, 0] ![1, 0, 0] ![0, 1, 0] (1 / 4) ∧
    chainLen curveOps R = 3 / 2 + π / 8 := by
  obtain ⟨asEuler, hE⟩ := eulerOk_exists
  have n1 : norm3 (![1, 0, 0] - 0 : V3) = 1 := norm3_eq_of_dot zero_le_one (by simp [dot])
  have n2 : norm3 (![1, 1, 0] - ![1, 0, 0] : V3) = 1 := norm3_eq_of_dot zero_le_one (by simp [dot])
  have hL : chainLen curveOps [lineC 0 ![1, 0, 0], lineC ![1, 0, 0] ![1, 1, 0]] = 2 := by
    simp only [chainLen, List.map_cons, List.map_nil, List.sum_cons, List.sum_nil, lineC_len, n1, n2]
    norm_num
  have hx : chainLen curveOps ([] : List Curve) = 0 := by simp [chainLen]
  have ht : tan (π / 2 / 2) = 1 := by rw [show π / 2 / 2 = π / 4 by ring, tan_pi_div_four]
  have hφ : dot (![1, 0, 0] - 0 : V3) (![1, 1, 0] - ![1, 0, 0]) =
      norm3 (![1, 0, 0] - 0 : V3) * norm3 (![1, 1, 0] - ![1, 0, 0] : V3) * cos (π / 2) := by
    rw [cos_pi_div_two]; simp [dot]
  obtain ⟨ξ, q0, q1, q2, q3, q4⟩ := c102_exists corner_example (φ := π / 2) (by positivity)
    (by linarith [pi_pos]) hφ (1 / 4) (1 / 2 + 1 / 4 / 2, 1 / 2 - 1 / 4 / 2)
    [lineC 0 ![1, 0, 0], lineC ![1, 0, 0] ![1, 1, 0]] rfl
    (by rw [hL, ht, DELTA]; norm_num) (by rw [hL, ht, n1, DELTA]; norm_num) (by rw [hL, ht, n2, DELTA]; norm_num)
  obtain ⟨R, arc, r1, r2, r3, r4⟩ := c102_fillet hE ⟨fun _ _ => ⟨true, ξ⟩, fun _ _ => ⟨true, 0⟩⟩ corner_example
    (φ := π / 2) (by positivity) (by linarith [pi_pos]) hφ (1 / 4) (by norm_num)
    (1 / 2 + 1 / 4 / 2, 1 / 2 - 1 / 4 / 2) [lineC 0 ![1, 0, 0], lineC ![1, 0, 0] ![1, 1, 0]] rfl ξ
    (by simp [filletRoot]) q0 q1 q2 q3 q4
  rw [ht, n1, n2] at r2 r3
  rw [ht, hL] at r4
  refine ⟨asEuler, ⟨fun _ _ => ⟨true, ξ⟩, fun _ _ => ⟨true, 0⟩⟩, R, arc, ?_, ?_, ?_, ?_⟩
  · rw [fillet, hL]; exact r1
  · rw [r2]; norm_num
  · convert r3 using 1 <;> (apply V3.ext3 <;> simp [Matrix.cons_val] <;> norm_num)
  · rw [r4]; ring

end Verif
