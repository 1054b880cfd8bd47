import Verif.Model.LineOfAction
import Verif.Spec.Mesh
import Verif.Props.Mesh

/-! # Property C34: the line of action -/

namespace Verif

open Real

/-- Tangency from a decomposition in an orthonormal frame of the plane. -/
theorem tangent_of {p q c w d n : V3} {a τ l : ℝ} (hw : dot w w = 1) (hd : dot d d = 1)
    (hwd : dot w d = 0) (hnw : dot w n = 0) (hnd : dot d n = 0)
    (hp : p = c + a • w + τ • d) (hq : q = p + l • d) (hl : l ≠ 0) : TangentTo p q c |a| n := by
  have e1 : p - c = a • w + τ • d := by rw [hp]; module
  have e2 : q - c = a • w + (τ + l) • d := by rw [hq, hp]; module
  have e3 : q - p = l • d := by rw [hq]; module
  have e4 : p + (-τ / l) • (q - p) - c = a • w := by
    rw [e3, hp, smul_smul, div_mul_cancel₀ _ hl]; module
  refine ⟨?_, ?_, ?_, -τ / l, ?_, ?_⟩
  · intro h
    have : l • d = 0 := by rw [← e3, h, sub_self]
    have h2 := congrArg (fun v => dot v d) this
    simp only [dot_smul_left, hd, mul_one] at h2
    exact hl (by simpa [dot] using h2)
  · rw [e1, dot_add_left, dot_smul_left, dot_smul_left, hnw, hnd]; ring
  · rw [e2, dot_add_left, dot_smul_left, dot_smul_left, hnw, hnd]; ring
  · rw [e4, e3, dot_smul_left, dot_smul_right, hwd]; ring
  · rw [e4]
    apply norm3_eq_of_dot (abs_nonneg _)
    rw [dot_smul_left, dot_smul_right, hw, sq_abs]; ring

/-- The quarter turn of a plane vector. -/
theorem rotateVector_plane {u : V3} (h2 : u 2 = 0) (a : ℝ) :
    rotateVector u a = cos a • u + sin a • cross OUT u := by
  apply V3.ext3 <;> simp [rotateVector, cross, OUT, h2] <;> ring

/-- Facts about the frame of the plane perpendicular to the global z axis. -/
theorem plane_frame {u : V3} (h2 : u 2 = 0) (hu : dot u u = 1) :
    dot (cross OUT u) (cross OUT u) = 1 ∧ dot u (cross OUT u) = 0 ∧ dot u OUT = 0 ∧
      dot (cross OUT u) OUT = 0 := by
  simp only [dot, h2] at hu
  simp [dot, cross, OUT, h2]
  refine ⟨by linarith, by ring⟩

/-- Rotated frame, both senses (`s` is the sine of the angle, `σ = ±1`). -/
theorem rot_frame {u v : V3} {c s : ℝ} (hu : dot u u = 1) (hv : dot v v = 1) (huv : dot u v = 0)
    (hcs : s ^ 2 + c ^ 2 = 1) :
    dot (c • u + s • v) (c • u + s • v) = 1 ∧ dot (-s • u + c • v) (-s • u + c • v) = 1 ∧
      dot (c • u + s • v) (-s • u + c • v) = 0 := by
  have hvu : dot v u = 0 := by rw [dot_comm]; exact huv
  simp only [dot_add_left, dot_add_right, dot_smul_left, dot_smul_right, hu, hv, huv, hvu]
  refine ⟨by linarith, by linarith, by ring⟩

theorem rot_normal {u v n : V3} (hu : dot u n = 0) (hv : dot v n = 0) (c s : ℝ) :
    dot (c • u + s • v) n = 0 := by
  rw [dot_add_left, dot_smul_left, dot_smul_left, hu, hv]; ring

theorem mirror_plane {c1 u v : V3} (hu : dot u u = 1) (huv : dot u v = 0) (x y : ℝ) :
    mirrorDiffline c1 u (c1 + x • u + y • v) = c1 + x • u - y • v := by
  have hvu : dot v u = 0 := by rw [dot_comm]; exact huv
  rw [mirrorDiffline]
  rw [show c1 + x • u + y • v - c1 = x • u + y • v by module, dot_add_left, dot_smul_left,
    dot_smul_left, hu, hvu]
  module

/-- **C34, external pairs, gears in a plane perpendicular to the global z axis.** For every centre
distance above the sum of the base radii, both lines are tangent to both base circles and pass
through the point that divides the centre line in the ratio of the base radii. -/
theorem c34_external_partial (g1 g2 : LoaGear) (h1 : g1.inside = false) (h2 : g2.inside = false)
    (hr1 : 0 < g1.rb) (hr2 : 0 < g2.rb) (hz : g1.center 2 = g2.center 2)
    (hD : g1.rb + g2.rb < norm3 (g2.center - g1.center)) :
    ∃ a b, loaGen g1 g2 = some (a, b) ∧ ∀ l ∈ [a, b],
      TangentTo l.1 l.2 g1.center g1.rb OUT ∧ TangentTo l.1 l.2 g2.center g2.rb OUT ∧
      ∃ s : ℝ, l.1 + s • (l.2 - l.1) =
        g1.center + (g1.rb / (g1.rb + g2.rb)) • (g2.center - g1.center) := by
  obtain ⟨D, hDd⟩ : ∃ D, D = norm3 (g2.center - g1.center) := ⟨_, rfl⟩
  have hDpos : 0 < D := by rw [hDd]; linarith
  have hne : g2.center - g1.center ≠ 0 := by
    intro h; rw [h] at hDd; simp [norm3] at hDd; linarith
  rw [← hDd] at hD
  obtain ⟨u, hu⟩ : ∃ u, u = D⁻¹ • (g2.center - g1.center) := ⟨_, rfl⟩
  have huu : dot u u = 1 := by rw [hu, hDd]; exact dot_normalized hne
  have hu2 : u 2 = 0 := by rw [hu]; simp [hz]
  have hDu : g2.center = g1.center + D • u := by
    rw [hu, smul_smul, mul_inv_cancel₀ hDpos.ne']; module
  have hq1 : (g1.rb + g2.rb) / D < 1 := by rw [div_lt_one hDpos]; exact hD
  have hq0 : 0 < (g1.rb + g2.rb) / D := by positivity
  obtain ⟨α, hα⟩ : ∃ α, α = arccos ((g1.rb + g2.rb) / D) := ⟨_, rfl⟩
  have hc : cos α = (g1.rb + g2.rb) / D := by rw [hα]; exact cos_arccos (by linarith) hq1.le
  have hcD : D * cos α = g1.rb + g2.rb := by rw [hc]; field_simp
  have hs : 0 < sin α := by
    rw [hα, sin_arccos]; apply sqrt_pos.2; nlinarith
  obtain ⟨hv, huv, hun, hvn⟩ := plane_frame hu2 huu
  have huneg : (-u) 2 = 0 := by simp [hu2]
  have hcn : cross OUT (-u) = -cross OUT u := by
    apply V3.ext3 <;> simp [cross, OUT]
  rw [loaGen]
  simp only [h1, h2, Bool.false_eq_true, if_false, ← hDd, ← hu, ← hα, if_neg hDpos.ne']
  rw [if_neg (by
    rw [add_comm g2.rb, abs_of_pos (by linarith : 0 < g1.rb + g2.rb)]
    exact not_lt.2 hq1.le)]
  refine ⟨_, _, rfl, ?_⟩
  · have key : ∀ s : ℝ, s ≠ 0 → s ^ 2 + cos α ^ 2 = 1 → ∀ p q : V3,
        p = g1.center + g1.rb • (cos α • u + s • cross OUT u) →
        q = g2.center + g2.rb • (cos α • (-u) + s • (-cross OUT u)) →
        TangentTo p q g1.center g1.rb OUT ∧ TangentTo p q g2.center g2.rb OUT ∧
        ∃ r : ℝ, p + r • (q - p) =
          g1.center + (g1.rb / (g1.rb + g2.rb)) • (g2.center - g1.center) := by
      intro s hs0 hcs p q hp hq
      obtain ⟨f1, f2, f3⟩ := rot_frame huu hv huv hcs
      have n1 := rot_normal hun hvn (cos α) s
      have n2 := rot_normal hun hvn (-s) (cos α)
      have hl : -(D * s) ≠ 0 := by
        have := hDpos.ne'
        simp [hs0, this]
      have hqp : q = p + (-(D * s)) • (-s • u + cos α • cross OUT u) := by
        have e : D • u = (D * cos α) • (cos α • u + s • cross OUT u) +
            (-(D * s)) • (-s • u + cos α • cross OUT u) := by
          have : D • u = (D * (s ^ 2 + cos α ^ 2)) • u := by rw [hcs, mul_one]
          rw [this]; module
        rw [hp, hq, hDu, e, hcD]; module
      refine ⟨?_, ?_, ?_⟩
      · have := tangent_of (c := g1.center) (a := g1.rb) (τ := 0) f1 f2 f3 n1 n2
          (by rw [hp]; module) hqp hl
        rwa [abs_of_pos hr1] at this
      · have := tangent_of (c := g2.center) (a := -g2.rb) (τ := D * s) f1 f2 f3 n1 n2
          (by
            rw [show p = q + (D * s) • (-s • u + cos α • cross OUT u) by rw [hqp]; module, hq]
            module) hqp hl
        rwa [abs_neg, abs_of_pos hr2] at this
      · refine ⟨g1.rb / (g1.rb + g2.rb), ?_⟩
        have hsum : g1.rb + g2.rb ≠ 0 := by linarith
        have e5 : g2.rb * (g1.rb / (g1.rb + g2.rb)) = g1.rb - g1.rb * (g1.rb / (g1.rb + g2.rb)) := by
          field_simp; ring
        have e6 : q - p = (g2.center - g1.center) -
            (g1.rb + g2.rb) • (cos α • u + s • cross OUT u) := by rw [hp, hq]; module
        rw [e6, smul_sub, smul_smul, div_mul_cancel₀ _ hsum, hp]
        module
    intro l hl
    simp only [List.mem_cons, List.not_mem_nil, or_false] at hl
    rcases hl with hl | hl
    · rw [hl]
      refine key (sin α) hs.ne' (sin_sq_add_cos_sq α) _ _ ?_ ?_
      · rw [rotateVector_plane hu2]
      · rw [rotateVector_plane huneg, hcn]
    · rw [hl]
      refine key (-sin α) (neg_ne_zero.2 hs.ne') (by rw [neg_sq]; exact sin_sq_add_cos_sq α) _ _ ?_ ?_
      · rw [rotateVector_plane hu2, cos_neg, sin_neg]
      · rw [rotateVector_plane huneg, hcn, cos_neg, sin_neg]

/-- Frame computation shared by the two ring cases. `x` is the signed distance of the start point
from `g1.center` along `u`. -/
theorem loa_ring_lines {c1 c2 u v n : V3} {D α r1 r2 : ℝ} (huu : dot u u = 1) (hv : dot v v = 1)
    (huv : dot u v = 0) (hun : dot u n = 0) (hvn : dot v n = 0) (hc2 : c2 = c1 + D • u)
    (hcD : D * cos α = r2 - r1) (hr1 : 0 < r1) (hr2 : 0 < r2) (l : ℝ) (hl : l ≠ 0) (p q : V3)
    (hp : p = c2 - r2 • (cos α • u + sin α • v) ∨ p = c1 - r1 • (cos α • u + sin α • v))
    (hq : q = p + l • (-sin α • u + cos α • v)) :
    ∀ m ∈ [(p, q), (mirrorDiffline c1 u p, mirrorDiffline c1 u q)],
      TangentTo m.1 m.2 c1 r1 n ∧ TangentTo m.1 m.2 c2 r2 n := by
  have hcs := sin_sq_add_cos_sq α
  have key : ∀ (w : V3), dot w w = 1 → dot u w = 0 → dot w n = 0 → ∀ p q : V3,
      (p = c2 - r2 • (cos α • u + sin α • w) ∨ p = c1 - r1 • (cos α • u + sin α • w)) →
      q = p + l • (-sin α • u + cos α • w) → TangentTo p q c1 r1 n ∧ TangentTo p q c2 r2 n := by
    intro w hw huw hwn p q hp hq
    obtain ⟨f1, f2, f3⟩ := rot_frame huu hw huw hcs
    have n1 := rot_normal hun hwn (cos α) (sin α)
    have n2 := rot_normal hun hwn (-sin α) (cos α)
    have e : D • u = (D * cos α) • (cos α • u + sin α • w) +
        (-(D * sin α)) • (-sin α • u + cos α • w) := by
      have : D • u = (D * (sin α ^ 2 + cos α ^ 2)) • u := by rw [hcs, mul_one]
      rw [this]; module
    rcases hp with hp | hp
    · constructor
      · have := tangent_of (c := c1) (a := -r1) (τ := -(D * sin α)) f1 f2 f3 n1 n2
          (by rw [hp, hc2, e, hcD]; module) hq hl
        rwa [abs_neg, abs_of_pos hr1] at this
      · have := tangent_of (c := c2) (a := -r2) (τ := 0) f1 f2 f3 n1 n2
          (by rw [hp]; module) hq hl
        rwa [abs_neg, abs_of_pos hr2] at this
    · constructor
      · have := tangent_of (c := c1) (a := -r1) (τ := 0) f1 f2 f3 n1 n2
          (by rw [hp]; module) hq hl
        rwa [abs_neg, abs_of_pos hr1] at this
      · have := tangent_of (c := c2) (a := -r2) (τ := D * sin α) f1 f2 f3 n1 n2
          (by rw [hp, hc2, e, hcD]; module) hq hl
        rwa [abs_neg, abs_of_pos hr2] at this
  have hw : dot (-v) (-v) = 1 := by rw [dot_neg_left, dot_neg_right, neg_neg, hv]
  have huw : dot u (-v) = 0 := by rw [dot_neg_right, huv, neg_zero]
  have hwn : dot (-v) n = 0 := by rw [dot_neg_left, hvn, neg_zero]
  obtain ⟨x, y, hxy⟩ : ∃ x y : ℝ, p = c1 + x • u + y • v := by
    rcases hp with hp | hp
    · exact ⟨D - r2 * cos α, -(r2 * sin α), by rw [hp, hc2]; module⟩
    · exact ⟨-(r1 * cos α), -(r1 * sin α), by rw [hp]; module⟩
  have hmp : mirrorDiffline c1 u p = c1 + x • u - y • v := by rw [hxy, mirror_plane huu huv]
  have hmq : mirrorDiffline c1 u q = mirrorDiffline c1 u p + l • (-sin α • u + cos α • (-v)) := by
    rw [hmp, hq, hxy, show c1 + x • u + y • v + l • (-sin α • u + cos α • v) =
      c1 + (x - l * sin α) • u + (y + l * cos α) • v by module, mirror_plane huu huv]
    module
  have hmp' : mirrorDiffline c1 u p = c2 - r2 • (cos α • u + sin α • (-v)) ∨
      mirrorDiffline c1 u p = c1 - r1 • (cos α • u + sin α • (-v)) := by
    rcases hp with hp | hp
    · left
      rw [hp, hc2, show c1 + D • u - r2 • (cos α • u + sin α • v) =
        c1 + (D - r2 * cos α) • u + (-(r2 * sin α)) • v by module, mirror_plane huu huv]
      module
    · right
      rw [hp, show c1 - r1 • (cos α • u + sin α • v) =
        c1 + (-(r1 * cos α)) • u + (-(r1 * sin α)) • v by module, mirror_plane huu huv]
      module
  intro m hm
  simp only [List.mem_cons, List.not_mem_nil, or_false] at hm
  rcases hm with hm | hm
  · rw [hm]; exact key v hv huv hvn p q hp hq
  · rw [hm]; exact key (-v) hw huw hwn _ _ hmp' hmq

/-- **C34, ring pairs, gears in a plane perpendicular to the global z axis.** If one of the gears is
a ring gear, the distance is at least the difference of the base radii, and the addendum radius of
the other gear is above its base radius, both lines are tangent to both base circles. -/
theorem c34_ring_partial (g1 g2 : LoaGear)
    (h : g1.inside = true ∧ |g2.rb| < |g2.ra| ∨
      g1.inside = false ∧ g2.inside = true ∧ |g1.rb| < |g1.ra|)
    (hr1 : 0 < g1.rb) (hr2 : 0 < g2.rb) (hz : g1.center 2 = g2.center 2)
    (hpos : g1.center ≠ g2.center)
    (hD : |g2.rb - g1.rb| ≤ norm3 (g2.center - g1.center)) :
    ∃ a b, loaGen g1 g2 = some (a, b) ∧ ∀ l ∈ [a, b],
      TangentTo l.1 l.2 g1.center g1.rb OUT ∧ TangentTo l.1 l.2 g2.center g2.rb OUT := by
  have hne : g2.center - g1.center ≠ 0 := fun h => hpos (sub_eq_zero.1 h).symm
  obtain ⟨D, hDd⟩ : ∃ D, D = norm3 (g2.center - g1.center) := ⟨_, rfl⟩
  have hDpos : 0 < D := by rw [hDd]; exact norm3_pos hne
  rw [← hDd] at hD
  obtain ⟨u, hu⟩ : ∃ u, u = D⁻¹ • (g2.center - g1.center) := ⟨_, rfl⟩
  have huu : dot u u = 1 := by rw [hu, hDd]; exact dot_normalized hne
  have hu2 : u 2 = 0 := by rw [hu]; simp [hz]
  have hDu : g2.center = g1.center + D • u := by
    rw [hu, smul_smul, mul_inv_cancel₀ hDpos.ne']; module
  have hq : |g2.rb - g1.rb| / D ≤ 1 := by rw [div_le_one hDpos]; exact hD
  have hq' : |(g2.rb - g1.rb) / D| ≤ 1 := by rw [abs_div, abs_of_pos hDpos]; exact hq
  obtain ⟨α, hα⟩ : ∃ α, α = arccos ((g2.rb - g1.rb) / D) := ⟨_, rfl⟩
  have hc : cos α = (g2.rb - g1.rb) / D := by
    rw [hα]; exact cos_arccos (abs_le.1 hq').1 (abs_le.1 hq').2
  have hcD : D * cos α = g2.rb - g1.rb := by rw [hc]; field_simp
  obtain ⟨hv, huv, hun, hvn⟩ := plane_frame hu2 huu
  have huneg : (-u) 2 = 0 := by simp [hu2]
  have hcn : cross OUT (-u) = -cross OUT u := by
    apply V3.ext3 <;> simp [cross, OUT]
  have hrot1 : rotateVector (-u) α = -(cos α • u + sin α • cross OUT u) := by
    rw [rotateVector_plane huneg, hcn]; module
  have hrot2 : rotateVector u (-π / 2 + α) = -(-sin α • u + cos α • cross OUT u) := by
    rw [rotateVector_plane hu2, show -π / 2 + α = α - π / 2 by ring, cos_sub_pi_div_two,
      sin_sub_pi_div_two]
    module
  rcases h with ⟨h1, ha⟩ | ⟨h1, h2, ha⟩
  · have ha2 : 0 < g2.ra ^ 2 - g2.rb ^ 2 := by have := sq_lt_sq.2 ha; linarith
    have hlen : √(g2.ra ^ 2 - g2.rb ^ 2) ≠ 0 := (sqrt_pos.2 ha2).ne'
    rw [loaGen]
    simp only [h1, if_true, ← hDd, ← hu, ← hα, if_neg hDpos.ne']
    rw [if_neg (by rw [not_or]; exact ⟨not_lt.2 hq, not_lt.2 ha2.le⟩)]
    refine ⟨_, _, rfl, ?_⟩
    · refine loa_ring_lines huu hv huv hun hvn hDu hcD hr1 hr2 (-√(g2.ra ^ 2 - g2.rb ^ 2))
        (neg_ne_zero.2 hlen) _ _ (Or.inl ?_) ?_
      · rw [hrot1]; module
      · rw [hrot2]; module
  · have ha2 : 0 < g1.ra ^ 2 - g1.rb ^ 2 := by have := sq_lt_sq.2 ha; linarith
    have hlen : √(g1.ra ^ 2 - g1.rb ^ 2) ≠ 0 := (sqrt_pos.2 ha2).ne'
    rw [loaGen]
    simp only [h1, h2, Bool.false_eq_true, if_false, if_true, ← hDd, ← hu, ← hα, if_neg hDpos.ne']
    rw [if_neg (by rw [not_or]; exact ⟨not_lt.2 hq, not_lt.2 ha2.le⟩)]
    refine ⟨_, _, rfl, ?_⟩
    · refine loa_ring_lines huu hv huv hun hvn hDu hcD hr1 hr2 (√(g1.ra ^ 2 - g1.rb ^ 2))
        hlen _ _ (Or.inr ?_) ?_
      · rw [hrot1]; module
      · rw [hrot2]; module

/-- Concrete cases: base radii 1 and 2 at distance 4; base radii 2 and 1 (first gear a ring) at
distance 3/2. -/
example : (1 : ℝ) + 2 < norm3 (![4, 0, 0] - 0) ∧ |(1 : ℝ) - 2| ≤ norm3 (![3 / 2, 0, 0] - 0) := by
  have e1 : norm3 (![4, 0, 0] - 0) = 4 := norm3_eq_of_dot (by norm_num) (by simp [dot]; norm_num)
  have e2 : norm3 (![3 / 2, 0, 0] - 0) = 3 / 2 :=
    norm3_eq_of_dot (by norm_num) (by simp [dot]; norm_num)
  rw [e1, e2]; norm_num

/-- **C34 is violated outside planes perpendicular to the global z axis**: `rotate_vector` turns
about the global z axis. For two gears in the x–z plane (normal `UP`), centres above each other, the
lines run along the centre line: they are not tangent to the base circles. -/
theorem c34_violated : ∃ g1 g2 : LoaGear, ∃ a b, g1.inside = false ∧ g2.inside = false ∧
    0 < g1.rb ∧ 0 < g2.rb ∧ g1.center 1 = g2.center 1 ∧
    g1.rb + g2.rb < norm3 (g2.center - g1.center) ∧ loaGen g1 g2 = some (a, b) ∧
    ¬ TangentTo a.1 a.2 g1.center g1.rb UP := by
  have e1 : norm3 (![0, 0, 4] - 0) = 4 := norm3_eq_of_dot (by norm_num) (by simp [dot]; norm_num)
  refine ⟨⟨0, 1, 2, false⟩, ⟨![0, 0, 4], 1, 2, false⟩, (![0, 0, 1], ![0, 0, 3]),
    (![0, 0, 1], ![0, 0, 3]), rfl, rfl, one_pos, one_pos, ?_, ?_, ?_, ?_⟩
  · simp
  · change (1 : ℝ) + 1 < norm3 (![0, 0, 4] - 0)
    rw [e1]; norm_num
  · rw [loaGen]
    simp only [e1, Bool.false_eq_true, if_false]
    rw [if_neg (by norm_num), if_neg (by norm_num)]
    have hr : ∀ (x y : ℝ), rotateVector ![0, 0, x] y = ![0, 0, x] := by
      intro x y; apply V3.ext3 <;> simp [rotateVector]
    have hu : (4 : ℝ)⁻¹ • ((![0, 0, 4] : V3) - 0) = ![0, 0, 1] := by
      (apply V3.ext3 <;> simp [Matrix.cons_val]) <;> norm_num
    have hu' : -(![0, 0, 1] : V3) = ![0, 0, -1] := by (apply V3.ext3 <;> simp [Matrix.cons_val]) <;> norm_num
    rw [hu, hu', hr, hr, hr, hr]
    have p1 : (0 : V3) + (1 : ℝ) • ![0, 0, 1] = ![0, 0, 1] := by (apply V3.ext3 <;> simp [Matrix.cons_val]) <;> norm_num
    have p2 : (![0, 0, 4] : V3) + (1 : ℝ) • ![0, 0, -1] = ![0, 0, 3] := by
      (apply V3.ext3 <;> simp [Matrix.cons_val]) <;> norm_num
    rw [p1, p2]
  · rintro ⟨-, -, -, s, h1, h2⟩
    have e3 : (![0, 0, 1] : V3) + s • (![0, 0, 3] - ![0, 0, 1]) - 0 = ![0, 0, 1 + s * 2] := by
      (apply V3.ext3 <;> simp [Matrix.cons_val]) <;> norm_num
    simp only [e3] at h1 h2
    have h3 : (1 + s * 2) * 2 = 0 := by
      have : dot (![0, 0, 1 + s * 2] : V3) (![0, 0, 3] - ![0, 0, 1]) = (1 + s * 2) * 2 := by
        simp [dot]; norm_num
      rw [← this]; exact h1
    have h4 : 1 + s * 2 = 0 := by linarith
    rw [h4] at h2
    simp [norm3, dot] at h2

end Verif
