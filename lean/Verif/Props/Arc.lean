import Verif.Model.Arc
import Verif.Props.Curve
import Verif.Props.Transform

/-! # Arc constructors: C49, C86, C87 -/

namespace Verif

open Real

/-- scipy's contract: the Euler angles of a rotation matrix rebuild that matrix. -/
def EulerOk (asEuler : M3 → ℝ × ℝ × ℝ) : Prop :=
  ∀ R, IsRot R → eulerZYX (asEuler R).1 (asEuler R).2.1 (asEuler R).2.2 = R

/-- Such a function exists. -/
theorem eulerOk_exists : ∃ asEuler, EulerOk asEuler := by
  have h : ∀ R : M3, ∃ e : ℝ × ℝ × ℝ, IsRot R → eulerZYX e.1 e.2.1 e.2.2 = R := by
    intro R
    by_cases hR : IsRot R
    · obtain ⟨d, hd⟩ := c19_euler_exists hR
      exact ⟨⟨_, _, _⟩, fun _ => hd⟩
    · exact ⟨0, fun h => absurd h hR⟩
  choose e he using h
  exact ⟨e, he⟩

theorem eulerZYX_isRot (a b c : ℝ) : IsRot (eulerZYX a b c) :=
  ((IsRot.Rx c).mul (IsRot.Ry b)).mul (IsRot.Rz a)

theorem app_colMat (x y z v : V3) : app (colMat x y z) v = v 0 • x + v 1 • y + v 2 • z := by
  apply V3.ext3 <;> simp [app_0, app_1, app_2, colMat] <;> ring

/-- An orthonormal right-handed frame is a rotation matrix. -/
theorem colMat_isRot {x z : V3} (hx : dot x x = 1) (hz : dot z z = 1) (hxz : dot x z = 0) :
    IsRot (colMat x (cross z x) z) := by
  have hyy : dot (cross z x) (cross z x) = 1 := by
    rw [dot_cross_self, hx, hz, dot_comm z x, hxz]; ring
  have hxy : dot x (cross z x) = 0 := dot_cross_right z x
  have hzy : dot z (cross z x) = 0 := dot_cross_left z x
  have hd : dot x (cross (cross z x) z) = 1 := by
    rw [cross_cross_left, hz, dot_sub_right, dot_smul_right, dot_smul_right, hx, hxz]; ring
  simp only [dot, cross_0, cross_1, cross_2] at hx hz hxz hyy hxy hzy hd
  constructor
  · ext i j
    fin_cases i <;> fin_cases j <;>
      simp [colMat, Matrix.mul_apply, Fin.sum_univ_three] <;> linarith
  · rw [Matrix.det_fin_three]
    simp [colMat]
    linarith

/-- Lines and arcs on the full range are evaluated at the parameter itself, active or not. -/
theorem make_eval (k : CurveKind) (hk : ∀ f n, k ≠ .generic f n) (act : Bool) (s : ℝ) :
    (Curve.make k act 0 1).eval s = some (k.fn s) := by
  cases act with
  | true =>
    rw [Curve.make, if_pos rfl, Curve.eval,
      s2t_line_arc ⟨k, true, 0, 1, 0, Lookup.default⟩ hk, updateLengths_kind]
    simp
  | false =>
    have d0 : Lookup.default.s 0 = -10 ^ 6 := rfl
    have d1 : Lookup.default.s 1 = 10 ^ 6 := rfl
    have e0 : Lookup.default.t 0 = -10 ^ 6 := rfl
    have e1 : Lookup.default.t 1 = 10 ^ 6 := rfl
    have en : Lookup.default.n = 1 := rfl
    have hs : (⟨k, false, 0, 1, 0, Lookup.default⟩ : Curve).s2t s = some s := by
      rw [Curve.s2t]
      simp only [en, Nat.sub_self]
      by_cases h0 : s < 0
      · rw [if_pos h0, interpolate, d0, d1, e0, e1, if_neg (by norm_num)]
        norm_num
      · rw [if_neg h0]
        by_cases h1 : 1 < s
        · rw [if_pos h1, interpolate, d0, d1, e0, e1, if_neg (by norm_num)]
          norm_num
        · have hl : lastLe Lookup.default.s s 1 = 0 := by
            rw [lastLe, if_neg (by rw [d1]; norm_num; linarith), lastLe]
          rw [if_neg h1, npInterp, if_neg (by rw [d0]; norm_num; linarith)]
          simp only [hl]
          norm_num [d0, d1, e0, e1]
    rw [Curve.make, if_neg (by simp), Curve.eval, hs]
    rfl

/-- The arc function in terms of its frame. -/
theorem arc_fn (r a : ℝ) (c : V3) (M : M3) (hM : IsRot M) (t : ℝ) :
    (CurveKind.arc r a c M).fn t = c + rodrigues (app M OUT) (a * t) (app M (r • RIGHT)) := by
  have h1 : app (Rz (a * t)) (r • RIGHT) = cos (a * t) • (r • RIGHT) +
      sin (a * t) • cross OUT (r • RIGHT) := by
    apply V3.ext3 <;> simp [Rz_app, RIGHT, OUT, Matrix.cons_val]
  have h2 : dot (app M OUT) (app M (r • RIGHT)) = 0 := by
    rw [hM.dot_app]; simp [dot, RIGHT, OUT]
  simp only [CurveKind.fn]
  rw [app_mul, h1, app_add, app_smul M (cos (a * t)), app_smul M (sin (a * t)), ← hM.cross_app,
    rodrigues, h2]
  module

/-- An arc over an orthonormal frame turns its first vector about its third. -/
theorem arcInit_eval {asEuler : M3 → ℝ × ℝ × ℝ} (hE : EulerOk asEuler) {x z : V3} (hx : dot x x = 1)
    (hz : dot z z = 1) (hxz : dot x z = 0) (r a : ℝ) (c : V3) (act : Bool) (s : ℝ) :
    (arcInit r a c (asEuler (colMat x (cross z x) z)).1 (asEuler (colMat x (cross z x) z)).2.1
      (asEuler (colMat x (cross z x) z)).2.2 act).eval s =
      some (c + rodrigues z (a * s) (r • x)) := by
  have hR := colMat_isRot hx hz hxz
  rw [arcInit, hE _ hR, make_eval _ (by intro f n h; cases h), arc_fn _ _ _ _ hR, app_colMat, app_colMat]
  congr 2
  simp [OUT, RIGHT, Matrix.cons_val]

theorem dot_inv_smul {v : V3} (h : v ≠ 0) : dot ((norm3 v)⁻¹ • v) ((norm3 v)⁻¹ • v) = 1 := by
  have h1 := norm3_pos h
  rw [dot_smul_left, dot_smul_right, ← norm3_mul_self]
  field_simp

theorem normalizeVector_some {v : V3} (h : v ≠ 0) : normalizeVector v = some ((norm3 v)⁻¹ • v) := by
  rw [normalizeVector, if_neg (fun e => h (norm3_eq_zero.1 e))]

theorem norm3_smul_inv {v : V3} (h : v ≠ 0) : norm3 v • ((norm3 v)⁻¹ • v) = v := by
  rw [smul_smul, mul_inv_cancel₀ (norm3_pos h).ne', one_smul]

/-- Rotation by the angle between two vectors of the same length, about their normal, takes the first
to the second. -/
theorem rodrigues_angleBetween {a b : V3} (hl : norm3 a = norm3 b) (hw : cross a b ≠ 0) (k : ℤ) :
    rodrigues ((norm3 (cross a b))⁻¹ • cross a b) (angleBetween a b + k * π * 2) a = b ∧
      0 < angleBetween a b ∧ angleBetween a b < π := by
  have ha : a ≠ 0 := by
    rintro rfl; apply hw; apply V3.ext3 <;> simp
  have hwp := norm3_pos hw
  have hap := norm3_pos ha
  set w := norm3 (cross a b) with hwd
  set θ := angleBetween a b with hθ
  have hsq : dot a b ^ 2 + w ^ 2 = (norm3 a ^ 2) ^ 2 := by
    rw [hwd, norm3_sq (cross a b), dot_cross_self, ← norm3_sq a, ← norm3_sq b, ← hl]; ring
  have hS : √(dot a b ^ 2 + w ^ 2) = norm3 a ^ 2 := by rw [hsq, Real.sqrt_sq (by positivity)]
  have hc : norm3 a ^ 2 * cos θ = dot a b := by
    rw [hθ, angleBetween, ← hS]; exact polar_cos _ _
  have hs : norm3 a ^ 2 * sin θ = w := by
    rw [hθ, angleBetween, ← hS]; exact polar_sin _ _
  have hck : cos (θ + k * π * 2) = cos θ := by
    rw [show (k : ℝ) * π * 2 = k * (2 * π) by ring]; exact Real.cos_add_int_mul_two_pi θ k
  have hsk : sin (θ + k * π * 2) = sin θ := by
    rw [show (k : ℝ) * π * 2 = k * (2 * π) by ring]; exact Real.sin_add_int_mul_two_pi θ k
  have hm := arctan2_mem w (dot a b)
  have hm0 : 0 ≤ θ := arctan2_nonneg (norm3_nonneg _)
  have hsp : 0 < sin θ := by
    by_contra h
    have : norm3 a ^ 2 * sin θ ≤ 0 := mul_nonpos_of_nonneg_of_nonpos (by positivity) (by linarith)
    linarith
  refine ⟨?_, ?_, ?_⟩
  · rw [rodrigues, hck, hsk]
    have h1 : dot (w⁻¹ • cross a b) a = 0 := by rw [dot_smul_left, dot_comm, dot_cross_left]; ring
    have h2 : cross (w⁻¹ • cross a b) a = w⁻¹ • (norm3 a ^ 2 • b - dot a b • a) := by
      rw [cross_smul_left, cross_cross_left, norm3_sq a, dot_comm b a]
    rw [h1, h2, ← hc]
    have h3 : sin θ • w⁻¹ • (norm3 a ^ 2 • b - (norm3 a ^ 2 * cos θ) • a) = b - cos θ • a := by
      have : sin θ * w⁻¹ * norm3 a ^ 2 = 1 := by rw [← hs]; field_simp
      rw [mul_smul, ← smul_sub, smul_smul, smul_smul, this, one_smul]
    rw [h3]; module
  · rcases hm0.lt_or_eq with h | h
    · exact h
    · rw [← h] at hsp; simp at hsp
  · rcases hm.2.lt_or_eq with h | h
    · exact h
    · change θ = π at h; rw [h] at hsp; simp at hsp

theorem norm3_rodrigues {n v : V3} (hn : dot n n = 1) (a : ℝ) : norm3 (rodrigues n a v) = norm3 v := by
  rw [← app_rotMat]; exact (IsRot.rotMat hn a).norm_app v

theorem dot_axis_rodrigues {n : V3} (hn : dot n n = 1) (a : ℝ) (v : V3) :
    dot n (rodrigues n a v) = dot n v := by
  rw [rodrigues, dot_add_right, dot_add_right, dot_smul_right, dot_smul_right, dot_smul_right,
    dot_cross_left, hn]; ring

/-- **C49, two points and centre.** For points at the same distance from the centre and not on a line
with it, the arc starts at `p0`, ends at `p1`, keeps the distance from the centre and stays in the plane
of the three points. It turns about the normal by the angle between the radii, which is between 0 and π,
plus the given full turns. -/
theorem c49_two_points {asEuler : M3 → ℝ × ℝ × ℝ} (hE : EulerOk asEuler) (p0 p1 center : V3) (k : ℤ)
    (act : Bool) (hl : norm3 (p0 - center) = norm3 (p1 - center))
    (hw : cross (p0 - center) (p1 - center) ≠ 0) :
    ∃ c, arcFrom2PointCenter asEuler p0 p1 center k act = some c ∧ c.active = act ∧
      c.eval 0 = some p0 ∧ c.eval 1 = some p1 ∧
      (∀ s, ∃ p, c.eval s = some p ∧ norm3 (p - center) = norm3 (p0 - center) ∧
        dot (p - center) (cross (p0 - center) (p1 - center)) = 0) ∧
      ∃ n θ, dot n n = 1 ∧ norm3 (cross (p0 - center) (p1 - center)) • n =
          cross (p0 - center) (p1 - center) ∧ 0 < θ ∧ θ < π ∧
        ∀ s, c.eval s = some (center + rodrigues n ((θ + k * π * 2) * s) (p0 - center)) := by
  have ha : p0 - center ≠ 0 := by
    intro e; rw [e] at hw; apply hw; apply V3.ext3 <;> simp
  obtain ⟨hrot, hp, hpi⟩ := rodrigues_angleBetween hl hw k
  have hn := dot_inv_smul hw
  have hev : ∀ s, ∃ c, arcFrom2PointCenter asEuler p0 p1 center k act = some c ∧ c.active = act ∧
      c.eval s = some (center + rodrigues ((norm3 (cross (p0 - center) (p1 - center)))⁻¹ •
          cross (p0 - center) (p1 - center))
        ((angleBetween (p0 - center) (p1 - center) + k * π * 2) * s) (p0 - center)) := by
    intro s
    rw [arcFrom2PointCenter, normalizeVector_some ha, normalizeVector_some hw]
    refine ⟨_, rfl, ?_, ?_⟩
    · cases act <;> simp [arcInit, Curve.make, updateLengths_active]
    · rw [arcInit_eval hE (dot_inv_smul ha) hn (by
        rw [dot_smul_left, dot_smul_right, dot_cross_left]; ring), norm3_smul_inv ha]
  obtain ⟨c, hc, hact, h0⟩ := hev 0
  have hall : ∀ s, c.eval s = some (center + rodrigues
      ((norm3 (cross (p0 - center) (p1 - center)))⁻¹ • cross (p0 - center) (p1 - center))
        ((angleBetween (p0 - center) (p1 - center) + k * π * 2) * s) (p0 - center)) := by
    intro s
    obtain ⟨c', hc', _, h'⟩ := hev s
    rw [hc] at hc'
    rw [Option.some.inj hc']; exact h'
  refine ⟨c, hc, hact, ?_, ?_, ?_, _, _, hn, norm3_smul_inv hw, hp, hpi, hall⟩
  · rw [hall 0]; simp [rodrigues]
  · rw [hall 1, mul_one, hrot]; simp
  · intro s
    refine ⟨_, hall s, ?_, ?_⟩
    · rw [add_sub_cancel_left, norm3_rodrigues hn]
    · rw [add_sub_cancel_left, dot_comm]
      have h1 := dot_axis_rodrigues hn ((angleBetween (p0 - center) (p1 - center) + k * π * 2) * s)
        (p0 - center)
      rw [dot_smul_left, dot_smul_left, dot_comm _ (p0 - center), dot_cross_left, mul_zero] at h1
      rcases mul_eq_zero.1 h1 with h | h
      · exact absurd (inv_eq_zero.1 h) (norm3_pos hw).ne'
      · exact h

/-- A concrete case: a quarter circle of radius 1 about (1, 1, 1), not in an axis plane position. -/
example : norm3 ((![2, 1, 1] : V3) - ![1, 1, 1]) = norm3 ((![1, 2, 1] : V3) - ![1, 1, 1]) ∧
    cross ((![2, 1, 1] : V3) - ![1, 1, 1]) (![1, 2, 1] - ![1, 1, 1]) ≠ 0 := by
  constructor
  · simp [norm3, dot, Matrix.cons_val]
  · intro h
    have := congrFun h 2
    simp at this
    norm_num at this

/-- **C49, point, centre and angle.** The arc starts at `p0` and turns by `angle` about the part of the
axis that is perpendicular to the radius: `n` is the unit vector in the plane of axis and radius,
perpendicular to the radius, on the side of the axis. -/
theorem c49_point_angle {asEuler : M3 → ℝ × ℝ × ℝ} (hE : EulerOk asEuler) (p0 center : V3) (angle : ℝ)
    (axis : V3) (act : Bool) (hw : cross axis (p0 - center) ≠ 0) :
    ∃ c n, arcFromPointCenterAngle asEuler p0 center angle axis act = some c ∧ c.active = act ∧
      c.eval 0 = some p0 ∧ dot n n = 1 ∧ dot n (p0 - center) = 0 ∧ 0 < dot n axis ∧
      dot n (cross axis (p0 - center)) = 0 ∧
      ∀ s, c.eval s = some (center + rodrigues n (angle * s) (p0 - center)) := by
  have ha : p0 - center ≠ 0 := by
    intro e; rw [e] at hw; apply hw; apply V3.ext3 <;> simp
  have hap := norm3_pos ha
  set a := p0 - center with had
  set x := (norm3 a)⁻¹ • a with hxd
  have hax : a = norm3 a • x := (norm3_smul_inv ha).symm
  have hx : dot x x = 1 := dot_inv_smul ha
  have hcx : cross axis x = (norm3 a)⁻¹ • cross axis a := by rw [hxd, cross_smul_right]
  have hcx0 : cross axis x ≠ 0 := by
    rw [hcx]; exact smul_ne_zero (inv_ne_zero hap.ne') hw
  set y := (norm3 (cross axis x))⁻¹ • cross axis x with hyd
  have hy : dot y y = 1 := dot_inv_smul hcx0
  have hxy : dot x y = 0 := by rw [hyd, dot_smul_right, dot_cross_right]; ring
  have hz : dot (cross x y) (cross x y) = 1 := by rw [dot_cross_self, hx, hy, hxy]; ring
  have hzx : cross (cross x y) x = y := by
    rw [cross_cross_left, hx, dot_comm y x, hxy]; module
  have hm : arcFromPointCenterAngle asEuler p0 center angle axis act = some (arcInit (norm3 a) angle
      center (asEuler (colMat x y (cross x y))).1 (asEuler (colMat x y (cross x y))).2.1
      (asEuler (colMat x y (cross x y))).2.2 act) := by
    rw [arcFromPointCenterAngle, normalizeVector_some ha]
    simp only
    rw [normalizeVector_some hcx0]
  have hev := arcInit_eval hE hx hz (dot_cross_left x y) (norm3 a) angle center act
  rw [hzx] at hev
  rw [← hax] at hev
  refine ⟨_, cross x y, hm, ?_, ?_, hz, ?_, ?_, ?_, hev⟩
  · cases act <;> simp [arcInit, Curve.make, updateLengths_active]
  · rw [hev 0]; simp [rodrigues, had]
  · rw [hax, dot_smul_right, dot_comm, dot_cross_left]; ring
  · have h1 : dot (cross x y) axis = norm3 (cross axis x) := by
      have : dot (cross x y) axis = dot y (cross axis x) := by simp [dot]; ring
      rw [this, hyd, dot_smul_left, ← norm3_mul_self]
      field_simp
    rw [h1]; exact norm3_pos hcx0
  · have h2 : cross axis a = norm3 a • norm3 (cross axis x) • y := by
      rw [hyd, norm3_smul_inv hcx0, hcx, smul_smul, mul_inv_cancel₀ hap.ne', one_smul]
    rw [h2, dot_smul_right, dot_smul_right, dot_comm, dot_cross_right]; ring

/-- For an axis perpendicular to the radius the turning axis is the normalised axis itself. -/
theorem c49_point_angle_perp {asEuler : M3 → ℝ × ℝ × ℝ} (hE : EulerOk asEuler) (p0 center : V3)
    (angle : ℝ) (axis : V3) (act : Bool) (hp : p0 ≠ center) (ha : axis ≠ 0)
    (hd : dot axis (p0 - center) = 0) :
    ∃ c, arcFromPointCenterAngle asEuler p0 center angle axis act = some c ∧ c.active = act ∧
      ∀ s, c.eval s =
        some (center + rodrigues ((norm3 axis)⁻¹ • axis) (angle * s) (p0 - center)) := by
  have ha' : p0 - center ≠ 0 := sub_ne_zero.2 hp
  have hw : cross axis (p0 - center) ≠ 0 := by
    intro e
    have := dot_cross_self axis (p0 - center)
    rw [e, hd, ← norm3_sq axis, ← norm3_sq (p0 - center)] at this
    have h1 := norm3_pos ha
    have h2 := norm3_pos ha'
    have h3 : dot (0 : V3) 0 = 0 := by simp [dot]
    rw [h3] at this
    have : 0 < norm3 axis ^ 2 * norm3 (p0 - center) ^ 2 := by positivity
    linarith
  obtain ⟨c, n, h1, hact, -, hn, hna, hpos, ht, hev⟩ := c49_point_angle hE p0 center angle axis act hw
  refine ⟨c, h1, hact, ?_⟩
  have hna' : n = (norm3 axis)⁻¹ • axis := by
    -- `n` is perpendicular to the radius and to `axis × radius`, so it is parallel to the axis
    set a := p0 - center with had
    have hap := norm3_pos ha'
    have haxp := norm3_pos ha
    have e1 : cross a (cross axis a) = norm3 a ^ 2 • axis := by
      rw [cross_cross_right, norm3_sq, dot_comm a axis, hd]; module
    have e2 : cross n (cross a (cross axis a)) = 0 := by
      rw [cross_cross_right, hna, ht]; module
    have e3 : cross n axis = 0 := by
      rw [e1, cross_smul_right] at e2
      rcases smul_eq_zero.1 e2 with h | h
      · exact absurd h (by positivity)
      · exact h
    have e4 : dot n axis ^ 2 = norm3 axis ^ 2 := by
      have := dot_cross_self n axis
      rw [e3, hn, ← norm3_sq axis] at this
      have h3 : dot (0 : V3) 0 = 0 := by simp [dot]
      rw [h3] at this; linarith
    have e5 : dot n axis = norm3 axis := by
      nlinarith
    have e6 : cross n (cross n axis) = 0 := by rw [e3]; apply V3.ext3 <;> simp
    rw [cross_cross_right, hn, e5, one_smul, sub_eq_zero] at e6
    have e7 : n = (norm3 axis)⁻¹ • (norm3 axis • n) := by
      rw [smul_smul, inv_mul_cancel₀ haxp.ne', one_smul]
    rw [e6] at e7; exact e7
  rw [← hna']; exact hev

/-- A concrete case with a tilted axis. -/
example : cross (![0, 1, 1] : V3) ((![3, 1, 0] : V3) - ![1, 0, 0]) ≠ 0 := by
  intro h
  have := congrFun h 2
  simp at this
  norm_num at this

theorem app_Rx_Ry (a b c : ℝ) (v : V3) :
    app (eulerZYX 0 b c) v = app (eulerZYX a b c) (app (Rz (-a)) v) := by
  rw [← app_mul, eulerZYX, eulerZYX, Matrix.mul_assoc (Rx c * Ry b) (Rz a), ← Rz_add, add_neg_cancel]

theorem eulerZYX_split (a b c : ℝ) (v : V3) :
    app (eulerZYX a b c) v = app (eulerZYX 0 b c) (app (Rz a) v) := by
  rw [← app_mul, eulerZYX, eulerZYX, Matrix.mul_assoc (Rx c * Ry b) (Rz 0), ← Rz_add, zero_add]

theorem arcRefDir_unit {axis : V3} (ha : dot axis axis = 1) :
    dot (arcRefDir axis) (arcRefDir axis) = 1 ∧ dot (arcRefDir axis) axis = 0 := by
  rw [arcRefDir]
  split_ifs with h
  · have h0 := norm3_eq_zero.1 h
    have e0 := congrFun h0 0
    have e2 := congrFun h0 2
    simp [UP] at e0 e2
    simp [dot, OUT, e0]
  · have h1 : cross UP axis ≠ 0 := fun e => h (norm3_eq_zero.2 e)
    exact ⟨dot_inv_smul h1, by rw [dot_smul_left, dot_comm, dot_cross_right]; ring⟩

/-- **C49, radius, centre and angles.** For a unit axis there is one reference direction, perpendicular
to the axis and independent of radius, centre and angles, such that the arc runs from the start angle
to the end angle, counted from it about the axis, at the given radius about the given centre. -/
theorem c49_radius {asEuler : M3 → ℝ × ℝ × ℝ} (hE : EulerOk asEuler) (axis : V3)
    (ha : dot axis axis = 1) :
    ∃ u, dot u u = 1 ∧ dot u axis = 0 ∧ ∀ (radius : ℝ) (center : V3) (a0 a1 : ℝ) (act : Bool) (s : ℝ),
      (arcFromRadiusCenterAngle asEuler radius center a0 a1 axis act).eval s =
        some (center + radius • rodrigues axis (a0 + (a1 - a0) * s) u) := by
  obtain ⟨hx, hxz⟩ := arcRefDir_unit ha
  have hR := colMat_isRot hx ha hxz
  obtain ⟨e, he⟩ : ∃ e, e = asEuler (colMat (arcRefDir axis) (cross axis (arcRefDir axis)) axis) :=
    ⟨_, rfl⟩
  have hRe := hE _ hR
  rw [← he] at hRe
  have hM := eulerZYX_isRot 0 e.2.1 e.2.2
  have hout : app (eulerZYX 0 e.2.1 e.2.2) OUT = axis := by
    rw [app_Rx_Ry e.1, Rz_app_OUT, hRe, app_colMat]
    simp [OUT, Matrix.cons_val]
  refine ⟨app (eulerZYX 0 e.2.1 e.2.2) RIGHT, ?_, ?_, ?_⟩
  · rw [hM.dot_app]; simp [dot, RIGHT]
  · rw [← hout, hM.dot_app]; simp [dot, RIGHT, OUT]
  · intro radius center a0 a1 act s
    have hk : (arcFromRadiusCenterAngle asEuler radius center a0 a1 axis act).eval s =
        some ((CurveKind.arc radius (a1 - a0) center (eulerZYX a0 e.2.1 e.2.2)).fn s) := by
      rw [arcFromRadiusCenterAngle, arcInit, make_eval _ (by intro f n h; cases h), ← he]
    rw [hk]
    simp only [CurveKind.fn, Option.some.injEq]
    rw [app_mul, eulerZYX_split, ← app_mul (Rz a0), ← Rz_add]
    have h1 : app (Rz (a0 + (a1 - a0) * s)) (radius • RIGHT) =
        radius • rodrigues OUT (a0 + (a1 - a0) * s) RIGHT := by
      have h4 : cross OUT RIGHT = UP := by apply V3.ext3 <;> simp [OUT, RIGHT, UP]
      have h5 : dot OUT RIGHT = 0 := by simp [dot, RIGHT, OUT]
      rw [rodrigues, h4, h5]
      apply V3.ext3 <;> simp [Rz_app, RIGHT, UP, OUT, Matrix.cons_val] <;> ring
    rw [h1, app_smul, add_comm, rodrigues, rodrigues, app_add, app_add, app_smul, app_smul, app_smul,
      ← hM.cross_app, hout]
    have h2 : dot OUT RIGHT = 0 := by simp [dot, RIGHT, OUT]
    have h3 : dot axis (app (eulerZYX 0 e.2.1 e.2.2) RIGHT) = 0 := by
      rw [← hout, hM.dot_app, h2]
    rw [h2, h3]

/-- Consequence: the radius is right at every parameter and the arc is perpendicular to the axis. -/
theorem c49_radius_distance {asEuler : M3 → ℝ × ℝ × ℝ} (hE : EulerOk asEuler) (radius : ℝ) (center : V3)
    (a0 a1 : ℝ) (axis : V3) (ha : dot axis axis = 1) (act : Bool) (s : ℝ) :
    ∃ p, (arcFromRadiusCenterAngle asEuler radius center a0 a1 axis act).eval s = some p ∧
      norm3 (p - center) = |radius| ∧ dot (p - center) axis = 0 := by
  obtain ⟨u, hu, hua, h⟩ := c49_radius hE axis ha
  refine ⟨_, h radius center a0 a1 act s, ?_, ?_⟩
  · rw [add_sub_cancel_left, norm3_smul, norm3_rodrigues ha, norm3_eq_of_dot zero_le_one (by
      rw [hu]; norm_num), mul_one]
  · rw [add_sub_cancel_left, dot_comm, dot_smul_right, dot_axis_rodrigues ha, dot_comm, hua]; ring

/-! ### C86 -/

/-- **C86 is false as stated.** For every unit axis with both an x and a y component and every nonzero
radius, the arc with start angle 0 does not start in the direction `UP × axis`, whatever Euler angles
scipy returns. -/
theorem c86_violated {asEuler : M3 → ℝ × ℝ × ℝ} (hE : EulerOk asEuler) (radius : ℝ) (hr : radius ≠ 0)
    (center : V3) (a1 : ℝ) (axis : V3) (ha : dot axis axis = 1) (h01 : axis 0 * axis 1 ≠ 0)
    (act : Bool) :
    (arcFromRadiusCenterAngle asEuler radius center 0 a1 axis act).eval 0 ≠
      some (center + radius • ((norm3 (cross UP axis))⁻¹ • cross UP axis)) := by
  obtain ⟨hx, hxz⟩ := arcRefDir_unit ha
  have hR := colMat_isRot hx ha hxz
  have hcr : cross UP axis ≠ 0 := by
    intro e
    have := congrFun e 2
    simp [UP] at this
    simp [this] at h01
  have hn := norm3_pos hcr
  have href : arcRefDir axis = (norm3 (cross UP axis))⁻¹ • cross UP axis := by
    rw [arcRefDir, if_neg hn.ne']
  rw [← href]
  obtain ⟨e, he⟩ : ∃ e, e = asEuler (colMat (arcRefDir axis) (cross axis (arcRefDir axis)) axis) :=
    ⟨_, rfl⟩
  have hRe := hE _ hR
  rw [← he] at hRe
  -- the y column has a nonzero x component
  have hy : (cross axis (arcRefDir axis)) 0 = -(norm3 (cross UP axis))⁻¹ * (axis 0 * axis 1) := by
    rw [href]; simp [UP]; ring
  have h01' : -(cos e.2.1 * sin e.1) = -(norm3 (cross UP axis))⁻¹ * (axis 0 * axis 1) := by
    rw [← hy]
    have := congrFun (congrFun hRe 0) 1
    simpa [eulerZYX, colMat, Matrix.mul_apply, Fin.sum_univ_three, Rx, Ry, Rz] using this
  have hsin : sin e.1 ≠ 0 := by
    intro h
    rw [h, mul_zero, neg_zero] at h01'
    exact mul_ne_zero (neg_ne_zero.2 (inv_ne_zero hn.ne')) h01 h01'.symm
  have hk : (arcFromRadiusCenterAngle asEuler radius center 0 a1 axis act).eval 0 =
      some ((CurveKind.arc radius (a1 - 0) center (eulerZYX 0 e.2.1 e.2.2)).fn 0) := by
    rw [arcFromRadiusCenterAngle, arcInit, make_eval _ (by intro f n h; cases h), ← he]
  rw [hk]
  intro h
  have h := Option.some.inj h
  simp only [CurveKind.fn, mul_zero, Rz_zero, Matrix.mul_one] at h
  rw [app_Rx_Ry e.1, hRe, add_comm, app_colMat] at h
  have h2 := add_left_cancel h
  -- multiply by the y column
  have h3 := congrArg (fun v => dot v (cross axis (arcRefDir axis))) h2
  simp only [dot_add_left, dot_smul_left, dot_cross_right, dot_cross_left, dot_cross_self, hx, ha,
    dot_comm axis (arcRefDir axis), hxz] at h3
  simp [RIGHT] at h3
  rcases h3 with h | h
  · exact hsin h
  · exact hr h

/-- The hypothesis can be met. -/
example : ∃ axis : V3, dot axis axis = 1 ∧ axis 0 * axis 1 ≠ 0 :=
  ⟨![3 / 5, 4 / 5, 0], by simp [dot, Matrix.cons_val]; norm_num, by simp⟩

/-- **C86 (partial).** With the pitch in scipy's range, and for unit axes on the upper side that have no
x or no y component, the arc does start at `angle_start` from `UP × axis`. Missing: the other axes. -/
theorem c86_partial {asEuler : M3 → ℝ × ℝ × ℝ} (hE : EulerOk asEuler)
    (hpitch : ∀ R, -(π / 2) ≤ (asEuler R).2.1 ∧ (asEuler R).2.1 ≤ π / 2) (radius : ℝ)
    (center : V3) (a0 a1 : ℝ) (axis : V3) (ha : dot axis axis = 1) (h01 : axis 0 * axis 1 = 0)
    (h2 : 0 < axis 2) (act : Bool) :
    (arcFromRadiusCenterAngle asEuler radius center a0 a1 axis act).eval 0 =
      some (center + radius • rodrigues axis a0 ((norm3 (cross UP axis))⁻¹ • cross UP axis)) := by
  obtain ⟨hx, hxz⟩ := arcRefDir_unit ha
  have hR := colMat_isRot hx ha hxz
  have hcr : cross UP axis ≠ 0 := by
    intro e
    have := congrFun e 0
    simp [UP] at this
    linarith
  have hn := norm3_pos hcr
  have href : arcRefDir axis = (norm3 (cross UP axis))⁻¹ • cross UP axis := by
    rw [arcRefDir, if_neg hn.ne']
  rw [← href]
  obtain ⟨e, he⟩ : ∃ e, e = asEuler (colMat (arcRefDir axis) (cross axis (arcRefDir axis)) axis) :=
    ⟨_, rfl⟩
  have hRe := hE _ hR
  have hp := hpitch (colMat (arcRefDir axis) (cross axis (arcRefDir axis)) axis)
  rw [← he] at hRe hp
  have hcp : 0 ≤ cos e.2.1 := Real.cos_nonneg_of_neg_pi_div_two_le_of_le hp.1 hp.2
  have hy : (cross axis (arcRefDir axis)) 0 = 0 := by
    rw [href]; simp [UP]
    rcases mul_eq_zero.1 h01 with h | h <;> simp [h]
  have hx0 : 0 < arcRefDir axis 0 := by
    rw [href]; simp [UP]; exact mul_pos (inv_pos.2 hn) h2
  have e01 : cos e.2.1 * sin e.1 = 0 := by
    have := congrFun (congrFun hRe 0) 1
    have h3 : -(cos e.2.1 * sin e.1) = (cross axis (arcRefDir axis)) 0 := by
      simpa [eulerZYX, colMat, Matrix.mul_apply, Fin.sum_univ_three, Rx, Ry, Rz] using this
    rw [hy] at h3; linarith
  have e00 : cos e.2.1 * cos e.1 = arcRefDir axis 0 := by
    have := congrFun (congrFun hRe 0) 0
    simpa [eulerZYX, colMat, Matrix.mul_apply, Fin.sum_univ_three, Rx, Ry, Rz] using this
  have hcp0 : 0 < cos e.2.1 := by
    rcases hcp.lt_or_eq with h | h
    · exact h
    · rw [← h] at e00; linarith
  have hs : sin e.1 = 0 := by
    rcases mul_eq_zero.1 e01 with h | h
    · linarith
    · exact h
  have hc : cos e.1 = 1 := by
    have h1 : 0 < cos e.1 := by
      by_contra hneg
      have : cos e.2.1 * cos e.1 ≤ 0 := mul_nonpos_of_nonneg_of_nonpos hcp (by linarith)
      linarith
    have := sin_sq_add_cos_sq e.1
    rw [hs] at this
    nlinarith
  have hRz : Rz (-e.1) = 1 := by
    ext i j; fin_cases i <;> fin_cases j <;> simp [Rz, hc, hs]
  have hk : (arcFromRadiusCenterAngle asEuler radius center a0 a1 axis act).eval 0 =
      some ((CurveKind.arc radius (a1 - a0) center (eulerZYX a0 e.2.1 e.2.2)).fn 0) := by
    rw [arcFromRadiusCenterAngle, arcInit, make_eval _ (by intro f n h; cases h), ← he]
  rw [hk, Option.some.injEq]
  simp only [CurveKind.fn, mul_zero, Rz_zero, Matrix.mul_one]
  rw [eulerZYX_split, app_Rx_Ry e.1, hRz, app_one, hRe, app_colMat, add_comm, rodrigues,
    dot_comm axis, hxz]
  congr 1
  simp [Rz_app, RIGHT, Matrix.cons_val]
  module

/-- The hypotheses can be met: the default axis. -/
example : dot OUT OUT = 1 ∧ OUT 0 * OUT 1 = 0 ∧ 0 < OUT 2 := by simp [OUT, dot]

/-! ### C87 -/

theorem npSign_mul_abs {x : ℝ} (h : x ≠ 0) : npSign x * |x| = x ∧ npSign x * npSign x = 1 ∧
    0 < npSign x * x := by
  rw [npSign]
  rcases lt_or_gt_of_ne h with h1 | h1
  · rw [if_pos h1, abs_of_neg h1]; refine ⟨by ring, by ring, by linarith⟩
  · rw [if_neg (by linarith), if_neg h, abs_of_pos h1]; refine ⟨by ring, by ring, by linarith⟩

/-- **C87 (partial).** For distinct points, a curvature whose radius exceeds half their distance and an
axis not parallel to the chord, the arc starts at `p0`, ends at `p1`, has radius `1 / |curvature|` and
turns about a normal `n` of the chord that is on the side of the axis for positive and on the other
side for negative curvature, by less than half a turn plus the given full turns.
Missing: larger curvatures. -/
theorem c87_partial {asEuler : M3 → ℝ × ℝ × ℝ} (hE : EulerOk asEuler) (p0 p1 : V3) (curvature : ℝ)
    (axis : V3) (k : ℤ) (act : Bool) (hp : p0 ≠ p1) (hc : curvature ≠ 0)
    (hr : norm3 (p1 - p0) / 2 < 1 / |curvature|) (hax : cross axis (p1 - p0) ≠ 0) :
    ∃ c center n θ, arcFrom2PointCurvature asEuler p0 p1 curvature axis k act = some c ∧
      c.eval 0 = some p0 ∧ c.eval 1 = some p1 ∧ norm3 (p0 - center) = 1 / |curvature| ∧
      dot n n = 1 ∧ dot n (p1 - p0) = 0 ∧ dot n (cross axis (p1 - p0)) = 0 ∧
      0 < curvature * dot n axis ∧ 0 < θ ∧ θ < π ∧
      ∀ s, c.eval s = some (center + rodrigues n ((θ + k * π * 2) * s) (p0 - center)) := by
  have hD : p1 - p0 ≠ 0 := sub_ne_zero.2 hp.symm
  have hd := norm3_pos hD
  obtain ⟨d, hdd⟩ : ∃ d, d = norm3 (p1 - p0) := ⟨_, rfl⟩
  obtain ⟨u, hu⟩ : ∃ u, u = (norm3 (p1 - p0))⁻¹ • (p1 - p0) := ⟨_, rfl⟩
  have hDu : p1 - p0 = d • u := by rw [hu, hdd, norm3_smul_inv hD]
  have huu : dot u u = 1 := by rw [hu]; exact dot_inv_smul hD
  obtain ⟨q, hq⟩ : ∃ q, q = axis - dot axis u • u := ⟨_, rfl⟩
  have hqu : dot q u = 0 := by rw [hq, dot_sub_left, dot_smul_left, huu]; ring
  have hq0 : q ≠ 0 := by
    intro e
    rw [hq, sub_eq_zero] at e
    apply hax
    rw [e, hDu, cross_smul_left, cross_smul_right, cross_self]; simp
  have hqa : dot q axis = norm3 q ^ 2 := by
    rw [norm3_sq]
    conv_rhs => rw [hq]
    rw [dot_sub_left, dot_smul_left, ← hq, dot_comm u q, hqu, dot_comm q axis]; ring
  obtain ⟨a, hadef⟩ : ∃ a, a = (norm3 q)⁻¹ • q := ⟨_, rfl⟩
  have haa : dot a a = 1 := by rw [hadef]; exact dot_inv_smul hq0
  have hau : dot a u = 0 := by rw [hadef, dot_smul_left, hqu]; ring
  have haax : 0 < dot a axis := by
    rw [hadef, dot_smul_left, hqa]; have := norm3_pos hq0; positivity
  rw [← hdd] at hd hr
  set r := 1 / curvature with hrd
  have hr0 : r ≠ 0 := by rw [hrd]; positivity
  have hrabs : |r| = 1 / |curvature| := by rw [hrd, abs_div, abs_one]
  rw [← hrabs] at hr
  obtain ⟨s1, s2, s3⟩ := npSign_mul_abs hr0
  obtain ⟨h, hh⟩ : ∃ h, h = √(r ^ 2 - (d / 2) ^ 2) * npSign r := ⟨_, rfl⟩
  have hpos : 0 < r ^ 2 - (d / 2) ^ 2 := by
    rw [← sq_abs r]; nlinarith [abs_nonneg r]
  have hh2 : h ^ 2 = r ^ 2 - (d / 2) ^ 2 := by
    rw [hh, mul_pow, Real.sq_sqrt hpos.le, pow_two (npSign r), s2, mul_one]
  have hhr : 0 < h * r := by
    rw [hh, mul_assoc]; exact mul_pos (Real.sqrt_pos.2 hpos) s3
  have hh0 : h ≠ 0 := by rintro rfl; simp at hhr
  obtain ⟨C, hC⟩ : ∃ C, C = (1 / 2 : ℝ) • (p0 + p1) - h • cross u a := ⟨_, rfl⟩
  have hp0 : p0 - C = -(d / 2) • u + h • cross u a := by
    have : p0 - C = (-(1 / 2 : ℝ)) • (p1 - p0) + h • cross u a := by rw [hC]; module
    rw [this, hDu]; module
  have hp1 : p1 - C = (d / 2) • u + h • cross u a := by
    have : p1 - C = (1 / 2 : ℝ) • (p1 - p0) + h • cross u a := by rw [hC]; module
    rw [this, hDu]; module
  have hmu : dot u (cross u a) = 0 := dot_cross_left u a
  have hmm : dot (cross u a) (cross u a) = 1 := by
    rw [dot_cross_self, huu, haa, dot_comm, hau]; ring
  have hn0 : norm3 (p0 - C) = |r| := by
    apply norm3_eq_of_dot (abs_nonneg r)
    rw [hp0, sq_abs]
    simp only [dot_add_left, dot_add_right, dot_smul_left, dot_smul_right, huu, hmu, hmm,
      dot_comm (cross u a) u]
    linarith
  have hn1 : norm3 (p1 - C) = |r| := by
    apply norm3_eq_of_dot (abs_nonneg r)
    rw [hp1, sq_abs]
    simp only [dot_add_left, dot_add_right, dot_smul_left, dot_smul_right, huu, hmu, hmm,
      dot_comm (cross u a) u]
    linarith
  have hx1 : cross u (cross u a) = -a := by
    rw [cross_cross_right, huu, dot_comm, hau]; module
  have hcross : cross (p0 - C) (p1 - C) = (d * h) • a := by
    rw [hp0, hp1]
    simp only [cross_add_left, cross_add_right, cross_smul_left, cross_smul_right, cross_self,
      cross_anticomm (cross u a) u, hx1]
    module
  have hcr0 : cross (p0 - C) (p1 - C) ≠ 0 := by
    rw [hcross]
    apply smul_ne_zero (mul_ne_zero hd.ne' hh0)
    intro e; rw [e] at haa; simp [dot] at haa
  obtain ⟨c, hcc, -, h0, h1, -, n, θ, hnn, hna, t1, t2, hev⟩ :=
    c49_two_points hE p0 p1 C k act (by rw [hn0, hn1]) hcr0
  have hN := norm3_pos hcr0
  refine ⟨c, C, n, θ, ?_, h0, h1, by rw [hn0, hrabs], hnn, ?_, ?_, ?_, t1, t2, hev⟩
  · rw [arcFrom2PointCurvature, if_neg hc]
    simp only
    rw [if_neg hD, ← hu, ← hq, normalizeVector_some hq0, ← hadef]
    simp only
    rw [← hdd, ← hrd, if_neg (by linarith), ← hh, ← hC]
    exact hcc
  · have : dot (norm3 (cross (p0 - C) (p1 - C)) • n) (p1 - p0) = 0 := by
      rw [hna, hcross, hDu, dot_smul_left, dot_smul_right, hau]; ring
    rw [dot_smul_left] at this
    exact (mul_eq_zero.1 this).resolve_left hN.ne'
  · have : dot (norm3 (cross (p0 - C) (p1 - C)) • n) (cross axis (p1 - p0)) = 0 := by
      have hqx : cross axis u = norm3 q • cross a u := by
        rw [hadef, cross_smul_left, smul_smul, mul_inv_cancel₀ (norm3_pos hq0).ne', one_smul, hq,
          cross_sub_left, cross_smul_left, cross_self]; simp
      rw [hna, hcross, hDu, dot_smul_left, cross_smul_right, dot_smul_right, hqx, dot_smul_right,
        dot_cross_left]; ring
    rw [dot_smul_left] at this
    exact (mul_eq_zero.1 this).resolve_left hN.ne'
  · have h3 : norm3 (cross (p0 - C) (p1 - C)) * dot n axis = d * h * dot a axis := by
      rw [← dot_smul_left, hna, hcross, dot_smul_left]
    have h4 : 0 < curvature * h := by
      have : curvature * h = curvature ^ 2 * (h * r) := by rw [hrd]; field_simp
      rw [this]; positivity
    have h5 : 0 < norm3 (cross (p0 - C) (p1 - C)) * (curvature * dot n axis) := by
      have : norm3 (cross (p0 - C) (p1 - C)) * (curvature * dot n axis) =
          (curvature * h) * (d * dot a axis) := by linear_combination curvature * h3
      rw [this]; positivity
    exact pos_of_mul_pos_right (by linarith) hN.le

/-- **C87 is false for tight curvature.** When the radius is at most half the distance, the radius is
clamped to half the distance (curve.py:1250-1251), and then the radii are parallel: the arc has no
normal and every value is NaN (`none`), for all points and axes. -/
theorem c87_violated (asEuler : M3 → ℝ × ℝ × ℝ) (p0 p1 : V3) (curvature : ℝ) (axis : V3) (k : ℤ)
    (act : Bool) (hc : curvature ≠ 0) (hr : 1 / |curvature| ≤ norm3 (p1 - p0) / 2) :
    arcFrom2PointCurvature asEuler p0 p1 curvature axis k act = none := by
  rw [arcFrom2PointCurvature, if_neg hc]
  simp only
  set r := 1 / curvature with hrd
  have hr0 : r ≠ 0 := by rw [hrd]; positivity
  have hrabs : |r| = 1 / |curvature| := by rw [hrd, abs_div, abs_one]
  rw [← hrabs] at hr
  obtain ⟨s1, s2, s3⟩ := npSign_mul_abs hr0
  cases normalizeVector (axis - dot axis (if p1 - p0 = 0 then UP else (norm3 (p1 - p0))⁻¹ • (p1 - p0)) •
    if p1 - p0 = 0 then UP else (norm3 (p1 - p0))⁻¹ • (p1 - p0)) with
  | none => rfl
  | some ax =>
    simp only
    obtain ⟨r', hr'⟩ : ∃ r', r' = if |r| < norm3 (p1 - p0) / 2 then norm3 (p1 - p0) / 2 * npSign r
      else r := ⟨_, rfl⟩
    have hz : √(r' ^ 2 - (norm3 (p1 - p0) / 2) ^ 2) = 0 := by
      apply Real.sqrt_eq_zero_of_nonpos
      rw [hr']
      split_ifs with h
      · rw [mul_pow, pow_two (npSign r), s2]; linarith
      · have : |r| = norm3 (p1 - p0) / 2 := by linarith
        rw [← this, sq_abs]; linarith
    rw [← hr', hz, zero_mul, zero_smul, sub_zero, arcFrom2PointCenter]
    have hcr : cross (p0 - (1 / 2 : ℝ) • (p0 + p1)) (p1 - (1 / 2 : ℝ) • (p0 + p1)) = 0 := by
      have e1 : p0 - (1 / 2 : ℝ) • (p0 + p1) = (-(1 / 2 : ℝ)) • (p1 - p0) := by module
      have e2 : p1 - (1 / 2 : ℝ) • (p0 + p1) = (1 / 2 : ℝ) • (p1 - p0) := by module
      rw [e1, e2, cross_smul_left, cross_smul_right, cross_self]; simp
    rw [hcr]
    have : normalizeVector 0 = none := by
      rw [normalizeVector, if_pos (norm3_eq_zero.2 rfl)]
    rw [this]
    cases normalizeVector (p0 - (1 / 2 : ℝ) • (p0 + p1)) <;> rfl

/-- Both hypotheses can be met: chord 2 along x, curvature 1/2 and curvature 2. -/
example : norm3 ((![1, 0, 0] : V3) - ![-1, 0, 0]) / 2 < 1 / |(1 / 2 : ℝ)| ∧
    1 / |(2 : ℝ)| ≤ norm3 ((![1, 0, 0] : V3) - ![-1, 0, 0]) / 2 ∧
    cross OUT ((![1, 0, 0] : V3) - ![-1, 0, 0]) ≠ 0 := by
  have h : norm3 ((![1, 0, 0] : V3) - ![-1, 0, 0]) = 2 :=
    norm3_eq_of_dot (by norm_num) (by simp [dot, Matrix.cons_val]; norm_num)
  refine ⟨?_, ?_, ?_⟩
  · rw [h, abs_of_pos (by norm_num)]; norm_num
  · rw [h, abs_of_pos (by norm_num)]; norm_num
  · intro e
    have := congrFun e 1
    simp [OUT] at this

end Verif
