import Verif.Model.Edges
import Verif.Spec.Curve
import Verif.Props.Arc
import Verif.Props.Cut
import Verif.Props.Trim

/-!
# C107: CAD edges of lines and arcs
-/

namespace Verif

open Real Set

/-- The range is consistent with the table, and the stored angles with the rotation matrix. -/
structure ArcObj.Good (a : ArcObj) (r ang : ℝ) (m : V3) (M : M3) : Prop where
  kind : a.curve.kind = .arc r ang m M
  rot : IsRot M
  euler : eulerZYX a.yaw a.pitch a.roll = M
  lookup : a.curve.lookup =
    ⟨1, fun i => if i = 0 then 0 else 1, fun i => if i = 0 then a.curve.t0 else a.curve.t1⟩

theorem arc_upd_lookup (c : Curve) {r ang : ℝ} {m : V3} {M : M3} (hk : c.kind = .arc r ang m M) :
    c.updateLengths.lookup =
      ⟨1, fun i => if i = 0 then 0 else 1, fun i => if i = 0 then c.t0 else c.t1⟩ := by
  rw [Curve.updateLengths]; simp only [hk]

theorem ArcObj.make_good (r ang : ℝ) (m : V3) (y p w : ℝ) :
    (ArcObj.make r ang m y p w true).Good r ang m (eulerZYX y p w) := by
  refine ⟨?_, eulerZYX_isRot _ _ _, rfl, ?_⟩
  · simp [ArcObj.make, arcInit, Curve.make, updateLengths_kind]
  · simp only [ArcObj.make, arcInit, Curve.make, if_true]
    rw [arc_upd_lookup _ rfl]
    simp [updateLengths_t0, updateLengths_t1]

theorem ArcObj.Good.eval {a : ArcObj} {r ang : ℝ} {m : V3} {M : M3} (h : a.Good r ang m M) (s : ℝ) :
    a.curve.eval s = some (m + rodrigues (app M OUT) (ang * (a.curve.t0 + (a.curve.t1 - a.curve.t0) * s))
      (app M (r • RIGHT))) := by
  have hs : a.curve.s2t s = some (a.curve.t0 + (a.curve.t1 - a.curve.t0) * s) := by
    rw [s2t_two _ (by rw [h.lookup]) (by rw [h.lookup]; rfl) (by rw [h.lookup]; rfl), h.lookup]
    simp
  rw [Curve.eval, hs, h.kind, Option.map_some, arc_fn _ _ _ _ h.rot]

/-- A call keeps the arc consistent; only the setter `rotmat` changes the matrix. -/
theorem ArcOp.run_good {asEuler : M3 → ℝ × ℝ × ℝ} (hE : EulerOk asEuler) {a a' : ArcObj} {r ang : ℝ} {m : V3}
    {M : M3} (h : a.Good r ang m M) (op : ArcOp) (hop : ∀ R, op = .setRotmat R → IsRot R)
    (e : op.run asEuler a = some a') : ∃ M', a'.Good r ang m M' := by
  cases op with
  | reverse =>
    simp only [ArcOp.run, Option.some.injEq] at e
    subst e
    refine ⟨M, ⟨by simpa [Curve.reverse] using h.kind, h.rot, h.euler, ?_⟩⟩
    simp only [Curve.reverse, h.lookup, Lookup.mk.injEq, true_and]
    funext i
    rcases i with _ | i
    · simp
    · simp
  | setStart s =>
    simp only [ArcOp.run, Curve.setStartOn, Option.map_eq_some_iff] at e
    obtain ⟨c, ⟨t, _, rfl⟩, rfl⟩ := e
    refine ⟨M, ⟨by simpa [updateLengths_kind] using h.kind, h.rot, h.euler, ?_⟩⟩
    rw [arc_upd_lookup _ (by exact h.kind)]
    simp [updateLengths_t0, updateLengths_t1]
  | setEnd s =>
    simp only [ArcOp.run, Curve.setEndOn, Option.map_eq_some_iff] at e
    obtain ⟨c, ⟨t, _, rfl⟩, rfl⟩ := e
    refine ⟨M, ⟨by simpa [updateLengths_kind] using h.kind, h.rot, h.euler, ?_⟩⟩
    rw [arc_upd_lookup _ (by exact h.kind)]
    simp [updateLengths_t0, updateLengths_t1]
  | setRotmat R =>
    simp only [ArcOp.run, h.kind, Option.some.injEq] at e
    subst e
    exact ⟨R, ⟨rfl, hop R rfl, hE R (hop R rfl), h.lookup⟩⟩

theorem ArcObj.run_good {asEuler : M3 → ℝ × ℝ × ℝ} (hE : EulerOk asEuler) {r ang : ℝ} {m : V3} :
    ∀ (ops : List ArcOp) {a a' : ArcObj} {M : M3}, a.Good r ang m M → (∀ R, .setRotmat R ∈ ops → IsRot R) →
      a.run asEuler ops = some a' → ∃ M', a'.Good r ang m M'
  | [], a, a', M, h, _, e => by
    simp only [ArcObj.run, Option.some.injEq] at e; subst e; exact ⟨M, h⟩
  | op :: ops, a, a', M, h, ho, e => by
    simp only [ArcObj.run, Option.bind_eq_some_iff] at e
    obtain ⟨b, hb, e⟩ := e
    obtain ⟨M', hM'⟩ := ArcOp.run_good hE h op (fun R hR => ho R (by rw [hR]; exact List.mem_cons_self)) hb
    exact ArcObj.run_good hE ops hM' (fun R hR => ho R (List.mem_cons_of_mem _ hR)) e

/-- A point of the CAD circle. -/
theorem circle_point {r : ℝ} {m : V3} {M : M3} {y p w : ℝ} (hM : eulerZYX y p w = M) (θ : ℝ) :
    bdIntrinsicXYZ m (w * 180 / π) (p * 180 / π) (y * 180 / π)
      ![r * cos (θ * π / 180), r * sin (θ * π / 180), 0] =
      m + rodrigues (app M OUT) (θ * π / 180) (app M (r • RIGHT)) := by
  have hpi := pi_pos.ne'
  have e : ∀ x : ℝ, x * 180 / π * π / 180 = x := by intro x; field_simp
  have hrot : IsRot M := hM ▸ eulerZYX_isRot _ _ _
  have h1 := arc_fn r 1 m M hrot (θ * π / 180)
  rw [one_mul] at h1
  rw [← h1, bdIntrinsicXYZ, e, e, e, CurveKind.fn, app_mul M, one_mul]
  rw [← hM, eulerZYX]
  congr 2
  apply V3.ext3 <;> simp [RIGHT] <;> ring

theorem ioc_mod {x : ℝ} (h0 : 0 < x) (h1 : x ≤ 360) :
    toIocMod (by norm_num : (0 : ℝ) < 360) 0 x = x := by
  rw [toIocMod_eq_self]; exact ⟨h0, by simpa using h1⟩

/-- The edge made from a consistent untrimmed arc. -/
theorem circleEdge_eq {a : ArcObj} {r ang : ℝ} {m : V3} {M : M3} (h : a.Good r ang m M) (hr : 0 < r)
    (h0 : ang ≠ 0) (h1 : |ang| ≤ 2 * π) :
    a.circleEdge = some {p | ∃ s : ℝ, 0 ≤ s ∧ s ≤ 1 ∧
      p = m + rodrigues (app M OUT) (ang * s) (app M (r • RIGHT))} := by
  have hpi := pi_pos
  have e : ∀ x : ℝ, x * 180 / π * π / 180 = x := by intro x; field_simp
  rw [ArcObj.circleEdge, h.kind]
  simp only
  split_ifs with hn
  · rw [abs_of_neg hn] at h1
    rw [makeCircle, if_neg (by linarith)]
    congr 1
    ext p
    simp only [mem_setOf_eq]
    have hx0 : 0 < 0 - ang * 180 / π := by
      have : 0 < -ang * 180 / π := by apply div_pos _ hpi; linarith
      linarith [show -ang * 180 / π = -(ang * 180 / π) by ring]
    have hx1 : 0 - ang * 180 / π ≤ 360 := by
      have : -ang * 180 / π ≤ 360 := by rw [div_le_iff₀ hpi]; linarith
      linarith [show -ang * 180 / π = -(ang * 180 / π) by ring]
    rw [ioc_mod hx0 hx1]
    constructor
    · rintro ⟨θ, hθ0, hθ1, rfl⟩
      refine ⟨θ * π / 180 / ang, ?_, ?_, ?_⟩
      · apply div_nonneg_of_nonpos _ hn.le
        have : θ ≤ 0 := by linarith
        nlinarith
      · rw [div_le_one_of_neg hn]
        have : ang * 180 / π * π / 180 ≤ θ * π / 180 := by gcongr
        rw [e] at this; exact this
      · rw [circle_point h.euler]
        congr 2; field_simp
    · rintro ⟨s, hs0, hs1, rfl⟩
      refine ⟨ang * s * 180 / π, ?_, ?_, ?_⟩
      · gcongr; nlinarith
      · have : ang * s * 180 / π ≤ 0 := by
          apply div_nonpos_of_nonpos_of_nonneg _ hpi.le; nlinarith
        linarith
      · rw [circle_point h.euler, e]
  · have hp : 0 < ang := lt_of_le_of_ne (not_lt.1 hn) (Ne.symm h0)
    rw [abs_of_pos hp] at h1
    rw [makeCircle, if_neg (by linarith)]
    congr 1
    ext p
    simp only [mem_setOf_eq]
    have hx0 : 0 < ang * 180 / π - 0 := by
      have : 0 < ang * 180 / π := by positivity
      linarith
    have hx1 : ang * 180 / π - 0 ≤ 360 := by
      have : ang * 180 / π ≤ 360 := by rw [div_le_iff₀ hpi]; linarith
      linarith
    rw [ioc_mod hx0 hx1]
    constructor
    · rintro ⟨θ, hθ0, hθ1, rfl⟩
      refine ⟨θ * π / 180 / ang, by positivity, ?_, ?_⟩
      · rw [div_le_one hp]
        have : θ * π / 180 ≤ ang * 180 / π * π / 180 := by gcongr; linarith
        rw [e] at this; exact this
      · rw [circle_point h.euler]
        congr 2; field_simp
    · rintro ⟨s, hs0, hs1, rfl⟩
      refine ⟨ang * s * 180 / π, by positivity, ?_, ?_⟩
      · have : ang * s * 180 / π ≤ ang * 180 / π := by gcongr; nlinarith
        linarith
      · rw [circle_point h.euler, e]

theorem trace_good {a : ArcObj} {r ang : ℝ} {m : V3} {M : M3} (h : a.Good r ang m M) :
    Spec.trace a.curve.eval = {p | ∃ s : ℝ, 0 ≤ s ∧ s ≤ 1 ∧
      p = m + rodrigues (app M OUT) (ang * (a.curve.t0 + (a.curve.t1 - a.curve.t0) * s)) (app M (r • RIGHT))} := by
  ext p
  simp only [Spec.trace, mem_setOf_eq, mem_Icc, h.eval, Option.some.injEq]
  constructor
  · rintro ⟨s, ⟨h0, h1⟩, e⟩; exact ⟨s, h0, h1, e.symm⟩
  · rintro ⟨s, h0, h1, e⟩; exact ⟨s, ⟨h0, h1⟩, e.symm⟩

/-- **C107, arcs (partial).** Whatever was done to an arc: as long as its range is the whole arc (of at most a full
turn), the edge consists of exactly the points of the curve. -/
theorem c107_arc_partial {asEuler : M3 → ℝ × ℝ × ℝ} (hE : EulerOk asEuler) (r ang : ℝ) (m : V3) (y p w : ℝ)
    (hr : 0 < r) (h0 : ang ≠ 0) (h1 : |ang| ≤ 2 * π) (ops : List ArcOp) (ho : ∀ R, .setRotmat R ∈ ops → IsRot R) (a : ArcObj)
    (ha : (ArcObj.make r ang m y p w true).run asEuler ops = some a) (ht : a.curve.t0 = 0 ∧ a.curve.t1 = 1) :
    a.toEdge asEuler = some (Spec.trace a.curve.eval) := by
  obtain ⟨M, h⟩ := ArcObj.run_good hE ops (ArcObj.make_good r ang m y p w) ho ha
  rw [ArcObj.toEdge, if_neg (by simp [ht]), circleEdge_eq h hr h0 h1, trace_good h, ht.1, ht.2]
  simp

/-! ## Trimmed arcs -/

theorem rodrigues_neg (n v : V3) (hv : dot n v = 0) (a : ℝ) : rodrigues (-n) a v = rodrigues n (-a) v := by
  have hv' : dot (-n) v = 0 := by simp [dot] at hv ⊢; linarith
  simp only [rodrigues, hv, hv', cos_neg, sin_neg]
  apply V3.ext3 <;> simp <;> ring

/-- Two points of a circle seen from its center. -/
theorem cross_turn {n v : V3} (hn : dot n n = 1) (hv : dot n v = 0) (d : ℝ) :
    cross v (rodrigues n d v) = (dot v v * sin d) • n := by
  have e : cross v (rodrigues n d v) = sin d • cross v (cross n v) := by
    rw [rodrigues, hv]; apply V3.ext3 <;> simp <;> ring
  have e2 : cross v (cross n v) = dot v v • n - dot n v • v := by
    apply V3.ext3 <;> simp [dot] <;> ring
  rw [e, e2, hv]; apply V3.ext3 <;> simp <;> ring

theorem dot_turn {n v : V3} (hv : dot n v = 0) (d : ℝ) : dot v (rodrigues n d v) = dot v v * cos d := by
  have : dot v (cross n v) = 0 := by simp [dot]; ring
  rw [rodrigues, dot_add_right, dot_add_right, dot_smul_right, dot_smul_right, dot_smul_right, this, hv]; ring

/-- The arc that `from_2_point_center` makes between two points of a circle that are `d` apart, `0 < |d| < π`. -/
theorem from2_turn {asEuler : M3 → ℝ × ℝ × ℝ} (hE : EulerOk asEuler) {n v m : V3} (hn : dot n n = 1)
    (hv : dot n v = 0) (h0 : v ≠ 0) {d : ℝ} (hd0 : d ≠ 0) (hd : |d| < π) :
    ((ArcObj.from2PointCenter asEuler (m + v) (m + rodrigues n d v) m).bind ArcObj.circleEdge) =
      some {p | ∃ s : ℝ, 0 ≤ s ∧ s ≤ 1 ∧ p = m + rodrigues n (d * s) v} := by
  have hvv : 0 < dot v v := by have := norm3_pos h0; rw [← norm3_sq]; positivity
  have hsin : sin d ≠ 0 := by
    rcases lt_or_gt_of_ne hd0 with h | h
    · rw [abs_of_neg h] at hd; exact (sin_neg_of_neg_of_neg_pi_lt h (by linarith)).ne
    · rw [abs_of_pos h] at hd; exact (sin_pos_of_pos_of_lt_pi h hd).ne'
  have hn1 : norm3 n = 1 := by rw [norm3, hn, sqrt_one]
  have hn0 : n ≠ 0 := by rintro rfl; simp [dot] at hn
  have hc0 : cross v (rodrigues n d v) ≠ 0 := by
    rw [cross_turn hn hv]; exact smul_ne_zero (mul_ne_zero hvv.ne' hsin) hn0
  have hang : angleBetween v (rodrigues n d v) = |d| := by
    have e1 : norm3 (cross v (rodrigues n d v)) = dot v v * sin |d| := by
      rw [cross_turn hn hv, norm3_smul, hn1, mul_one, abs_mul, abs_of_pos hvv]
      congr 1
      rcases lt_or_gt_of_ne hd0 with h | h
      · rw [abs_of_neg h] at hd ⊢
        rw [sin_neg, abs_of_neg (sin_neg_of_neg_of_neg_pi_lt h (by linarith))]
      · rw [abs_of_pos h] at hd ⊢
        rw [abs_of_pos (sin_pos_of_pos_of_lt_pi h hd)]
    rw [angleBetween, e1, dot_turn hv, ← cos_abs d]
    exact arctan2_polar hvv (by linarith [abs_nonneg d, pi_pos]) hd.le
  obtain ⟨z, hz⟩ : ∃ z, z = (norm3 (cross v (rodrigues n d v)))⁻¹ • cross v (rodrigues n d v) := ⟨_, rfl⟩
  obtain ⟨x, hx⟩ : ∃ x, x = (norm3 v)⁻¹ • v := ⟨_, rfl⟩
  have hxx : dot x x = 1 := hx ▸ dot_inv_smul h0
  have hzz : dot z z = 1 := hz ▸ dot_inv_smul hc0
  have hzn : ∀ s, rodrigues z (|d| * s) v = rodrigues n (d * s) v := by
    intro s
    have e : z = (SignType.sign (sin d) : ℝ) • n := by
      rw [hz, cross_turn hn hv, norm3_smul, hn1, mul_one, abs_mul, abs_of_pos hvv, smul_smul]
      congr 1
      rcases lt_or_gt_of_ne hsin with h | h
      · rw [abs_of_neg h, sign_neg h]; simp; field_simp
      · rw [abs_of_pos h, sign_pos h]; simp; field_simp
    rcases lt_or_gt_of_ne hd0 with h | h
    · rw [abs_of_neg h] at hd ⊢
      rw [e, sign_neg (sin_neg_of_neg_of_neg_pi_lt h (by linarith))]
      simp only [SignType.neg_eq_neg_one, SignType.coe_neg, SignType.coe_one, neg_smul, one_smul]
      rw [rodrigues_neg _ _ hv]; congr 1; ring
    · rw [abs_of_pos h] at hd ⊢
      rw [e, sign_pos (sin_pos_of_pos_of_lt_pi h hd)]; simp
  have hxz : dot x z = 0 := by
    rw [hx, hz, cross_turn hn hv]
    simp only [dot_smul_left, dot_smul_right]; rw [dot_comm v n, hv]; ring
  have hrot := colMat_isRot hxx hzz hxz
  have hg := ArcObj.make_good (norm3 v) |d| m (asEuler (colMat x (cross z x) z)).1
    (asEuler (colMat x (cross z x) z)).2.1 (asEuler (colMat x (cross z x) z)).2.2
  rw [hE _ hrot] at hg
  have hf : ArcObj.from2PointCenter asEuler (m + v) (m + rodrigues n d v) m =
      some (ArcObj.make (norm3 v) |d| m (asEuler (colMat x (cross z x) z)).1
        (asEuler (colMat x (cross z x) z)).2.1 (asEuler (colMat x (cross z x) z)).2.2 true) := by
    rw [ArcObj.from2PointCenter, add_sub_cancel_left, add_sub_cancel_left, normalizeVector_some h0,
      normalizeVector_some hc0, ← hx, ← hz, hang]
  rw [hf, Option.bind_some, circleEdge_eq hg (norm3_pos h0) (by positivity)
    (by rw [abs_abs]; linarith [pi_pos])]
  have ex : app (colMat x (cross z x) z) (norm3 v • RIGHT) = v := by
    rw [app_colMat]; simp only [RIGHT]; simp
    rw [hx, norm3_smul_inv h0]
  have ez : app (colMat x (cross z x) z) OUT = z := by rw [app_colMat]; simp [OUT]
  simp only [ex, ez, hzn]

theorem app_RIGHT_ne {M : M3} (h : IsRot M) {r : ℝ} (hr : 0 < r) : app M (r • RIGHT) ≠ 0 := by
  intro e
  have := h.dot_app (r • RIGHT) (r • RIGHT)
  rw [e] at this
  simp [dot, RIGHT] at this
  exact hr.ne' this

theorem arc_frame {M : M3} (h : IsRot M) (r : ℝ) :
    dot (app M OUT) (app M OUT) = 1 ∧ dot (app M OUT) (app M (r • RIGHT)) = 0 := by
  rw [h.dot_app, h.dot_app]; constructor <;> simp [dot, OUT, RIGHT]

/-- The edge of a trimmed arc: it starts where the arc starts and turns by the rest angle taken modulo a full turn. -/
theorem toEdge_trimmed {asEuler : M3 → ℝ × ℝ × ℝ} (hE : EulerOk asEuler) {a : ArcObj} {r ang : ℝ} {m : V3} {M : M3}
    (h : a.Good r ang m M) (hr : 0 < r) (ht : (a.curve.t0, a.curve.t1) ≠ (0, 1)) {d : ℝ} (k : ℤ)
    (hk : ang * (a.curve.t1 - a.curve.t0) = d + k * (2 * π)) (hd0 : d ≠ 0) (hd : |d| < π) :
    a.toEdge asEuler = some {p | ∃ s : ℝ, 0 ≤ s ∧ s ≤ 1 ∧
      p = m + rodrigues (app M OUT) (ang * a.curve.t0 + d * s) (app M (r • RIGHT))} := by
  obtain ⟨hn, hv⟩ := arc_frame h.rot r
  have hv0 := app_RIGHT_ne h.rot hr
  obtain ⟨w, hw⟩ : ∃ w, w = rodrigues (app M OUT) (ang * a.curve.t0) (app M (r • RIGHT)) := ⟨_, rfl⟩
  have hw0 : w ≠ 0 := by
    intro e
    have := norm3_rodrigues (v := app M (r • RIGHT)) hn (ang * a.curve.t0)
    rw [← hw, e] at this
    have hp := norm3_pos hv0
    rw [← this] at hp
    simp [norm3, dot] at hp
  have hwn : dot (app M OUT) w = 0 := by rw [hw, dot_axis_rodrigues hn, hv]
  have hadd : ∀ b, rodrigues (app M OUT) b w = rodrigues (app M OUT) (ang * a.curve.t0 + b) (app M (r • RIGHT)) := by
    intro b
    rw [hw, rodrigues_add hn hv]
    try (congr 1; ring)
  have e1 : a.curve.eval 1 = some (m + rodrigues (app M OUT) d w) := by
    rw [h.eval, hadd]
    congr 2
    rw [show ang * (a.curve.t0 + (a.curve.t1 - a.curve.t0) * 1) = ang * a.curve.t0 + d + k * (2 * π) by
      linear_combination hk]
    simp only [rodrigues, cos_add_int_mul_two_pi, sin_add_int_mul_two_pi]
  have e0 : a.curve.eval 0 = some (m + w) := by rw [h.eval, hw]; simp
  rw [ArcObj.toEdge, if_pos ht]
  simp only [h.kind, e0, e1]
  rw [from2_turn hE hn hwn hw0 hd0 hd]
  simp only [hadd]

/-- **C107, trimmed arcs (partial).** An arc that was trimmed, extended or reversed gives an edge with exactly its
points, if it still turns by less than half a turn. -/
theorem c107_trimmed_partial {asEuler : M3 → ℝ × ℝ × ℝ} (hE : EulerOk asEuler) (r ang : ℝ) (m : V3) (y p w : ℝ)
    (hr : 0 < r) (ops : List ArcOp) (ho : ∀ R, .setRotmat R ∈ ops → IsRot R) (a : ArcObj)
    (ha : (ArcObj.make r ang m y p w true).run asEuler ops = some a)
    (h0 : ang * (a.curve.t1 - a.curve.t0) ≠ 0) (h1 : |ang * (a.curve.t1 - a.curve.t0)| < π) :
    a.toEdge asEuler = some (Spec.trace a.curve.eval) := by
  obtain ⟨M, h⟩ := ArcObj.run_good hE ops (ArcObj.make_good r ang m y p w) ho ha
  by_cases ht : (a.curve.t0, a.curve.t1) = (0, 1)
  · simp only [Prod.mk.injEq] at ht
    rw [ht.1, ht.2] at h0 h1
    exact c107_arc_partial hE r ang m y p w hr (by simpa using h0) (by
      simp at h1; linarith [pi_pos]) ops ho a ha ht
  · rw [toEdge_trimmed hE h hr ht 0 (by simp) h0 h1, trace_good h]
    congr 1; ext p; simp only [mem_setOf_eq]
    constructor <;> rintro ⟨s, a0, a1, e⟩ <;> refine ⟨s, a0, a1, e.trans ?_⟩ <;> congr 2 <;> ring

/-- **C107 fails for trimmed arcs of more than half a turn.** The edge is the complementary arc: the middle point of the
curve is not on it. -/
theorem c107_arc_violated {asEuler : M3 → ℝ × ℝ × ℝ} (hE : EulerOk asEuler) (r ang : ℝ) (m : V3) (y p w : ℝ)
    (hr : 0 < r) (ops : List ArcOp) (ho : ∀ R, .setRotmat R ∈ ops → IsRot R) (a : ArcObj)
    (ha : (ArcObj.make r ang m y p w true).run asEuler ops = some a)
    (ht : (a.curve.t0, a.curve.t1) ≠ (0, 1))
    (h0 : π < |ang * (a.curve.t1 - a.curve.t0)|) (h1 : |ang * (a.curve.t1 - a.curve.t0)| < 2 * π) :
    ∃ E q, a.toEdge asEuler = some E ∧ a.curve.eval (1 / 2) = some q ∧ q ∉ E := by
  obtain ⟨M, h⟩ := ArcObj.run_good hE ops (ArcObj.make_good r ang m y p w) ho ha
  obtain ⟨hn, hv⟩ := arc_frame h.rot r
  have hv0 := app_RIGHT_ne h.rot hr
  have hpi := pi_pos
  obtain ⟨D, hD⟩ : ∃ D, D = ang * (a.curve.t1 - a.curve.t0) := ⟨_, rfl⟩
  rw [← hD] at h0 h1
  -- the point at angle `D / 2` is not at an angle between `0` and the rest
  have key : ∀ (d : ℝ), (∀ s : ℝ, 0 ≤ s → s ≤ 1 → cos (D / 2 - d * s) ≠ 1) →
      m + rodrigues (app M OUT) (ang * (a.curve.t0 + (a.curve.t1 - a.curve.t0) * (1 / 2))) (app M (r • RIGHT)) ∉
      {p | ∃ s : ℝ, 0 ≤ s ∧ s ≤ 1 ∧ p = m + rodrigues (app M OUT) (ang * a.curve.t0 + d * s) (app M (r • RIGHT))} := by
    rintro d hcos ⟨s, s0, s1, e⟩
    apply hcos s s0 s1
    have e := add_left_cancel e
    rw [show ang * (a.curve.t0 + (a.curve.t1 - a.curve.t0) * (1 / 2)) =
      (D / 2 - d * s) + (ang * a.curve.t0 + d * s) by rw [hD]; ring] at e
    obtain ⟨W, hW⟩ : ∃ W, W = rodrigues (app M OUT) (ang * a.curve.t0 + d * s) (app M (r • RIGHT)) := ⟨_, rfl⟩
    have hWn : dot (app M OUT) W = 0 := by rw [hW, dot_axis_rodrigues hn, hv]
    rw [← rodrigues_add hn hv, ← hW] at e
    have hd := dot_turn hWn (D / 2 - d * s)
    rw [e] at hd
    have hWW : dot W W ≠ 0 := by
      rw [← norm3_sq, hW, norm3_rodrigues hn]
      exact pow_ne_zero _ (norm3_pos hv0).ne'
    exact (mul_right_eq_self₀.1 hd.symm).resolve_right hWW
  have hlt : ∀ x : ℝ, 0 < x → x < 2 * π → cos x ≠ 1 := by
    intro x x0 x1 e
    have := (cos_eq_one_iff_of_lt_of_lt (by linarith) x1).1 e
    linarith
  rcases lt_or_ge D 0 with hneg | hpos
  · rw [abs_of_neg hneg] at h0 h1
    refine ⟨_, _, toEdge_trimmed hE h hr ht (d := D + 2 * π) (-1) (by rw [← hD]; push_cast; ring) (by linarith)
      (by rw [abs_of_pos (by linarith)]; linarith), h.eval _, key _ fun s s0 s1 => ?_⟩
    rw [← cos_neg]
    apply hlt <;> nlinarith
  · rw [abs_of_nonneg hpos] at h0 h1
    refine ⟨_, _, toEdge_trimmed hE h hr ht (d := D - 2 * π) 1 (by rw [← hD]; push_cast; ring) (by linarith)
      (by rw [abs_of_neg (by linarith)]; linarith), h.eval _, key _ fun s s0 s1 => ?_⟩
    apply hlt <;> nlinarith

/-! ## Lines -/

structure LineGood (c : Curve) (p q : V3) : Prop where
  kind : c.kind = .line p q
  lookup : c.lookup = ⟨1, fun i => if i = 0 then 0 else 1, fun i => if i = 0 then c.t0 else c.t1⟩

theorem line_upd_lookup (c : Curve) {p q : V3} (hk : c.kind = .line p q) :
    c.updateLengths.lookup =
      ⟨1, fun i => if i = 0 then 0 else 1, fun i => if i = 0 then c.t0 else c.t1⟩ := by
  rw [Curve.updateLengths]; simp only [hk]

theorem LineGood.upd {c : Curve} {p q : V3} (hk : c.kind = .line p q) : LineGood c.updateLengths p q := by
  refine ⟨by rw [updateLengths_kind, hk], ?_⟩
  rw [line_upd_lookup _ hk, updateLengths_t0, updateLengths_t1]

theorem lineRun_good {p q : V3} : ∀ (ops : List LineOp) {c c' : Curve}, LineGood c p q →
    lineRun c ops = some c' → LineGood c' p q
  | [], c, c', h, e => by simp only [lineRun, Option.some.injEq] at e; subst e; exact h
  | .reverse :: ops, c, c', h, e => by
    refine lineRun_good ops (c := c.reverse) ⟨h.kind, ?_⟩ e
    simp only [Curve.reverse, h.lookup, Lookup.mk.injEq, true_and]
    funext i
    rcases i with _ | i <;> simp
  | .setStart s :: ops, c, c', h, e => by
    simp only [lineRun, Curve.setStartOn, Option.bind_eq_some_iff, Option.map_eq_some_iff] at e
    obtain ⟨_, ⟨t, _, rfl⟩, e⟩ := e
    exact lineRun_good ops (LineGood.upd (by exact h.kind)) e
  | .setEnd s :: ops, c, c', h, e => by
    simp only [lineRun, Curve.setEndOn, Option.bind_eq_some_iff, Option.map_eq_some_iff] at e
    obtain ⟨_, ⟨t, _, rfl⟩, e⟩ := e
    exact lineRun_good ops (LineGood.upd (by exact h.kind)) e

theorem LineGood.trace {c : Curve} {p q : V3} (h : LineGood c p q) :
    Spec.trace c.eval = {x | ∃ s : ℝ, 0 ≤ s ∧ s ≤ 1 ∧
      x = (1 - (c.t0 + (c.t1 - c.t0) * s)) • p + (c.t0 + (c.t1 - c.t0) * s) • q} := by
  have he : ∀ s, c.eval s = some ((1 - (c.t0 + (c.t1 - c.t0) * s)) • p + (c.t0 + (c.t1 - c.t0) * s) • q) := by
    intro s
    have hs : c.s2t s = some (c.t0 + (c.t1 - c.t0) * s) := by
      rw [s2t_two _ (by rw [h.lookup]) (by rw [h.lookup]; rfl) (by rw [h.lookup]; rfl), h.lookup]
      simp
    rw [Curve.eval, hs, h.kind]; rfl
  ext x
  simp only [Spec.trace, mem_setOf_eq, mem_Icc, he, Option.some.injEq]
  constructor
  · rintro ⟨s, ⟨h0, h1⟩, e⟩; exact ⟨s, h0, h1, e.symm⟩
  · rintro ⟨s, h0, h1, e⟩; exact ⟨s, ⟨h0, h1⟩, e.symm⟩

theorem line_param_inj {p q : V3} (hpq : p ≠ q) {a b : ℝ} (h : (1 - a) • p + a • q = (1 - b) • p + b • q) :
    a = b := by
  have e : (a - b) • (q - p) = 0 := by
    have := sub_eq_zero.2 h
    rw [← this]; module
  rcases smul_eq_zero.1 e with e | e
  · linarith
  · exact absurd (sub_eq_zero.1 e).symm hpq

/-- **C107, lines.** Whatever was done to a line: its edge consists of exactly its points if and only if its range is
the whole line, in either direction. -/
theorem c107_line_partial (p q : V3) (hpq : p ≠ q) (ops : List LineOp) (c : Curve)
    (hc : lineRun (Curve.make (.line p q) true 0 1) ops = some c) :
    lineToEdge c = some (Spec.trace c.eval) ↔ (c.t0 = 0 ∧ c.t1 = 1) ∨ (c.t0 = 1 ∧ c.t1 = 0) := by
  have h : LineGood c p q := lineRun_good ops (by rw [Curve.make, if_pos rfl]; exact LineGood.upd rfl) hc
  rw [lineToEdge, h.kind, h.trace]
  simp only [Option.some.injEq, makeLine]
  constructor
  · intro e
    have mem : ∀ u : ℝ, (0 ≤ u ∧ u ≤ 1) ↔ ∃ s : ℝ, 0 ≤ s ∧ s ≤ 1 ∧ u = c.t0 + (c.t1 - c.t0) * s := by
      intro u
      have e' := Set.ext_iff.1 e ((1 - u) • p + u • q)
      simp only [mem_setOf_eq] at e'
      constructor
      · rintro ⟨h0, h1⟩
        obtain ⟨s, s0, s1, es⟩ := e'.1 ⟨u, h0, h1, rfl⟩
        exact ⟨s, s0, s1, line_param_inj hpq es⟩
      · rintro ⟨s, s0, s1, es⟩
        obtain ⟨v, v0, v1, ev⟩ := e'.2 ⟨s, s0, s1, by rw [es]⟩
        rw [line_param_inj hpq ev]; exact ⟨v0, v1⟩
    have a0 := (mem c.t0).2 ⟨0, le_rfl, zero_le_one, by ring⟩
    have a1 := (mem c.t1).2 ⟨1, zero_le_one, le_rfl, by ring⟩
    obtain ⟨s, s0, s1, es⟩ := (mem 0).1 ⟨le_rfl, zero_le_one⟩
    obtain ⟨u, u0, u1, eu⟩ := (mem 1).1 ⟨zero_le_one, le_rfl⟩
    rcases le_total c.t0 c.t1 with hle | hle
    · left
      constructor
      · nlinarith [mul_nonneg (sub_nonneg.2 hle) s0]
      · nlinarith [mul_nonneg (sub_nonneg.2 hle) (sub_nonneg.2 u1)]
    · right
      constructor
      · nlinarith [mul_nonneg (sub_nonneg.2 hle) u0]
      · nlinarith [mul_nonneg (sub_nonneg.2 hle) (sub_nonneg.2 s1)]
  · rintro (⟨e0, e1⟩ | ⟨e0, e1⟩) <;> rw [e0, e1] <;> ext x <;> simp only [mem_setOf_eq]
    · constructor <;> rintro ⟨s, s0, s1, e⟩ <;> exact ⟨s, s0, s1, by rw [e]; congr 2 <;> ring⟩
    · constructor <;> rintro ⟨s, s0, s1, e⟩ <;>
        exact ⟨1 - s, by linarith, by linarith, by rw [e]; congr 2 <;> ring⟩

/-- **C107 fails for trimmed lines.** Half of a line gives the edge of the whole line. -/
theorem c107_line_violated : ∃ c, lineRun (Curve.make (.line 0 RIGHT) true 0 1) [.setEnd (1 / 2)] = some c ∧
    c.eval 1 = some ((1 / 2 : ℝ) • RIGHT) ∧ ∃ E, lineToEdge c = some E ∧ RIGHT ∈ E ∧
    RIGHT ∉ Spec.trace c.eval := by
  have hk : (Curve.make (.line 0 RIGHT) true 0 (0 + (1 - 0) * (1 / 2))).kind = .line 0 RIGHT := by
    rw [Curve.make, if_pos rfl, updateLengths_kind]
  refine ⟨Curve.make (.line 0 RIGHT) true 0 (0 + (1 - 0) * (1 / 2)), by simp only [lineRun, line_setEnd, Option.bind_some],
    ?_, makeLine 0 RIGHT, by rw [lineToEdge, hk], ?_, ?_⟩
  · rw [line_eval]; congr 1; apply V3.ext3 <;> simp [RIGHT]
  · exact ⟨1, zero_le_one, le_rfl, by apply V3.ext3 <;> simp⟩
  · rintro ⟨s, ⟨s0, s1⟩, e⟩
    rw [line_eval] at e
    have := congrFun (Option.some.inj e) 0
    simp [RIGHT] at this
    linarith

/-- A reversed line meets the condition of `c107_line_partial`. -/
theorem c107_line_case : ∃ c, lineRun (Curve.make (.line 0 RIGHT) true 0 1) [.reverse] = some c ∧
    c.t0 = 1 ∧ c.t1 = 0 := by
  refine ⟨_, rfl, ?_, ?_⟩ <;> rfl

/-- A quarter circle turned into another plane and trimmed to its first half meets the conditions of
`c107_trimmed_partial`; before the trimming it meets those of `c107_arc_partial`. -/
theorem c107_arc_case (asEuler : M3 → ℝ × ℝ × ℝ) : ∃ a b,
    (ArcObj.make 2 (π / 2) OUT 0 1 0 true).run asEuler [.setRotmat (Rx 1)] = some a ∧
    a.curve.t0 = 0 ∧ a.curve.t1 = 1 ∧
    (ArcObj.make 2 (π / 2) OUT 0 1 0 true).run asEuler [.setRotmat (Rx 1), .setEnd (1 / 2)] = some b ∧
    b.curve.t0 = 0 ∧ b.curve.t1 = 1 / 2 := by
  have hk := (ArcObj.make_good 2 (π / 2) OUT 0 1 0).kind
  have hl := (ArcObj.make_good 2 (π / 2) OUT 0 1 0).lookup
  have h0 : (ArcObj.make 2 (π / 2) OUT 0 1 0 true).curve.t0 = 0 := by
    simp [ArcObj.make, arcInit, Curve.make, updateLengths_t0]
  have h1 : (ArcObj.make 2 (π / 2) OUT 0 1 0 true).curve.t1 = 1 := by
    simp [ArcObj.make, arcInit, Curve.make, updateLengths_t1]
  rw [h0, h1] at hl
  obtain ⟨A, hA⟩ : ∃ A, A = ArcObj.make 2 (π / 2) OUT 0 1 0 true := ⟨_, rfl⟩
  rw [← hA] at hk hl h0 h1 ⊢
  refine ⟨⟨{ A.curve with kind := .arc 2 (π / 2) OUT (Rx 1) }, (asEuler (Rx 1)).1, (asEuler (Rx 1)).2.1,
      (asEuler (Rx 1)).2.2⟩,
    ⟨({ A.curve with kind := .arc 2 (π / 2) OUT (Rx 1), t1 := 1 / 2 } : Curve).updateLengths, (asEuler (Rx 1)).1,
      (asEuler (Rx 1)).2.1, (asEuler (Rx 1)).2.2⟩,
    by simp only [ArcObj.run, ArcOp.run, hk, Option.bind_some], h0, h1, ?_, ?_, ?_⟩
  · simp only [ArcObj.run, ArcOp.run, hk, Option.bind_some, Curve.setEndOn]
    rw [s2t_two _ (by simp [hl]) (by simp [hl]) (by simp [hl])]
    simp [hl]
  · simp [updateLengths_t0, h0]
  · simp [updateLengths_t1]

/-- A full circle trimmed to three quarters meets the conditions of `c107_arc_violated`. -/
theorem c107_violated_case (asEuler : M3 → ℝ × ℝ × ℝ) : ∃ a,
    (ArcObj.make 1 (2 * π) 0 0 0 0 true).run asEuler [.setEnd (3 / 4)] = some a ∧
    (a.curve.t0, a.curve.t1) ≠ (0, 1) ∧ π < |2 * π * (a.curve.t1 - a.curve.t0)| ∧
    |2 * π * (a.curve.t1 - a.curve.t0)| < 2 * π := by
  have hl := (ArcObj.make_good 1 (2 * π) 0 0 0 0).lookup
  have h0 : (ArcObj.make 1 (2 * π) 0 0 0 0 true).curve.t0 = 0 := by
    simp [ArcObj.make, arcInit, Curve.make, updateLengths_t0]
  have h1 : (ArcObj.make 1 (2 * π) 0 0 0 0 true).curve.t1 = 1 := by
    simp [ArcObj.make, arcInit, Curve.make, updateLengths_t1]
  rw [h0, h1] at hl
  obtain ⟨A, hA⟩ : ∃ A, A = ArcObj.make 1 (2 * π) 0 0 0 0 true := ⟨_, rfl⟩
  rw [← hA] at hl h0 h1 ⊢
  refine ⟨{ A with curve := ({ A.curve with t1 := 3 / 4 } : Curve).updateLengths }, ?_, ?_⟩
  · simp only [ArcObj.run, ArcOp.run, Curve.setEndOn]
    rw [s2t_two _ (by simp [hl]) (by simp [hl]) (by simp [hl])]
    simp [hl]
  · have hpi := pi_pos
    simp only [updateLengths_t0, updateLengths_t1, h0, sub_zero]
    rw [abs_of_pos (by positivity)]
    refine ⟨by simp; norm_num, by linarith, by linarith⟩

end Verif
