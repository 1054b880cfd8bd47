import Verif.Props.Arc

/-! # Transformed, mirrored and rotated curves: C50, C51 -/

namespace Verif

open Real

theorem applyTransform_sub (p q : V3) (T : TransformData) :
    applyTransform p T - applyTransform q T = T.scale • app T.orientation (p - q) := by
  rw [applyTransform_eq, applyTransform_eq, app_sub]; module

/-! ### C50 -/

/-- **C50, lines (partial).** Transforming an untrimmed line gives, at every parameter, the transformed
point. Missing: trimmed lines, where the claim is false. -/
theorem c50_line_partial (p0 p1 : V3) (act : Bool) (T : TransformData) (s : ℝ) :
    (lineTransform p0 p1 act (applyTransform · T)).eval s =
      ((Curve.make (.line p0 p1) act 0 1).eval s).map (applyTransform · T) := by
  rw [lineTransform, make_eval _ (by intro f n h; cases h), make_eval _ (by intro f n h; cases h)]
  simp only [CurveKind.fn, Option.map_some, Option.some.injEq, applyTransform_eq, app_add, app_smul]
  module

/-- **C50, arcs (partial).** Transforming an untrimmed arc by a similarity gives, at every parameter,
the transformed point. Missing: trimmed arcs, where the claim is false. -/
theorem c50_arc_partial {asEuler : M3 → ℝ × ℝ × ℝ} (hE : EulerOk asEuler) (r a : ℝ) (hr : r ≠ 0)
    (center : V3) (M : M3) (hM : IsRot M) (act : Bool) (T : TransformData)
    (hT : IsRot T.orientation) (hs : 0 < T.scale) :
    ∃ c, arcTransform asEuler (.make (.arc r a center M) act 0 1) (applyTransform · T) = some c ∧
      c.active = act ∧ ∀ s, c.eval s =
        ((Curve.make (.arc r a center M) act 0 1).eval s).map (applyTransform · T) := by
  have hk : (Curve.make (.arc r a center M) act 0 1).kind = .arc r a center M := by
    cases act <;> simp [Curve.make, updateLengths_kind]
  have hact : (Curve.make (.arc r a center M) act 0 1).active = act := by
    cases act <;> simp [Curve.make, updateLengths_active]
  have hfn : ∀ s, (Curve.make (.arc r a center M) act 0 1).eval s =
      some (center + rodrigues (app M OUT) (a * s) (app M (r • RIGHT))) := by
    intro s
    rw [make_eval _ (by intro f n h; cases h), arc_fn _ _ _ _ hM]
  have h0 : (Curve.make (.arc r a center M) act 0 1).eval 0 = some (center + app M (r • RIGHT)) := by
    rw [hfn 0]; simp [rodrigues]
  have hax : applyTransform (center + app M OUT) T - applyTransform center T =
      T.scale • app T.orientation (app M OUT) := by
    rw [applyTransform_sub, add_sub_cancel_left]
  have hunit : dot (app T.orientation (app M OUT)) (app T.orientation (app M OUT)) = 1 := by
    rw [hT.dot_app, hM.dot_app]; simp [dot, OUT]
  have hne : T.scale • app T.orientation (app M OUT) ≠ 0 := by
    apply smul_ne_zero hs.ne'
    intro e; rw [e] at hunit; simp [dot] at hunit
  have hnorm : (norm3 (T.scale • app T.orientation (app M OUT)))⁻¹ •
      (T.scale • app T.orientation (app M OUT)) = app T.orientation (app M OUT) := by
    rw [norm3_smul, abs_of_pos hs, norm3_eq_of_dot zero_le_one (by rw [hunit]; norm_num), mul_one,
      smul_smul, inv_mul_cancel₀ hs.ne', one_smul]
  have hrad : applyTransform (center + app M (r • RIGHT)) T - applyTransform center T =
      T.scale • app T.orientation (app M (r • RIGHT)) := by
    rw [applyTransform_sub, add_sub_cancel_left]
  have hperp : dot (app T.orientation (app M OUT))
      (applyTransform (center + app M (r • RIGHT)) T - applyTransform center T) = 0 := by
    rw [hrad, dot_smul_right, hT.dot_app, hM.dot_app]; simp [dot, OUT, RIGHT]
  have hpne : applyTransform (center + app M (r • RIGHT)) T ≠ applyTransform center T := by
    intro e
    rw [← sub_eq_zero, hrad] at e
    have : dot (T.scale • app T.orientation (app M (r • RIGHT)))
        (T.scale • app T.orientation (app M (r • RIGHT))) = T.scale ^ 2 * r ^ 2 := by
      rw [dot_smul_left, dot_smul_right, hT.dot_app, hM.dot_app]; simp [dot, RIGHT]; ring
    rw [e] at this
    have h3 : dot (0 : V3) 0 = 0 := by simp [dot]
    rw [h3] at this
    have : 0 < T.scale ^ 2 * r ^ 2 := by positivity
    linarith
  obtain ⟨c, hc, hca, hev⟩ := c49_point_angle_perp hE
    (applyTransform (center + app M (r • RIGHT)) T) (applyTransform center T) a
    (app T.orientation (app M OUT)) act hpne (by intro e; rw [e] at hunit; simp [dot] at hunit) hperp
  refine ⟨c, ?_, hca, ?_⟩
  · rw [arcTransform, hk, h0]
    simp only
    rw [hax, normalizeVector_some hne, hnorm]
    simp only
    rw [hact]
    exact hc
  · intro s
    rw [hev s, hfn s, Option.map_some, norm3_eq_of_dot zero_le_one (by rw [hunit]; norm_num), inv_one,
      one_smul, hrad]
    congr 1
    have h5 : dot (app T.orientation (app M OUT)) (app T.orientation (app M (r • RIGHT))) = 0 := by
      rw [hT.dot_app, hM.dot_app]; simp [dot, OUT, RIGHT]
    have h6 : dot (app M OUT) (app M (r • RIGHT)) = 0 := by
      rw [hM.dot_app]; simp [dot, OUT, RIGHT]
    rw [applyTransform_eq, applyTransform_eq, rodrigues, rodrigues, dot_smul_right, h5, h6,
      cross_smul_right, hT.cross_app]
    simp only [app_add, app_smul T.orientation (cos (a * s)), app_smul T.orientation (sin (a * s))]
    simp only [mul_zero, zero_smul, add_zero, app_zero]
    module

/-- A concrete case: a quarter arc of radius 2 and a scaling by 3 with a quarter turn. -/
example : IsRot (Rz (π / 2)) ∧ IsRot (Rx 1) ∧ (2 : ℝ) ≠ 0 ∧ (0 : ℝ) < 3 :=
  ⟨IsRot.Rz _, IsRot.Rx _, by norm_num, by norm_num⟩

/-- **C50 is false for trimmed lines.** After `set_start_on(s)` with `s ≠ 0`, transforming by the
identity moves the start point back to the untrimmed start. -/
theorem c50_line_violated (p0 p1 : V3) (hp : p0 ≠ p1) (act : Bool) (s : ℝ) (hs : s ≠ 0) :
    ∃ c, (Curve.make (.line p0 p1) act 0 1).setStartOn s = some c ∧ c.kind = .line p0 p1 ∧
      (lineTransform p0 p1 c.active (applyTransform · TransformData.default)).eval 0 ≠
        (c.eval 0).map (applyTransform · TransformData.default) := by
  have hid : ∀ p, applyTransform p TransformData.default = p := by
    intro p; rw [applyTransform_eq]; simp [TransformData.default]
  have hk : (Curve.make (.line p0 p1) act 0 1).kind = .line p0 p1 := by
    cases act <;> simp [Curve.make, updateLengths_kind]
  have he := make_eval (.line p0 p1) (by intro f n h; cases h) act s
  rw [Curve.eval, hk] at he
  have hinj : ∀ t t', CurveKind.fn (.line p0 p1) t = CurveKind.fn (.line p0 p1) t' → t = t' := by
    intro t t' h
    simp only [CurveKind.fn] at h
    have h1 : (t - t') • (p1 - p0) = 0 := by
      have : (t - t') • (p1 - p0) = ((1 - t) • p0 + t • p1) - ((1 - t') • p0 + t' • p1) := by module
      rw [this, h, sub_self]
    rcases smul_eq_zero.1 h1 with h | h
    · linarith
    · exact absurd (sub_eq_zero.1 h).symm hp
  obtain ⟨t, ht⟩ : ∃ t, (Curve.make (.line p0 p1) act 0 1).s2t s = some t := by
    cases h : (Curve.make (.line p0 p1) act 0 1).s2t s with
    | none => rw [h] at he; simp at he
    | some t => exact ⟨t, rfl⟩
  rw [ht, Option.map_some, Option.some.injEq] at he
  have hts := hinj _ _ he
  rw [Curve.setStartOn, ht]
  refine ⟨_, rfl, ?_, ?_⟩
  · rw [updateLengths_kind]; exact hk
  · have h1 := (c38_ends { (Curve.make (.line p0 p1) act 0 1) with t0 := t }
      (by rw [show _ = CurveKind.line p0 p1 from hk]; trivial)).1
    rw [h1, lineTransform, make_eval _ (by intro f n h; cases h)]
    simp only [hid, Option.map_some]
    rw [hk]
    intro h
    have := hinj _ _ (Option.some.inj h)
    rw [← this] at hts
    exact hs hts.symm

theorem dot_rodrigues_rodrigues {n v : V3} (hn : dot n n = 1) (hv : dot n v = 0) (a b : ℝ) :
    dot (rodrigues n a v) (rodrigues n b v) = cos (a - b) * dot v v := by
  have h1 : dot (cross n v) (cross n v) = dot v v := by rw [dot_cross_self, hn, hv]; ring
  rw [rodrigues, rodrigues, hv, cos_sub]
  simp only [dot_add_left, dot_add_right, dot_smul_left, dot_smul_right, h1, dot_comm (cross n v) v,
    dot_cross_right, mul_zero]
  ring

/-- **C50 is false for trimmed arcs.** After `set_end_on(s)` with `0 ≤ s < 1`, transforming by the
identity makes the arc run on over its full angle: the end point is another one. -/
theorem c50_arc_violated {asEuler : M3 → ℝ × ℝ × ℝ} (hE : EulerOk asEuler) (r a : ℝ) (hr : r ≠ 0)
    (ha0 : 0 < a) (ha1 : a < 2 * π) (center : V3) (M : M3) (hM : IsRot M) (s : ℝ) (h0 : 0 ≤ s)
    (h1 : s < 1) :
    ∃ c c', (Curve.make (.arc r a center M) true 0 1).setEndOn s = some c ∧
      arcTransform asEuler c (applyTransform · TransformData.default) = some c' ∧
      c'.eval 1 ≠ (c.eval 1).map (applyTransform · TransformData.default) := by
  have hid : ∀ p, applyTransform p TransformData.default = p := by
    intro p; rw [applyTransform_eq]; simp [TransformData.default]
  have hmk : Curve.make (.arc r a center M) true 0 1 =
    Curve.updateLengths ⟨.arc r a center M, true, 0, 1, 0, Lookup.default⟩ := by
    rw [Curve.make, if_pos rfl]
  have ht : (Curve.make (.arc r a center M) true 0 1).s2t s = some s := by
    rw [hmk, s2t_line_arc ⟨.arc r a center M, true, 0, 1, 0, Lookup.default⟩ (by intro f n h; cases h)]
    simp
  obtain ⟨cc, hcc⟩ : ∃ cc : Curve, cc = { (Curve.make (.arc r a center M) true 0 1) with t1 := s } :=
    ⟨_, rfl⟩
  have hk : cc.kind = .arc r a center M := by rw [hcc, hmk]; simp [updateLengths_kind]
  have ht0 : cc.t0 = 0 := by rw [hcc, hmk]; simp [updateLengths_t0]
  have ht1 : cc.t1 = s := by rw [hcc]
  have hev := c38_ends cc (by rw [hk]; trivial)
  rw [hk, ht0, ht1, arc_fn _ _ _ _ hM, arc_fn _ _ _ _ hM] at hev
  have e0 : cc.updateLengths.eval 0 = some (center + app M (r • RIGHT)) := by
    rw [hev.1]; simp [rodrigues]
  obtain ⟨u, hu⟩ : ∃ u, u = app M (r • RIGHT) := ⟨_, rfl⟩
  obtain ⟨n, hn⟩ : ∃ n, n = app M OUT := ⟨_, rfl⟩
  have hnn : dot n n = 1 := by rw [hn, hM.dot_app]; simp [dot, OUT]
  have hnu : dot n u = 0 := by rw [hn, hu, hM.dot_app]; simp [dot, OUT, RIGHT]
  have huu : dot u u = r ^ 2 := by rw [hu, hM.dot_app]; simp [dot, RIGHT]; ring
  have hu0 : u ≠ 0 := by
    intro e
    rw [e] at huu
    have h3 : dot (0 : V3) 0 = 0 := by simp [dot]
    rw [h3] at huu
    have : 0 < r ^ 2 := by positivity
    linarith
  have hn0 : n ≠ 0 := by intro e; rw [e] at hnn; simp [dot] at hnn
  have hn1 : norm3 n = 1 := norm3_eq_of_dot zero_le_one (by rw [hnn]; norm_num)
  rw [← hu, ← hn] at hev
  rw [← hu] at e0
  obtain ⟨c', hc', -, hev'⟩ := c49_point_angle_perp hE (center + u) center a n cc.updateLengths.active
    (by intro e; exact hu0 (add_eq_left.1 e)) hn0 (by rw [add_sub_cancel_left]; exact hnu)
  refine ⟨cc.updateLengths, c', ?_, ?_, ?_⟩
  · rw [Curve.setEndOn, ht, hcc]; rfl
  · rw [arcTransform, updateLengths_kind, hk, e0]
    simp only [hid]
    rw [← hn, add_sub_cancel_left, normalizeVector_some hn0, hn1, inv_one, one_smul]
    exact hc'
  · rw [hev' 1, hev.2]
    simp only [Option.map_some, hid]
    rw [hn1, inv_one, one_smul, add_sub_cancel_left, mul_one]
    intro h
    have h2 := add_left_cancel (Option.some.inj h)
    have h3 := dot_rodrigues_rodrigues hnn hnu (a * s) a
    rw [h2, dot_rodrigues_rodrigues hnn hnu (a * s) (a * s), sub_self, cos_zero, one_mul] at h3
    have h4 : cos (a * s - a) = 1 := by
      rw [huu] at h3
      have : 0 < r ^ 2 := by positivity
      nlinarith
    have h5 := (Real.cos_eq_one_iff_of_lt_of_lt (x := a * s - a) (by nlinarith) (by nlinarith)).1 h4
    nlinarith

/-! ### C51 -/

/-- **C51, involution.** Mirroring twice in the same plane gives the original point. -/
theorem c51_involution (n center p : V3) (hn : dot n n = 1) :
    mirrorFunc n center (mirrorFunc n center p) = p := by
  obtain ⟨h, hh⟩ : ∃ h, h = dot (p - center) n := ⟨_, rfl⟩
  simp only [mirrorFunc, add_sub_cancel_right]
  rw [dot_sub_left (p - center), dot_smul_left, hn, ← hh]
  module

/-- **C51, isometry.** Mirroring keeps the distance of any two points. -/
theorem c51_isometry (n center p q : V3) (hn : dot n n = 1) :
    norm3 (mirrorFunc n center p - mirrorFunc n center q) = norm3 (p - q) := by
  apply norm3_eq_of_dot (norm3_nonneg _)
  rw [norm3_sq]
  have h : mirrorFunc n center p - mirrorFunc n center q = (p - q) - (2 * dot (p - q) n) • n := by
    have h1 : dot (p - q) n = dot (p - center) n - dot (q - center) n := by
      rw [← dot_sub_left]; congr 1; abel
    rw [h1]; simp only [mirrorFunc]; module
  rw [h]
  simp only [dot_sub_left (p - q), dot_sub_right _ (p - q), dot_smul_left, dot_smul_right, hn,
    dot_comm n (p - q)]
  ring

/-- **C51, the plane is fixed.** A point is fixed exactly when it lies on the plane through the centre
with that normal. -/
theorem c51_fixed (n center p : V3) (hn : dot n n = 1) :
    mirrorFunc n center p = p ↔ dot (p - center) n = 0 := by
  have h : mirrorFunc n center p = p - (2 * dot (p - center) n) • n := by
    simp only [mirrorFunc]; module
  rw [h, sub_eq_self, smul_eq_zero]
  constructor
  · rintro (h | h)
    · linarith
    · rw [h] at hn; simp [dot] at hn
  · intro h; left; rw [h]; ring

/-- **C51, distances to the plane.** The mirrored point keeps its distance from every point of the
plane and is on the other side. -/
theorem c51_plane (n center p q : V3) (hn : dot n n = 1) (hq : dot (q - center) n = 0) :
    norm3 (mirrorFunc n center p - q) = norm3 (p - q) ∧
      dot (mirrorFunc n center p - center) n = -dot (p - center) n := by
  constructor
  · conv_lhs => rw [← (c51_fixed n center q hn).2 hq]
    exact c51_isometry n center p q hn
  · simp only [mirrorFunc, add_sub_cancel_right]
    rw [dot_sub_left, dot_smul_left, hn]; ring

/-- Rotating keeps distances. -/
theorem rotateFunc_isometry (a : ℝ) (n center p q : V3) (hn : dot n n = 1) :
    norm3 (rotateFunc a n center p - rotateFunc a n center q) = norm3 (p - q) := by
  simp only [rotateFunc]
  rw [add_sub_add_right_eq_sub, ← app_sub, sub_sub_sub_cancel_right, fromRotvec_smul hn,
    (IsRot.rotMat hn a).norm_app]

theorem chordLen_congr {f g : ℝ → V3} (h : ∀ t t', norm3 (f t - f t') = norm3 (g t - g t'))
    (t : ℕ → ℝ) : chordLen f t = chordLen g t := by
  funext i
  induction i with
  | zero => rfl
  | succ i ih => rw [chordLen, chordLen, ih, h]

/-- A curve transformed by an isometry is the transform of the resampled curve, at every parameter. -/
theorem transformed_isometry (f : V3 → V3) (hf : ∀ p q, norm3 (f p - f q) = norm3 (p - q))
    (target : ℝ → V3) (act : Bool) (s : ℝ) :
    (transformedCurve f target act).eval s =
      ((Curve.make (.generic target 20) act 0 1).eval s).map f := by
  cases act with
  | false => 
    rw [transformedCurve, Curve.make, Curve.make, if_neg (by simp), if_neg (by simp), Curve.eval,
      Curve.eval, Option.map_map]
    rfl
  | true =>
    rw [transformedCurve, Curve.make, Curve.make, if_pos rfl, if_pos rfl, Curve.eval, Curve.eval,
      Option.map_map]
    have h := chordLen_congr (f := fun t => f (target t)) (g := target) (fun t t' => hf _ _)
    have h1 : (Curve.updateLengths ⟨.generic (fun t => f (target t)) 20, true, 0, 1, 0,
        Lookup.default⟩).s2t s =
        (Curve.updateLengths ⟨.generic target 20, true, 0, 1, 0, Lookup.default⟩).s2t s := by
      simp only [Curve.s2t, Curve.updateLengths, h]
    rw [h1, updateLengths_kind, updateLengths_kind]
    rfl

/-- **C51 for curves.** The mirrored curve is, at every parameter, the mirror image of the same curve
resampled by its own chord lengths, it starts and ends at the mirror images of the ends, and mirroring
it again takes it back point by point. -/
theorem c51_curve (target : ℝ → V3) (act : Bool) (planeNormal center : V3) (hn : planeNormal ≠ 0) :
    ∃ n m, dot n n = 1 ∧ norm3 planeNormal • n = planeNormal ∧
      mirroredCurve target act planeNormal center = some m ∧
      (∀ s, m.eval s = ((Curve.make (.generic target 20) act 0 1).eval s).map (mirrorFunc n center)) ∧
      (∀ s, (m.eval s).map (mirrorFunc n center) = (Curve.make (.generic target 20) act 0 1).eval s) ∧
      m.eval 0 = some (mirrorFunc n center (target 0)) ∧
      m.eval 1 = some (mirrorFunc n center (target 1)) := by
  have h1 := dot_inv_smul hn
  obtain ⟨n, hnd⟩ : ∃ n, n = (norm3 planeNormal)⁻¹ • planeNormal := ⟨_, rfl⟩
  rw [← hnd] at h1
  have hev := transformed_isometry (mirrorFunc n center) (fun p q => c51_isometry n center p q h1)
    target act
  refine ⟨n, transformedCurve (mirrorFunc n center) target act, h1, by rw [hnd, norm3_smul_inv hn], ?_,
    hev, ?_, ?_, ?_⟩
  · rw [mirroredCurve, normalizeVector_some hn, hnd]; rfl
  · intro s
    rw [hev s, Option.map_map]
    cases (Curve.make (.generic target 20) act 0 1).eval s with
    | none => rfl
    | some p => simp [c51_involution n center p h1]
  · rw [hev 0, (make_ends target 20 (by norm_num) act).1]; rfl
  · rw [hev 1, (make_ends target 20 (by norm_num) act).2]; rfl

/-- **C51, lengths.** The mirrored curve has the same length as the resampled curve. -/
theorem c51_length (target : ℝ → V3) (n center : V3) (hn : dot n n = 1) :
    (transformedCurve (mirrorFunc n center) target true).length =
      (Curve.make (.generic target 20) true 0 1).length := by
  rw [transformedCurve, Curve.make, Curve.make, if_pos rfl, if_pos rfl]
  simp only [Curve.updateLengths]
  rw [chordLen_congr (f := fun t => mirrorFunc n center (target t)) (g := target)
    (fun t t' => c51_isometry n center _ _ hn)]

/-- Equal chords: the resampled curve is the curve itself. -/
theorem uniform_eval (f : ℝ → V3) (n : ℕ) (hn : 1 ≤ n) (l : ℝ)
    (hl : ∀ i, i < n → norm3 (f (linspace 0 1 n (i + 1)) - f (linspace 0 1 n i)) = l) (act : Bool)
    (s : ℝ) (h0 : 0 ≤ s) (h1 : s ≤ 1) :
    (Curve.make (.generic f n) act 0 1).eval s = some (f s) := by
  have hn' : (0 : ℝ) < n := by exact_mod_cast hn
  cases act with
  | false =>
    have d0 : Lookup.default.s 0 = -10 ^ 6 := rfl
    have d1 : Lookup.default.s 1 = 10 ^ 6 := rfl
    have e0 : Lookup.default.t 0 = -10 ^ 6 := rfl
    have e1 : Lookup.default.t 1 = 10 ^ 6 := rfl
    have en : Lookup.default.n = 1 := rfl
    have hl : lastLe Lookup.default.s s 1 = 0 := by
      rw [lastLe, if_neg (by rw [d1]; norm_num; linarith), lastLe]
    rw [Curve.make, if_neg (by simp), Curve.eval, Curve.s2t]
    simp only [en]
    rw [if_neg (by linarith), if_neg (by linarith), npInterp, if_neg (by rw [d0]; norm_num; linarith)]
    simp only [hl]
    norm_num [d0, d1, e0, e1, CurveKind.fn]
  | true =>
    have hc : ∀ i, i ≤ n → chordLen f (linspace 0 1 n) i = i * l := by
      intro i
      induction i with
      | zero => intro _; simp [chordLen]
      | succ i ih => intro h; rw [chordLen, ih (by omega), hl i (by omega)]; push_cast; ring
    have hls : ∀ i : ℕ, linspace 0 1 n i = i / n := by intro i; simp [linspace]
    obtain ⟨c, hcd⟩ : ∃ c, c = Curve.make (.generic f n) true 0 1 := ⟨_, rfl⟩
    have hcu : c = Curve.updateLengths ⟨.generic f n, true, 0, 1, 0, Lookup.default⟩ := by
      rw [hcd, Curve.make, if_pos rfl]
    have hcn : c.lookup.n = n := by rw [hcu]; rfl
    have hct : c.lookup.t = linspace 0 1 n := by rw [hcu]; rfl
    have hcs : ∀ i, i ≤ n → c.lookup.s i = i / n := by
      intro i hi
      have : c.lookup.s = if chordLen f (linspace 0 1 n) n = 0 then linspace 0 1 n else
        fun i => chordLen f (linspace 0 1 n) i / chordLen f (linspace 0 1 n) n := by rw [hcu]; rfl
      rw [this]
      split_ifs with h
      · exact hls i
      · simp only
        rw [hc i hi, hc n (le_refl n)] at *
        have hl0 : l ≠ 0 := by rintro rfl; simp at h
        field_simp
    have hck : c.kind = .generic f n := by rw [hcu, updateLengths_kind]
    -- interpolating the diagonal
    have hlast : ∀ m, m ≤ n → lastLe c.lookup.s s m ≤ m ∧
        c.lookup.s (lastLe c.lookup.s s m) ≤ s := by
      intro m
      induction m with
      | zero => intro _; rw [lastLe]; exact ⟨le_refl _, by rw [hcs 0 (by omega)]; simpa using h0⟩
      | succ m ih =>
        intro h
        rw [lastLe]
        split_ifs with hx
        · exact ⟨le_refl _, hx⟩
        · exact ⟨(ih (by omega)).1.trans (by omega), (ih (by omega)).2⟩
    have hs : c.s2t s = some s := by
      rw [Curve.s2t, if_neg (by linarith), if_neg (by linarith), npInterp, hcn,
        if_neg (by rw [hcs 0 (by omega)]; simpa using h0)]
      simp only
      obtain ⟨j1, j2⟩ := hlast n (le_refl n)
      set j := lastLe c.lookup.s s n with hj
      rw [hct]
      split_ifs with h
      · rw [h, hcs n (le_refl n), div_self hn'.ne'] at j2
        rw [hls n, div_self hn'.ne', show s = 1 by linarith]
      · rw [hls, hls, hcs j j1, hcs (j + 1) (by omega)]
        push_cast
        congr 1
        have : ((j : ℝ) + 1) / n - j / n = 1 / n := by ring
        rw [this]
        field_simp
        ring
    rw [← hcd, Curve.eval, hs, hck]; rfl

/-- **C51 for lines and arcs.** Mirroring a line or a circular arc gives the mirror image at the same
parameter, and mirroring the result again gives back the original at the same parameter. -/
theorem c51_line_arc (k : CurveKind) (hk : ∀ f n, k ≠ .generic f n)
    (hM : ∀ r a c M, k = .arc r a c M → IsRot M) (act : Bool) (planeNormal center : V3)
    (hn : planeNormal ≠ 0) (s : ℝ) (h0 : 0 ≤ s) (h1 : s ≤ 1) :
    ∃ n m m', dot n n = 1 ∧ norm3 planeNormal • n = planeNormal ∧
      mirroredCurve (Curve.make k act 0 1).evalD act planeNormal center = some m ∧
      m.eval s = ((Curve.make k act 0 1).eval s).map (mirrorFunc n center) ∧
      mirroredCurve m.evalD act planeNormal center = some m' ∧
      m'.eval s = (Curve.make k act 0 1).eval s := by
  have hd : (Curve.make k act 0 1).evalD = k.fn := by
    funext t; rw [Curve.evalD, make_eval k hk]; rfl
  -- all chords of a line or arc are equal
  have hch : ∃ l, ∀ i, i < 20 →
      norm3 (k.fn (linspace 0 1 20 (i + 1)) - k.fn (linspace 0 1 20 i)) = l := by
    have hls : ∀ i : ℕ, linspace 0 1 20 i = i / 20 := by intro i; simp [linspace]
    cases k with
    | generic f n => exact absurd rfl (hk f n)
    | line p0 p1 =>
      refine ⟨norm3 ((1 / 20 : ℝ) • (p1 - p0)), fun i _ => ?_⟩
      congr 1
      simp only [CurveKind.fn, hls]
      push_cast
      module
    | arc r a c M =>
      have hMr := hM r a c M rfl
      refine ⟨norm3 (rodrigues (app M OUT) (a * (1 / 20)) (app M (r • RIGHT)) - app M (r • RIGHT)),
        fun i _ => ?_⟩
      have hnn : dot (app M OUT) (app M OUT) = 1 := by rw [hMr.dot_app]; simp [dot, OUT]
      have hnu : dot (app M OUT) (app M (r • RIGHT)) = 0 := by
        rw [hMr.dot_app]; simp [dot, OUT, RIGHT]
      have hz : app M (r • RIGHT) = rodrigues (app M OUT) 0 (app M (r • RIGHT)) := by simp [rodrigues]
      apply norm3_eq_of_dot (norm3_nonneg _)
      rw [norm3_sq, arc_fn _ _ _ _ hMr, arc_fn _ _ _ _ hMr, add_sub_add_left_eq_sub]
      conv_rhs => rw [hz]
      have hz' : rodrigues (app M OUT) (a * (1 / 20)) (rodrigues (app M OUT) 0 (app M (r • RIGHT))) =
          rodrigues (app M OUT) (a * (1 / 20)) (app M (r • RIGHT)) := by rw [← hz]
      rw [hz']
      simp only [dot_sub_left, dot_sub_right, dot_rodrigues_rodrigues hnn hnu, hls]
      push_cast
      rw [show a * (((i : ℝ) + 1) / 20) - a * ((i : ℝ) / 20) = a * (1 / 20) - 0 by ring,
        show a * ((i : ℝ) / 20) - a * (((i : ℝ) + 1) / 20) = 0 - a * (1 / 20) by ring]
      simp
  obtain ⟨l, hl⟩ := hch
  obtain ⟨n, m, hn1, hn2, hm, hev, hback, -, -⟩ := c51_curve (Curve.make k act 0 1).evalD act planeNormal
    center hn
  have huni : ∀ x, 0 ≤ x → x ≤ 1 → m.eval x = some (mirrorFunc n center (k.fn x)) := by
    intro x x0 x1
    rw [hev x, hd, uniform_eval k.fn 20 (by norm_num) l hl act x x0 x1]; rfl
  have hm01 : ∀ i : ℕ, i ≤ 20 → m.evalD (linspace 0 1 20 i) =
      mirrorFunc n center (k.fn (linspace 0 1 20 i)) := by
    intro i hi
    have hi' : (i : ℝ) ≤ 20 := by exact_mod_cast hi
    have : linspace 0 1 20 i = i / 20 := by simp [linspace]
    rw [Curve.evalD, huni _ (by rw [this]; positivity) (by rw [this, div_le_one (by norm_num)]; exact hi')]
    rfl
  obtain ⟨n', m', hn1', hn2', hm', hev', -, -, -⟩ := c51_curve m.evalD act planeNormal center hn
  have hnn : n' = n := by
    have h3 := norm3_pos hn
    have : norm3 planeNormal • n' = norm3 planeNormal • n := by rw [hn2, hn2']
    exact smul_right_injective _ h3.ne' this
  subst hnn
  refine ⟨n', m, m', hn1, hn2, hm, ?_, hm', ?_⟩
  · rw [huni s h0 h1, make_eval k hk]; rfl
  · rw [hev' s, uniform_eval m.evalD 20 (by norm_num) l ?_ act s h0 h1, Curve.evalD, huni s h0 h1,
      make_eval k hk]
    · simp [c51_involution n' center _ hn1]
    · intro i hi
      rw [hm01 i (by omega), hm01 (i + 1) (by omega), c51_isometry n' center _ _ hn1]
      exact hl i hi

/-- A concrete case: a mirror plane not through the origin. -/
example : mirrorFunc RIGHT ![1, 0, 0] ![3, 4, 5] = ![-1, 4, 5] := by
  apply V3.ext3 <;> simp [mirrorFunc, dot, RIGHT, Matrix.cons_val] <;> norm_num

/-- **C51, rotated curves.** The rotated curve is, at every parameter, the rotation about the axis
through the centre of the resampled curve. -/
theorem c51_rotated (target : ℝ → V3) (act : Bool) (angle : ℝ) (axis center : V3) (hn : axis ≠ 0) :
    ∃ m, rotatedCurve target act angle axis center = some m ∧
      (∀ s, m.eval s = ((Curve.make (.generic target 20) act 0 1).eval s).map
        fun p => center + rodrigues ((norm3 axis)⁻¹ • axis) angle (p - center)) ∧
      m.eval 0 = some (center + rodrigues ((norm3 axis)⁻¹ • axis) angle (target 0 - center)) ∧
      m.eval 1 = some (center + rodrigues ((norm3 axis)⁻¹ • axis) angle (target 1 - center)) := by
  have h1 := dot_inv_smul hn
  have hf : rotateFunc angle ((norm3 axis)⁻¹ • axis) center =
      fun p => center + rodrigues ((norm3 axis)⁻¹ • axis) angle (p - center) := by
    funext p
    simp only [rotateFunc]
    rw [fromRotvec_smul h1, app_rotMat, add_comm]
  have hev := transformed_isometry (rotateFunc angle ((norm3 axis)⁻¹ • axis) center)
    (fun p q => rotateFunc_isometry angle _ center p q h1) target act
  rw [hf] at hev
  refine ⟨transformedCurve (rotateFunc angle ((norm3 axis)⁻¹ • axis) center) target act, ?_, ?_, ?_, ?_⟩
  · rw [rotatedCurve, normalizeVector_some hn]; rfl
  · rw [hf]; exact hev
  · rw [hf, hev 0, (make_ends target 20 (by norm_num) act).1]; rfl
  · rw [hf, hev 1, (make_ends target 20 (by norm_num) act).2]; rfl

end Verif
