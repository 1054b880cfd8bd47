import Verif.Props.PathSys
import Verif.Props.SpurOutline
import Mathlib.Order.Monotone.Union

/-!
# Property C142: the outline of a spur gear with undercut, from the parameters of its teeth
-/

namespace Verif

open Real Set

/-- The path of the corner of a rack on the gear: the corner lies at the distance `a` from the axis and `b` beside the middle of
the tooth. When the rack has rolled on the pitch circle of radius `r` until the corner lies `v` beyond the axis, it is at
`(a, v)`, and the gear has turned by `(b + v) / r`. -/
def Spec.RackCorner (r a b : ℝ) (p : V3) : Prop :=
  ∃ v, 0 ≤ v ∧ p = ![a * cos ((b + v) / r) + v * sin ((b + v) / r), v * cos ((b + v) / r) - a * sin ((b + v) / r), 0]

/-! ### The path of the rack's corner -/

/-- How far the path of the rack's corner turns away from its deepest point, where `u` is the distance rolled from there, `a`
the radius of the deepest point and `r` the pitch radius. -/
noncomputable def lift (r a u : ℝ) : ℝ := arctan (u / a) - u / r

theorem lift_zero (r a : ℝ) : lift r a 0 = 0 := by simp [lift]

theorem lift_neg (r a u : ℝ) : lift r a (-u) = -lift r a u := by
  rw [lift, lift, neg_div, arctan_neg, neg_div]; ring

theorem arctan_concave : StrictConcaveOn ℝ (Ici (0 : ℝ)) arctan := by
  refine StrictAntiOn.strictConcaveOn_of_deriv (convex_Ici 0) continuous_arctan.continuousOn ?_
  rw [interior_Ici]
  intro x hx y hy hxy
  have hx' : 0 < x := hx
  simp only [Real.deriv_arctan]
  exact one_div_lt_one_div_of_lt (by positivity) (by nlinarith)

/-- If the path has not turned back behind its deepest point after rolling `v`, it has not done so before. -/
theorem lift_pos {r a u v : ℝ} (ha : 0 < a) (hu : 0 < u) (huv : u < v) (h : 0 ≤ lift r a v) : 0 < lift r a u := by
  have hv := hu.trans huv
  have hs := div_pos hv ha
  have hx : 0 < u / v := div_pos hu hv
  have h1 : u / v < 1 := (div_lt_one hv).2 huv
  have hc := arctan_concave.2
  have := @hc 0 (by simp) (v / a) hs.le hs.ne (1 - u / v) (u / v) (by linarith) hx (by ring)
  simp only [smul_eq_mul, arctan_zero, mul_zero, zero_add] at this
  rw [show u / v * (v / a) = u / a by field_simp] at this
  rw [lift] at h ⊢
  have h2 : u / v * (v / r) = u / r := by field_simp
  have h3 := mul_le_mul_of_nonneg_left (sub_nonneg.1 h) hx.le
  linarith

theorem lift_pos' {r a u v : ℝ} (ha : 0 < a) (hu : 0 < u) (huv : u ≤ v) (h : 0 < lift r a v) : 0 < lift r a u := by
  rcases huv.lt_or_eq with h1 | h1
  · exact lift_pos ha hu h1 h.le
  · rwa [h1]

theorem undercut_polar {r a b : ℝ} (ha : 0 < a) (t : ℝ) : undercutCurve r ![a, -b, 0] t =
    ![√(a ^ 2 + (-b - r * t) ^ 2) * cos (t + arctan ((-b - r * t) / a)),
      √(a ^ 2 + (-b - r * t) ^ 2) * sin (t + arctan ((-b - r * t) / a)), 0] := by
  obtain ⟨u, hu⟩ : ∃ u, u = -b - r * t := ⟨_, rfl⟩
  have hq : √(a ^ 2 + u ^ 2) = a * √(1 + (u / a) ^ 2) := by
    rw [show a ^ 2 + u ^ 2 = a ^ 2 * (1 + (u / a) ^ 2) by field_simp, sqrt_mul (by positivity), sqrt_sq ha.le]
  have hp : √(1 + (u / a) ^ 2) ≠ 0 := (sqrt_pos.2 (by positivity)).ne'
  rw [undercutCurve_eq, ← hu, cos_add, sin_add, cos_arctan, sin_arctan, hq]
  have h0 : (![a, -b, 0] : V3) 1 - r * t = u := by rw [hu]; simp
  rw [h0]
  apply V3.ext3
  · simp
    field_simp
  · simp
    field_simp
  · simp

theorem corner_polar {a : ℝ} (ha : 0 < a) (v τ : ℝ) :
    (![√(a ^ 2 + v ^ 2) * cos (arctan (v / a) - τ), √(a ^ 2 + v ^ 2) * sin (arctan (v / a) - τ), 0] : V3) =
      ![a * cos τ + v * sin τ, v * cos τ - a * sin τ, 0] := by
  have hq : √(a ^ 2 + v ^ 2) = a * √(1 + (v / a) ^ 2) := by
    rw [show a ^ 2 + v ^ 2 = a ^ 2 * (1 + (v / a) ^ 2) by field_simp, sqrt_mul (by positivity), sqrt_sq ha.le]
  have hq' : √(1 + (v / a) ^ 2) ≠ 0 := (sqrt_pos.2 (by positivity)).ne'
  rw [cos_sub, sin_sub, cos_arctan, sin_arctan, hq]
  apply V3.ext3
  · simp
    field_simp
  · simp
    field_simp
  · simp

/-- Two places of a path with the same distance from the axis and nearly the same angle. -/
theorem polar_unique {R R' θ θ' : ℝ} (hR : 0 < R) (hR' : 0 < R') (h1 : R * cos θ = R' * cos θ') (h2 : R * sin θ = R' * sin θ')
    (h3 : -(2 * π) < θ - θ') (h4 : θ - θ' < 2 * π) : R = R' ∧ θ = θ' := by
  have e : R = R' := by
    have : R ^ 2 = R' ^ 2 := by
      have h5 : R ^ 2 = (R * cos θ) ^ 2 + (R * sin θ) ^ 2 := by linear_combination -R ^ 2 * sin_sq_add_cos_sq θ
      have h6 : R' ^ 2 = (R' * cos θ') ^ 2 + (R' * sin θ') ^ 2 := by linear_combination -R' ^ 2 * sin_sq_add_cos_sq θ'
      rw [h5, h6, h1, h2]
    exact (pow_left_inj₀ hR.le hR'.le two_ne_zero).1 this
  subst e
  refine ⟨rfl, ?_⟩
  have c := mul_left_cancel₀ hR.ne' h1
  have s := mul_left_cancel₀ hR.ne' h2
  have hc : cos (θ - θ') = 1 := by rw [cos_sub, c, s]; linear_combination sin_sq_add_cos_sq θ'
  have := (cos_eq_one_iff_of_lt_of_lt h3 h4).1 hc
  linarith

/-- The path of the rack's corner does not meet itself while the gear turns by three radians. -/
theorem undercut_inj {r a b : ℝ} (hr : 0 < r) (ha : 0 < a) (hK : b / r < arctan (b / a)) :
    InjOn (fun t => undercutCurve r ![a, -b, 0] (-t)) (Icc 0 3) := by
  have key : ∀ x ∈ Icc (0 : ℝ) 3, ∀ y ∈ Icc (0 : ℝ) 3, x < y →
      undercutCurve r ![a, -b, 0] (-x) ≠ undercutCurve r ![a, -b, 0] (-y) := by
    intro x hx y hy hxy e
    rw [undercut_polar ha, undercut_polar ha] at e
    obtain ⟨u, hu⟩ : ∃ u, u = -b - r * -x := ⟨_, rfl⟩
    obtain ⟨v, hv⟩ : ∃ v, v = -b - r * -y := ⟨_, rfl⟩
    rw [← hu, ← hv] at e
    have l1 := neg_pi_div_two_lt_arctan (u / a)
    have l2 := arctan_lt_pi_div_two (u / a)
    have l3 := neg_pi_div_two_lt_arctan (v / a)
    have l4 := arctan_lt_pi_div_two (v / a)
    have hpi := pi_gt_three
    obtain ⟨e1, e2⟩ := polar_unique (sqrt_pos.2 (by positivity)) (sqrt_pos.2 (by positivity)) (congrFun e 0) (congrFun e 1)
      (by linarith [hx.1, hx.2, hy.1, hy.2]) (by linarith [hx.1, hx.2, hy.1, hy.2])
    have huv : u < v := by rw [hu, hv]; nlinarith
    have e3 : a ^ 2 + u ^ 2 = a ^ 2 + v ^ 2 := (sqrt_inj (by positivity) (by positivity)).1 e1
    have e4 : v = -u := by
      have : (v - u) * (v + u) = 0 := by linarith
      rcases mul_eq_zero.1 this with h | h <;> linarith
    have hvp : 0 < v := by linarith
    have hvb : v ≤ b := by
      have : 0 ≤ r * x := mul_nonneg hr.le hx.1
      linarith
    have hl := lift_pos' (r := r) ha hvp hvb (by rw [lift]; linarith)
    rw [lift] at hl
    have e5 : u = -v := by linarith
    rw [e5, neg_div, arctan_neg] at e2
    have e6 : v / r * r = v := div_mul_cancel₀ v hr.ne'
    have e7 : r * (y - x) = 2 * v := by rw [hv] at e5 ⊢; rw [hu] at e5; linarith
    have e8 : y - x = 2 * (v / r) := by
      rw [← e6] at e7
      exact mul_left_cancel₀ hr.ne' (by linarith)
    linarith
  intro x hx y hy e
  rcases lt_trichotomy x y with h | h | h
  · exact absurd e (key x hx y hy h)
  · exact h
  · exact absurd e.symm (key y hy x hx h)

/-! ### The curves -/

theorem back_make {f : ℝ → V3} {n : ℕ} (hn : 1 ≤ n) {t : ℝ} (ht : 0 < t) (hinj : InjOn (fun x => f (-x)) (Icc 0 t)) :
    (Curve.make (.generic f n) true 0 (-t)).BackOk := by
  have e : (Curve.make (.generic f n) true 0 (-t)).flip = Curve.make (.generic (fun x => f (-x)) n) true 0 t := by
    rw [Curve.make, if_pos rfl, flip_update ⟨f, n, rfl⟩, Curve.make, if_pos rfl]
    simp [Curve.flip, Curve.updateLengths]
  refine ⟨⟨f, n, by rw [Curve.make, if_pos rfl, updateLengths_kind]⟩, ?_⟩
  rw [e]
  exact make_path hn ht hinj

/-- The undercut curve that ends after the gear has turned by `-t`. -/
noncomputable def cornerPath (r a b t : ℝ) : Curve := Curve.make (.generic (undercutCurve r ![a, -b, 0]) 20) true 0 t

theorem cornerPath_kind (r a b t : ℝ) : (cornerPath r a b t).kind = .generic (undercutCurve r ![a, -b, 0]) 20 := by
  rw [cornerPath, Curve.make, if_pos rfl, updateLengths_kind]

theorem cornerPath_t0 (r a b t : ℝ) : (cornerPath r a b t).t0 = 0 := by
  rw [cornerPath, Curve.make, if_pos rfl, updateLengths_t0]

theorem cornerPath_t1 (r a b t : ℝ) : (cornerPath r a b t).t1 = t := by
  rw [cornerPath, Curve.make, if_pos rfl, updateLengths_t1]

theorem cornerPath_ok {r a b t : ℝ} (hr : 0 < r) (ha : 0 < a) (hK : b / r < arctan (b / a)) (h3 : -3 ≤ t) (h0 : t < 0) :
    (cornerPath r a b t).BackOk := by
  have := back_make (f := undercutCurve r ![a, -b, 0]) (n := 20) (by norm_num) (t := -t) (by linarith)
    ((undercut_inj (b := b) hr ha hK).mono (Icc_subset_Icc_right (by linarith)))
  rwa [neg_neg] at this

/-- A new end of the curve may lie on it or beyond its old end. -/
theorem cornerPath_end {r a b t s t' : ℝ} (h : (cornerPath r a b t).s2t s = some t') :
    (cornerPath r a b t).setEndOn s = some (cornerPath r a b t') := by
  rw [Curve.setEndOn, h, Option.map_some, Option.some_inj, cornerPath, cornerPath, Curve.make, Curve.make, if_pos rfl, if_pos rfl]
  simp only [Curve.updateLengths]

theorem cornerPath_last {r a b t : ℝ} (h : (cornerPath r a b t).BackOk) :
    (cornerPath r a b t).eval 1 = some (undercutCurve r ![a, -b, 0] t) := by
  obtain ⟨τ, t1, t2, t3⟩ := h.run
  rw [t3 1 ⟨zero_le_one, le_refl _⟩, (mono_ends t1 t2).2, neg_neg, cornerPath_t1, cornerPath_kind]
  rfl

/-- The undercut curve that is generated: it runs backwards along the path of the rack's corner. -/
theorem under_path {S : ScalarSolvers} {r a b : ℝ}
    (hx : 0 < (S.root1 (fun t => ((cornerPath r a b (-1)).eval t).map fun p => dot p p - (r * 1) ^ 2) 1).x →
      ∃ t, -3 ≤ t ∧ t < 0 ∧ (cornerPath r a b (-1)).s2t
        (S.root1 (fun t => ((cornerPath r a b (-1)).eval t).map fun p => dot p p - (r * 1) ^ 2) 1).x = some t) :
    ∃ t, -3 ≤ t ∧ t < 0 ∧ generateUndercutCurve S r ![a, -b, 0] = some (cornerPath r a b t) := by
  rw [generateUndercutCurve]
  simp only [show Curve.make (.generic (undercutCurve r ![a, -b, 0]) 20) true 0 (-1) = cornerPath r a b (-1) from rfl]
  split_ifs with h
  · obtain ⟨t, t3, t0, e⟩ := hx h
    exact ⟨t, t3, t0, cornerPath_end e⟩
  · exact ⟨-1, by norm_num, by norm_num, rfl⟩

/-- A chain of two members. -/
theorem two_part {α : Type} {o : CurveOps α} {P : α → Prop} (S : PathSys o P) {a b : α} (h : SysPath o P [a, b])
    (ha : o.active a = true) (hb : o.active b = true) : ∃ j, 0 < j ∧ j < 1 ∧
      (∀ s ∈ Icc (0 : ℝ) j, chainEval o [a, b] s = o.eval a (s / j)) ∧
      ∀ s ∈ Icc j 1, chainEval o [a, b] s = o.eval b ((s - j) / (1 - j)) := by
  have la : 0 < o.len a := by rw [len_of_active ha]; exact S.pos a (h.1 a (by simp) ha)
  have lb : 0 < o.len b := by rw [len_of_active hb]; exact S.pos b (h.1 b (by simp) hb)
  have hL : chainLen o [a, b] = o.len a + o.len b := by rw [chainLen_cons, chainLen_cons]; simp [chainLen]
  have hc : chainLen o [a] = o.len a := by rw [chainLen_cons]; simp [chainLen]
  have hL0 : 0 < o.len a + o.len b := by linarith
  refine ⟨o.len a / (o.len a + o.len b), div_pos la hL0, (div_lt_one hL0).2 (by linarith), ?_, ?_⟩
  · intro s hs
    have hx : s * (o.len a + o.len b) ≤ o.len a := (le_div_iff₀ hL0).1 hs.2
    have e := chainEval_at (h.allPos S) h.2.1 (x := []) (y := [b]) (a := a) rfl ha (X := s * (o.len a + o.len b))
      (by simp [chainLen]; exact mul_nonneg hs.1 hL0.le) (by simp [chainLen]; exact hx)
    rw [hL, mul_div_cancel_right₀ s hL0.ne'] at e
    rw [e]
    congr 1
    simp [chainLen]
    field_simp
  · intro s hs
    have hx : o.len a ≤ s * (o.len a + o.len b) := (div_le_iff₀ hL0).1 hs.1
    have e := chainEval_at (h.allPos S) h.2.1 (x := [a]) (y := []) (a := b) rfl hb (X := s * (o.len a + o.len b))
      (by rw [hc]; exact hx) (by rw [hc]; nlinarith [hs.2])
    rw [hL, mul_div_cancel_right₀ s hL0.ne', hc] at e
    rw [e]
    congr 1
    have h1 : 1 - o.len a / (o.len a + o.len b) = o.len b / (o.len a + o.len b) := by field_simp; ring
    rw [h1]
    field_simp

/-- The members of the tooth curve with undercut. -/
noncomputable abbrev undercutOps : CurveOps (Curve ⊕ Chain Curve) := sumOps curveOps (chainOps curveOps)

theorem nest_sys : PathSys undercutOps (Sum.elim Curve.AnyOk (OneActive curveOps Curve.AnyOk)) :=
  sum_sys curve_sys (one_sys curve_sys)

/-- A tooth curve with undercut in polar coordinates: it comes in to the distance `a` at `s0` and then runs outwards, staying
between the angles `-c` and 0. -/
structure Dip (G : ℝ → V3) (a c s0 : ℝ) (R θ : ℝ → ℝ) : Prop where
  polar : ∀ s ∈ Icc (0 : ℝ) 1, G s = ![R s * cos (θ s), R s * sin (θ s), 0]
  pos : ∀ s ∈ Icc (0 : ℝ) 1, 0 < R s
  cont : ContinuousOn G (Icc 0 1)
  s0_pos : 0 < s0
  s0_lt : s0 < 1
  deep : R s0 = a
  only : ∀ s ∈ Icc (0 : ℝ) 1, R s = a → s = s0
  grows : StrictMonoOn R (Icc s0 1)
  start : θ s0 = -c
  above : ∀ s, s0 < s → s ≤ 1 → -c < θ s
  below : ∀ s, s0 ≤ s → s < 1 → θ s < 0
  fin : θ 1 = 0

/-- Every point of the tooth curve with undercut is a point of the tooth curve `R`, `θ` or of the path of the rack's corner, which
ends when the corner lies `V` beyond the axis. -/
def DipShape (r a b V s0 : ℝ) (R θ R' θ' : ℝ → ℝ) : Prop :=
  ∀ s ∈ Icc (0 : ℝ) 1, (∃ x ∈ Icc (0 : ℝ) 1, s0 < s ∧ R' s = R x ∧ θ' s = θ x) ∨
    ∃ v, -b ≤ v ∧ v ≤ V ∧ (s0 ≤ s → 0 ≤ v) ∧ (s < s0 → v < 0) ∧ R' s = √(a ^ 2 + v ^ 2) ∧ θ' s = arctan (v / a) - (b + v) / r

theorem undercut_dip {r a b ang x1 : ℝ} (hr : 0 < r) (ha : 0 < a) (hb : 0 < b) (hK : b / r < arctan (b / a))
    (hneck : ∀ v, 0 ≤ v → lift r a v < b / r) {u : Curve} (hu : u.BackOk)
    (hk : u.kind = .generic (undercutCurve r ![a, -b, 0]) 20) (ht0 : u.t0 = 0) (ht1 : -3 ≤ u.t1) {d : Chain Curve}
    (hd : OneActive curveOps Curve.AnyOk d) {G : ℝ → V3} {R θ : ℝ → ℝ} (F : Fan G ang R θ) (hang : -(π / 2) ≤ ang)
    (hba : -(b / r) < ang) (hneg : ang < 0) (hx0 : 0 ≤ x1)
    (hP : Spec.Piece (chainEval curveOps d.curves) (fun s => some (G s)) x1 1) (hmeet : u.eval 1 = some (G x1)) :
    SysPath undercutOps (Sum.elim Curve.AnyOk (OneActive curveOps Curve.AnyOk)) [.inl u, .inr d] ∧
      (∀ p, u.eval 1 = some p → p 0 ^ 2 + p 1 ^ 2 ≠ a ^ 2) ∧
      ∃ G' R' θ' s0 V, Dip G' a (b / r) s0 R' θ' ∧ (∀ s ∈ Icc (0 : ℝ) 1, chainEval undercutOps [.inl u, .inr d] s = some (G' s)) ∧
        DipShape r a b V s0 R θ R' θ' ∧ R' 1 = R 1 ∧ G' 1 = G 1 ∧ G' 0 = ![a, -b, 0] ∧
        0 < V ∧ √(a ^ 2 + V ^ 2) = R x1 ∧ arctan (V / a) - (b + V) / r = θ x1 := by
  have m0 : (0 : ℝ) ∈ Icc (0 : ℝ) 1 := ⟨le_refl _, zero_le_one⟩
  have m1 : (1 : ℝ) ∈ Icc (0 : ℝ) 1 := ⟨zero_le_one, le_refl _⟩
  have hua : undercutOps.active (.inl u) = true := hu.path.act
  have hda : undercutOps.active (.inr d) = true := (one_sys curve_sys).act d hd
  have hsys : SysPath undercutOps (Sum.elim Curve.AnyOk (OneActive curveOps Curve.AnyOk)) [.inl u, .inr d] := by
    refine ⟨?_, ?_, .inl u, by simp, hua⟩
    · intro c hc _
      rcases List.mem_cons.1 hc with rfl | hc
      · exact .inr hu
      · rw [List.mem_singleton.1 hc]; exact hd
    · intro j k c e hjk hj hk' _ _ _
      have hk2 := (List.getElem?_eq_some_iff.1 hk').1
      simp at hk2
      obtain ⟨rfl, rfl⟩ : j = 0 ∧ k = 1 := by omega
      simp at hj hk'
      subst hj
      subst hk'
      show u.eval 1 = chainEval curveOps d.curves 0
      rw [hmeet, hP.ends.1]
  refine ⟨hsys, ?_⟩
  obtain ⟨j, j0, j1, e1, e2⟩ := two_part nest_sys hsys hua hda
  obtain ⟨τ, t1, t2, t3⟩ := hu.run
  rw [ht0, neg_zero] at t2
  obtain ⟨τ0, τ1⟩ := mono_ends t1 t2
  have τle : ∀ x ∈ Icc (0 : ℝ) 1, 0 ≤ τ x ∧ τ x ≤ 3 := by
    intro x hx
    have : τ x ∈ Icc 0 (-u.t1) := t2 ▸ mem_image_of_mem τ hx
    exact ⟨this.1, by linarith [this.2]⟩
  have τc := run_continuous t1 t2
  obtain ⟨U, eU⟩ : ∃ U : ℝ → ℝ, U = fun x => -b + r * τ x := ⟨_, rfl⟩
  have Umono : StrictMonoOn U (Icc 0 1) := by
    intro x hx y hy hxy
    rw [eU]
    have := mul_lt_mul_of_pos_left (t1 hx hy hxy) hr
    simp only
    linarith
  have Uc : ContinuousOn U (Icc 0 1) := by rw [eU]; exact continuousOn_const.add (continuousOn_const.mul τc)
  have U0 : U 0 = -b := by rw [eU]; simp only; rw [τ0]; ring
  have hup : ∀ x ∈ Icc (0 : ℝ) 1, u.eval x = some ![√(a ^ 2 + U x ^ 2) * cos (-(b / r) + lift r a (U x)),
      √(a ^ 2 + U x ^ 2) * sin (-(b / r) + lift r a (U x)), 0] := by
    intro x hx
    rw [t3 x hx, hk]
    show some (undercutCurve r ![a, -b, 0] (-τ x)) = _
    have h1 : -b - r * -τ x = U x := by rw [eU]; ring
    have h2 : -τ x + arctan (U x / a) = -(b / r) + lift r a (U x) := by
      rw [lift, eU]; simp only; field_simp; ring
    rw [undercut_polar ha, h1, h2]
  obtain ⟨φ, p1, p2, p3⟩ := hP
  obtain ⟨φ0, φ1⟩ := mono_ends p1 p2
  have mφ : ∀ x ∈ Icc (0 : ℝ) 1, φ x ∈ Icc (0 : ℝ) 1 := by
    intro x hx
    have : φ x ∈ Icc x1 1 := p2 ▸ mem_image_of_mem φ hx
    exact ⟨hx0.trans this.1, this.2⟩
  have mx1 : x1 ∈ Icc (0 : ℝ) 1 := φ0 ▸ mφ 0 m0
  have φc := run_continuous p1 p2
  -- the joint
  have hjoin : √(a ^ 2 + U 1 ^ 2) = R x1 ∧ -(b / r) + lift r a (U 1) = θ x1 := by
    have e := hup 1 m1
    rw [hmeet, F.polar x1 mx1] at e
    have e := Option.some.inj e
    obtain ⟨q1, q2⟩ := F.range mx1
    have l1 := neg_pi_div_two_lt_arctan (U 1 / a)
    have l2 := arctan_lt_pi_div_two (U 1 / a)
    have hpi := pi_gt_three
    have h2 : -τ 1 + arctan (U 1 / a) = -(b / r) + lift r a (U 1) := by
      rw [lift, eU]; simp only; field_simp; ring
    obtain ⟨q3, q4⟩ := τle 1 m1
    obtain ⟨g1, g2⟩ := polar_unique (F.radius mx1) (sqrt_pos.2 (by positivity)) (congrFun e 0) (congrFun e 1)
      (by rw [← h2]; linarith) (by rw [← h2]; linarith)
    exact ⟨g1.symm, g2.symm⟩
  have hlift : 0 < lift r a (U 1) := by linarith [hjoin.2, (F.range mx1).1]
  have hue : 0 < U 1 := by
    by_contra hc
    rw [not_lt] at hc
    have h1 : -b ≤ U 1 := U0 ▸ Umono.monotoneOn m0 m1 zero_le_one
    have h2 : lift r a (U 1) = -lift r a (-U 1) := by rw [← lift_neg, neg_neg]
    rcases hc.lt_or_eq with h3 | h3
    · have := lift_pos' (r := r) (u := -U 1) (v := b) ha (by linarith) (by linarith) (by rw [lift]; linarith)
      linarith
    · rw [h3, lift_zero] at hlift; exact lt_irrefl _ hlift
  -- the deepest point
  obtain ⟨σ, hσ, hσ0⟩ : ∃ σ ∈ Icc (0 : ℝ) 1, U σ = 0 :=
    intermediate_value_Icc zero_le_one Uc ⟨by rw [U0]; linarith, hue.le⟩
  have σ0 : 0 < σ := by
    rcases hσ.1.lt_or_eq with h | h
    · exact h
    · rw [← h, U0] at hσ0; linarith
  have σ1 : σ < 1 := by
    rcases hσ.2.lt_or_eq with h | h
    · exact h
    · rw [h] at hσ0; linarith
  have hj1 : 0 < 1 - j := by linarith
  have mA : ∀ s ∈ Icc (0 : ℝ) j, s / j ∈ Icc (0 : ℝ) 1 := fun s hs => ⟨div_nonneg hs.1 j0.le, (div_le_one j0).2 hs.2⟩
  have mB : ∀ s ∈ Icc j 1, (s - j) / (1 - j) ∈ Icc (0 : ℝ) 1 := fun s hs =>
    ⟨div_nonneg (by linarith [hs.1]) hj1.le, (div_le_one hj1).2 (by linarith [hs.2])⟩
  obtain ⟨R', eR⟩ : ∃ R' : ℝ → ℝ, R' = fun s => if s ≤ j then √(a ^ 2 + U (s / j) ^ 2) else R (φ ((s - j) / (1 - j))) := ⟨_, rfl⟩
  obtain ⟨θ', eθ⟩ : ∃ θ' : ℝ → ℝ, θ' = fun s => if s ≤ j then -(b / r) + lift r a (U (s / j)) else θ (φ ((s - j) / (1 - j))) := ⟨_, rfl⟩
  have RA : ∀ s ∈ Icc (0 : ℝ) j, R' s = √(a ^ 2 + U (s / j) ^ 2) := fun s hs => by rw [eR]; exact if_pos hs.2
  have θA : ∀ s ∈ Icc (0 : ℝ) j, θ' s = -(b / r) + lift r a (U (s / j)) := fun s hs => by rw [eθ]; exact if_pos hs.2
  have RB : ∀ s ∈ Icc j 1, R' s = R (φ ((s - j) / (1 - j))) := by
    intro s hs
    rcases hs.1.lt_or_eq with h | h
    · rw [eR]; exact if_neg (not_le.2 h)
    · rw [← h, sub_self, zero_div, φ0, RA j ⟨j0.le, le_refl _⟩, div_self j0.ne']; exact hjoin.1
  have θB : ∀ s ∈ Icc j 1, θ' s = θ (φ ((s - j) / (1 - j))) := by
    intro s hs
    rcases hs.1.lt_or_eq with h | h
    · rw [eθ]; exact if_neg (not_le.2 h)
    · rw [← h, sub_self, zero_div, φ0, θA j ⟨j0.le, le_refl _⟩, div_self j0.ne']; exact hjoin.2
  have hsj : σ * j < j := by nlinarith
  have hs0 : 0 < σ * j := mul_pos σ0 j0
  have hUs : ∀ s ∈ Icc (0 : ℝ) j, σ * j < s → 0 < U (s / j) := by
    intro s hs h
    rw [← hσ0]
    exact Umono hσ (mA s hs) ((lt_div_iff₀ j0).2 h)
  have hUn : ∀ s ∈ Icc (0 : ℝ) j, s < σ * j → U (s / j) < 0 := by
    intro s hs h
    rw [← hσ0]
    exact Umono (mA s hs) hσ ((div_lt_iff₀ j0).2 h)
  have hUs' : ∀ s ∈ Icc (0 : ℝ) j, σ * j ≤ s → 0 ≤ U (s / j) := by
    intro s hs h
    rw [← hσ0]
    exact Umono.monotoneOn hσ (mA s hs) ((le_div_iff₀ j0).2 h)
  have growA : StrictMonoOn R' (Icc (σ * j) j) := by
    intro s hs t ht hst
    have ms : s ∈ Icc (0 : ℝ) j := ⟨hs0.le.trans hs.1, hs.2⟩
    have mt : t ∈ Icc (0 : ℝ) j := ⟨hs0.le.trans ht.1, ht.2⟩
    rw [RA s ms, RA t mt]
    have h1 := hUs' s ms hs.1
    have h2 := Umono (mA s ms) (mA t mt) (div_lt_div_of_pos_right hst j0)
    exact sqrt_lt_sqrt (by positivity) (by nlinarith)
  have growB : StrictMonoOn R' (Icc j 1) := by
    intro s hs t ht hst
    rw [RB s hs, RB t ht]
    exact F.grows (mφ _ (mB s hs)) (mφ _ (mB t ht)) (p1 (mB s hs) (mB t ht) (div_lt_div_of_pos_right (by linarith) hj1))
  have grow : StrictMonoOn R' (Icc (σ * j) 1) := by
    have := growA.union growB (c := j) ⟨⟨hsj.le, le_refl _⟩, fun x hx => hx.2⟩ ⟨⟨le_refl _, j1.le⟩, fun x hx => hx.1⟩
    rwa [Icc_union_Icc_eq_Icc hsj.le j1.le] at this
  have polA : ∀ s ∈ Icc (0 : ℝ) j, chainEval undercutOps [.inl u, .inr d] s = some ![R' s * cos (θ' s), R' s * sin (θ' s), 0] := by
    intro s hs
    rw [e1 s hs]
    show u.eval (s / j) = _
    rw [hup _ (mA s hs), RA s hs, θA s hs]
  have polB' : ∀ s ∈ Icc j 1, (![R' s * cos (θ' s), R' s * sin (θ' s), 0] : V3) = G (φ ((s - j) / (1 - j))) := by
    intro s hs
    rw [RB s hs, θB s hs, F.polar _ (mφ _ (mB s hs))]
  have polB : ∀ s ∈ Icc j 1, chainEval undercutOps [.inl u, .inr d] s = some ![R' s * cos (θ' s), R' s * sin (θ' s), 0] := by
    intro s hs
    rw [e2 s hs, polB' s hs]
    exact p3 _ (mB s hs)
  have split : ∀ s ∈ Icc (0 : ℝ) 1, s ∈ Icc (0 : ℝ) j ∨ s ∈ Icc j 1 := fun s hs =>
    (le_total s j).imp (fun h => ⟨hs.1, h⟩) fun h => ⟨h, hs.2⟩
  refine ⟨fun p hp e => ?_, fun s => ![R' s * cos (θ' s), R' s * sin (θ' s), 0], R', θ', σ * j, U 1, ⟨fun _ _ => rfl, ?_, ?_, hs0, by linarith, ?_, ?_,
    grow, ?_, ?_, ?_, ?_⟩, fun s hs => (split s hs).elim (polA s) (polB s), fun s hs => ?_, ?_, ?_, ?_, hue, hjoin.1, ?_⟩
  · rw [hmeet] at hp
    rw [← Option.some.inj hp, F.dist mx1, ← hjoin.1, sq_sqrt (by positivity)] at e
    have := pow_pos hue 2
    linarith
  · intro s hs
    rcases split s hs with h | h
    · rw [RA s h]; exact sqrt_pos.2 (by positivity)
    · rw [RB s h]; exact F.radius (mφ _ (mB s h))
  · rw [← Icc_union_Icc_eq_Icc j0.le j1.le]
    refine ContinuousOn.union_of_isClosed ?_ ?_ isClosed_Icc isClosed_Icc
    · have hV : ContinuousOn (fun s => U (s / j)) (Icc 0 j) := Uc.comp (continuous_id.div_const j).continuousOn mA
      have h1 : ContinuousOn (fun s => √(a ^ 2 + U (s / j) ^ 2)) (Icc 0 j) :=
        continuous_sqrt.comp_continuousOn (continuousOn_const.add (hV.pow 2))
      have h2 : ContinuousOn (fun s => -(b / r) + lift r a (U (s / j))) (Icc 0 j) := by
        simp only [lift]
        exact continuousOn_const.add ((continuous_arctan.comp_continuousOn (hV.div_const a)).sub (hV.div_const r))
      refine ContinuousOn.congr (f := fun s => ![√(a ^ 2 + U (s / j) ^ 2) * cos (-(b / r) + lift r a (U (s / j))),
        √(a ^ 2 + U (s / j) ^ 2) * sin (-(b / r) + lift r a (U (s / j))), 0]) ?_ (fun s hs => by
          simp only; rw [RA s hs, θA s hs])
      refine continuousOn_pi.2 fun i => ?_
      fin_cases i
      · exact h1.mul (continuous_cos.comp_continuousOn h2)
      · exact h1.mul (continuous_sin.comp_continuousOn h2)
      · exact continuousOn_const
    · refine ContinuousOn.congr (f := fun s => G (φ ((s - j) / (1 - j)))) ?_ polB'
      have hV : ContinuousOn (fun s => φ ((s - j) / (1 - j))) (Icc j 1) :=
        φc.comp ((continuous_id.sub continuous_const).div_const _).continuousOn mB
      exact F.cont.comp hV fun s hs => mφ _ (mB s hs)
  · rw [RA _ ⟨hs0.le, hsj.le⟩, mul_div_cancel_right₀ σ j0.ne', hσ0]
    simp [sqrt_sq ha.le]
  · intro s hs e
    rcases split s hs with h | h
    · rw [RA s h] at e
      have h1 : a ^ 2 + U (s / j) ^ 2 = a ^ 2 := by
        have := sq_sqrt (by positivity : 0 ≤ a ^ 2 + U (s / j) ^ 2)
        rw [e] at this
        exact this.symm
      have h2 : U (s / j) = 0 := by
        have : U (s / j) ^ 2 = 0 := by linarith
        exact pow_eq_zero_iff two_ne_zero |>.1 this
      have h3 := Umono.injOn (mA s h) hσ (h2.trans hσ0.symm)
      rw [← h3, div_mul_cancel₀ s j0.ne']
    · exfalso
      have h1 : R' j ≤ R' s := growB.monotoneOn ⟨le_refl _, j1.le⟩ h h.1
      have h2 : R' (σ * j) < R' j := growA ⟨le_refl _, hsj.le⟩ ⟨hsj.le, le_refl _⟩ hsj
      have h3 : R' (σ * j) = a := by
        rw [RA _ ⟨hs0.le, hsj.le⟩, mul_div_cancel_right₀ σ j0.ne', hσ0]; simp [sqrt_sq ha.le]
      linarith
  · rw [θA _ ⟨hs0.le, hsj.le⟩, mul_div_cancel_right₀ σ j0.ne', hσ0, lift_zero, add_zero]
  · intro s h0 h1
    rcases split s ⟨by linarith, h1⟩ with h | h
    · rw [θA s h]
      have := lift_pos' (r := r) ha (hUs s h h0) (Umono.monotoneOn (mA s h) m1 (mA s h).2) hlift
      linarith
    · rw [θB s h]
      exact hba.trans_le (F.range (mφ _ (mB s h))).1
  · intro s h0 h1
    rcases split s ⟨by linarith, h1.le⟩ with h | h
    · rw [θA s h]
      have := hneck _ (hUs' s h h0)
      linarith
    · rw [θB s h, ← F.fin]
      have h2 : (s - j) / (1 - j) < 1 := (div_lt_one hj1).2 (by linarith)
      have h3 := p1 (mB s h) m1 h2
      rw [φ1] at h3
      exact F.strict _ (mφ _ (mB s h)) 1 m1 h3 (by rw [F.fin]; exact hneg)
  · rw [θB 1 ⟨j1.le, le_refl _⟩, div_self hj1.ne', φ1, F.fin]
  · rcases split s hs with h | h
    · refine .inr ⟨U (s / j), U0 ▸ Umono.monotoneOn m0 (mA s h) (mA s h).1, Umono.monotoneOn (mA s h) m1 (mA s h).2, hUs' s h,
        hUn s h, RA s h, ?_⟩
      · rw [θA s h, lift, add_div]; ring
    · exact .inl ⟨_, mφ _ (mB s h), hsj.trans_le h.1, RB s h, θB s h⟩
  · rw [RB 1 ⟨j1.le, le_refl _⟩, div_self hj1.ne', φ1]
  · refine (polB' 1 ⟨j1.le, le_refl _⟩).trans ?_
    rw [div_self hj1.ne', φ1]
  · have h1 := polA 0 ⟨le_refl _, j0.le⟩
    rw [e1 0 ⟨le_refl _, j0.le⟩, zero_div] at h1
    refine (Option.some.inj (h1.symm.trans ?_ : some _ = some _))
    show u.eval 0 = _
    rw [t3 0 m0, hk, τ0]
    show some (undercutCurve r ![a, -b, 0] (-0)) = _
    rw [undercutCurve_eq]
    congr 1
    apply V3.ext3 <;> simp
  · rw [← hjoin.2, lift, add_div]; ring

/-! ### Trimming -/

/-- The searches of the trimming of a tooth curve with undercut: the place found for the tip lies on the curve, and the first
search for the root circle succeeds on the curve. -/
structure DipSearches (S : ScalarSolvers) (l : List (Curve ⊕ Chain Curve)) (rA rD : Curve) (tipFillet pitch : ℝ) : Prop where
  tip0 : 0 < tipCut S (chainEval undercutOps l) rA pitch
  tip1 : tipCut S (chainEval undercutOps l) rA pitch ≤ 1
  root : ∀ t, trimTip (chainOps undercutOps) S ⟨l, true⟩ rA tipFillet pitch = some t →
    (findCurveIntersect S.toSolvers (chainEval undercutOps t.curves) rD.eval (3 / 10, -pitch / 2 / rD.length) .equality).success = true
  root0 : ∀ t, trimTip (chainOps undercutOps) S ⟨l, true⟩ rA tipFillet pitch = some t →
    0 ≤ (findCurveIntersect S.toSolvers (chainEval undercutOps t.curves) rD.eval (3 / 10, -pitch / 2 / rD.length) .equality).x.1
  root1 : ∀ t, trimTip (chainOps undercutOps) S ⟨l, true⟩ rA tipFillet pitch = some t →
    (findCurveIntersect S.toSolvers (chainEval undercutOps t.curves) rD.eval (3 / 10, -pitch / 2 / rD.length) .equality).x.1 < 1

theorem Dip.angle {G : ℝ → V3} {a c s0 : ℝ} {R θ : ℝ → ℝ} (D : Dip G a c s0 R θ) (hc : c < π) {s : ℝ} (h0 : s0 ≤ s) (h1 : s ≤ 1) :
    arctan2 (G s 1) (G s 0) = θ s := by
  have ms : s ∈ Icc (0 : ℝ) 1 := ⟨D.s0_pos.le.trans h0, h1⟩
  rw [D.polar s ms]
  refine arctan2_polar (D.pos s ms) ?_ ?_
  · rcases h0.lt_or_eq with h | h
    · linarith [D.above s h h1]
    · rw [← h, D.start]; linarith
  · rcases h1.lt_or_eq with h | h
    · linarith [D.below s h0 h, pi_pos]
    · rw [h, D.fin]; exact pi_pos.le

theorem Dip.dist {G : ℝ → V3} {a c s0 : ℝ} {R θ : ℝ → ℝ} (D : Dip G a c s0 R θ) {s : ℝ} (hs : s ∈ Icc (0 : ℝ) 1) :
    G s 0 ^ 2 + G s 1 ^ 2 = R s ^ 2 := by
  rw [D.polar s hs]
  simp
  linear_combination R s ^ 2 * sin_sq_add_cos_sq (θ s)

/-- The part of the tooth curve from the deepest point on runs outwards between the middles. -/
theorem Dip.piece {G : ℝ → V3} {a c s0 e pitch : ℝ} {R θ φ : ℝ → ℝ} (D : Dip G a c s0 R θ) (hc : c < π) (hp : c ≤ pitch / 2)
    (h : StrictMonoOn φ (Icc 0 1)) (hi : φ '' Icc 0 1 = Icc s0 e) (he : e ≤ 1) :
    Spec.OutwardFlank (fun s => G (φ s)) pitch ∧ ContinuousOn (fun s => G (φ s)) (Icc 0 1) := by
  have m0 : (0 : ℝ) ∈ Icc (0 : ℝ) 1 := ⟨le_refl _, zero_le_one⟩
  have m1 : (1 : ℝ) ∈ Icc (0 : ℝ) 1 := ⟨zero_le_one, le_refl _⟩
  obtain ⟨e0, -⟩ := mono_ends h hi
  have m : ∀ s ∈ Icc (0 : ℝ) 1, φ s ∈ Icc s0 1 := by
    intro s hs
    have : φ s ∈ Icc s0 e := hi ▸ mem_image_of_mem φ hs
    exact ⟨this.1, this.2.trans he⟩
  have m' : ∀ s ∈ Icc (0 : ℝ) 1, φ s ∈ Icc (0 : ℝ) 1 := fun s hs => ⟨D.s0_pos.le.trans (m s hs).1, (m s hs).2⟩
  have ang : ∀ s ∈ Icc (0 : ℝ) 1, arctan2 (G (φ s) 1) (G (φ s) 0) = θ (φ s) := fun s hs => D.angle hc (m s hs).1 (m s hs).2
  refine ⟨⟨?_, ?_, ?_, ?_, ?_, ?_⟩, D.cont.comp (run_continuous h hi) m'⟩
  · rw [D.dist (m' 0 m0)]; exact pow_pos (D.pos _ (m' 0 m0)) 2
  · rw [ang 0 m0, e0, D.start]; linarith
  · intro s hs t ht hst
    simp only
    rw [D.dist (m' s hs), D.dist (m' t ht)]
    exact pow_lt_pow_left₀ (D.grows (m s hs) (m t ht) (h hs ht hst)) (D.pos _ (m' s hs)).le two_ne_zero
  · intro s h0 h1
    have ms : s ∈ Icc (0 : ℝ) 1 := ⟨h0.le, h1⟩
    rw [ang s ms]
    have h2 := h m0 ms h0
    rw [e0] at h2
    linarith [D.above _ h2 (m s ms).2]
  · intro s h0 h1
    have ms : s ∈ Icc (0 : ℝ) 1 := ⟨h0, h1.le⟩
    rw [ang s ms]
    exact D.below _ (m s ms).1 ((h ms m1 h1).trans_le (m 1 m1).2)
  · rw [ang 1 m1]
    rcases (m 1 m1).2.lt_or_eq with h2 | h2
    · exact (D.below _ (m 1 m1).1 h2).le
    · rw [h2, D.fin]

theorem trim_dip {S : ScalarSolvers} (hS : Honest S) {u : Curve} {d : Chain Curve} {G : ℝ → V3} {a c s0 pitch : ℝ} {R θ : ℝ → ℝ}
    (hl : SysPath undercutOps (Sum.elim Curve.AnyOk (OneActive curveOps Curve.AnyOk)) [.inl u, .inr d]) (D : Dip G a c s0 R θ)
    (ha : 0 < a) (hG : ∀ s ∈ Icc (0 : ℝ) 1, chainEval undercutOps [.inl u, .inr d] s = some (G s))
    (hend : ∀ p, u.eval 1 = some p → p 0 ^ 2 + p 1 ^ 2 ≠ a ^ 2) (hc : c < π) (hp : c < pitch / 2) {rA rD : Curve}
    (hrD : ∀ s p, rD.eval s = some p → p 0 ^ 2 + p 1 ^ 2 = a ^ 2) {tipFillet rootFillet : ℝ} (ht : tipFillet ≤ 0)
    (hr : rootFillet ≤ 0) (hs : DipSearches S [.inl u, .inr d] rA rD tipFillet pitch) :
    ∃ t t' T, trimTip (chainOps undercutOps) S ⟨[.inl u, .inr d], true⟩ rA tipFillet pitch = some t ∧
      trimRoot (chainOps undercutOps) S t rD rootFillet pitch = some t' ∧
      (∀ s, 0 ≤ s → s ≤ 1 → (chainOps undercutOps).eval t' s = some (T s)) ∧ (chainOps undercutOps).active t' = true ∧
      (chainOps undercutOps).updateLengths t' = t' ∧ 0 < (chainOps undercutOps).length t' ∧ Spec.OutwardFlank T pitch ∧
      ContinuousOn T (Icc 0 1) ∧ T 0 = ![a * cos c, -(a * sin c), 0] ∧
      chainEval undercutOps [.inl u, .inr d] (tipCut S (chainEval undercutOps [.inl u, .inr d]) rA pitch) = some (T 1) ∧
      ∀ s ∈ Icc (0 : ℝ) 1, ∃ x ∈ Icc s0 1, T s = G x := by
  obtain ⟨t0, t1, r1, r2, r3⟩ := hs
  obtain ⟨ζ, eζ⟩ : ∃ ζ, ζ = tipCut S (chainEval undercutOps [.inl u, .inr d]) rA pitch := ⟨_, rfl⟩
  rw [← eζ] at t0 t1 ⊢
  obtain ⟨l, hset, lpath, ⟨φ, f1, f2, f3⟩, X, A, Y, A', W, e1, e2, hA, hA', hW⟩ := c45_sys_end nest_sys _ hl ζ t0 t1 false
  have htip : trimTip (chainOps undercutOps) S ⟨[.inl u, .inr d], true⟩ rA tipFillet pitch = some ⟨l, true⟩ := by
    rw [trimTip_cut _ _ _ _ _ ht]
    show (chainSetEnd undercutOps [.inl u, .inr d] (tipCut S (chainEval undercutOps [.inl u, .inr d]) rA pitch) false).map _ = _
    rw [← eζ, hset]; rfl
  have r1 := r1 _ htip
  have r2 := r2 _ htip
  have r3 := r3 _ htip
  simp only at r1 r2 r3
  obtain ⟨p, hp1, hp2⟩ := intersect_success hS r1
  obtain ⟨sol, esol⟩ : ∃ sol, sol = findCurveIntersect S.toSolvers (chainEval undercutOps l) rD.eval
    (3 / 10, -pitch / 2 / rD.length) .equality := ⟨_, rfl⟩
  rw [← esol] at r1 r2 r3 hp1 hp2
  obtain ⟨f4, f5⟩ := mono_ends f1 f2
  have m0 : (0 : ℝ) ∈ Icc (0 : ℝ) 1 := ⟨le_refl _, zero_le_one⟩
  have m1 : (1 : ℝ) ∈ Icc (0 : ℝ) 1 := ⟨zero_le_one, le_refl _⟩
  have mφ : ∀ s ∈ Icc (0 : ℝ) 1, φ s ∈ Icc (0 : ℝ) 1 := by
    intro s hs'
    have : φ s ∈ Icc 0 ζ := f2 ▸ mem_image_of_mem φ hs'
    exact ⟨this.1, this.2.trans t1⟩
  have hlG : ∀ s ∈ Icc (0 : ℝ) 1, chainEval undercutOps l s = some (G (φ s)) := fun s hs' => by rw [f3 s hs', hG _ (mφ s hs')]
  have mρ : sol.x.1 ∈ Icc (0 : ℝ) 1 := ⟨r2, r3.le⟩
  -- the root is cut at the deepest point
  have hpG : p = G (φ sol.x.1) := by
    rw [hlG _ mρ] at hp1
    exact (Option.some.inj hp1).symm
  have hdeep : φ sol.x.1 = s0 := by
    refine D.only _ (mφ _ mρ) ?_
    have h1 := hrD _ _ hp2
    rw [hpG, D.dist (mφ _ mρ)] at h1
    exact (pow_left_inj₀ (D.pos _ (mφ _ mρ)).le ha.le two_ne_zero).1 h1
  have hcut : rootCut S (chainEval undercutOps l) rD pitch = sol.x.1 := by
    have h1 : rootSol S (chainEval undercutOps l) rD pitch = sol := by
      rw [rootSol]
      simp only [← esol]
      rw [if_pos r1]
    rw [rootCut, if_pos, h1]
    refine ⟨.inl (by rw [h1]; exact r1), p, by rw [h1]; exact hp1, ?_⟩
    rw [hpG, hdeep, D.angle hc (le_refl _) D.s0_lt.le, D.start]
    linarith
  have hLpos := lpath.len_pos nest_sys
  have hj : ∀ x b y, l = x ++ b :: y → undercutOps.active b = true → chainLen undercutOps x + undercutOps.len b ≠ sol.x.1 * chainLen undercutOps l := by
    intro x b y hxy hb heq
    have tot : ∀ x' y', A' :: W = x' ++ b :: y' → chainLen undercutOps x' + undercutOps.len b = chainLen undercutOps (A' :: W) := by
      intro x' y' h
      obtain ⟨h1, h2⟩ := only_one (x := []) (by simp) hW hb h
      rw [h, chainLen_append, chainLen_cons, chainLen_inactive h1, chainLen_inactive h2]; ring
    have fail : chainLen undercutOps x + undercutOps.len b ≠ chainLen undercutOps l := by
      intro h
      rw [h] at heq
      nlinarith
    cases X with
    | nil =>
      rw [List.nil_append] at e2
      exact fail (by rw [tot x y (e2.symm.trans hxy), e2])
    | cons z X' =>
      rw [List.cons_append, List.cons.injEq] at e1
      have hX' : X' = [] := by
        cases X' with
        | nil => rfl
        | cons z' X'' =>
          have := congrArg List.length e1.2
          simp at this
      rw [hX', ← e1.1, List.cons_append, List.nil_append] at e2
      cases x with
      | nil =>
        rw [List.nil_append, e2, List.cons.injEq] at hxy
        rw [← hxy.1] at heq hb
        have h1 := chainEval_at (lpath.allPos nest_sys) lpath.2.1 (x := []) (y := A' :: W) (a := .inl u) e2 hb
          (X := undercutOps.len (.inl u)) (by simp [chainLen]; rw [len_of_active hb]; exact (lpath.allPos nest_sys _ (by rw [e2]; simp) hb).le)
          (by simp [chainLen])
        have h2 : 0 < undercutOps.len (.inl u) := by
          rw [len_of_active hb]; exact lpath.allPos nest_sys _ (by rw [e2]; simp) hb
        have h3 : chainLen undercutOps ([] : List (Curve ⊕ Chain Curve)) = 0 := rfl
        rw [h3, zero_add] at heq
        rw [h3, sub_zero, div_self h2.ne', heq, mul_div_cancel_right₀ _ hLpos.ne', hp1] at h1
        exact hend p h1.symm (hrD _ _ hp2)
      | cons z'' x' =>
        rw [List.cons_append, e2, List.cons.injEq] at hxy
        refine fail ?_
        rw [← hxy.1, chainLen_cons, add_assoc, tot x' y hxy.2, e2]
        simp only [chainLen_cons]
  obtain ⟨e, he, epath, hP, -⟩ := c45_sys_start nest_sys l lpath sol.x.1 r2 r3 hj false
  have hroot : trimRoot (chainOps undercutOps) S ⟨l, true⟩ rD rootFillet pitch = some ⟨e, true⟩ := by
    rw [trimRoot_cut _ _ _ _ _ hr]
    show (chainSetStart undercutOps l (rootCut S (chainEval undercutOps l) rD pitch) false).map _ = _
    rw [hcut, he]; rfl
  obtain ⟨ψ, g1, g2, g3⟩ := hP.trans r2 (le_refl 1) f1 f2 f3
  rw [hdeep, f5] at g2
  obtain ⟨g4, g5⟩ := mono_ends g1 g2
  have mψ : ∀ s ∈ Icc (0 : ℝ) 1, ψ s ∈ Icc (0 : ℝ) 1 := by
    intro s hs'
    have : ψ s ∈ Icc s0 ζ := g2 ▸ mem_image_of_mem ψ hs'
    exact ⟨D.s0_pos.le.trans this.1, this.2.trans t1⟩
  obtain ⟨o1, o2⟩ := D.piece hc hp.le g1 g2 t1
  refine ⟨_, _, fun s => G (ψ s), htip, hroot, fun s h0 h1 => ?_, ?_, ?_, epath.len_pos nest_sys, o1, o2, ?_, ?_, ?_⟩
  · show chainEval undercutOps e s = _
    rw [g3 s ⟨h0, h1⟩, hG _ (mψ s ⟨h0, h1⟩)]
  · show (true && e.any undercutOps.active) = true
    obtain ⟨b, hb, hact⟩ := epath.2.2
    simp only [Bool.true_and, List.any_eq_true]
    exact ⟨b, hb, hact⟩
  · show (⟨chainUpdate undercutOps e, true⟩ : Chain _) = ⟨e, true⟩
    rw [SysPath.upd nest_sys epath.1]
  · simp only [g4]
    rw [D.polar _ ⟨D.s0_pos.le, D.s0_lt.le⟩, D.deep, D.start, cos_neg, sin_neg, mul_neg]
  · simp only [g5]
    exact hG _ ⟨t0.le, t1⟩
  · intro s hs'
    have : ψ s ∈ Icc s0 ζ := g2 ▸ mem_image_of_mem ψ hs'
    exact ⟨ψ s, ⟨this.1, this.2.trans t1⟩, rfl⟩

/-! ### The generated tooth curve -/

theorem tooth_two {S : ScalarSolvers} {pia rp alpha : ℝ} {l : List Curve} (h : involuteToothCurve S pia rp alpha = some l) :
    ∃ q J, l = [lineC ((1 / 2 : ℝ) • q) q, J] := by
  rw [involuteToothCurve] at h
  obtain ⟨p, -, h⟩ := Option.bind_eq_some_iff.1 h
  obtain ⟨i, -, h⟩ := Option.bind_eq_some_iff.1 h
  obtain ⟨q, -, h⟩ := Option.map_eq_some_iff.1 h
  refine ⟨q, if i.active then i.updateLengths else i, ?_⟩
  rw [← h, ← lineC]
  have e : (if (lineC ((1 / 2 : ℝ) • q) q).active then (lineC ((1 / 2 : ℝ) • q) q).updateLengths else lineC ((1 / 2 : ℝ) • q) q) =
      lineC ((1 / 2 : ℝ) • q) q := by
    rw [(lineC_fresh _ _).2, ite_self]
  rw [← e]
  simp only [chainUpdate, List.map_cons, List.map_nil, e]
  rfl

/-- Cutting a chain of two curves behind the joint leaves one curve. -/
theorem second_left {C J : Curve} (h : ChainPath [C, J]) (s : ℝ) (h0 : portion curveOps [C, J] 1 < s) (h1 : s < 1) :
    ∃ d, chainSetStart curveOps [C, J] s false = some d ∧ OneActive curveOps Curve.AnyOk ⟨d, true⟩ ∧
      Spec.Piece (chainEval curveOps d) (chainEval curveOps [C, J]) s 1 := by
  have hsys : SysPath curveOps Curve.AnyOk [C, J] := ⟨fun a ha hact => .inl (h.1 a ha hact), h.2.1, h.2.2⟩
  have hL := h.pos
  have hC : curveOps.len C < s * chainLen curveOps [C, J] := by
    rw [portion, div_lt_iff₀ hL] at h0
    simpa [preLen] using h0
  have hC0 : 0 ≤ curveOps.len C := by
    rw [CurveOps.len]
    split_ifs with hc
    · exact (h.allPos C (by simp) hc).le
    · exact le_refl _
  have hs0 : 0 < s := by
    by_contra hc
    have := mul_nonpos_of_nonpos_of_nonneg (not_lt.1 hc) hL.le
    linarith
  have shape : ∀ x (a : Curve) y, [C, J] = x ++ a :: y → x = [] ∧ a = C ∨ x = [C] ∧ a = J ∧ y = [] := by
    intro x a y e
    cases x with
    | nil =>
      rw [List.nil_append, List.cons.injEq] at e
      exact .inl ⟨rfl, e.1.symm⟩
    | cons z x =>
      rw [List.cons_append, List.cons.injEq] at e
      cases x with
      | nil =>
        rw [List.nil_append, List.cons.injEq] at e
        exact .inr ⟨by rw [e.1], e.2.1.symm, e.2.2.symm⟩
      | cons z' x' =>
        have := congrArg List.length e.2
        simp at this
  obtain ⟨d, hd, -, hP, x, a, y, w, a', e1, e2, -, ha', hw, q1, q2⟩ := c45_sys_start curve_sys [C, J] hsys s hs0.le h1 (by
    intro x a y e hact heq
    rcases shape x a y e with ⟨rfl, rfl⟩ | ⟨rfl, rfl, rfl⟩
    · simp [chainLen] at heq hC
      linarith
    · rw [show chainLen curveOps [C] + curveOps.len a = chainLen curveOps [C, a] by simp [chainLen]] at heq
      nlinarith) false
  refine ⟨d, hd, ⟨rfl, w, a', y, e2, ha', hw, ?_⟩, hP⟩
  rcases shape x a y e1 with ⟨rfl, rfl⟩ | ⟨rfl, rfl, rfl⟩
  · have h3 : chainLen curveOps ([] : List Curve) = 0 := rfl
    rw [h3, zero_add] at q2
    linarith
  · simp

/-- What the searches of the undercut generator have to return: the search for the middle of the gap on the flank of the rack
succeeds, the search for the end of the undercut curve returns a place before three radians if it returns one behind the start of
the curve, and the search for the meeting point of the undercut curve and the tooth curve `l` returns a common point on the involute,
before three radians. Both places may lie beyond the end of the curve, which is prolonged then. -/
structure UndercutSearches (S : ScalarSolvers) (rp pia pitch alpha : ℝ) (limits : ToothLimitParam) (l : List Curve) : Prop where
  gap : (S.root1 (gapMiddleResidual (rackFlankCurve rp pia limits alpha).eval (-rp * pitch / 2)) 1).success = true
  stop : ∀ p, undercutRefPoint S rp pia pitch limits alpha = some p →
    0 < (S.root1 (fun t => ((Curve.make (.generic (undercutCurve rp p) 20) true 0 (-1)).eval t).map fun q =>
      dot q q - (rp * 1) ^ 2) 1).x →
    ∃ t, -3 ≤ t ∧ t < 0 ∧ (Curve.make (.generic (undercutCurve rp p) 20) true 0 (-1)).s2t
      (S.root1 (fun t => ((Curve.make (.generic (undercutCurve rp p) 20) true 0 (-1)).eval t).map fun q =>
        dot q q - (rp * 1) ^ 2) 1).x = some t
  meet : ∀ p c, undercutRefPoint S rp pia pitch limits alpha = some p → generateUndercutCurve S rp p = some c →
    ∃ q, chainEval curveOps l (undercutAnswer S.toSolvers l c (1, 1)).1 = some q ∧
      c.eval (undercutAnswer S.toSolvers l c (1, 1)).2 = some q
  flank : ∀ p c, undercutRefPoint S rp pia pitch limits alpha = some p → generateUndercutCurve S rp p = some c →
    portion curveOps l 1 < (undercutAnswer S.toSolvers l c (1, 1)).1 ∧ (undercutAnswer S.toSolvers l c (1, 1)).1 < 1
  under : ∀ p c, undercutRefPoint S rp pia pitch limits alpha = some p → generateUndercutCurve S rp p = some c →
    ∃ t, -3 ≤ t ∧ t < 0 ∧ c.s2t (undercutAnswer S.toSolvers l c (1, 1)).2 = some t

/-- The generated tooth curve with undercut. -/
theorem undercut_generated {S : ScalarSolvers} (hS : Honest S) {pia rp alpha pitch : ℝ} {limits : ToothLimitParam} (hrp : 0 < rp)
    (ha0 : 0 < alpha) (ha1 : alpha < π / 2) (h0 : 0 < pia) (hA : 0 < limits.hA) (hD0 : 0 < limits.hD) (hD1 : limits.hD < rp)
    (hbase : rp - limits.hD ≤ rp * cos alpha) (hroom : limits.hD * tan alpha < rp * (pitch / 2 - pia)) (hpi : pitch ≤ π)
    (hK : (rp * pia + limits.hD * tan alpha) / rp < arctan ((rp * pia + limits.hD * tan alpha) / (rp - limits.hD)))
    (hneck : ∀ v, 0 ≤ v → arctan (v / (rp - limits.hD)) < (rp * pia + limits.hD * tan alpha + v) / rp)
    (hs : ToothSearches S pia rp alpha)
    (hu : ∀ l, involuteToothCurve S pia rp alpha = some l → UndercutSearches S rp pia pitch alpha limits l) :
    ∃ l u d, involuteToothCurve S pia rp alpha = some l ∧
      undercutToothCurve S l (rp * cos alpha) rp pia pitch alpha limits = some [.inl u, .inr d] ∧
      SysPath undercutOps (Sum.elim Curve.AnyOk (OneActive curveOps Curve.AnyOk)) [.inl u, .inr d] ∧
      (∀ p, u.eval 1 = some p → p 0 ^ 2 + p 1 ^ 2 ≠ (rp - limits.hD) ^ 2) ∧
      ∃ G R θ G' R' θ' s0 V x, Fan G (-(pia + (tan alpha - alpha))) R θ ∧ (∀ s ∈ Icc (0 : ℝ) 1, chainEval curveOps l s = some (G s)) ∧
        InvoluteShape (rp * cos alpha) (-(pia + (tan alpha - alpha))) R θ ∧
        Dip G' (rp - limits.hD) (pia + limits.hD * tan alpha / rp) s0 R' θ' ∧
        (∀ s ∈ Icc (0 : ℝ) 1, chainEval undercutOps [.inl u, .inr d] s = some (G' s)) ∧
        DipShape rp (rp - limits.hD) (rp * pia + limits.hD * tan alpha) V s0 R θ R' θ' ∧ R' 1 = R 1 ∧ G' 1 = G 1 ∧
        G' 0 = ![rp - limits.hD, -(rp * pia + limits.hD * tan alpha), 0] ∧ x ∈ Icc (0 : ℝ) 1 ∧ 0 < V ∧
        √((rp - limits.hD) ^ 2 + V ^ 2) = R x ∧
        arctan (V / (rp - limits.hD)) - (rp * pia + limits.hD * tan alpha + V) / rp = θ x ∧
        ∃ tb, 0 < tb ∧ tb ≤ 2 ∧ invAngle tb = pia + (tan alpha - alpha) ∧ R 1 = rp * cos alpha * √(1 + tb ^ 2) := by
  have htan : alpha < tan alpha := Real.lt_tan ha0 ha1
  have htp : 0 < tan alpha := ha0.trans htan
  have hcos : 0 < cos alpha := cos_pos_of_mem_Ioo ⟨by linarith, ha1⟩
  obtain ⟨a, ea⟩ : ∃ a, a = rp - limits.hD := ⟨_, rfl⟩
  obtain ⟨b, eb⟩ : ∃ b, b = rp * pia + limits.hD * tan alpha := ⟨_, rfl⟩
  have ha : 0 < a := by rw [ea]; linarith
  have hb : 0 < b := by rw [eb]; positivity
  have ebr : b / rp = pia + limits.hD * tan alpha / rp := by rw [eb]; field_simp
  -- the involute starts on the tooth's side of the deepest point
  have hinv : tan alpha - alpha < limits.hD * tan alpha / rp := by
    have h1 : rp * (1 - cos alpha) ≤ limits.hD := by linarith
    have h2 := mul_le_mul_of_nonneg_right h1 htp.le
    have h3 : (1 - cos alpha) * tan alpha = tan alpha - sin alpha := by
      rw [sub_mul, one_mul, tan_eq_sin_div_cos]; field_simp
    have h4 := Real.sin_lt ha0
    rw [lt_div_iff₀ hrp]
    nlinarith
  have hhalf : b / rp < pitch / 2 := by
    rw [div_lt_iff₀ hrp, eb]; linarith
  have h1 : pia + (tan alpha - alpha) < b / rp := by rw [ebr]; linarith
  obtain ⟨l, G, R, θ, hl, lpath, F, -, hG, htb, hsh, -⟩ := tooth_generated hS hrp ha0 ha1 h0 (by linarith) hs
  obtain ⟨C, J, rfl⟩ : ∃ C J, l = [C, J] := (tooth_two hl).elim fun q h => h.elim fun J h => ⟨_, _, h⟩
  obtain ⟨s1, s2, s3, s4, s5⟩ := hu _ hl
  have hpia : pia < pitch / 2 := by linarith
  obtain ⟨p, hp, p1, p2, -, -, -, p3, -⟩ := c118_ref S rp pia pitch limits alpha hrp ha0 ha1 hA hD0 hpia (hS.root1 _ _ s1)
  have hpe : p = ![a, -b, 0] := by
    have h2 := p3 hroom.le
    rw [h2] at p1
    apply V3.ext3
    · simp [h2, ea]
    · simp [eb]; linarith
    · simp [p2]
  subst hpe
  obtain ⟨tc, ct3, ct0, hc⟩ := under_path (S := S) (s2 _ hp)
  obtain ⟨c, ec⟩ : ∃ c, c = cornerPath rp a b tc := ⟨_, rfl⟩
  rw [← ec] at hc
  obtain ⟨q, q1, q2⟩ := s3 _ _ hp hc
  obtain ⟨x0, x1⟩ := s4 _ _ hp hc
  obtain ⟨tu, u3, u0, hy⟩ := s5 _ _ hp hc
  obtain ⟨x, ex⟩ : ∃ x, x = undercutAnswer S.toSolvers [C, J] c (1, 1) := ⟨_, rfl⟩
  rw [← ex] at q1 q2 x0 x1 hy
  obtain ⟨d, hd, dOne, dP⟩ := second_left lpath x.1 x0 x1
  have hue : c.setEndOn x.2 = some (cornerPath rp a b tu) := by rw [ec] at hy ⊢; exact cornerPath_end hy
  have uB := cornerPath_ok (b := b) hrp ha (by rw [eb, ea]; exact hK) u3 u0
  have uL := cornerPath_last uB
  have uk := cornerPath_kind rp a b tu
  have ut0 := cornerPath_t0 rp a b tu
  have ut1 := cornerPath_t1 rp a b tu
  obtain ⟨u, eu⟩ : ∃ u, u = cornerPath rp a b tu := ⟨_, rfl⟩
  rw [← eu] at hue uB uL uk ut0 ut1
  have hx0 : 0 ≤ x.1 := by
    refine le_trans ?_ x0.le
    rw [portion]
    refine div_nonneg ?_ lpath.pos.le
    rw [preLen]
    refine List.sum_nonneg fun v hv => ?_
    obtain ⟨w, hw, rfl⟩ := List.mem_map.1 hv
    rw [CurveOps.len]
    split_ifs with hw'
    · exact (lpath.allPos w (List.mem_of_mem_take hw) hw').le
    · exact le_refl _
  have hmeet : u.eval 1 = some (G x.1) := by
    rw [hG _ ⟨hx0, x1.le⟩] at q1
    rw [q1, ← q2, uL, Curve.eval, hy, Option.map_some, ec, cornerPath_kind]
    rfl
  obtain ⟨hsys, hend, G', R', θ', s0, V, D, hG', hsh', hR1, hG1, hG0, v0, v1, v2⟩ := undercut_dip (d := ⟨d, true⟩) hrp ha hb (by rw [eb, ea]; exact hK)
    (fun v hv => by
      have := hneck v hv
      rw [← eb, ← ea] at this
      rw [lift]
      rw [add_div] at this
      linarith) uB uk ut0 (by rw [ut1]; exact u3) dOne F (by linarith) (by linarith) (by linarith) hx0
    (Piece_congr dP hx0 (le_refl _) (fun _ _ => rfl) fun s hs' => hG s hs') hmeet
  refine ⟨_, u, ⟨d, true⟩, hl, ?_, hsys, by rw [← ea]; exact hend, G, R, θ, G', R', θ', s0, V, x.1, F, hG, hsh,
    by rw [← ea, ← ebr]; exact D, hG', by rw [← ea, ← eb]; exact hsh', hR1, hG1,
    by rw [← ea, ← eb]; exact hG0, ⟨hx0, x1.le⟩, v0, by rw [← ea]; exact v1, by rw [← ea, ← eb]; exact v2, htb⟩
  rw [undercutToothCurve, if_neg (not_lt.2 hbase), hp, Option.bind_some, hc, Option.bind_some, trimInvoluteUndercut]
  simp only [← ex]
  rw [hd, Option.bind_some, hue, Option.map_some, SysPath.upd nest_sys hsys.1]

/-- **C118, generated teeth.** The whole statement for the tooth curve that is generated from the parameters: the curve with undercut
starts at the corner of the rack, is continuous, never goes inside the root circle, and ends where the tooth curve ends. Missing: the
case where the searches fail, and the corner in the middle of the gap (`c118_ref`). -/
theorem c118_generated_partial {S : ScalarSolvers} (hS : Honest S) {pia rp alpha pitch : ℝ} {limits : ToothLimitParam} (hrp : 0 < rp)
    (ha0 : 0 < alpha) (ha1 : alpha < π / 2) (h0 : 0 < pia) (hA : 0 < limits.hA) (hD0 : 0 < limits.hD) (hD1 : limits.hD < rp)
    (hbase : rp - limits.hD ≤ rp * cos alpha) (hroom : limits.hD * tan alpha < rp * (pitch / 2 - pia)) (hpi : pitch ≤ π)
    (hK : (rp * pia + limits.hD * tan alpha) / rp < arctan ((rp * pia + limits.hD * tan alpha) / (rp - limits.hD)))
    (hneck : ∀ v, 0 ≤ v → arctan (v / (rp - limits.hD)) < (rp * pia + limits.hD * tan alpha + v) / rp)
    (hs : ToothSearches S pia rp alpha)
    (hu : ∀ l, involuteToothCurve S pia rp alpha = some l → UndercutSearches S rp pia pitch alpha limits l) :
    ∃ l m G, involuteToothCurve S pia rp alpha = some l ∧
      undercutToothCurve S l (rp * cos alpha) rp pia pitch alpha limits = some m ∧
      (∀ s ∈ Icc (0 : ℝ) 1, chainEval undercutOps m s = some (G s)) ∧ ContinuousOn G (Icc 0 1) ∧
      G 0 = ![rp - limits.hD, -(rp * pia + limits.hD * tan alpha), 0] ∧
      (∀ s ∈ Icc (0 : ℝ) 1, rp - limits.hD ≤ norm3 (G s)) ∧ chainEval curveOps l 1 = some (G 1) := by
  obtain ⟨l, u, d, hl, hm, hsys, hend, G0, R0, θ0, G, R, θ, s0, V, x, F, hG0, -, D, hG, hsh, -, hG1, hstart, -⟩ := undercut_generated hS hrp ha0
    ha1 h0 hA hD0 hD1 hbase hroom hpi hK hneck hs hu
  refine ⟨l, _, G, hl, hm, hG, D.cont, hstart, fun s ms => ?_, by rw [hG0 1 ⟨zero_le_one, le_refl _⟩, hG1]⟩
  have h1 : rp - limits.hD ≤ R s := by
    rcases hsh s ms with ⟨x, mx, h2, -⟩ | ⟨v, -, -, -, -, h2, -⟩
    · rw [← D.deep]
      exact D.grows.monotoneOn ⟨le_refl _, D.s0_lt.le⟩ ⟨h2.le, ms.2⟩ h2.le
    · rw [h2]
      exact le_sqrt_of_sq_le (by nlinarith [sq_nonneg v])
  have h2 : norm3 (G s) = R s := by
    apply norm3_eq_of_dot (D.pos s ms).le
    rw [D.polar s ms]
    simp [dot]
    linear_combination R s ^ 2 * sin_sq_add_cos_sq (θ s)
  rw [h2]
  exact h1

/-- **C142.** The teeth of a spur gear with undercut and without fillets, whose base circle lies outside the root circle, are
generated from pressure angle, pitch radius, tooth thickness and depth, undercut by the corner of the rack, and trimmed at the tip
and the root. If the solvers report only true solutions and the searches succeed on the curves, the corner of the rack does not
turn back before its deepest point (`hK`) and the undercut does not reach the middle of the tooth (`hneck`), then the flank starts
exactly on the root circle where the corner of the rack is deepest, consists of points of the tooth curve and of the path of that
corner, runs outwards between the middle of the gap and the middle of the tooth, and the outline of the `n` teeth is closed and does not cross or touch itself. -/
theorem c142_undercut_outline {asEuler : M3 → ℝ × ℝ × ℝ} (hE : EulerOk asEuler) {S : ScalarSolvers} (hS : Honest S)
    {pia rp alpha pitch : ℝ} {limits : ToothLimitParam} (hrp : 0 < rp)
    (ha0 : 0 < alpha) (ha1 : alpha < π / 2) (h0 : 0 < pia) (hA : 0 < limits.hA) (hD0 : 0 < limits.hD) (hD1 : limits.hD < rp)
    (hbase : rp - limits.hD ≤ rp * cos alpha) (hroom : limits.hD * tan alpha < rp * (pitch / 2 - pia))
    (hK : (rp * pia + limits.hD * tan alpha) / rp < arctan ((rp * pia + limits.hD * tan alpha) / (rp - limits.hD)))
    (hneck : ∀ v, 0 ≤ v → arctan (v / (rp - limits.hD)) < (rp * pia + limits.hD * tan alpha + v) / rp)
    (hs : ToothSearches S pia rp alpha)
    (hu : ∀ l, involuteToothCurve S pia rp alpha = some l → UndercutSearches S rp pia pitch alpha limits l)
    (n : ℕ) (h2 : 2 ≤ n) (hn : n * pitch = 2 * π) (rA rD : Curve)
    (hrD : ∀ s p, rD.eval s = some p → p 0 ^ 2 + p 1 ^ 2 = (rp - limits.hD) ^ 2) {tipFillet rootFillet : ℝ} (ht : tipFillet ≤ 0)
    (hr : rootFillet ≤ 0) (htrim : ∀ l m, involuteToothCurve S pia rp alpha = some l →
      undercutToothCurve S l (rp * cos alpha) rp pia pitch alpha limits = some m → DipSearches S m rA rD tipFillet pitch)
    (radA radD radO : ℝ) (centerO : V3) :
    ∃ l m t t' T, involuteToothCurve S pia rp alpha = some l ∧
      undercutToothCurve S l (rp * cos alpha) rp pia pitch alpha limits = some m ∧
      trimTip (chainOps undercutOps) S ⟨m, true⟩ rA tipFillet pitch = some t ∧
      trimRoot (chainOps undercutOps) S t rD rootFillet pitch = some t' ∧
      (∀ s, 0 ≤ s → s ≤ 1 → (chainOps undercutOps).eval t' s = some (T s)) ∧ Spec.OutwardFlank T pitch ∧
      T 0 = ![(rp - limits.hD) * cos (pia + limits.hD * tan alpha / rp), -((rp - limits.hD) * sin (pia + limits.hD * tan alpha / rp)), 0] ∧
      chainEval undercutOps m (tipCut S (chainEval undercutOps m) rA pitch) = some (T 1) ∧
      (∀ s ∈ Icc (0 : ℝ) 1, (∃ x ∈ Icc (0 : ℝ) 1, chainEval curveOps l x = some (T s)) ∨
        Spec.RackCorner rp (rp - limits.hD) (rp * pia + limits.hD * tan alpha) (T s)) ∧
      (ExactGaps T pitch → ∃ P, trimReferenceProfile (chainOps undercutOps) asEuler S ⟨m, true⟩ rA rD radA radD radO centerO tipFillet
        rootFillet pitch = some P ∧
        Spec.SimpleOutline (chainEval (sumOps (chainOps undercutOps) curveOps) (P.chain (chainOps undercutOps))) pitch n) := by
  have hn2 : (2 : ℝ) ≤ n := by exact_mod_cast h2
  have hp : 0 < pitch := by
    by_contra hneg
    have := mul_nonpos_of_nonneg_of_nonpos (by linarith : (0 : ℝ) ≤ n) (not_lt.1 hneg)
    linarith [pi_pos]
  have hpi : pitch ≤ π := by nlinarith
  obtain ⟨l, u, d, hl, hm, hsys, hend, G0, R0, θ0, G, R, θ, s0, V, x, F, hG0, -, D, hG, hsh, -⟩ := undercut_generated hS hrp ha0 ha1 h0 hA hD0 hD1 hbase hroom hpi hK hneck
    hs hu
  have hc : pia + limits.hD * tan alpha / rp < pitch / 2 := by
    have : limits.hD * tan alpha / rp < pitch / 2 - pia := by rw [div_lt_iff₀ hrp]; linarith
    linarith
  obtain ⟨t, t', T, e1, e2, hT, a1, a2, a3, hout, hcont, hT0, hT1, hx⟩ := trim_dip hS hsys D (by linarith) hG hend (by linarith) hc hrD
    ht hr (htrim l _ hl hm)
  refine ⟨l, _, t, t', T, hl, hm, e1, e2, hT, hout, hT0, hT1, fun s hs' => ?_, fun hx => ?_⟩
  · obtain ⟨x, mx, e⟩ := hx s hs'
    have mx' : x ∈ Icc (0 : ℝ) 1 := ⟨D.s0_pos.le.trans mx.1, mx.2⟩
    rw [e, D.polar x mx']
    rcases hsh x mx' with ⟨y, my, -, h3, h4⟩ | ⟨v, -, -, h3, -, h4, h5⟩
    · refine .inl ⟨y, my, ?_⟩
      rw [hG0 y my, F.polar y my, h3, h4]
    · refine .inr ⟨v, h3 mx.1, ?_⟩
      rw [h4, h5]
      exact corner_polar (by linarith) v _
  obtain ⟨P, hP, hsimple⟩ := c139_simple hE a1 a2 a3 hT hcont hout n h2 hn hx radA radD radO centerO
  refine ⟨P, ?_, hsimple⟩
  rw [trimReferenceProfile, e1, Option.bind_some, e2, Option.bind_some, hP]

end Verif
