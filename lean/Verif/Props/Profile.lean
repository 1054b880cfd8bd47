import Verif.Model.Profile
import Verif.Props.Arc2
import Verif.Props.Chain2

/-! # Property C55: the profile of one tooth -/

namespace Verif

open Real Set

/-! ### Curves -/

/-- A curve with a strictly increasing position table only takes values between its ends. -/
theorem tabled_range (c : Curve) (hT : c.Tabled)
    (hs : ∀ i j, i < j → j ≤ c.lookup.n → c.lookup.s i < c.lookup.s j) (s : ℝ) (hs' : s ∈ Icc (0 : ℝ) 1) :
    npInterp c.lookup.s c.lookup.t c.lookup.n s ∈ uIcc c.t0 c.t1 ∧
      c.eval s = some (c.kind.fn (npInterp c.lookup.s c.lookup.t c.lookup.n s)) := by
  constructor
  · have e0 : npInterp c.lookup.s c.lookup.t c.lookup.n 0 = c.t0 := by
      have h01 : c.lookup.s 0 < c.lookup.s 1 := hs 0 1 (by omega) hT.pos
      have l0 : lastLe c.lookup.s 0 c.lookup.n = 0 :=
        lastLe_unique (Nat.zero_le _) hT.s_zero.le hT.s_mono fun _ => by rw [hT.s_zero] at h01; exact h01
      rw [npInterp, if_neg (by rw [hT.s_zero]; exact lt_irrefl _)]
      simp only [l0, hT.s_zero, hT.t_zero, sub_self, mul_zero, add_zero]
      rw [if_neg (by have := hT.pos; omega)]
    have e1 : npInterp c.lookup.s c.lookup.t c.lookup.n 1 = c.t1 := by
      rw [npInterp_last (by rw [hT.s_zero]; exact zero_le_one) hT.s_last.le, hT.t_last]
    have h0 : c.lookup.s 0 ≤ s := by rw [hT.s_zero]; exact hs'.1
    rcases le_total c.t0 c.t1 with h | h
    · rw [uIcc_of_le h]
      have m := hT.t_mono h
      refine ⟨?_, ?_⟩
      · rw [← e0]; exact npInterp_mono hT.s_zero.le hs'.1 m
      · rw [← e1]; exact npInterp_mono h0 hs'.2 m
    · rw [uIcc_of_ge h]
      have m : ∀ i j, i ≤ j → j ≤ c.lookup.n → -c.lookup.t i ≤ -c.lookup.t j :=
        fun i j hij hj => neg_le_neg (hT.t_anti h i j hij hj)
      have a := npInterp_mono (y := s) hT.s_zero.le hs'.1 m
      have b := npInterp_mono h0 hs'.2 m
      rw [npInterp_neg, npInterp_neg, e0] at a
      rw [npInterp_neg, npInterp_neg, e1] at b
      exact ⟨by linarith, by linarith⟩
  · rw [Curve.eval, Curve.s2t, if_neg (not_lt.2 hs'.1), if_neg (not_lt.2 hs'.2)]
    rfl

/-- A curve with a strictly increasing position table over a continuous function is continuous, in
whichever direction the parameter runs. -/
theorem tabled_continuous (c : Curve) (hT : c.Tabled)
    (hs : ∀ i j, i < j → j ≤ c.lookup.n → c.lookup.s i < c.lookup.s j)
    (hf : ContinuousOn c.kind.fn (uIcc c.t0 c.t1)) : Spec.ContinuousCurve c.eval := by
  have hint := npInterp_continuousOn (fp := c.lookup.t) hs
  rw [hT.s_zero, hT.s_last] at hint
  exact ⟨fun s => c.kind.fn (npInterp c.lookup.s c.lookup.t c.lookup.n s),
    hf.comp hint fun s h => (tabled_range c hT hs s h).1, fun s h0 h1 => (tabled_range c hT hs s ⟨h0, h1⟩).2⟩

theorem updateLengths_fix_make (k : CurveKind) (t0 t1 : ℝ) :
    (Curve.make k true t0 t1).updateLengths = Curve.make k true t0 t1 := by
  rw [Curve.make, if_pos rfl, updateLengths_idem]

theorem arcKind_continuous (r a : ℝ) (c : V3) (M : M3) : Continuous (CurveKind.arc r a c M).fn := by
  have e : (CurveKind.arc r a c M).fn = fun t => cos (a * t) • app M (r • RIGHT) +
      sin (a * t) • app M (r • UP) + c := by
    funext t
    have h : app (Rz (a * t)) (r • RIGHT) = cos (a * t) • (r • RIGHT) + sin (a * t) • (r • UP) := by
      apply V3.ext3 <;> simp [Rz_app, RIGHT, UP, Matrix.cons_val]
    simp only [CurveKind.fn]
    rw [app_mul, h, app_add, app_smul M (cos _), app_smul M (sin _)]
  rw [e]
  fun_prop

/-- Properties of an active arc needed by the chains. -/
structure ArcFacts (c : Curve) : Prop where
  active : c.active = true
  fix : c.updateLengths = c
  cont : Spec.ContinuousCurve c.eval

theorem arcInit_facts (r a : ℝ) (center : V3) (yaw pitch roll : ℝ) :
    ArcFacts (arcInit r a center yaw pitch roll true) ∧
      (arcInit r a center yaw pitch roll true).length = r * a := by
  refine ⟨⟨?_, updateLengths_fix_make _ _ _, ?_⟩, ?_⟩
  · rw [arcInit, Curve.make, if_pos rfl, updateLengths_active]
  · refine ⟨(CurveKind.arc r a center (eulerZYX yaw pitch roll)).fn,
      (arcKind_continuous _ _ _ _).continuousOn, fun s _ _ => ?_⟩
    rw [arcInit, make_eval _ (by intro f n h; cases h)]
  · rw [arcInit, Curve.make, if_pos rfl, Curve.updateLengths]

/-- The arc between two points, with its length. -/
theorem arc2_facts {asEuler : M3 → ℝ × ℝ × ℝ} (hE : EulerOk asEuler) (p0 p1 center : V3)
    (hl : norm3 (p0 - center) = norm3 (p1 - center)) (hw : cross (p0 - center) (p1 - center) ≠ 0) :
    ∃ c, arcFrom2PointCenter asEuler p0 p1 center 0 true = some c ∧ ArcFacts c ∧ 0 < c.length ∧
      c.eval 0 = some p0 ∧ c.eval 1 = some p1 := by
  obtain ⟨c, h1, -, h2, h3, -⟩ := c49_two_points hE p0 p1 center 0 true hl hw
  have ha : p0 - center ≠ 0 := by
    intro e; rw [e] at hw; apply hw; apply V3.ext3 <;> simp
  refine ⟨c, h1, ?_⟩
  rw [arcFrom2PointCenter, normalizeVector_some ha, normalizeVector_some hw] at h1
  simp only [Option.some.injEq] at h1
  obtain ⟨f, hlen⟩ := arcInit_facts (norm3 (p0 - center)) (angleBetween (p0 - center) (p1 - center) +
    ((0 : ℤ) : ℝ) * π * 2) center (asEuler _).1 (asEuler _).2.1 (asEuler _).2.2
  rw [h1] at f hlen
  refine ⟨f, ?_, h2, h3⟩
  rw [hlen]
  have hp := (rodrigues_angleBetween hl hw 0).2.1
  refine mul_pos (norm3_pos ha) ?_
  simpa using hp

theorem rodrigues_OUT (a : ℝ) (v : V3) : rodrigues OUT a v = app (Rz a) v := by
  rw [Rz_app]
  apply V3.ext3 <;> simp only [rodrigues, OUT, dot, cross, Pi.add_apply, Pi.smul_apply, smul_eq_mul,
    Matrix.cons_val_zero, Matrix.cons_val_one, Matrix.cons_val] <;> ring

theorem norm3_OUT : norm3 OUT = 1 := norm3_eq_of_dot zero_le_one (by simp [dot, OUT])
theorem norm3_UP : norm3 UP = 1 := norm3_eq_of_dot zero_le_one (by simp [dot, UP])
theorem OUT_ne : OUT ≠ (0 : V3) := by intro e; have := congrFun e 2; simp [OUT] at this
theorem UP_ne : UP ≠ (0 : V3) := by intro e; have := congrFun e 1; simp [UP] at this

/-- Mirror image at the plane `y = 0`. -/
def flipY (p : V3) : V3 := ![p 0, -p 1, p 2]

theorem mirrorFunc_UP (p : V3) : mirrorFunc UP 0 p = flipY p := by
  apply V3.ext3 <;> simp only [mirrorFunc, flipY, UP, dot, Pi.add_apply, Pi.sub_apply, Pi.zero_apply,
    Pi.smul_apply, smul_eq_mul, Matrix.cons_val_zero, Matrix.cons_val_one, Matrix.cons_val] <;> ring

theorem flipY_inj {p q : V3} (h : flipY p = flipY q) : p = q := by
  have h0 := congrFun h 0
  have h1 := congrFun h 1
  have h2 := congrFun h 2
  simp only [flipY, Matrix.cons_val_zero, Matrix.cons_val_one, Matrix.cons_val] at h0 h1 h2
  exact V3.ext3 h0 (neg_injective h1) h2

theorem continuous_flipY : Continuous flipY := by
  refine continuous_pi fun i => ?_
  fin_cases i
  · exact continuous_apply 0
  · exact (continuous_apply 1).neg
  · exact continuous_apply 2

/-- The mirrored flank: the mirror image of the tooth curve run backwards. `T` are the points of the tooth
curve. -/
theorem mirror_facts (T : ℝ → V3) (hc : ContinuousOn T (Icc 0 1))
    (hd : ∀ i : ℕ, i < 20 → T (linspace 0 1 20 i) ≠ T (linspace 0 1 20 (i + 1))) :
    ∃ m, mirroredCurve T true UP ORIGIN = some m ∧ m.reverse.active = true ∧
      m.reverse.eval 0 = some (flipY (T 1)) ∧ m.reverse.eval 1 = some (flipY (T 0)) ∧
      m.reverse.updateLengths.eval 0 = some (flipY (T 1)) ∧
      m.reverse.updateLengths.eval 1 = some (flipY (T 0)) ∧
      (∀ s, 0 ≤ s → s ≤ 1 → ∃ u, 0 ≤ u ∧ u ≤ 1 ∧ m.reverse.updateLengths.eval s = some (flipY (T u))) ∧
      0 < m.reverse.updateLengths.length ∧ Spec.ContinuousCurve m.reverse.updateLengths.eval ∧
      ∃ u : ℝ → ℝ, InjOn u (Icc 0 1) ∧ u 0 = 1 ∧ u 1 = 0 ∧
        ∀ s, 0 ≤ s → s ≤ 1 → 0 ≤ u s ∧ u s ≤ 1 ∧ m.reverse.updateLengths.eval s = some (flipY (T (u s))) := by
  have hf : (fun t => mirrorFunc UP ORIGIN (T t)) = fun t => flipY (T t) := by
    funext t; rw [ORIGIN_eq, mirrorFunc_UP]
  have hm : mirroredCurve T true UP ORIGIN = some (Curve.make (.generic (fun t => flipY (T t)) 20) true 0 1) := by
    rw [mirroredCurve, normalizeVector_some UP_ne, norm3_UP, inv_one, one_smul, Option.map_some,
      transformedCurve, hf]
  obtain ⟨c0, hc0⟩ : ∃ c0 : Curve, c0 = ⟨.generic (fun t => flipY (T t)) 20, true, 0, 1, 0, Lookup.default⟩ :=
    ⟨_, rfl⟩
  have hmk : Curve.make (.generic (fun t => flipY (T t)) 20) true 0 1 = c0.updateLengths := by
    rw [Curve.make, if_pos rfl, hc0]
  have hk : c0.kind = .generic (fun t => flipY (T t)) 20 := by rw [hc0]
  have ht0 : c0.t0 = 0 := by rw [hc0]
  have ht1 : c0.t1 = 1 := by rw [hc0]
  have hsam : c0.kind.Sampled := by rw [hk]; exact (by norm_num : 1 ≤ 20)
  have hstr : c0.updateLengths.Strict := by
    refine c39_strict c0 hsam (by rw [ht0, ht1]; exact zero_lt_one) ?_
    intro f n e i hi
    rw [hk] at e
    cases e
    rw [ht0, ht1]
    exact fun h => hd i hi (flipY_inj h)
  have hends := make_ends (fun t => flipY (T t)) 20 (by norm_num) true
  rw [hmk] at hends
  obtain ⟨r0, r1⟩ := c40_ends_partial _ hstr
  obtain ⟨R, hR⟩ : ∃ R, R = c0.updateLengths.reverse := ⟨_, rfl⟩
  have rk : R.kind = .generic (fun t => flipY (T t)) 20 := by
    rw [hR, Curve.reverse]; simp only [updateLengths_kind, hk]
  have rsam : R.kind.Sampled := by rw [rk]; exact (by norm_num : 1 ≤ 20)
  have rt0 : R.t0 = 1 := by rw [hR, Curve.reverse]; simp only [updateLengths_t1, ht1]
  have rt1 : R.t1 = 0 := by rw [hR, Curve.reverse]; simp only [updateLengths_t0, ht0]
  have hT := updateLengths_tabled R rsam
  have hpos : 0 < chordLen (fun t => flipY (T t)) (linspace 1 0 20) 20 := by
    refine lt_of_lt_of_le ?_ (chordLen_mono _ _ (show 1 ≤ 20 by norm_num))
    rw [chordLen, chordLen, zero_add, linspace_flip 0 1 (by norm_num) (by norm_num),
      linspace_flip 0 1 (by norm_num) (by norm_num)]
    exact norm3_pos (sub_ne_zero.2 fun h => hd 19 (by norm_num) (flipY_inj h))
  have hlen : R.updateLengths.length = chordLen (fun t => flipY (T t)) (linspace 1 0 20) 20 := by
    rw [Curve.updateLengths, rk, rt0, rt1]
  have hlook : R.updateLengths.lookup = ⟨20, fun i => chordLen (fun t => flipY (T t)) (linspace 1 0 20) i /
      chordLen (fun t => flipY (T t)) (linspace 1 0 20) 20, linspace 1 0 20⟩ := by
    rw [Curve.updateLengths, rk, rt0, rt1]
    simp only [if_neg hpos.ne']
  have hsstr : ∀ i j, i < j → j ≤ R.updateLengths.lookup.n →
      R.updateLengths.lookup.s i < R.updateLengths.lookup.s j := by
    rw [hlook]
    intro i j hij hj
    simp only at hj ⊢
    refine div_lt_div_of_pos_right ?_ hpos
    refine lt_of_lt_of_le ?_ (chordLen_mono _ _ (Nat.succ_le_of_lt hij))
    rw [chordLen]
    have : 0 < norm3 (flipY (T (linspace 1 0 20 (i + 1))) - flipY (T (linspace 1 0 20 i))) := by
      refine norm3_pos (sub_ne_zero.2 fun h => ?_)
      rw [linspace_flip 0 1 (by norm_num) (by omega), linspace_flip 0 1 (by norm_num) (by omega)] at h
      have h' := hd (20 - (i + 1)) (by omega)
      rw [show 20 - (i + 1) + 1 = 20 - i by omega] at h'
      exact h' (flipY_inj h)
    linarith
  have hcont : Spec.ContinuousCurve R.updateLengths.eval := by
    refine tabled_continuous _ hT hsstr ?_
    rw [updateLengths_kind, updateLengths_t0, updateLengths_t1, rk, rt0, rt1, uIcc_comm,
      uIcc_of_le zero_le_one]
    exact continuous_flipY.comp_continuousOn hc
  have he0 := hT.eval_zero
  have he1 := hT.eval_one
  rw [updateLengths_kind, updateLengths_t0, rk, rt0] at he0
  rw [updateLengths_kind, updateLengths_t1, rk, rt1] at he1
  refine ⟨_, hm, ?_, ?_, ?_, ?_⟩
  · rw [hmk, Curve.reverse]; simp only [updateLengths_active, hc0]
  · rw [hmk, r0, hends.2]
  · rw [hmk, r1, hends.1]
  · rw [hmk, ← hR]
    refine ⟨he0, he1, ?_, by rw [hlen]; exact hpos, hcont, ?_⟩
    · intro s h0 h1
      obtain ⟨u1, u2⟩ := tabled_range _ hT hsstr s ⟨h0, h1⟩
      rw [updateLengths_kind, rk] at u2
      rw [updateLengths_t0, updateLengths_t1, rt0, rt1, uIcc_comm, uIcc_of_le zero_le_one] at u1
      exact ⟨_, u1.1, u1.2, u2⟩
    · obtain ⟨c, hcc⟩ : ∃ c, c = c0.updateLengths := ⟨_, rfl⟩
      have hs := hstr
      rw [← hcc] at hs
      have z0 := hs.tab.s_zero
      have z1 := hs.tab.s_last
      have tz : c.lookup.t 0 = 0 := by rw [hs.tab.t_zero, hcc, updateLengths_t0, ht0]
      have tl : c.lookup.t c.lookup.n = 1 := by rw [hs.tab.t_last, hcc, updateLengths_t1, ht1]
      have hinv : ∀ x : ℝ, 0 ≤ x → x ≤ 1 → _ := fun x h0 h1 =>
        interp_inverse hs.s_strict hs.t_strict (x := x) (by rw [z0]; exact h0) (by rw [z1]; exact h1) hs.tab.pos
      refine ⟨fun s => npInterp c.lookup.s c.lookup.t c.lookup.n (1 - s), ?_, ?_, ?_, ?_⟩
      · intro a ha b hb e
        dsimp only at e
        have i1 := (hinv (1 - a) (by linarith [ha.2]) (by linarith [ha.1])).1
        have i2 := (hinv (1 - b) (by linarith [hb.2]) (by linarith [hb.1])).1
        rw [e] at i1
        linarith
      · dsimp only
        rw [npInterp_last (by rw [z0]; norm_num) (by rw [z1]; norm_num), tl]
      · dsimp only
        have := hs.tab.pos
        have h01 := hs.s_strict 0 1 (by norm_num) this
        rw [npInterp_seg' (k := 0) this hs.s_strict (by rw [z0]; norm_num) (by rw [z0] at h01; linarith), tz, z0]
        ring
      · intro s h0 h1
        obtain ⟨-, i2, i3⟩ := hinv (1 - s) (by linarith) (by linarith)
        refine ⟨by rwa [tz] at i2, by rwa [tl] at i3, ?_⟩
        rw [hR, c40_recomputed_partial c0 hsam hstr s h0 h1, ← hcc, Curve.eval, Curve.s2t, if_neg (by linarith),
          if_neg (by linarith), Option.map_some, hcc, updateLengths_kind, hk]
        rfl

/-! ### The closing arcs -/

theorem midOnAxis_eq {p q : V3} (hz : p 2 = q 2) : midOnAxis p q = ![0, 0, p 2] := by
  apply V3.ext3 <;> simp [midOnAxis, mulV, OUT, hz] <;> ring

/-- Two points at the same height and distance from the axis that do not lie on a line with it are joined by
an arc. -/
theorem closingArc_active {asEuler : M3 → ℝ × ℝ × ℝ} (hE : EulerOk asEuler) {p q : V3} (y : V3) (r : ℝ)
    (hz : p 2 = q 2) (hr : p 0 ^ 2 + p 1 ^ 2 = q 0 ^ 2 + q 1 ^ 2) (hc : p 0 * q 1 - p 1 * q 0 ≠ 0)
    (hgap : 1 / 10 ^ 10 < norm3 (p - q)) :
    ∃ c, closingArc asEuler p q y r = some c ∧ ArcFacts c ∧ 0 < c.length ∧
      c.eval 0 = some p ∧ c.eval 1 = some q := by
  rw [closingArc, if_pos hgap, midOnAxis_eq hz]
  refine arc2_facts hE p q _ ?_ ?_
  · refine norm3_eq_of_dot (norm3_nonneg _) ?_
    rw [norm3_sq]
    simp only [dot, Pi.sub_apply, Matrix.cons_val_zero, Matrix.cons_val_one, Matrix.cons_val, ← hz]
    linarith
  · intro h
    have := congrFun h 2
    simp [cross] at this
    exact hc (by linarith)

theorem closingArc_inactive {asEuler : M3 → ℝ × ℝ × ℝ} {p q : V3} (y : V3) (r : ℝ)
    (hgap : norm3 (p - q) ≤ 1 / 10 ^ 10) :
    ∃ c, closingArc asEuler p q y r = some c ∧ c.active = false := by
  rw [closingArc, if_neg (not_lt.2 hgap)]
  exact ⟨_, rfl, by rw [arcInit, Curve.make]; simp⟩

/-! ### C55 -/

/-- A trimmed tooth curve: an active, continuous curve with points `T` and a positive length, as
`update_lengths` leaves it. It starts at distance `r` from the axis at the angle `θ` between the middle of
the gap and the middle of the tooth, and ends beside the middle of the tooth. One pitch is at most half a
turn. -/
structure ToothOk {α : Type} (o : CurveOps α) (tooth : α) (T : ℝ → V3) (pitch r θ : ℝ) : Prop where
  active : o.active tooth = true
  fix : o.updateLengths tooth = tooth
  len : 0 < o.length tooth
  eval : ∀ s, 0 ≤ s → s ≤ 1 → o.eval tooth s = some (T s)
  cont : ContinuousOn T (Icc 0 1)
  distinct : ∀ i : ℕ, i < 20 → T (linspace 0 1 20 i) ≠ T (linspace 0 1 20 (i + 1))
  pitchPos : 0 < pitch
  pitchLe : pitch ≤ π
  rootPos : 0 < r
  rootX : T 0 0 = r * cos θ
  rootY : T 0 1 = r * sin θ
  angleGe : -(pitch / 2) ≤ θ
  angleLt : θ < 0
  tip : 0 < T 1 0

/-- The start of the profile: the mirrored flank of the previous tooth ends here. -/
noncomputable def rootStart (T : ℝ → V3) (pitch : ℝ) : V3 := app (Rz (-pitch)) (flipY (T 0))

/-- What `closeProfile` returns. -/
structure ProfileFacts {α : Type} (o : CurveOps α) (tooth : α) (T : ℝ → V3) (pitch : ℝ)
    (P : RefProfile α) : Prop where
  tooth_eq : P.tooth = tooth
  pitch_eq : P.pitchAngle = pitch
  chain_eq : P.chain o = [.inr P.rd, .inl tooth, .inr P.ra, .inr P.mirror]
  rd : (1 / 10 ^ 10 < norm3 (rootStart T pitch - T 0) ∧ ArcFacts P.rd ∧ 0 < P.rd.length ∧
      P.rd.eval 0 = some (rootStart T pitch) ∧ P.rd.eval 1 = some (T 0)) ∨
    (norm3 (rootStart T pitch - T 0) ≤ 1 / 10 ^ 10 ∧ P.rd.active = false)
  ra : (1 / 10 ^ 10 < norm3 (T 1 - flipY (T 1)) ∧ ArcFacts P.ra ∧ 0 < P.ra.length ∧
      P.ra.eval 0 = some (T 1) ∧ P.ra.eval 1 = some (flipY (T 1))) ∨
    (norm3 (T 1 - flipY (T 1)) ≤ 1 / 10 ^ 10 ∧ P.ra.active = false)
  mirrorActive : P.mirror.active = true
  mirrorLen : 0 < P.mirror.length
  mirrorFix : P.mirror.updateLengths = P.mirror
  mirrorCont : Spec.ContinuousCurve P.mirror.eval
  mirror0 : P.mirror.eval 0 = some (flipY (T 1))
  mirror1 : P.mirror.eval 1 = some (flipY (T 0))
  mirrorMem : ∀ s, 0 ≤ s → s ≤ 1 → ∃ u, 0 ≤ u ∧ u ≤ 1 ∧ P.mirror.eval s = some (flipY (T u))
  mirrorRun : ∃ u : ℝ → ℝ, InjOn u (Icc 0 1) ∧ u 0 = 1 ∧ u 1 = 0 ∧
    ∀ s, 0 ≤ s → s ≤ 1 → 0 ≤ u s ∧ u s ≤ 1 ∧ P.mirror.eval s = some (flipY (T (u s)))

section
variable {α : Type} {o : CurveOps α} {asEuler : M3 → ℝ × ℝ × ℝ} {tooth : α} {T : ℝ → V3}
  {pitch r θ : ℝ}

theorem rootStart_polar (h : ToothOk o tooth T pitch r θ) :
    rootStart T pitch = ![r * cos (-θ - pitch), r * sin (-θ - pitch), T 0 2] := by
  rw [rootStart, Rz_app]
  apply V3.ext3
  · simp only [flipY, Matrix.cons_val_zero, Matrix.cons_val_one, h.rootX, h.rootY, cos_sub, cos_neg, sin_neg]
    ring
  · simp only [flipY, Matrix.cons_val_zero, Matrix.cons_val_one, h.rootX, h.rootY, sin_sub, cos_neg, sin_neg]
    ring
  · simp [flipY]

/-- The gap arc, the tooth, the tip arc and the mirrored flank have positive lengths, if active. -/
theorem ProfileFacts.allPos (h : ToothOk o tooth T pitch r θ) {P : RefProfile α}
    (f : ProfileFacts o tooth T pitch P) : AllPos (sumOps o curveOps) (P.chain o) := by
  rw [f.chain_eq]
  intro a ha hact
  simp only [List.mem_cons, List.not_mem_nil, or_false] at ha
  rcases ha with rfl | rfl | rfl | rfl
  · rcases f.rd with ⟨-, -, hl, -⟩ | ⟨-, hi⟩
    · exact hl
    · change P.rd.active = true at hact; rw [hi] at hact; cases hact
  · exact h.len
  · rcases f.ra with ⟨-, -, hl, -⟩ | ⟨-, hi⟩
    · exact hl
    · change P.ra.active = true at hact; rw [hi] at hact; cases hact
  · exact f.mirrorLen

/-- Start and end of the profile. -/
theorem ProfileFacts.ends (h : ToothOk o tooth T pitch r θ) {P : RefProfile α}
    (f : ProfileFacts o tooth T pitch P) :
    chainEval (sumOps o curveOps) (P.chain o) 1 = some (flipY (T 0)) ∧
    (1 / 10 ^ 10 < norm3 (rootStart T pitch - T 0) →
      chainEval (sumOps o curveOps) (P.chain o) 0 = some (rootStart T pitch)) ∧
    (norm3 (rootStart T pitch - T 0) ≤ 1 / 10 ^ 10 →
      chainEval (sumOps o curveOps) (P.chain o) 0 = some (T 0)) := by
  have hall := f.allPos h
  rw [f.chain_eq] at hall ⊢
  have hlast : ∀ (i : ℕ) (c : α ⊕ Curve), 3 < i →
      [Sum.inr P.rd, .inl tooth, .inr P.ra, .inr P.mirror][i]? = some c →
      (sumOps o curveOps).active c = false := by
    intro i c hi hc
    rw [List.getElem?_eq_none (by simp; omega)] at hc
    cases hc
  rcases f.rd with ⟨hg, hf, hl, e0, e1⟩ | ⟨hg, hi⟩
  · obtain ⟨a, b⟩ := c44_ends _ hall 0 3 (.inr P.rd) (.inr P.mirror) rfl rfl hf.active f.mirrorActive
      (fun i c hi => by omega) hlast
    exact ⟨b.trans f.mirror1, fun _ => a.trans e0, fun hx => absurd hx (not_le.2 hg)⟩
  · obtain ⟨a, b⟩ := c44_ends _ hall 1 3 (.inl tooth) (.inr P.mirror) rfl rfl h.active f.mirrorActive
      (fun i c hi' hc => by
        obtain rfl : i = 0 := by omega
        cases hc; exact hi) hlast
    exact ⟨b.trans f.mirror1, fun hx => absurd hg (not_le.2 hx),
      fun _ => a.trans (h.eval 0 (le_refl _) zero_le_one)⟩

theorem refresh_fix {β : Type} {p : CurveOps β} {a : β} (h : p.updateLengths a = a) : refresh p a = a := by
  rw [refresh]; split_ifs
  · exact h
  · rfl

/-- `closeProfile` succeeds on such a tooth. -/
theorem close_facts (hE : EulerOk asEuler) (h : ToothOk o tooth T pitch r θ) (rA rD rO : ℝ) (centerO : V3) :
    ∃ P, closeProfile o asEuler tooth rA rD rO centerO pitch = some P ∧ ProfileFacts o tooth T pitch P ∧
      ∃ q0 q1, chainEval (sumOps o curveOps) (P.chain o) 0 = some q0 ∧
        chainEval (sumOps o curveOps) (P.chain o) 1 = some q1 ∧
        P.ro = arcInit rO (arctan2 (q1 1) (q1 0) - arctan2 (q0 1) (q0 0)) centerO (arctan2 (q0 1) (q0 0))
          0 0 true ∧
        closingArc asEuler (T 1) (flipY (T 1)) (T 1) rA = some P.ra ∧
        closingArc asEuler (rootStart T pitch) (T 0) (T 0) rD = some P.rd := by
  obtain ⟨g, hg⟩ : ∃ g : ℝ → V3, g = fun t => (o.eval tooth t).getD 0 := ⟨_, rfl⟩
  have hgT : ∀ s, 0 ≤ s → s ≤ 1 → g s = T s := by
    intro s h0 h1; rw [hg]; simp only [h.eval s h0 h1, Option.getD_some]
  have hls : ∀ i : ℕ, i ≤ 20 → 0 ≤ linspace 0 1 20 i ∧ linspace 0 1 20 i ≤ 1 := by
    intro i hi
    constructor
    · have := linspace_mono (zero_le_one (α := ℝ)) 20 (Nat.zero_le i)
      rwa [linspace_zero] at this
    · have := linspace_mono (zero_le_one (α := ℝ)) 20 hi
      rwa [linspace_last _ _ (by norm_num)] at this
  obtain ⟨m, m1, m2, m3, m4, m5, m6, m7, m8, m9, m10⟩ := mirror_facts g
    (h.cont.congr fun s hs => hgT s hs.1 hs.2) (by
      intro i hi
      rw [hgT _ (hls i hi.le).1 (hls i hi.le).2, hgT _ (hls (i + 1) hi).1 (hls (i + 1) hi).2]
      exact h.distinct i hi)
  rw [hgT 1 zero_le_one (le_refl _)] at m3 m5
  rw [hgT 0 (le_refl _) zero_le_one] at m4 m6
  obtain ⟨ρ, r1, -, r2, r3⟩ := c51_rotated m.reverse.evalD m.reverse.active (-pitch) OUT ORIGIN OUT_ne
  have hd2 : ρ.evalD 1 = rootStart T pitch := by
    rw [Curve.evalD, r3, norm3_OUT, inv_one, one_smul, ORIGIN_eq, sub_zero, zero_add, Option.getD_some,
      rodrigues_OUT, Curve.evalD, m4, Option.getD_some, rootStart]
  have ha2 : m.reverse.evalD 0 = flipY (T 1) := by rw [Curve.evalD, m3, Option.getD_some]
  have hpi := pi_pos
  -- the two arcs
  have hra : ∃ ra, closingArc asEuler (T 1) (flipY (T 1)) (T 1) rA = some ra ∧
      refresh curveOps ra = ra ∧
      ((1 / 10 ^ 10 < norm3 (T 1 - flipY (T 1)) ∧ ArcFacts ra ∧ 0 < ra.length ∧
        ra.eval 0 = some (T 1) ∧ ra.eval 1 = some (flipY (T 1))) ∨
      (norm3 (T 1 - flipY (T 1)) ≤ 1 / 10 ^ 10 ∧ ra.active = false)) := by
    rcases lt_or_ge (1 / 10 ^ 10) (norm3 (T 1 - flipY (T 1))) with hgap | hgap
    · have hy : T 1 1 ≠ 0 := by
        intro e
        have : T 1 - flipY (T 1) = 0 := by apply V3.ext3 <;> simp [flipY, e]
        rw [this, norm3_eq_zero.2 rfl] at hgap
        norm_num at hgap
      obtain ⟨c, c1, c2, c3, c4, c5⟩ := closingArc_active hE (T 1) rA (p := T 1) (q := flipY (T 1))
        (by simp [flipY]) (by simp [flipY]) (by
          simp only [flipY, Matrix.cons_val_zero, Matrix.cons_val_one]
          have := mul_ne_zero h.tip.ne' hy
          intro e; apply this; linarith) hgap
      exact ⟨c, c1, refresh_fix c2.fix, Or.inl ⟨hgap, c2, c3, c4, c5⟩⟩
    · obtain ⟨c, c1, c2⟩ := closingArc_inactive (asEuler := asEuler) (T 1) rA hgap
      refine ⟨c, c1, ?_, Or.inr ⟨hgap, c2⟩⟩
      rw [refresh, if_neg (by change ¬ c.active = true; rw [c2]; simp)]
  have hrd : ∃ rd, closingArc asEuler (rootStart T pitch) (T 0) (T 0) rD = some rd ∧
      refresh curveOps rd = rd ∧
      ((1 / 10 ^ 10 < norm3 (rootStart T pitch - T 0) ∧ ArcFacts rd ∧ 0 < rd.length ∧
        rd.eval 0 = some (rootStart T pitch) ∧ rd.eval 1 = some (T 0)) ∨
      (norm3 (rootStart T pitch - T 0) ≤ 1 / 10 ^ 10 ∧ rd.active = false)) := by
    rcases lt_or_ge (1 / 10 ^ 10) (norm3 (rootStart T pitch - T 0)) with hgap | hgap
    · have hne : -(pitch / 2) ≠ θ := by
        intro e
        have : rootStart T pitch - T 0 = 0 := by
          rw [rootStart_polar h, show -θ - pitch = θ by rw [← e]; ring]
          apply V3.ext3 <;> simp [h.rootX, h.rootY]
        rw [this, norm3_eq_zero.2 rfl] at hgap
        norm_num at hgap
      have hlt : -(pitch / 2) < θ := lt_of_le_of_ne h.angleGe hne
      have hs : 0 < sin (2 * θ + pitch) := sin_pos_of_pos_of_lt_pi (by linarith)
        (by have := h.pitchLe; have := h.angleLt; linarith)
      obtain ⟨c, c1, c2, c3, c4, c5⟩ := closingArc_active hE (T 0) rD (p := rootStart T pitch) (q := T 0)
        (by rw [rootStart_polar h]; simp) (by
          rw [rootStart_polar h, h.rootX, h.rootY]
          simp only [Matrix.cons_val_zero, Matrix.cons_val_one]
          linear_combination r ^ 2 * (sin_sq_add_cos_sq (-θ - pitch) - sin_sq_add_cos_sq θ)) (by
          rw [rootStart_polar h, h.rootX, h.rootY]
          simp only [Matrix.cons_val_zero, Matrix.cons_val_one]
          have e : r * cos (-θ - pitch) * (r * sin θ) - r * sin (-θ - pitch) * (r * cos θ) =
              r ^ 2 * sin (2 * θ + pitch) := by
            rw [show 2 * θ + pitch = θ - (-θ - pitch) by ring, sin_sub θ]; ring
          rw [e]
          have := h.rootPos
          positivity) hgap
      exact ⟨c, c1, refresh_fix c2.fix, Or.inl ⟨hgap, c2, c3, c4, c5⟩⟩
    · obtain ⟨c, c1, c2⟩ := closingArc_inactive (asEuler := asEuler) (T 0) rD hgap
      refine ⟨c, c1, ?_, Or.inr ⟨hgap, c2⟩⟩
      rw [refresh, if_neg (by change ¬ c.active = true; rw [c2]; simp)]
  obtain ⟨ra, ra1, ra2, ra3⟩ := hra
  obtain ⟨rd, rd1, rd2, rd3⟩ := hrd
  have hmir : refresh curveOps m.reverse = m.reverse.updateLengths := by
    rw [refresh, if_pos (show curveOps.active m.reverse = true from m2)]; rfl
  have hfacts : ∀ ro, ProfileFacts o tooth T pitch ⟨ra, rd, ro, tooth, m.reverse.updateLengths, pitch⟩ := by
    intro ro
    refine ⟨rfl, rfl, ?_, rd3, ra3, ?_, m8, updateLengths_idem _, m9, m5, m6, ?_, ?_⟩
    · have hm' : refresh curveOps m.reverse.updateLengths = m.reverse.updateLengths :=
        refresh_fix (updateLengths_idem _)
      rw [refresh] at ra2 rd2 hm'
      have ht := refresh_fix h.fix
      rw [refresh] at ht
      simp only [RefProfile.chain, chainUpdate, List.map_cons, List.map_nil, sumOps, Sum.elim_inr, Sum.elim_inl,
        List.cons.injEq, and_true]
      refine ⟨?_, ?_, ?_, ?_⟩
      · exact (apply_ite (Sum.inr : Curve → α ⊕ Curve) _ _ _).symm.trans (congrArg Sum.inr rd2)
      · exact (apply_ite (Sum.inl : α → α ⊕ Curve) _ _ _).symm.trans (congrArg Sum.inl ht)
      · exact (apply_ite (Sum.inr : Curve → α ⊕ Curve) _ _ _).symm.trans (congrArg Sum.inr ra2)
      · exact (apply_ite (Sum.inr : Curve → α ⊕ Curve) _ _ _).symm.trans (congrArg Sum.inr hm')
    · rw [updateLengths_active]; exact m2
    · intro s h0 h1
      obtain ⟨u, u0, u1, u2⟩ := m7 s h0 h1
      exact ⟨u, u0, u1, by rw [u2, hgT u u0 u1]⟩
    · obtain ⟨u, v1, v2, v3, v4⟩ := m10
      refine ⟨u, v1, v2, v3, fun s h0 h1 => ?_⟩
      obtain ⟨w1, w2, w3⟩ := v4 s h0 h1
      exact ⟨w1, w2, by rw [w3, hgT _ w1 w2]⟩
  have hchain : ∀ ro : Curve, RefProfile.chain o ⟨ra, rd, ro, tooth, m.reverse.updateLengths, pitch⟩ =
      RefProfile.chain o ⟨ra, rd, ra, tooth, m.reverse.updateLengths, pitch⟩ := fun ro => rfl
  obtain ⟨e1, e2, e3⟩ := (hfacts ra).ends h
  obtain ⟨q0, hq0⟩ : ∃ q0, chainEval (sumOps o curveOps)
      (RefProfile.chain o ⟨ra, rd, ra, tooth, m.reverse.updateLengths, pitch⟩) 0 = some q0 := by
    rcases lt_or_ge (1 / 10 ^ 10) (norm3 (rootStart T pitch - T 0)) with hgap | hgap
    · exact ⟨_, e2 hgap⟩
    · exact ⟨_, e3 hgap⟩
  refine ⟨⟨ra, rd, arcInit rO (arctan2 (flipY (T 0) 1) (flipY (T 0) 0) - arctan2 (q0 1) (q0 0)) centerO
    (arctan2 (q0 1) (q0 0)) 0 0 true, tooth, m.reverse.updateLengths, pitch⟩, ?_, hfacts _, q0, _, hq0, e1, rfl,
    ra1, rd1⟩
  simp only [closeProfile, ← hg, h.active, m1, r1, ha2, hd2, h.eval 1 zero_le_one (le_refl _),
    h.eval 0 (le_refl _) zero_le_one, Option.getD_some, ra1, rd1, ra2, rd2, refresh_fix h.fix, hmir, hq0, e1]

/-- The mirrored points are apart or coincide exactly: no gap is swallowed by the tolerance of the code. -/
def ExactGaps (T : ℝ → V3) (pitch : ℝ) : Prop :=
  (1 / 10 ^ 10 < norm3 (rootStart T pitch - T 0) ∨ rootStart T pitch = T 0) ∧
    (1 / 10 ^ 10 < norm3 (T 1 - flipY (T 1)) ∨ T 1 = flipY (T 1))

theorem ProfileFacts.meets (h : ToothOk o tooth T pitch r θ) (hx : ExactGaps T pitch) {P : RefProfile α}
    (f : ProfileFacts o tooth T pitch P) : Meets (sumOps o curveOps) (P.chain o) := by
  rw [f.chain_eq]
  have t0 : (sumOps o curveOps).eval (Sum.inl tooth) 0 = some (T 0) := h.eval 0 (le_refl _) zero_le_one
  have t1 : (sumOps o curveOps).eval (Sum.inl tooth) 1 = some (T 1) := h.eval 1 zero_le_one (le_refl _)
  intro j k a b hjk ha hb hact hbct hmid
  have hk : k < 4 := by
    by_contra hk
    rw [List.getElem?_eq_none (by simp; omega)] at hb
    cases hb
  obtain ⟨rfl, rfl⟩ | ⟨rfl, rfl⟩ | ⟨rfl, rfl⟩ | ⟨rfl, rfl⟩ | ⟨rfl, rfl⟩ | ⟨rfl, rfl⟩ :
      j = 0 ∧ k = 1 ∨ j = 0 ∧ k = 2 ∨ j = 0 ∧ k = 3 ∨ j = 1 ∧ k = 2 ∨ j = 1 ∧ k = 3 ∨ j = 2 ∧ k = 3 := by
    omega
  all_goals cases ha; cases hb
  · rcases f.rd with ⟨-, -, -, -, e⟩ | ⟨-, hi⟩
    · rw [t0]; exact e
    · change P.rd.active = true at hact; rw [hi] at hact; cases hact
  · have := hmid 1 (.inl tooth) (by norm_num) (by norm_num) rfl
    rw [show (sumOps o curveOps).active (Sum.inl tooth) = true from h.active] at this; cases this
  · have := hmid 1 (.inl tooth) (by norm_num) (by norm_num) rfl
    rw [show (sumOps o curveOps).active (Sum.inl tooth) = true from h.active] at this; cases this
  · rcases f.ra with ⟨-, -, -, e, -⟩ | ⟨-, hi⟩
    · rw [t1]; exact e.symm
    · change P.ra.active = true at hbct; rw [hi] at hbct; cases hbct
  · rcases f.ra with ⟨-, hf, -⟩ | ⟨hg, -⟩
    · have := hmid 2 (.inr P.ra) (by norm_num) (by norm_num) rfl
      rw [show (sumOps o curveOps).active (Sum.inr P.ra) = true from hf.active] at this; cases this
    · rcases hx.2 with h2 | h2
      · exact absurd hg (not_le.2 h2)
      · rw [t1, show (sumOps o curveOps).eval (Sum.inr P.mirror) 0 = P.mirror.eval 0 from rfl, f.mirror0, ← h2]
  · rcases f.ra with ⟨-, -, -, -, e⟩ | ⟨-, hi⟩
    · exact e.trans f.mirror0.symm
    · change P.ra.active = true at hact; rw [hi] at hact; cases hact

theorem ProfileFacts.memberCont (h : ToothOk o tooth T pitch r θ) {P : RefProfile α}
    (f : ProfileFacts o tooth T pitch P) (a : α ⊕ Curve) (ha : a ∈ P.chain o)
    (hact : (sumOps o curveOps).active a = true) : Spec.ContinuousCurve ((sumOps o curveOps).eval a) := by
  rw [f.chain_eq] at ha
  simp only [List.mem_cons, List.not_mem_nil, or_false] at ha
  rcases ha with rfl | rfl | rfl | rfl
  · rcases f.rd with ⟨-, hf, -⟩ | ⟨-, hi⟩
    · exact hf.cont
    · change P.rd.active = true at hact; rw [hi] at hact; cases hact
  · exact ⟨T, h.cont, h.eval⟩
  · rcases f.ra with ⟨-, hf, -⟩ | ⟨-, hi⟩
    · exact hf.cont
    · change P.ra.active = true at hact; rw [hi] at hact; cases hact
  · exact f.mirrorCont

/-- **C55.** For every tooth curve the profile is a continuous curve, it starts at the root of the previous
tooth's mirrored flank and ends at the root of its own, and its start turned by one pitch is its end: the
copies turned by multiples of the pitch join, and if `n` pitches are a full turn, the last one joins the
first. -/
theorem c55_profile (hE : EulerOk asEuler) (h : ToothOk o tooth T pitch r θ) (hx : ExactGaps T pitch)
    (rA rD rO : ℝ) (centerO : V3) :
    ∃ P a b, closeProfile o asEuler tooth rA rD rO centerO pitch = some P ∧
      Spec.ContinuousCurve (chainEval (sumOps o curveOps) (P.chain o)) ∧
      chainEval (sumOps o curveOps) (P.chain o) 0 = some a ∧
      chainEval (sumOps o curveOps) (P.chain o) 1 = some b ∧
      b = ![T 0 0, -T 0 1, T 0 2] ∧ app (Rz pitch) a = b ∧
      (∀ k : ℕ, app (Rz (k * pitch)) b = app (Rz ((k + 1 : ℕ) * pitch)) a) ∧
      ∀ n : ℕ, n * pitch = 2 * π → app (Rz (n * pitch)) a = a := by
  obtain ⟨P, hP, f, -⟩ := close_facts hE h rA rD rO centerO
  obtain ⟨e1, e2, e3⟩ := f.ends h
  have e0 : chainEval (sumOps o curveOps) (P.chain o) 0 = some (rootStart T pitch) := by
    rcases hx.1 with h1 | h1
    · exact e2 h1
    · rw [e3 (by rw [h1, sub_self, norm3_eq_zero.2 rfl]; positivity), h1]
  have hab : app (Rz pitch) (rootStart T pitch) = flipY (T 0) := by
    rw [rootStart, ← app_mul, ← Rz_add, add_neg_cancel, Rz_zero, app_one]
  refine ⟨P, _, _, hP, ?_, e0, e1, rfl, hab, ?_, ?_⟩
  · exact c44_continuous _ (f.allPos h) (f.meets h hx)
      ⟨.inl tooth, by rw [f.chain_eq]; simp, h.active⟩ (f.memberCont h)
  · intro k
    rw [← hab, ← app_mul, ← Rz_add]
    push_cast
    rw [add_mul, one_mul]
  · intro n hn
    rw [hn]
    have := Rz_two_pi_int 1
    rw [Int.cast_one, mul_one] at this
    rw [this, app_one]

/-- **C55, small gaps (partial).** If the mirrored points differ by no more than the tolerance `1e-10`, the
joints are off by at most that. Missing: exact continuity, which does not hold then. -/
theorem c55_gap_partial (hE : EulerOk asEuler) (h : ToothOk o tooth T pitch r θ) (rA rD rO : ℝ)
    (centerO : V3) :
    ∃ P a b, closeProfile o asEuler tooth rA rD rO centerO pitch = some P ∧
      chainEval (sumOps o curveOps) (P.chain o) 0 = some a ∧
      chainEval (sumOps o curveOps) (P.chain o) 1 = some b ∧
      norm3 (app (Rz pitch) a - b) ≤ 1 / 10 ^ 10 ∧
      (P.ra.active = false → ∃ p q, o.eval P.tooth 1 = some p ∧ P.mirror.eval 0 = some q ∧
        norm3 (p - q) ≤ 1 / 10 ^ 10) := by
  obtain ⟨P, hP, f, -⟩ := close_facts hE h rA rD rO centerO
  obtain ⟨e1, e2, e3⟩ := f.ends h
  have hab : app (Rz pitch) (rootStart T pitch) = flipY (T 0) := by
    rw [rootStart, ← app_mul, ← Rz_add, add_neg_cancel, Rz_zero, app_one]
  have hra : P.ra.active = false → ∃ p q, o.eval P.tooth 1 = some p ∧ P.mirror.eval 0 = some q ∧
        norm3 (p - q) ≤ 1 / 10 ^ 10 := by
    intro hi
    refine ⟨T 1, flipY (T 1), by rw [f.tooth_eq]; exact h.eval 1 zero_le_one (le_refl _), f.mirror0, ?_⟩
    rcases f.ra with ⟨-, hf, -⟩ | ⟨hg, -⟩
    · rw [hf.active] at hi; cases hi
    · exact hg
  rcases lt_or_ge (1 / 10 ^ 10) (norm3 (rootStart T pitch - T 0)) with hg | hg
  · refine ⟨P, _, _, hP, e2 hg, e1, ?_, hra⟩
    rw [hab, sub_self, norm3_eq_zero.2 rfl]; positivity
  · refine ⟨P, _, _, hP, e3 hg, e1, ?_, hra⟩
    rw [← hab, ← app_sub, (IsRot.Rz _).norm_app, ← norm3_neg, neg_sub]
    exact hg

/-- **C55, the ring segment.** The segment of the outside ring that belongs to one tooth starts in the
direction of the profile's start, ends in the direction of its end and spans exactly one pitch. -/
theorem c55_ring (hE : EulerOk asEuler) (h : ToothOk o tooth T pitch r θ) (hx : ExactGaps T pitch)
    (rA rD rO : ℝ) (centerO : V3) :
    ∃ P, closeProfile o asEuler tooth rA rD rO centerO pitch = some P ∧
      (∃ z, chainEval (sumOps o curveOps) (P.chain o) 0 =
        some ![r * cos (-θ - pitch), r * sin (-θ - pitch), z]) ∧
      ∀ s, P.ro.eval s = some (centerO + ![rO * cos (-θ - pitch + pitch * s),
        rO * sin (-θ - pitch + pitch * s), 0]) := by
  obtain ⟨P, hP, f, q0, q1, hq0, hq1, hro, -⟩ := close_facts hE h rA rD rO centerO
  obtain ⟨e1, e2, e3⟩ := f.ends h
  have e0 : chainEval (sumOps o curveOps) (P.chain o) 0 = some (rootStart T pitch) := by
    rcases hx.1 with h1 | h1
    · exact e2 h1
    · rw [e3 (by rw [h1, sub_self, norm3_eq_zero.2 rfl]; positivity), h1]
  rw [e0] at hq0
  rw [e1] at hq1
  cases hq0
  cases hq1
  have hpi := pi_pos
  have a0 : arctan2 (rootStart T pitch 1) (rootStart T pitch 0) = -θ - pitch := by
    rw [rootStart_polar h]
    exact arctan2_polar h.rootPos (by linarith [h.angleLt, h.pitchLe]) (by linarith [h.angleGe, h.pitchPos])
  have a1 : arctan2 (flipY (T 0) 1) (flipY (T 0) 0) = -θ := by
    have e : flipY (T 0) 1 = r * sin (-θ) := by
      simp only [flipY, Matrix.cons_val_one, Matrix.cons_val_zero, h.rootY, sin_neg]; ring
    have e' : flipY (T 0) 0 = r * cos (-θ) := by
      simp only [flipY, Matrix.cons_val_zero, h.rootX, cos_neg]
    rw [e, e']
    exact arctan2_polar h.rootPos (by linarith [h.angleLt]) (by linarith [h.angleGe, h.pitchLe])
  refine ⟨P, hP, ⟨_, by rw [e0, rootStart_polar h]⟩, fun s => ?_⟩
  rw [hro, a0, a1, arcInit, make_eval _ (by intro f n h; cases h)]
  congr 1
  have hz : eulerZYX (-θ - pitch) 0 0 = Rz (-θ - pitch) := by
    have hx : Rx 0 = 1 := by ext i j; fin_cases i <;> fin_cases j <;> simp [Rx]
    have hy : Ry 0 = 1 := by ext i j; fin_cases i <;> fin_cases j <;> simp [Ry]
    rw [eulerZYX, hx, hy, one_mul, one_mul]
  simp only [CurveKind.fn, hz]
  rw [← Rz_add, Rz_app, show -θ - (-θ - pitch) = pitch by ring]
  apply V3.ext3 <;> simp [RIGHT, Matrix.cons_val] <;> ring

end

/-- A straight flank, one quarter turn per tooth: root point at radius 2 and angle -30°, tip point `(3, -1/2)`. -/
noncomputable def exampleFlank : ℝ → V3 := fun s => (1 - s) • (![√3, -1, 0] : V3) + s • ![3, -1 / 2, 0]

theorem exampleFlank_ok : ToothOk curveOps (lineC ![√3, -1, 0] ![3, -1 / 2, 0]) exampleFlank (π / 2) 2 (-(π / 6)) := by
  have hpi := pi_pos
  have h3 : (√3 : ℝ) ^ 2 = 3 := sq_sqrt (by norm_num)
  have h3' : (√3 : ℝ) < 2 := by nlinarith [sqrt_nonneg (3 : ℝ)]
  refine ⟨lineC_active ![√3, -1, 0] ![3, -1 / 2, 0], (lineC_fresh ![√3, -1, 0] ![3, -1 / 2, 0]).2, ?_,
    fun s _ _ => lineC_eval ![√3, -1, 0] ![3, -1 / 2, 0] s, ?_, ?_, by linarith,
    by linarith, by norm_num, ?_, ?_, by linarith, by linarith, ?_⟩
  · change 0 < (lineC _ _).length
    rw [lineC_length]
    apply norm3_pos
    intro h
    have := congrFun h 1
    norm_num at this
  · refine Continuous.continuousOn ?_
    unfold exampleFlank
    fun_prop
  · intro i _ h
    have := congrFun h 1
    simp [exampleFlank, linspace] at this
    linarith
  · simp [exampleFlank]; ring
  · simp [exampleFlank]
  · simp [exampleFlank]

theorem le_of_sq_le_sq' {v : V3} {a : ℝ} (h : a ^ 2 ≤ dot v v) : a ≤ norm3 v := by
  rw [← norm3_sq] at h
  exact le_of_sq_le_sq h (norm3_nonneg _)

theorem exampleFlank_gaps : ExactGaps exampleFlank (π / 2) := by
  have h1 : 1 / 10 ^ 10 < (1 : ℝ) / 2 := by norm_num
  constructor
  · left
    rw [rootStart_polar exampleFlank_ok]
    refine lt_of_lt_of_le h1 ?_
    have h3 : (√3 : ℝ) ^ 2 = 3 := sq_sqrt (by norm_num)
    have h3' : (3 : ℝ) / 2 < √3 := by nlinarith [sqrt_nonneg (3 : ℝ)]
    have e1 : - -(π / 6) - π / 2 = -(π / 3) := by ring
    rw [e1, cos_neg, sin_neg, cos_pi_div_three, sin_pi_div_three]
    refine le_of_sq_le_sq' ?_
    simp [dot, exampleFlank]
    nlinarith
  · left
    refine lt_of_lt_of_le h1 (le_of_sq_le_sq' ?_)
    simp [dot, exampleFlank, flipY]
    norm_num

/-- A profile that meets the hypotheses of C55: four straight teeth. -/
example : ∃ asEuler P a b, EulerOk asEuler ∧
    closeProfile curveOps asEuler (lineC ![√3, -1, 0] ![3, -1 / 2, 0]) 3 2 5 ORIGIN (π / 2) = some P ∧
      Spec.ContinuousCurve (chainEval (sumOps curveOps curveOps) (P.chain curveOps)) ∧
      chainEval (sumOps curveOps curveOps) (P.chain curveOps) 0 = some a ∧
      chainEval (sumOps curveOps curveOps) (P.chain curveOps) 1 = some b ∧
      b = ![√3, 1, 0] ∧ app (Rz (π / 2)) a = b ∧ app (Rz ((4 : ℕ) * (π / 2))) a = a := by
  obtain ⟨asEuler, hE⟩ := eulerOk_exists
  obtain ⟨P, a, b, h1, h2, h3, h4, h5, h6, -, h8⟩ := c55_profile hE exampleFlank_ok exampleFlank_gaps 3 2 5 ORIGIN
  refine ⟨asEuler, P, a, b, hE, h1, h2, h3, h4, ?_, h6, h8 4 (by push_cast; ring)⟩
  rw [h5]
  apply V3.ext3 <;> simp [exampleFlank]

end Verif
