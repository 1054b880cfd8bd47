import Verif.Props.Profile

/-! # Chains made of pieces that follow each other -/

namespace Verif

open Real Set

/-- An active member with a positive, up to date length that runs continuously from `a` to `b`. -/
structure Seg {β : Type} (p : CurveOps β) (x : β) (a b : V3) : Prop where
  active : p.active x = true
  fix : p.updateLengths x = x
  len : 0 < p.length x
  cont : Spec.ContinuousCurve (p.eval x)
  start : p.eval x 0 = some a
  stop : p.eval x 1 = some b

/-- The active members of a list run, one after the other, from `a` to `b`. -/
inductive Path {β : Type} (p : CurveOps β) : List β → V3 → V3 → Prop
  | nil (a : V3) : Path p [] a a
  | cons {x : β} {l : List β} {a b c : V3} : Seg p x a b → Path p l b c → Path p (x :: l) a c
  | skip {x : β} {l : List β} {a b : V3} : p.active x = false → Path p l a b → Path p (x :: l) a b

section
variable {β : Type} {p : CurveOps β}

theorem Path.append {l m : List β} {a b c : V3} (h : Path p l a b) (h' : Path p m b c) :
    Path p (l ++ m) a c := by
  induction h with
  | nil => exact h'
  | cons hs _ ih => exact .cons hs (ih h')
  | skip hi _ ih => exact .skip hi (ih h')

theorem Path.update {l : List β} {a b : V3} (h : Path p l a b) : chainUpdate p l = l := by
  induction h with
  | nil => rfl
  | cons hs _ ih =>
    rw [chainUpdate] at ih ⊢
    rw [List.map_cons, ih, if_pos hs.active, hs.fix]
  | skip hi _ ih =>
    rw [chainUpdate] at ih ⊢
    rw [List.map_cons, ih, if_neg (by rw [hi]; simp)]

theorem Path.allPos {l : List β} {a b : V3} (h : Path p l a b) : AllPos p l := by
  induction h with
  | nil => intro x hx; cases hx
  | cons hs _ ih =>
    intro y hy hact
    rcases List.mem_cons.1 hy with rfl | hy
    · exact hs.len
    · exact ih y hy hact
  | skip hi _ ih =>
    intro y hy hact
    rcases List.mem_cons.1 hy with rfl | hy
    · rw [hi] at hact; cases hact
    · exact ih y hy hact

theorem Path.memberCont {l : List β} {a b : V3} (h : Path p l a b) (x : β) (hx : x ∈ l)
    (hact : p.active x = true) : Spec.ContinuousCurve (p.eval x) := by
  induction h with
  | nil => cases hx
  | cons hs _ ih =>
    rcases List.mem_cons.1 hx with rfl | hy
    · exact hs.cont
    · exact ih hy
  | skip hi _ ih =>
    rcases List.mem_cons.1 hx with rfl | hy
    · rw [hi] at hact; cases hact
    · exact ih hy

/-- Without an active member nothing is run through. -/
theorem Path.idle {l : List β} {a b : V3} (h : Path p l a b)
    (hi : ∀ (i : ℕ) (c : β), l[i]? = some c → p.active c = false) : a = b := by
  induction h with
  | nil => rfl
  | cons hs _ _ =>
    have := hi 0 _ rfl
    rw [hs.active] at this; cases this
  | skip _ _ ih => exact ih fun i c hc => hi (i + 1) c hc

/-- The first active member starts at the start. -/
theorem Path.first {l : List β} {a b : V3} (h : Path p l a b) (k : ℕ) (x : β) (hx : l[k]? = some x)
    (hact : p.active x = true) (hf : ∀ (i : ℕ) (c : β), i < k → l[i]? = some c → p.active c = false) :
    p.eval x 0 = some a := by
  induction h generalizing k with
  | nil => cases hx
  | cons hs _ _ =>
    rcases k with _ | k
    · cases hx; exact hs.start
    · have := hf 0 _ (by omega) rfl
      rw [hs.active] at this; cases this
  | skip hi _ ih =>
    rcases k with _ | k
    · cases hx; rw [hi] at hact; cases hact
    · exact ih k hx fun i c hik hc => hf (i + 1) c (by omega) hc

/-- The last active member stops at the end. -/
theorem Path.last {l : List β} {a b : V3} (h : Path p l a b) (k : ℕ) (x : β) (hx : l[k]? = some x)
    (hact : p.active x = true) (hf : ∀ (i : ℕ) (c : β), k < i → l[i]? = some c → p.active c = false) :
    p.eval x 1 = some b := by
  induction h generalizing k with
  | nil => cases hx
  | cons hs ht ih =>
    rcases k with _ | k
    · cases hx
      rw [hs.stop, ht.idle fun i c hc => hf (i + 1) c (by omega) hc]
    · exact ih k hx fun i c hik hc => hf (i + 1) c (by omega) hc
  | skip hi _ ih =>
    rcases k with _ | k
    · cases hx; rw [hi] at hact; cases hact
    · exact ih k hx fun i c hik hc => hf (i + 1) c (by omega) hc

theorem Path.meets {l : List β} {a b : V3} (h : Path p l a b) : Meets p l := by
  induction h with
  | nil => intro j k x y _ hx; cases hx
  | cons hs ht ih =>
    intro j k x y hjk hx hy hxa hya hbet
    obtain ⟨k, rfl⟩ : ∃ k', k = k' + 1 := ⟨k - 1, by omega⟩
    rcases j with _ | j
    · cases hx
      rw [hs.stop]
      exact (ht.first k y hy hya fun i c hik hc => hbet (i + 1) c (by omega) (by omega) hc).symm
    · exact ih j k x y (by omega) hx hy hxa hya fun i c h1 h2 hc => hbet (i + 1) c (by omega) (by omega) hc
  | skip hi _ ih =>
    intro j k x y hjk hx hy hxa hya hbet
    obtain ⟨k, rfl⟩ : ∃ k', k = k' + 1 := ⟨k - 1, by omega⟩
    rcases j with _ | j
    · cases hx; rw [hi] at hxa; cases hxa
    · exact ih j k x y (by omega) hx hy hxa hya fun i c h1 h2 hc => hbet (i + 1) c (by omega) (by omega) hc

theorem exists_first_active {l : List β} (hex : ∃ x ∈ l, p.active x = true) :
    ∃ (k : ℕ) (x : β), l[k]? = some x ∧ p.active x = true ∧
      ∀ (i : ℕ) (c : β), i < k → l[i]? = some c → p.active c = false := by
  induction l with
  | nil => obtain ⟨x, hx, _⟩ := hex; cases hx
  | cons y l ih =>
    by_cases hy : p.active y = true
    · exact ⟨0, y, rfl, hy, fun i c hi => by omega⟩
    · obtain ⟨x, hx, hact⟩ := hex
      rcases List.mem_cons.1 hx with rfl | hx
      · exact absurd hact hy
      · obtain ⟨k, z, hz, hza, hf⟩ := ih ⟨x, hx, hact⟩
        refine ⟨k + 1, z, hz, hza, ?_⟩
        intro i c hi hc
        rcases i with _ | i
        · cases hc; simpa using hy
        · exact hf i c (by omega) hc

theorem exists_last_active {l : List β} (hex : ∃ x ∈ l, p.active x = true) :
    ∃ (k : ℕ) (x : β), l[k]? = some x ∧ p.active x = true ∧
      ∀ (i : ℕ) (c : β), k < i → l[i]? = some c → p.active c = false := by
  induction l with
  | nil => obtain ⟨x, hx, _⟩ := hex; cases hx
  | cons y l ih =>
    by_cases hl : ∃ x ∈ l, p.active x = true
    · obtain ⟨k, z, hz, hza, hf⟩ := ih hl
      refine ⟨k + 1, z, hz, hza, ?_⟩
      intro i c hi hc
      obtain ⟨i, rfl⟩ : ∃ i', i = i' + 1 := ⟨i - 1, by omega⟩
      exact hf i c (by omega) hc
    · obtain ⟨x, hx, hact⟩ := hex
      rcases List.mem_cons.1 hx with rfl | hx
      · refine ⟨0, x, rfl, hact, ?_⟩
        intro i c hi hc
        obtain ⟨i, rfl⟩ : ∃ i', i = i' + 1 := ⟨i - 1, by omega⟩
        by_contra hne
        exact hl ⟨c, List.mem_of_getElem? hc, by simpa using hne⟩
      · exact absurd ⟨x, hx, hact⟩ hl

/-- A chain of pieces that follow each other is a continuous curve from the start to the end. -/
theorem Path.chain {l : List β} {a b : V3} (h : Path p l a b) (hex : ∃ x ∈ l, p.active x = true) :
    Spec.ContinuousCurve (chainEval p l) ∧ chainEval p l 0 = some a ∧ chainEval p l 1 = some b := by
  refine ⟨c44_continuous l h.allPos h.meets hex h.memberCont, ?_⟩
  obtain ⟨j, x, hx, hxa, hf⟩ := exists_first_active hex
  obtain ⟨k, y, hy, hya, hl⟩ := exists_last_active hex
  obtain ⟨e0, e1⟩ := c44_ends l h.allPos j k x y hx hy hxa hya hf hl
  exact ⟨e0.trans (h.first j x hx hxa hf), e1.trans (h.last k y hy hya hl)⟩

theorem Path.chainLen_pos {l : List β} {a b : V3} (h : Path p l a b) (hex : ∃ x ∈ l, p.active x = true) :
    0 < chainLen p l := by
  induction h with
  | nil => obtain ⟨x, hx, _⟩ := hex; cases hx
  | @cons x l a b c hs ht ih =>
    have hl : 0 ≤ chainLen p l := by
      by_cases he : ∃ x ∈ l, p.active x = true
      · exact (ih he).le
      · rw [chainLen]
        refine List.sum_nonneg ?_
        intro y hy
        obtain ⟨z, hz, rfl⟩ := List.mem_map.1 hy
        rw [CurveOps.len, if_neg fun hza => he ⟨z, hz, hza⟩]
    have := hs.len
    rw [chainLen, List.map_cons, List.sum_cons, CurveOps.len, if_pos hs.active]
    rw [chainLen] at hl
    linarith
  | @skip x l a b hi ht ih =>
    obtain ⟨x', hx, hact⟩ := hex
    rcases List.mem_cons.1 hx with rfl | hx
    · rw [hi] at hact; cases hact
    · have := ih ⟨x', hx, hact⟩
      rw [chainLen] at this ⊢
      rw [List.map_cons, List.sum_cons, CurveOps.len, if_neg (by rw [hi]; simp)]
      linarith

/-- A chain as a member of a chain. -/
theorem Path.seg {l : List β} {a b : V3} (h : Path p l a b) (hex : ∃ x ∈ l, p.active x = true) :
    Seg (chainOps p) ⟨l, true⟩ a b := by
  obtain ⟨hc, h0, h1⟩ := h.chain hex
  refine ⟨?_, ?_, h.chainLen_pos hex, hc, h0, h1⟩
  · simp only [chainOps, Bool.true_and, List.any_eq_true]
    exact hex
  · simp only [chainOps, h.update]

theorem Seg.inl {γ : Type} {q : CurveOps γ} {x : β} {a b : V3} (h : Seg p x a b) :
    Seg (sumOps p q) (.inl x) a b :=
  ⟨h.active, congrArg Sum.inl h.fix, h.len, h.cont, h.start, h.stop⟩

theorem Seg.inr {γ : Type} {q : CurveOps γ} {x : β} {a b : V3} (h : Seg p x a b) :
    Seg (sumOps q p) (.inr x) a b :=
  ⟨h.active, congrArg Sum.inr h.fix, h.len, h.cont, h.start, h.stop⟩

end

/-! ### Lines and arcs -/

/-- An untrimmed line or arc. -/
structure Plain (c : Curve) (a b : V3) : Prop where
  kind : ∀ f n, c.kind ≠ .generic f n
  cont : Continuous c.kind.fn
  made : ∃ k, c = Curve.make k true 0 1
  len : 0 < c.length
  start : c.eval 0 = some a
  stop : c.eval 1 = some b

theorem made_kind (k : CurveKind) (t0 t1 : ℝ) : (Curve.make k true t0 t1).kind = k := by
  rw [Curve.make, if_pos rfl, updateLengths_kind]

theorem Plain.seg {c : Curve} {a b : V3} (h : Plain c a b) : Seg curveOps c a b := by
  obtain ⟨k, hk⟩ := h.made
  have hkind : ∀ f n, k ≠ .generic f n := by
    intro f n e; exact h.kind f n (by rw [hk, made_kind, e])
  refine ⟨?_, ?_, h.len, ⟨c.kind.fn, h.cont.continuousOn, fun s _ _ => ?_⟩, h.start, h.stop⟩
  · change c.active = true
    rw [hk, Curve.make, if_pos rfl, updateLengths_active]
  · change c.updateLengths = c
    rw [hk, updateLengths_fix_make]
  · change c.eval s = _
    rw [hk, make_eval k hkind, made_kind]

/-- The reversed copy runs back. -/
theorem Plain.reverse {c : Curve} {a b : V3} (h : Plain c a b) :
    Seg curveOps c.reverse.updateLengths b a := by
  obtain ⟨k, hk⟩ := h.made
  have hkind : ∀ f n, k ≠ .generic f n := by
    intro f n e; exact h.kind f n (by rw [hk, made_kind, e])
  have hck : c.kind = k := by rw [hk, made_kind]
  have ht0 : c.t0 = 0 := by rw [hk, Curve.make, if_pos rfl, updateLengths_t0]
  have ht1 : c.t1 = 1 := by rw [hk, Curve.make, if_pos rfl, updateLengths_t1]
  have hev : ∀ s, c.reverse.updateLengths.eval s = some (c.kind.fn (1 - s)) := by
    intro s
    rw [Curve.eval, s2t_line_arc _ (by intro f n; exact h.kind f n), updateLengths_kind]
    simp only [Curve.reverse, ht0, ht1, Option.map_some]
    congr 2
    ring
  have hev' : ∀ s, c.eval s = some (c.kind.fn s) := by
    intro s; rw [hck, hk, make_eval k hkind]
  refine ⟨?_, updateLengths_idem _, ?_, ⟨fun s => c.kind.fn (1 - s), ?_, fun s _ _ => hev s⟩, ?_, ?_⟩
  · change c.reverse.updateLengths.active = true
    rw [updateLengths_active]
    exact h.seg.active
  · change 0 < c.reverse.updateLengths.length
    have hl := h.len
    rw [← show c.updateLengths = c from h.seg.fix] at hl
    rw [Curve.updateLengths] at hl ⊢
    have hrk : c.reverse.kind = c.kind := rfl
    rw [hrk]
    cases hc : c.kind with
    | generic f n => exact absurd hc (h.kind f n)
    | line p q =>
      rw [hc] at hl
      simp only [Curve.reverse, ht0, ht1] at hl ⊢
      rwa [abs_sub_comm]
    | arc r θ m M => rw [hc] at hl; exact hl
  · exact (h.cont.comp (by fun_prop)).continuousOn
  · change c.reverse.updateLengths.eval 0 = _
    rw [hev, sub_zero, ← hev', h.stop]
  · change c.reverse.updateLengths.eval 1 = _
    rw [hev, sub_self, ← hev', h.start]

theorem line_plain {p q : V3} (h : p ≠ q) : Plain (Curve.make (.line p q) true 0 1) p q := by
  refine ⟨(by intro f n e; rw [made_kind] at e; cases e), ?_, ⟨_, rfl⟩, ?_, ?_, ?_⟩
  · rw [made_kind]
    change Continuous fun t : ℝ => (1 - t) • p + t • q
    fun_prop
  · change 0 < (lineC p q).length
    rw [lineC_length]
    exact norm3_pos (sub_ne_zero.2 h.symm)
  · change (lineC p q).eval 0 = _
    rw [lineC_eval]; simp
  · change (lineC p q).eval 1 = _
    rw [lineC_eval]; simp

theorem arcInit_plain {r a : ℝ} {center : V3} {yaw pitch roll : ℝ} {p q : V3} (h : 0 < r * a)
    (h0 : (arcInit r a center yaw pitch roll true).eval 0 = some p)
    (h1 : (arcInit r a center yaw pitch roll true).eval 1 = some q) :
    Plain (arcInit r a center yaw pitch roll true) p q := by
  refine ⟨(by intro f n e; rw [arcInit, made_kind] at e; cases e), ?_, ⟨_, rfl⟩, ?_, h0, h1⟩
  · rw [arcInit, made_kind]; exact arcKind_continuous _ _ _ _
  · rw [(arcInit_facts _ _ _ _ _ _).2]; exact h

theorem arc2_plain {asEuler : M3 → ℝ × ℝ × ℝ} (hE : EulerOk asEuler) (p0 p1 center : V3)
    (hl : norm3 (p0 - center) = norm3 (p1 - center)) (hw : cross (p0 - center) (p1 - center) ≠ 0) :
    ∃ c, arcFrom2PointCenter asEuler p0 p1 center 0 true = some c ∧ Plain c p0 p1 ∧
      c.arcCenter = some center := by
  obtain ⟨c, h1, h2, h3, h4, h5⟩ := arc2_facts hE p0 p1 center hl hw
  refine ⟨c, h1, ?_⟩
  have ha : p0 - center ≠ 0 := by
    intro e; rw [e] at hw; apply hw; apply V3.ext3 <;> simp
  rw [arcFrom2PointCenter, normalizeVector_some ha, normalizeVector_some hw] at h1
  simp only [Option.some.injEq] at h1
  have hlen := h3
  rw [← h1, (arcInit_facts _ _ _ _ _ _).2] at hlen
  rw [← h1] at h4 h5 ⊢
  exact ⟨arcInit_plain hlen h4 h5, by rw [Curve.arcCenter, arcInit, made_kind]⟩

/-- The point at radius `r`, angle `α` and height `z`. -/
noncomputable def cyl (r α z : ℝ) : V3 := ![r * cos α, r * sin α, z]

theorem cyl_rot (r α z β : ℝ) : app (Rz β) (cyl r α z) = cyl r (α + β) z := by
  rw [Rz_app]
  apply V3.ext3
  · simp only [cyl, Matrix.cons_val_zero, Matrix.cons_val_one, cos_add]; ring
  · simp only [cyl, Matrix.cons_val_zero, Matrix.cons_val_one, sin_add]; ring
  · simp [cyl]

theorem flipY_cyl (r α z : ℝ) : flipY (cyl r α z) = cyl r (-α) z := by
  apply V3.ext3 <;> simp [flipY, cyl]

/-- Two points of a horizontal circle around the axis, less than half a turn apart: the arc between them
runs counter-clockwise from the first to the second. -/
theorem planar_arc {asEuler : M3 → ℝ × ℝ × ℝ} (hE : EulerOk asEuler) (r z α β : ℝ) (hr : 0 < r)
    (h0 : α < β) (h1 : β < α + π) :
    ∃ c, arcFrom2PointCenter asEuler (cyl r α z) (cyl r β z) ![0, 0, z] 0 true = some c ∧
      Plain c (cyl r α z) (cyl r β z) ∧ c.arcCenter = some ![0, 0, z] ∧
      ∀ s, c.eval s = some (cyl r (α + (β - α) * s) z) := by
  have hsub : ∀ γ, cyl r γ z - ![0, 0, z] = cyl r γ 0 := by
    intro γ; apply V3.ext3 <;> simp [cyl]
  have hs : 0 < sin (β - α) := sin_pos_of_pos_of_lt_pi (by linarith) (by linarith)
  have hcr : cross (cyl r α 0) (cyl r β 0) = (r ^ 2 * sin (β - α)) • OUT := by
    apply V3.ext3
    · simp [cross, cyl, OUT]
    · simp [cross, cyl, OUT]
    · simp only [cross, cyl, OUT, Pi.smul_apply, smul_eq_mul, Matrix.cons_val_zero, Matrix.cons_val_one,
        Matrix.cons_val, sin_sub]
      ring
  have hk : 0 < r ^ 2 * sin (β - α) := by positivity
  have hnorm : ∀ γ, norm3 (cyl r γ 0) = r := by
    intro γ
    refine norm3_eq_of_dot hr.le ?_
    simp only [dot, cyl, Matrix.cons_val_zero, Matrix.cons_val_one, Matrix.cons_val]
    linear_combination r ^ 2 * sin_sq_add_cos_sq γ
  have hl : norm3 (cyl r α z - ![0, 0, z]) = norm3 (cyl r β z - ![0, 0, z]) := by
    rw [hsub, hsub, hnorm, hnorm]
  have hw : cross (cyl r α z - ![0, 0, z]) (cyl r β z - ![0, 0, z]) ≠ 0 := by
    rw [hsub, hsub, hcr]
    exact smul_ne_zero hk.ne' OUT_ne
  obtain ⟨c, hc, hplain, hcen⟩ := arc2_plain hE _ _ _ hl hw
  obtain ⟨c', hc', -, -, e1, -, n, θ, hn, hnc, hθ0, hθ1, hev⟩ := c49_two_points hE _ _ _ 0 true hl hw
  rw [hc] at hc'
  obtain rfl := Option.some.inj hc'
  refine ⟨c, hc, hplain, hcen, ?_⟩
  rw [hsub, hsub, hcr, norm3_smul, norm3_OUT, abs_of_pos hk, mul_one] at hnc
  have hn' : n = OUT := smul_right_injective _ hk.ne' hnc
  have hev' : ∀ s, c.eval s = some (cyl r (α + θ * s) z) := by
    intro s
    rw [hev s, hn', rodrigues_OUT, hsub, cyl_rot]
    congr 1
    apply V3.ext3 <;> simp [cyl]
  have e2 := hplain.stop
  rw [hev' 1, mul_one] at e2
  have e3 := Option.some.inj e2
  have c1 := congrFun e3 0
  have c2 := congrFun e3 1
  simp only [cyl, Matrix.cons_val_zero, Matrix.cons_val_one] at c1 c2
  have c1' := mul_left_cancel₀ hr.ne' c1
  have c2' := mul_left_cancel₀ hr.ne' c2
  have hcos : cos (α + θ - β) = 1 := by
    rw [cos_sub, c1', c2']; nlinarith [sin_sq_add_cos_sq β]
  have hz : α + θ - β = 0 := by
    refine (cos_eq_one_iff_of_lt_of_lt ?_ ?_).1 hcos <;> linarith [pi_pos]
  intro s
  rw [hev' s, show θ = β - α by linarith]

end Verif
