import Verif.Props.Chain

/-! # Properties C45, C46: trimming and list operations of chains -/

namespace Verif

/-- What the chain code relies on when it trims a member: the member laws of C41, for members
satisfying `Good`. -/
structure Lawful {α : Type} (o : CurveOps α) (Good : α → Prop) : Prop where
  start : ∀ a σ p, Good a → o.eval a σ = some p → ∃ a', o.setStart a σ = some a' ∧ Good a' ∧
    o.active a' = o.active a ∧ o.eval a' 0 = some p ∧ o.eval a' 1 = o.eval a 1
  fin : ∀ a σ p, Good a → o.eval a σ = some p → ∃ a', o.setEnd a σ = some a' ∧ Good a' ∧
    o.active a' = o.active a ∧ o.eval a' 1 = some p ∧ o.eval a' 0 = o.eval a 0
  update : ∀ a, Good a → o.updateLengths a = a
  off : ∀ a, o.active (o.setActive false a) = false

theorem updateLengths_idem (c : Curve) : c.updateLengths.updateLengths = c.updateLengths := by
  cases c with
  | mk k act t0 t1 len lk =>
    cases k <;> rfl

/-- Curves with up-to-date lengths satisfy the laws. -/
theorem curve_lawful : Lawful curveOps fun c => c.kind.Sampled ∧ c.updateLengths = c where
  start c σ p h hp := by
    obtain ⟨hs, hu⟩ := h
    have he : c.EndsOk := by rw [← hu]; exact endsOk_updateLengths c hs
    obtain ⟨d, h1, h2, h3, _, h5⟩ := c41_start c hs he σ p hp
    refine ⟨d, h1, ⟨by rw [h5]; exact hs, ?_⟩, ?_, h2, h3⟩
    · rw [Curve.setStartOn, Option.map_eq_some_iff] at h1
      obtain ⟨t, _, rfl⟩ := h1
      exact updateLengths_idem _
    · rw [Curve.setStartOn, Option.map_eq_some_iff] at h1
      obtain ⟨t, _, rfl⟩ := h1
      exact updateLengths_active _
  fin c σ p h hp := by
    obtain ⟨hs, hu⟩ := h
    have he : c.EndsOk := by rw [← hu]; exact endsOk_updateLengths c hs
    obtain ⟨d, h1, h2, h3, _, h5⟩ := c41_end c hs he σ p hp
    refine ⟨d, h1, ⟨by rw [h5]; exact hs, ?_⟩, ?_, h2, h3⟩
    · rw [Curve.setEndOn, Option.map_eq_some_iff] at h1
      obtain ⟨t, _, rfl⟩ := h1
      exact updateLengths_idem _
    · rw [Curve.setEndOn, Option.map_eq_some_iff] at h1
      obtain ⟨t, _, rfl⟩ := h1
      exact updateLengths_active _
  update c h := h.2
  off c := rfl

section
variable {α : Type} {o : CurveOps α} {Good : α → Prop}

theorem chainUpdate_eq (hl : Lawful o Good) {l : List α}
    (hg : ∀ a ∈ l, o.active a = true → Good a) : chainUpdate o l = l := by
  rw [chainUpdate]
  conv_rhs => rw [← List.map_id l]
  apply List.map_congr_left
  intro a ha
  split_ifs with h
  · exact hl.update a (hg a ha h)
  · rfl

theorem chainLen_append (x y : List α) : chainLen o (x ++ y) = chainLen o x + chainLen o y := by
  simp [chainLen]

theorem chainLen_cons (a : α) (y : List α) : chainLen o (a :: y) = o.len a + chainLen o y := by
  simp [chainLen]

theorem preLen_split (x : List α) (y : List α) : preLen o (x ++ y) x.length = chainLen o x := by
  simp [preLen, chainLen]

theorem chainLen_inactive {y : List α} (h : ∀ b ∈ y, o.active b = false) : chainLen o y = 0 := by
  induction y with
  | nil => simp [chainLen]
  | cons b y ih =>
    rw [chainLen_cons, len_of_inactive (h b (by simp)), ih fun c hc => h c (by simp [hc]), add_zero]

theorem chainLen_nonneg {y : List α} (h : NonNeg o y) : 0 ≤ chainLen o y := by
  have := preLen_mono h (Nat.zero_le y.length) (le_refl _)
  rwa [preLen_zero, preLen_length] at this

/-- The end of a chain is the end of its last member with a length. -/
theorem chainEval_one {x y : List α} {a : α} (h : NonNeg o (x ++ a :: y)) (ha : 0 < o.len a)
    (hy : chainLen o y = 0) : chainEval o (x ++ a :: y) 1 = o.eval a 1 := by
  have hx : 0 ≤ chainLen o x := chainLen_nonneg fun b hb => h b (by simp [hb])
  have htot : chainLen o (x ++ a :: y) = chainLen o x + o.len a := by
    rw [chainLen_append, chainLen_cons, hy, add_zero]
  have hg : (x ++ a :: y)[x.length]? = some a := by simp
  have hL : 0 < chainLen o (x ++ a :: y) := by rw [htot]; linarith
  rw [chainEval, getSIndex_eq h hL hg (by rw [preLen_split, htot]; linarith)
    (by rw [preLen_split, htot]; linarith), preLen_split, htot, one_mul, add_sub_cancel_left,
    div_self ha.ne']
  simp only [Option.bind_some, hg]

theorem activeMin_split {x y : List α} {a : α} (hx : ∀ b ∈ x, o.active b = false)
    (ha : o.active a = true) : activeMin o (x ++ a :: y) = x.length := by
  have hg : (x ++ a :: y)[x.length]? = some a := by simp
  have hle := activeMin_le o hg ha
  rcases Nat.lt_or_ge (activeMin o (x ++ a :: y)) x.length with h | h
  · obtain ⟨b, hb, hb'⟩ := activeMin_spec o hg ha
    rw [List.getElem?_append_left h] at hb
    rw [hx b (List.mem_of_getElem? hb)] at hb'
    cases hb'
  · omega

/-- The start of a chain is read from its first active member. -/
theorem chainEval_zero {x y : List α} {a : α} (h : NonNeg o (x ++ a :: y))
    (hL : 0 < chainLen o (x ++ a :: y)) (hx : ∀ b ∈ x, o.active b = false)
    (ha : o.active a = true) :
    chainEval o (x ++ a :: y) 0 = if o.len a ≠ 0 then o.eval a 0 else o.eval a (1 / 2) := by
  have hg : (x ++ a :: y)[x.length]? = some a := by simp
  obtain ⟨b, hb, _, e⟩ := getSIndex_nonpos h hL (s := 0) (le_refl _)
  rw [activeMin_split hx ha, hg] at hb
  rw [chainEval, e, activeMin_split hx ha, ← Option.some.inj hb]
  simp only [Option.bind_some, hg]
  split_ifs
  · simp
  · rfl

theorem split_at {l : List α} {k : ℕ} {a : α} (h : l[k]? = some a) :
    l = l.take k ++ a :: l.drop (k + 1) := by
  obtain ⟨hk, rfl⟩ := List.getElem?_eq_some_iff.1 h
  rw [← List.drop_eq_getElem_cons hk, List.take_append_drop]

/-- The last member with a length. -/
theorem last_pos {y : List α} (h : NonNeg o y) (hy : chainLen o y ≠ 0) :
    ∃ (u v : List α) (b : α), y = u ++ b :: v ∧ 0 < o.len b ∧ chainLen o v = 0 := by
  induction y with
  | nil => simp [chainLen] at hy
  | cons c y ih =>
    by_cases hz : chainLen o y = 0
    · refine ⟨[], y, c, rfl, ?_, hz⟩
      rw [chainLen_cons, hz, add_zero] at hy
      exact lt_of_le_of_ne (len_nonneg h (by simp)) (Ne.symm hy)
    · obtain ⟨u, v, b, e, hb, hv⟩ := ih (fun d hd => h d (by simp [hd])) hz
      exact ⟨c :: u, v, b, by rw [e]; rfl, hb, hv⟩

/-! ### C45 -/

/-- **C45, start (partial: one-ended trimming).** `set_start_on(s)` makes the chain start at the point it had
at `s` and keeps its end, for both values of `preserve_inactive_curves`. The result must be a proper
chain: non-negative lengths, positive total, and a zero-length active member must be a single point. -/
theorem c45_start_partial (hl : Lawful o Good) (l : List α) (h : NonNeg o l) (hL : 0 < chainLen o l)
    (hg : ∀ a ∈ l, o.active a = true → Good a) (s : ℝ) (h0 : 0 ≤ s) (h1 : s ≤ 1) (p : V3)
    (hp : chainEval o l s = some p) (preserve : Bool) :
    ∃ d, chainSetStart o l s preserve = some d ∧
      (∀ a ∈ d, o.active a = true → Good a) ∧
      (∃ x a y w a' σ, l = x ++ a :: y ∧ d = w ++ a' :: y ∧ o.active a = true ∧
        (∀ b ∈ w, o.active b = false) ∧ o.setStart a σ = some a' ∧ 0 ≤ σ ∧ σ ≤ 1 ∧
        chainLen o x + σ * o.len a = s * chainLen o l) ∧
      (NonNeg o d → 0 < chainLen o d →
        (∀ a ∈ d, o.active a = true → o.length a = 0 → o.eval a (1 / 2) = o.eval a 0) →
        chainEval o d 0 = some p ∧ chainEval o d 1 = chainEval o l 1) := by
  obtain ⟨k, σ, a, e, ha, hact, s0, s1, hs, hpos, hzero⟩ := c43_lookup l h hL s h0 h1
  have hmem := List.mem_of_getElem? ha
  have hev : o.eval a σ = some p := by
    rw [chainEval, e] at hp
    simpa [ha] using hp
  obtain ⟨a', q1, q2, q3, q4, q5⟩ := hl.start a σ p (hg a hmem hact) hev
  have hsp := split_at ha
  obtain ⟨x, hx⟩ : ∃ x, x = l.take k := ⟨_, rfl⟩
  obtain ⟨y, hy⟩ : ∃ y, y = l.drop (k + 1) := ⟨_, rfl⟩
  rw [← hx, ← hy] at hsp
  obtain ⟨w, hw⟩ : ∃ w : List α, w = if preserve then x.map (o.setActive false) else [] :=
    ⟨_, rfl⟩
  have hwoff : ∀ b ∈ w, o.active b = false := by
    intro b hb
    rw [hw] at hb
    cases preserve with
    | false => simp at hb
    | true =>
      simp only [if_true, List.mem_map] at hb
      obtain ⟨c, _, rfl⟩ := hb
      exact hl.off c
  have hdg : ∀ b ∈ w ++ a' :: y, o.active b = true → Good b := by
    intro b hb hbact
    rcases List.mem_append.1 hb with hb | hb
    · rw [hwoff b hb] at hbact; cases hbact
    · rcases List.mem_cons.1 hb with rfl | hb
      · exact q2
      · exact hg b (by rw [hsp]; simp [hb]) hbact
  refine ⟨w ++ a' :: y, ?_, hdg,
    ⟨x, a, y, w, a', σ, hsp, rfl, hact, hwoff, q1, s0, s1, by rw [hx]; exact hs⟩, ?_⟩
  · rw [chainSetStart, startRaw, e]
    simp only [Option.bind_some, ha, q1, Option.map_some, ← hx, ← hy, ← hw]
    rw [chainUpdate_eq hl hdg]
  · intro hdn hdL hpt
    have ha'act : o.active a' = true := by rw [q3, hact]
    constructor
    · rw [chainEval_zero hdn hdL hwoff ha'act]
      split_ifs with hne
      · exact q4
      · push Not at hne
        rw [len_of_active ha'act] at hne
        rw [hpt a' (by simp) ha'act hne, q4]
    · by_cases hyz : chainLen o y = 0
      · have h2 : 0 < o.len a' := by
          rw [chainLen_append, chainLen_cons, hyz, chainLen_inactive hwoff] at hdL
          linarith
        have h3 : 0 < o.len a := by
          rcases h0.lt_or_eq with h4 | h4
          · rw [len_of_active hact]; exact (hpos h4).2
          · have h5 : chainLen o x = 0 := by
              rw [hx]; change preLen o l k = 0
              exact preLen_activeMin (hzero h4.symm).le
            rw [hsp, chainLen_append, chainLen_cons, hyz, h5] at hL
            linarith
        rw [hsp] at h
        rw [chainEval_one hdn h2 hyz, q5, hsp, chainEval_one h h3 hyz]
      · obtain ⟨u, v, b, e2, hb, hv⟩ := last_pos (o := o) (y := y)
          (fun c hc => h c (by rw [hsp]; simp [hc])) hyz
        have e3 : w ++ a' :: y = (w ++ a' :: u) ++ b :: v := by rw [e2]; simp
        have e4 : l = (x ++ a :: u) ++ b :: v := by rw [hsp, e2]; simp
        rw [e3] at hdn ⊢
        rw [e4] at h ⊢
        rw [chainEval_one hdn hb hv, chainEval_one h hb hv]

/-- **C45, end (partial: one-ended trimming).** `set_end_on(s)` with `s > 0` makes the chain end at the point
it had at `s` and keeps its start, for both values of `preserve_inactive_curves`; `a'` is the trimmed
member, after which no member is active. -/
theorem c45_end_partial (hl : Lawful o Good) (l : List α) (h : NonNeg o l) (hL : 0 < chainLen o l)
    (hg : ∀ a ∈ l, o.active a = true → Good a) (s : ℝ) (h0 : 0 < s) (h1 : s ≤ 1) (p : V3)
    (hp : chainEval o l s = some p) (preserve : Bool) :
    ∃ d, chainSetEnd o l s preserve = some d ∧ (∀ a ∈ d, o.active a = true → Good a) ∧
      ∃ x a y a' w σ, l = x ++ a :: y ∧ d = x ++ a' :: w ∧ o.active a = true ∧
      o.active a' = true ∧ (∀ b ∈ w, o.active b = false) ∧ o.setEnd a σ = some a' ∧ 0 < σ ∧ σ ≤ 1 ∧
      chainLen o x + σ * o.len a = s * chainLen o l ∧
      (NonNeg o d → 0 < o.length a' →
        chainEval o d 1 = some p ∧ chainEval o d 0 = chainEval o l 0) := by
  obtain ⟨k, σ, a, e, ha, hact, -, s1, hs, hpos, -⟩ := c43_lookup l h hL s h0.le h1
  have hmem := List.mem_of_getElem? ha
  have hev : o.eval a σ = some p := by
    rw [chainEval, e] at hp
    simpa [ha] using hp
  obtain ⟨a', q1, q2, q3, q4, q5⟩ := hl.fin a σ p (hg a hmem hact) hev
  have hsp := split_at ha
  obtain ⟨x, hx⟩ : ∃ x, x = l.take k := ⟨_, rfl⟩
  obtain ⟨y, hy⟩ : ∃ y, y = l.drop (k + 1) := ⟨_, rfl⟩
  rw [← hx, ← hy] at hsp
  obtain ⟨w, hw⟩ : ∃ w : List α, w = if preserve then y.map (o.setActive false) else [] :=
    ⟨_, rfl⟩
  have hwoff : ∀ b ∈ w, o.active b = false := by
    intro b hb
    rw [hw] at hb
    cases preserve with
    | false => simp at hb
    | true =>
      simp only [if_true, List.mem_map] at hb
      obtain ⟨c, _, rfl⟩ := hb
      exact hl.off c
  have ha'act : o.active a' = true := by rw [q3, hact]
  have hdg : ∀ b ∈ x ++ a' :: w, o.active b = true → Good b := by
    intro b hb hbact
    rcases List.mem_append.1 hb with hb | hb
    · exact hg b (by rw [hsp]; simp [hb]) hbact
    · rcases List.mem_cons.1 hb with rfl | hb
      · exact q2
      · rw [hwoff b hb] at hbact; cases hbact
  refine ⟨x ++ a' :: w, ?_, hdg, x, a, y, a', w, σ, hsp, rfl, hact, ha'act, hwoff, q1,
    (hpos h0).1, s1, by rw [hx]; exact hs, ?_⟩
  · rw [chainSetEnd, endRaw, e]
    simp only [Option.bind_some, ha, q1, Option.map_some, ← hx, ← hy, ← hw]
    rw [chainUpdate_eq hl hdg]
  · intro hdn ha'pos
    have h2 : 0 < o.len a' := by rwa [len_of_active ha'act]
    have h3 : 0 < o.len a := by rw [len_of_active hact]; exact (hpos h0).2
    refine ⟨by rw [chainEval_one hdn h2 (chainLen_inactive hwoff), q4], ?_⟩
    have hxn : 0 ≤ chainLen o x := chainLen_nonneg fun b hb => hdn b (by simp [hb])
    have hdL : 0 < chainLen o (x ++ a' :: w) := by
      rw [chainLen_append, chainLen_cons, chainLen_inactive hwoff]; linarith
    by_cases hxoff : ∀ b ∈ x, o.active b = false
    · rw [chainEval_zero hdn hdL hxoff ha'act, if_pos h2.ne', q5]
      rw [hsp] at h hL ⊢
      rw [chainEval_zero h hL hxoff hact, if_pos h3.ne']
    · push Not at hxoff
      obtain ⟨b, hb, hbact⟩ := hxoff
      simp only [ne_eq, Bool.not_eq_false] at hbact
      obtain ⟨j, hj, rfl⟩ := List.mem_iff_getElem.1 hb
      have hg1 : x[j]? = some x[j] := List.getElem?_eq_getElem hj
      obtain ⟨c, hc, hc'⟩ := activeMin_spec o hg1 hbact
      have hsx := split_at hc
      have hoff : ∀ b ∈ x.take (activeMin o x), o.active b = false := by
        intro b hb
        obtain ⟨i, hi, rfl⟩ := List.mem_iff_getElem.1 hb
        have hi' : i < activeMin o x := by rw [List.length_take] at hi; omega
        apply inactive_of_lt_activeMin o hi'
        rw [List.getElem_take]
        exact List.getElem?_eq_getElem _
      have e3 : x ++ a' :: w = x.take (activeMin o x) ++ c :: (x.drop (activeMin o x + 1) ++
          a' :: w) := by conv_lhs => rw [hsx]
                         simp
      have e4 : l = x.take (activeMin o x) ++ c :: (x.drop (activeMin o x + 1) ++
          a :: y) := by conv_lhs => rw [hsp, hsx]
                        simp
      rw [e3] at hdn hdL ⊢
      rw [chainEval_zero hdn hdL hoff hc']
      rw [e4] at h hL ⊢
      rw [chainEval_zero h hL hoff hc']

/-- **C45, both ends (partial).** `set_start_and_end_on(s0, s1)` is `set_start_on(s0)` followed by
`set_end_on(s1)` on the already trimmed chain: the second parameter is read in the new chain. -/
theorem c45_both_partial (hl : Lawful o Good) (l : List α) (h : NonNeg o l) (hL : 0 < chainLen o l)
    (hg : ∀ a ∈ l, o.active a = true → Good a) (s0 s1 : ℝ) (h0 : 0 ≤ s0) (h1 : s0 ≤ 1) (p : V3)
    (hp : chainEval o l s0 = some p) (preserve : Bool) :
    chainSetBoth o l s0 s1 preserve =
      (chainSetStart o l s0 preserve).bind fun d => chainSetEnd o d s1 preserve := by
  obtain ⟨k, σ, a, e, ha, hact, -, -, hs, hpos, hzero⟩ := c43_lookup l h hL s0 h0 h1
  have hmem := List.mem_of_getElem? ha
  have hev : o.eval a σ = some p := by
    rw [chainEval, e] at hp
    simpa [ha] using hp
  obtain ⟨a', q1, q2, q3, q4, q5⟩ := hl.start a σ p (hg a hmem hact) hev
  have hraw : startRaw o l s0 preserve = some ((if preserve then (l.take k).map (o.setActive false)
      else []) ++ a' :: l.drop (k + 1)) := by
    rw [startRaw, e]; simp [ha, q1]
  rw [chainSetBoth, chainSetStart, hraw]
  simp only [Option.bind_some, Option.map_some]
  rw [chainUpdate_eq hl, chainSetEnd]
  intro b hb hbact
  rcases List.mem_append.1 hb with hb | hb
  · cases preserve with
    | false => simp at hb
    | true =>
      simp only [if_true, List.mem_map] at hb
      obtain ⟨c, _, rfl⟩ := hb
      rw [hl.off c] at hbact; cases hbact
  · rcases List.mem_cons.1 hb with rfl | hb
    · exact q2
    · exact hg b (List.mem_of_mem_drop hb) hbact

end

theorem lineC_fresh (p q : V3) : (lineC p q).kind.Sampled ∧ (lineC p q).updateLengths = lineC p q := by
  refine ⟨?_, ?_⟩
  · rw [lineC, Curve.make, if_pos rfl, updateLengths_kind]; trivial
  · rw [lineC, Curve.make, if_pos rfl, updateLengths_idem]

/-- Trimmed line. -/
theorem line_trim (p q : V3) (t0 t1 : ℝ) : (Curve.make (.line p q) true t0 t1).length =
    norm3 (q - p) * |t1 - t0| := by
  rw [Curve.make, if_pos rfl]; rfl

theorem line_eval (p q : V3) (t0 t1 s : ℝ) : (Curve.make (.line p q) true t0 t1).eval s =
    some ((1 - (t0 + (t1 - t0) * s)) • p + (t0 + (t1 - t0) * s) • q) := by
  rw [Curve.make, if_pos rfl, Curve.eval, s2t_line_arc _ (by intro f n h; cases h),
    updateLengths_kind]
  rfl

theorem line_setStart (p q : V3) (t0 t1 s : ℝ) : (Curve.make (.line p q) true t0 t1).setStartOn s =
    some (Curve.make (.line p q) true (t0 + (t1 - t0) * s) t1) := by
  rw [Curve.make, if_pos rfl, Curve.setStartOn, s2t_line_arc _ (by intro f n h; cases h)]
  rfl

theorem line_setEnd (p q : V3) (t0 t1 s : ℝ) : (Curve.make (.line p q) true t0 t1).setEndOn s =
    some (Curve.make (.line p q) true t0 (t0 + (t1 - t0) * s)) := by
  rw [Curve.make, if_pos rfl, Curve.setEndOn, s2t_line_arc _ (by intro f n h; cases h)]
  rfl

theorem line_act (p q : V3) (t0 t1 : ℝ) : (Curve.make (.line p q) true t0 t1).active = true := by
  rw [Curve.make, if_pos rfl, updateLengths_active]

theorem line_upd (p q : V3) (t0 t1 : ℝ) : (Curve.make (.line p q) true t0 t1).updateLengths =
    Curve.make (.line p q) true t0 t1 := by
  rw [Curve.make, if_pos rfl, updateLengths_idem]

/-- A chain with one line of positive length is looked up in that line at the same parameter. -/
theorem single_index (c : Curve) (hact : c.active = true) (hpos : 0 < c.length) (s : ℝ) (h0 : 0 < s)
    (h1 : s ≤ 1) : getSIndex curveOps [c] s = some (0, s) := by
  have hlen : curveOps.len c = c.length := len_of_active hact
  have htot : chainLen curveOps [c] = c.length := by simp [chainLen, hlen]
  have hn : NonNeg curveOps [c] := by
    intro a ha _
    rw [List.mem_singleton.1 ha]; exact hpos.le
  rw [getSIndex_eq hn (by rw [htot]; exact hpos) (k := 0) (a := c) rfl
    (by rw [preLen_zero, htot]; positivity) (by rw [preLen_zero, htot, hlen]; nlinarith),
    preLen_zero, htot, hlen, sub_zero, mul_div_assoc, div_self hpos.ne', mul_one]

/-- **C45 is violated for two-ended trimming.** A single line trimmed to (1/4, 3/4) ends at 13/16 of the
line. -/
theorem c45_violated : ∃ (l d : List Curve) (s0 s1 : ℝ), AllPos curveOps l ∧ 0 < s0 ∧ s0 < s1 ∧ s1 < 1 ∧
    chainSetBoth curveOps l s0 s1 false = some d ∧ AllPos curveOps d ∧
    chainEval curveOps d 1 ≠ chainEval curveOps l s1 := by
  obtain ⟨L, hLdef⟩ : ∃ L : ℝ → ℝ → Curve, L = fun a b => Curve.make (.line 0 ![1, 0, 0]) true a b :=
    ⟨_, rfl⟩
  have hnorm : norm3 (![1, 0, 0] - 0 : V3) = 1 := by
    apply norm3_eq_of_dot (by norm_num); simp [dot]
  have hlen : ∀ a b, (L a b).length = |b - a| := by
    intro a b; rw [hLdef]; simp only; rw [line_trim, hnorm, one_mul]
  have hact : ∀ a b, (L a b).active = true := by intro a b; rw [hLdef]; exact line_act _ _ _ _
  have hupd : ∀ a b, (L a b).updateLengths = L a b := by
    intro a b; rw [hLdef]; exact line_upd _ _ _ _
  have hap : ∀ a b, a < b → AllPos curveOps [L a b] := by
    intro a b hab c hc _
    rw [List.mem_singleton.1 hc]
    change 0 < (L a b).length
    rw [hlen]; exact abs_pos.2 (by linarith)
  have hposL : ∀ a b, a < b → 0 < (L a b).length := by
    intro a b hab; rw [hlen]; exact abs_pos.2 (by linarith)
  refine ⟨[L 0 1], [L (1 / 4) (13 / 16)], 1 / 4, 3 / 4, hap _ _ (by norm_num), by norm_num,
    by norm_num, by norm_num, ?_, hap _ _ (by norm_num), ?_⟩
  · rw [chainSetBoth, startRaw, single_index _ (hact _ _) (hposL _ _ (by norm_num)) _ (by norm_num)
      (by norm_num)]
    have e1 : curveOps.setStart (L 0 1) (1 / 4) = some (L (1 / 4) 1) := by
      rw [hLdef]; simp only [curveOps, line_setStart]; norm_num
    have e2 : curveOps.setEnd (L (1 / 4) 1) (3 / 4) = some (L (1 / 4) (13 / 16)) := by
      rw [hLdef]; simp only [curveOps, line_setEnd]; norm_num
    have e0 : ([L 0 1] : List Curve)[0]? = some (L 0 1) := rfl
    simp only [Option.bind_some, e0, e1, Option.map_some, Bool.false_eq_true, if_false,
      List.nil_append]
    have ed : List.drop (0 + 1) [L 0 1] = [] := rfl
    rw [ed, endRaw, single_index _ (hact _ _) (hposL _ _ (by norm_num)) _ (by norm_num)
      (by norm_num)]
    have e0' : ([L (1 / 4) 1] : List Curve)[0]? = some (L (1 / 4) 1) := rfl
    simp only [Option.bind_some, e0', e2, Option.map_some, Bool.false_eq_true, if_false,
      List.take_zero, List.nil_append, chainUpdate, List.map_cons, List.map_nil]
    congr 2
    split_ifs
    · exact hupd _ _
    · rfl
  · rw [chainEval, chainEval, single_index _ (hact _ _) (hposL _ _ (by norm_num)) _ (by norm_num)
      (by norm_num), single_index _ (hact _ _) (hposL _ _ (by norm_num)) _ (by norm_num)
      (by norm_num)]
    have e0 : ([L 0 1] : List Curve)[0]? = some (L 0 1) := rfl
    have e0' : ([L (1 / 4) (13 / 16)] : List Curve)[0]? = some (L (1 / 4) (13 / 16)) := rfl
    simp only [Option.bind_some, e0, e0']
    rw [hLdef]
    simp only [curveOps, line_eval, ne_eq, Option.some.injEq]
    intro h
    have := congrFun h 0
    norm_num at this

/-- A straight segment of a line, of positive length. -/
def IsSegment (c : Curve) : Prop :=
  ∃ (p q : V3) (t0 t1 : ℝ), c = Curve.make (.line p q) true t0 t1 ∧ p ≠ q ∧ t0 ≠ t1

theorem IsSegment.pos {c : Curve} (h : IsSegment c) : 0 < c.length := by
  obtain ⟨p, q, t0, t1, rfl, hpq, ht⟩ := h
  rw [line_trim]
  exact mul_pos (norm3_pos (sub_ne_zero.2 hpq.symm)) (abs_pos.2 (sub_ne_zero.2 ht.symm))

theorem IsSegment.good {c : Curve} (h : IsSegment c) :
    c.kind.Sampled ∧ c.updateLengths = c := by
  obtain ⟨p, q, t0, t1, rfl, hpq, ht⟩ := h
  refine ⟨?_, line_upd _ _ _ _⟩
  rw [Curve.make, if_pos rfl, updateLengths_kind]; trivial

/-- **C45 for polylines (partial: one-ended trimming).** For every chain whose active members are straight
segments, and every `s` strictly between 0 and 1, `set_start_on(s)` and `set_end_on(s)` succeed, give
the requested end and keep the other end. No further condition on the result. -/
theorem c45_polyline_partial (l : List Curve) (hseg : ∀ c ∈ l, c.active = true → IsSegment c)
    (hex : ∃ c ∈ l, c.active = true) (s : ℝ) (h0 : 0 < s) (h1 : s < 1) (preserve : Bool) :
    ∃ p d e, chainEval curveOps l s = some p ∧
      chainSetStart curveOps l s preserve = some d ∧ chainSetEnd curveOps l s preserve = some e ∧
      chainEval curveOps d 0 = some p ∧ chainEval curveOps d 1 = chainEval curveOps l 1 ∧
      chainEval curveOps e 1 = some p ∧ chainEval curveOps e 0 = chainEval curveOps l 0 := by
  have hall : AllPos curveOps l := fun c hc hact => (hseg c hc hact).pos
  have hn := hall.nonNeg
  have hL : 0 < chainLen curveOps l := by
    obtain ⟨c, hc, hact⟩ := hex
    obtain ⟨x, y, rfl⟩ := List.append_of_mem hc
    rw [chainLen_append, chainLen_cons]
    have hx : 0 ≤ chainLen curveOps x := chainLen_nonneg fun b hb => hn b (by simp [hb])
    have hy : 0 ≤ chainLen curveOps y := chainLen_nonneg fun b hb => hn b (by simp [hb])
    have hcl : 0 < curveOps.len c := by rw [len_of_active hact]; exact hall c hc hact
    linarith
  have hgood : ∀ c ∈ l, curveOps.active c = true → c.kind.Sampled ∧ c.updateLengths = c :=
    fun c hc hact => (hseg c hc hact).good
  obtain ⟨k, σ, a, e, ha, hact, -, -, -, -, -⟩ := c43_lookup l hn hL s h0.le h1.le
  obtain ⟨p, hp⟩ : ∃ p, chainEval curveOps l s = some p := by
    obtain ⟨u, v, t0, t1, rfl, -⟩ := hseg a (List.mem_of_getElem? ha) hact
    rw [chainEval, e]
    simp only [Option.bind_some, ha]
    exact ⟨_, line_eval u v t0 t1 σ⟩
  obtain ⟨d, d1, -, ⟨x, b, y, w, b', τ, e1, e2, hb, hw, e3, t0', t1', e4⟩, d2⟩ :=
    c45_start_partial curve_lawful l hn hL hgood s h0.le h1.le p hp preserve
  obtain ⟨f, f1, -, x', c, y', c', w', τ', g1, g2, hc, hc', hw', g3, u0, u1, -, f2⟩ :=
    c45_end_partial curve_lawful l hn hL hgood s h0 h1.le p hp preserve
  -- the trimmed first member
  have hbmem : b ∈ l := by rw [e1]; simp
  obtain ⟨P, Q, T0, T1, rfl, hPQ, hT⟩ := hseg b hbmem hb
  have eb' : b' = Curve.make (.line P Q) true (T0 + (T1 - T0) * τ) T1 := by
    change Curve.setStartOn _ _ = _ at e3
    rw [line_setStart] at e3
    exact (Option.some.inj e3).symm
  have hb'act : curveOps.active b' = true := by
    rw [eb']; exact line_act P Q (T0 + (T1 - T0) * τ) T1
  have lenb' : curveOps.len b' = (1 - τ) * curveOps.len (Curve.make (.line P Q) true T0 T1) := by
    rw [len_of_active hb'act, len_of_active hb, eb']
    change (Curve.make _ _ _ _).length = _ * (Curve.make _ _ _ _).length
    rw [line_trim, line_trim, show T1 - (T0 + (T1 - T0) * τ) = (1 - τ) * (T1 - T0) by ring, abs_mul,
      abs_of_nonneg (by linarith : 0 ≤ 1 - τ)]
    ring
  have hblen : 0 ≤ curveOps.len (Curve.make (.line P Q) true T0 T1) := len_nonneg hn hbmem
  have hdn : NonNeg curveOps d := by
    intro m hm hmact
    rw [e2] at hm
    rcases List.mem_append.1 hm with hm | hm
    · rw [hw m hm] at hmact; cases hmact
    · rcases List.mem_cons.1 hm with rfl | hm
      · rw [← len_of_active hb'act, lenb']
        exact mul_nonneg (by linarith) hblen
      · exact hn m (by rw [e1]; simp [hm]) hmact
  have hdL : 0 < chainLen curveOps d := by
    have h3 : chainLen curveOps l = chainLen curveOps x +
        (curveOps.len (Curve.make (.line P Q) true T0 T1) + chainLen curveOps y) := by
      conv_lhs => rw [e1]
      rw [chainLen_append, chainLen_cons]
    rw [e2, chainLen_append, chainLen_cons, chainLen_inactive hw, lenb']
    nlinarith
  obtain ⟨r1, r2⟩ := d2 hdn hdL (by
    intro m hm hmact hmz
    rw [e2] at hm
    rcases List.mem_append.1 hm with hm | hm
    · rw [hw m hm] at hmact; cases hmact
    · rcases List.mem_cons.1 hm with rfl | hm
      · rw [eb'] at hmz ⊢
        change (Curve.make _ _ _ _).length = 0 at hmz
        rw [line_trim] at hmz
        have h5 : T1 - (T0 + (T1 - T0) * τ) = 0 := by
          rcases mul_eq_zero.1 hmz with h6 | h6
          · exact absurd h6 (norm3_pos (sub_ne_zero.2 hPQ.symm)).ne'
          · exact abs_eq_zero.1 h6
        change (Curve.make _ _ _ _).eval _ = (Curve.make _ _ _ _).eval _
        rw [line_eval, line_eval, h5]
        simp
      · have := hall m (by rw [e1]; simp [hm]) hmact
        linarith)
  -- the trimmed last member
  have hcmem : c ∈ l := by rw [g1]; simp
  obtain ⟨P', Q', S0, S1, rfl, hPQ', hS⟩ := hseg c hcmem hc
  have ec' : c' = Curve.make (.line P' Q') true S0 (S0 + (S1 - S0) * τ') := by
    change Curve.setEndOn _ _ = _ at g3
    rw [line_setEnd] at g3
    exact (Option.some.inj g3).symm
  have hc'pos : 0 < curveOps.length c' := by
    rw [ec']
    change 0 < (Curve.make _ _ _ _).length
    rw [line_trim, show S0 + (S1 - S0) * τ' - S0 = (S1 - S0) * τ' by ring]
    exact mul_pos (norm3_pos (sub_ne_zero.2 hPQ'.symm))
      (abs_pos.2 (mul_ne_zero (sub_ne_zero.2 hS.symm) u0.ne'))
  have hfn : NonNeg curveOps f := by
    intro m hm hmact
    rw [g2] at hm
    rcases List.mem_append.1 hm with hm | hm
    · exact hn m (by rw [g1]; simp [hm]) hmact
    · rcases List.mem_cons.1 hm with rfl | hm
      · exact hc'pos.le
      · rw [hw' m hm] at hmact; cases hmact
  obtain ⟨r3, r4⟩ := f2 hfn hc'pos
  exact ⟨p, d, f, hp, d1, f1, r1, r2, r3, r4⟩

/-- Concrete case: the L-shaped chain. -/
example : (∀ c ∈ ellChain, c.active = true → IsSegment c) ∧ ∃ c ∈ ellChain, c.active = true := by
  refine ⟨?_, ⟨lineC 0 ![1, 0, 0], by simp [ellChain], lineC_active 0 ![1, 0, 0]⟩⟩
  intro a ha hact
  simp only [ellChain, List.mem_cons, List.not_mem_nil, or_false] at ha
  rcases ha with rfl | rfl | rfl
  · exact ⟨_, _, 0, 1, rfl, by intro h; have := congrFun h 0; simp at this, by norm_num⟩
  · cases hact
  · exact ⟨_, _, 0, 1, rfl, by intro h; have := congrFun h 1; simp at this, by norm_num⟩

/-! ### C46 -/

/-- The list operations that work. -/
inductive ListOp (α : Type)
  | append (a : α)
  | extend (m : List α)
  | insert (i : ℕ) (a : α)
  | pop (i : ℕ)

/-- What the operation does to a plain Python list; `none` is an index error. -/
def ListOp.onList {α : Type} : ListOp α → List α → Option (List α)
  | .append a, l => some (l ++ [a])
  | .extend m, l => some (l ++ m)
  | .insert i a, l => some (l.insertIdx (min i l.length) a)
  | .pop i, l => if i < l.length then some (l.eraseIdx i) else none

/-- What the chain method does to `self.curves`. -/
def ListOp.onChain {α : Type} (o : CurveOps α) : ListOp α → List α → Option (List α)
  | .append a, l => some (chainAppend o l a)
  | .extend m, l => some (chainExtend o l m)
  | .insert i a, l => some (chainInsert o l i a)
  | .pop i, l => (chainPop o l i).map Prod.snd

/-- The curves an operation brings in. -/
def ListOp.news {α : Type} : ListOp α → List α
  | .append a => [a]
  | .extend m => m
  | .insert _ a => [a]
  | .pop _ => []

/-- A sequence of operations; stops at the first error. -/
def runList {α : Type} (f : ListOp α → List α → Option (List α)) :
    List (ListOp α) → List α → Option (List α)
  | [], l => some l
  | op :: ops, l => (f op l).bind (runList f ops)

theorem insertIdx_eq {α : Type} (l : List α) (i : ℕ) (a : α) :
    l.insertIdx (min i l.length) a = l.take i ++ a :: l.drop i := by
  rcases Nat.lt_or_ge i l.length with h | h
  · rw [min_eq_left h.le]
    induction i generalizing l with
    | zero => simp
    | succ i ih =>
      cases l with
      | nil => simp at h
      | cons b l => simp [ih l (by simpa using h)]
  · rw [min_eq_right h, List.take_of_length_le h, List.drop_of_length_le h]
    induction l generalizing i with
    | nil => simp
    | cons b l ih => simp [ih l.length (le_refl _)]

/-- **C46 (partial: append, extend, insert, pop).** Any sequence of these operations with up-to-date curves
acts on the members exactly as on a Python list, with the same errors; `pop` returns the removed
member. Missing: `del` and the return value of `reverse`, where the claim is false. -/
theorem c46_partial {α : Type} {o : CurveOps α} {Good : α → Prop} (hl : Lawful o Good)
    (ops : List (ListOp α)) (l : List α) (hg : ∀ a ∈ l, o.active a = true → Good a)
    (hops : ∀ op ∈ ops, ∀ a ∈ op.news, o.active a = true → Good a) :
    runList (ListOp.onChain o) ops l = runList ListOp.onList ops l ∧
      ∀ (i : ℕ) (a : α), l[i]? = some a → ∃ m, chainPop o l i = some (a, m) := by
  refine ⟨?_, fun i a h => ⟨_, by rw [chainPop, h]; rfl⟩⟩
  induction ops generalizing l with
  | nil => rfl
  | cons op ops ih =>
    have hnew := hops op (by simp)
    have hstep : op.onChain o l = op.onList l := by
      cases op with
      | append a =>
        simp only [ListOp.onChain, ListOp.onList, chainAppend]
        rw [chainUpdate_eq hl]
        intro b hb hbact
        rcases List.mem_append.1 hb with hb | hb
        · exact hg b hb hbact
        · exact hnew b hb hbact
      | extend m =>
        simp only [ListOp.onChain, ListOp.onList, chainExtend]
        rw [chainUpdate_eq hl]
        intro b hb hbact
        rcases List.mem_append.1 hb with hb | hb
        · exact hg b hb hbact
        · exact hnew b hb hbact
      | insert i a =>
        simp only [ListOp.onChain, ListOp.onList, chainInsert]
        rw [chainUpdate_eq hl, insertIdx_eq]
        intro b hb hbact
        rcases List.mem_append.1 hb with hb | hb
        · exact hg b (List.mem_of_mem_take hb) hbact
        · rcases List.mem_cons.1 hb with rfl | hb
          · exact hnew b (by simp [ListOp.news]) hbact
          · exact hg b (List.mem_of_mem_drop hb) hbact
      | pop i =>
        simp only [ListOp.onChain, ListOp.onList, chainPop]
        split_ifs with hi
        · rw [List.getElem?_eq_getElem hi]
          simp only [Option.map_some]
          rw [chainUpdate_eq hl]
          intro b hb hbact
          exact hg b (List.mem_of_mem_eraseIdx hb) hbact
        · rw [List.getElem?_eq_none (by omega)]; rfl
    rw [runList, runList, hstep]
    cases hr : op.onList l with
    | none => rfl
    | some m =>
      simp only [Option.bind_some]
      apply ih m
      · intro b hb hbact
        cases op with
        | append a =>
          simp only [ListOp.onList, Option.some.injEq] at hr
          rw [← hr] at hb
          rcases List.mem_append.1 hb with hb | hb
          · exact hg b hb hbact
          · exact hnew b hb hbact
        | extend m' =>
          simp only [ListOp.onList, Option.some.injEq] at hr
          rw [← hr] at hb
          rcases List.mem_append.1 hb with hb | hb
          · exact hg b hb hbact
          · exact hnew b hb hbact
        | insert i a =>
          simp only [ListOp.onList, Option.some.injEq] at hr
          rw [← hr, insertIdx_eq] at hb
          rcases List.mem_append.1 hb with hb | hb
          · exact hg b (List.mem_of_mem_take hb) hbact
          · rcases List.mem_cons.1 hb with rfl | hb
            · exact hnew b (by simp [ListOp.news]) hbact
            · exact hg b (List.mem_of_mem_drop hb) hbact
        | pop i =>
          simp only [ListOp.onList] at hr
          split_ifs at hr with hi
          rw [← Option.some.inj hr] at hb
          exact hg b (List.mem_of_mem_eraseIdx hb) hbact
      · exact fun op' hop' => hops op' (by simp [hop'])

/-- **C46 is violated by `del`.** After `del chain[i]` the list is as long as before, and every evaluation
of the chain raises, for every chain and index. -/
theorem c46_violated_del {α : Type} (o : CurveOps α) (l : List (Slot α)) (i : ℕ)
    (hi : i < l.length) :
    ∃ m, delItem l i = some m ∧ m.length ≠ (l.eraseIdx i).length ∧ ∀ s, slotEval o m s = none := by
  refine ⟨l.set i .emptyList, by rw [delItem, if_pos hi], ?_, ?_⟩
  · rw [List.length_set, List.length_eraseIdx_of_lt hi]; omega
  · intro s
    have : readCurves (l.set i .emptyList) = none := by
      clear o
      induction l generalizing i with
      | nil => simp at hi
      | cons a l ih =>
        cases i with
        | zero => simp [readCurves]
        | succ i =>
          have := ih i (by simpa using hi)
          rw [readCurves] at this ⊢
          rw [List.set_cons_succ, List.mapM_cons, this]
          cases a <;> simp
    rw [slotEval, this]; rfl

/-! ### C40 for chains -/

theorem preLen_reverse {α β : Type} (o : CurveOps α) (o' : CurveOps β) (f : α → β)
    (hf : ∀ a, o'.len (f a) = o.len a) (l : List α) (k : ℕ) (hk : k ≤ l.length) :
    preLen o' (l.reverse.map f) k = chainLen o l - preLen o l (l.length - k) := by
  have h1 : chainLen o l = preLen o l (l.length - k) + chainLen o (l.drop (l.length - k)) := by
    conv_lhs => rw [← List.take_append_drop (l.length - k) l]
    rw [chainLen_append]; rfl
  have h2 : (l.reverse.map f).take k = (l.drop (l.length - k)).reverse.map f := by
    rw [← List.map_take, List.take_reverse]
  rw [h1, add_sub_cancel_left, preLen, h2, chainLen, List.map_map, List.map_reverse, List.sum_reverse]
  congr 1
  apply List.map_congr_left
  intro a _
  exact hf a

/-- **C40 for chains of lines and arcs (partial).** Reversing a chain whose active members are lines or arcs
of positive length that meet end to start runs the whole chain backwards. (The method returns `None`
though: `c46_violated_reverse`.) -/
theorem c40_chain_partial (l : List Curve) (hall : AllPos curveOps l) (hm : Meets curveOps l)
    (hk : ∀ c ∈ l, c.active = true → ∃ c0 : Curve, c = c0.updateLengths ∧
      ∀ f n, c0.kind ≠ .generic f n)
    (hL : 0 < chainLen curveOps l) (s : ℝ) (h0 : 0 ≤ s) (h1 : s ≤ 1) :
    chainEval curveOps (chainReverse l).1 s = chainEval curveOps l (1 - s) := by
  obtain ⟨l', hl'⟩ : ∃ l', l' = (chainReverse l).1 := ⟨_, rfl⟩
  have hl'' : l' = l.reverse.map Curve.reverse := hl'
  have hlen : l'.length = l.length := by rw [hl'']; simp
  have hget : ∀ (j : ℕ) (b : Curve), l'[j]? = some b →
      ∃ a, j < l.length ∧ l[l.length - 1 - j]? = some a ∧ b = a.reverse := by
    intro j b hb
    have hj : j < l.length := by rw [← hlen]; exact (List.getElem?_eq_some_iff.1 hb).1
    rw [hl'', List.getElem?_map, List.getElem?_reverse hj, Option.map_eq_some_iff] at hb
    obtain ⟨a, ha, rfl⟩ := hb
    exact ⟨a, hj, ha, rfl⟩
  have hrev : ∀ c ∈ l, c.active = true → ∀ x, c.reverse.eval x = c.eval (1 - x) := by
    intro c hc hact x
    obtain ⟨c0, rfl, hc0⟩ := hk c hc hact
    exact c40_line_arc_partial c0 hc0 x
  have hlenf : ∀ a, curveOps.len (Curve.reverse a) = curveOps.len a := fun a => rfl
  have hpre : ∀ k, k ≤ l.length → preLen curveOps l' k =
      chainLen curveOps l - preLen curveOps l (l.length - k) := by
    intro k hk; rw [hl'']; exact preLen_reverse curveOps curveOps Curve.reverse hlenf l k hk
  have hall' : AllPos curveOps l' := by
    intro b hb hact
    obtain ⟨j, hj⟩ := List.mem_iff_getElem?.1 hb
    obtain ⟨a, _, ha, rfl⟩ := hget j b hj
    exact hall a (List.mem_of_getElem? ha) hact
  have htot : chainLen curveOps l' = chainLen curveOps l := by
    rw [← preLen_length, hlen, hpre _ (le_refl _), Nat.sub_self, preLen_zero, sub_zero]
  have hm' : Meets curveOps l' := by
    intro j k a b hjk ha hb hact hbct hbet
    obtain ⟨a0, hj, ha0, rfl⟩ := hget j a ha
    obtain ⟨b0, hk', hb0, rfl⟩ := hget k b hb
    change a0.reverse.eval 1 = b0.reverse.eval 0
    rw [hrev a0 (List.mem_of_getElem? ha0) hact, hrev b0 (List.mem_of_getElem? hb0) hbct]
    norm_num
    symm
    apply hm (l.length - 1 - k) (l.length - 1 - j) b0 a0 (by omega) hb0 ha0 hbct hact
    intro i c hi1 hi2 hc
    apply hbet (l.length - 1 - i) c.reverse (by omega) (by omega)
    rw [hl'', List.getElem?_map, List.getElem?_reverse (by omega),
      show l.length - 1 - (l.length - 1 - i) = i by omega, hc]
    rfl
  obtain ⟨k, σ, a, -, ha, hact, s0, s1, hs, -, -⟩ :=
    c43_lookup l hall.nonNeg hL (1 - s) (by linarith) (by linarith)
  have hkl := (List.getElem?_eq_some_iff.1 ha).1
  have hs' : preLen curveOps l k + σ * curveOps.len a = (1 - s) * chainLen curveOps l := hs
  have hal : 0 < curveOps.len a := by
    rw [len_of_active hact]; exact hall a (List.mem_of_getElem? ha) hact
  have hsl : σ * curveOps.len a ≤ curveOps.len a := by nlinarith
  have hsl0 : 0 ≤ σ * curveOps.len a := by positivity
  have ha' : l'[l.length - 1 - k]? = some a.reverse := by
    rw [hl'', List.getElem?_map, List.getElem?_reverse (by omega),
      show l.length - 1 - (l.length - 1 - k) = k by omega, ha]
    rfl
  have hp' : preLen curveOps l' (l.length - 1 - k) =
      chainLen curveOps l - (preLen curveOps l k + curveOps.len a) := by
    rw [hpre _ (by omega), show l.length - (l.length - 1 - k) = k + 1 by omega, preLen_succ _ ha]
  rw [← hl', chainEval_member hall' hm' (by rw [htot]; exact hL) ha' hact
    (by rw [htot, hp']; linarith) (by rw [htot, hp', hlenf]; linarith),
    chainEval_member hall hm hL ha hact (by linarith) (by linarith)]
  change a.reverse.eval _ = a.eval _
  rw [hrev a (List.mem_of_getElem? ha) hact, htot, hp', hlenf]
  congr 1
  field_simp
  ring

/-- **C46 is violated by `reverse`.** `reverse` of a plain curve returns the curve, `reverse` of a chain
returns nothing, so `chain.reverse()` cannot be used as a value. -/
theorem c46_violated_reverse (l : List Curve) : (chainReverse l).2 ≠ some (chainReverse l).1 := by
  simp [chainReverse]

/-- **C46, activity of a chain.** A chain built from curves is active exactly if the flag given to the constructor is set
and one of the curves is active. An inactive chain counts with length 0 in a chain it is a member of, an active one
with its own length. -/
theorem c46_active (l : List Curve) (flag : Bool) (rest : List (Chain Curve)) :
    ((chainOps curveOps).active (Chain.make curveOps l flag) = true ↔ flag = true ∧ ∃ c ∈ l, c.active = true) ∧
      chainLen (chainOps curveOps) (Chain.make curveOps l flag :: rest) =
        (if flag then chainLen curveOps (Chain.make curveOps l true).curves else 0) +
          chainLen (chainOps curveOps) rest := by
  have hact : ∀ c : Curve, (if curveOps.active c then curveOps.updateLengths c else c).active = c.active := by
    intro c
    split_ifs
    · exact updateLengths_active c
    · rfl
  have hany : (chainUpdate curveOps l).any curveOps.active = l.any Curve.active := by
    rw [chainUpdate, List.any_map]
    exact congrArg l.any (funext fun c => hact c)
  constructor
  · change (flag && (chainUpdate curveOps l).any curveOps.active) = true ↔ _
    rw [hany, Bool.and_eq_true, List.any_eq_true]
  · simp only [chainLen, List.map_cons, List.sum_cons]
    congr 1
    rw [CurveOps.len]
    change (if (flag && (chainUpdate curveOps l).any curveOps.active) = true then chainLen curveOps
      (chainUpdate curveOps l) else 0) = _
    cases flag with
    | false => simp
    | true =>
      rw [if_pos rfl, Bool.true_and]
      split_ifs with h
      · rfl
      · -- all members are inactive, so the length is 0
        symm
        apply List.sum_eq_zero
        intro x hx
        obtain ⟨c, hc, rfl⟩ := List.mem_map.1 hx
        have : curveOps.active c = false := by
          by_contra hne
          exact h (List.any_eq_true.2 ⟨c, hc, by simpa using hne⟩)
        rw [CurveOps.len, this]; simp

/-- Concrete case: an inactive chain of one line of length 1 beside an active one. -/
example : chainLen (chainOps curveOps) [Chain.make curveOps [lineC ORIGIN RIGHT] false] = 0 := by
  have := (c46_active [lineC ORIGIN RIGHT] false []).2
  simpa [chainLen] using this

/-! ### C45 for chains with members of two sorts -/

theorem sum_lawful {α β : Type} {o : CurveOps α} {o' : CurveOps β} {G : α → Prop} {G' : β → Prop}
    (h : Lawful o G) (h' : Lawful o' G') : Lawful (sumOps o o') (Sum.elim G G') where
  start a σ p hg hp := by
    cases a with
    | inl a =>
      obtain ⟨a', h1, h2, h3, h4, h5⟩ := h.start a σ p hg hp
      exact ⟨.inl a', by simp only [sumOps, Sum.elim_inl, h1, Option.map_some], h2, h3, h4, h5⟩
    | inr a =>
      obtain ⟨a', h1, h2, h3, h4, h5⟩ := h'.start a σ p hg hp
      exact ⟨.inr a', by simp only [sumOps, Sum.elim_inr, h1, Option.map_some], h2, h3, h4, h5⟩
  fin a σ p hg hp := by
    cases a with
    | inl a =>
      obtain ⟨a', h1, h2, h3, h4, h5⟩ := h.fin a σ p hg hp
      exact ⟨.inl a', by simp only [sumOps, Sum.elim_inl, h1, Option.map_some], h2, h3, h4, h5⟩
    | inr a =>
      obtain ⟨a', h1, h2, h3, h4, h5⟩ := h'.fin a σ p hg hp
      exact ⟨.inr a', by simp only [sumOps, Sum.elim_inr, h1, Option.map_some], h2, h3, h4, h5⟩
  update a hg := by
    cases a with
    | inl a => exact congrArg Sum.inl (h.update a hg)
    | inr a => exact congrArg Sum.inr (h'.update a hg)
  off a := by
    cases a with
    | inl a => exact h.off a
    | inr a => exact h'.off a

/-- **C45, members of two sorts (partial).** One-ended trimming is right for chains that hold members of two
sorts, each of which can be trimmed: the trimmed chain has the point at `s` as its new end and keeps its other
end. -/
theorem c45_mixed_partial {α β : Type} {o : CurveOps α} {o' : CurveOps β} {G : α → Prop} {G' : β → Prop}
    (hlo : Lawful o G) (hlo' : Lawful o' G') (l : List (α ⊕ β)) (h : NonNeg (sumOps o o') l)
    (hL : 0 < chainLen (sumOps o o') l)
    (hg : ∀ a ∈ l, (sumOps o o').active a = true → Sum.elim G G' a) (s : ℝ) (h0 : 0 ≤ s) (h1 : s ≤ 1)
    (p : V3) (hp : chainEval (sumOps o o') l s = some p) (preserve : Bool) :
    (∃ d, chainSetStart (sumOps o o') l s preserve = some d ∧
      (NonNeg (sumOps o o') d → 0 < chainLen (sumOps o o') d →
        (∀ a ∈ d, (sumOps o o').active a = true → (sumOps o o').length a = 0 →
          (sumOps o o').eval a (1 / 2) = (sumOps o o').eval a 0) →
        chainEval (sumOps o o') d 0 = some p ∧
          chainEval (sumOps o o') d 1 = chainEval (sumOps o o') l 1)) ∧
    (0 < s → ∃ d, chainSetEnd (sumOps o o') l s preserve = some d ∧
      (AllPos (sumOps o o') d →
        chainEval (sumOps o o') d 1 = some p ∧
          chainEval (sumOps o o') d 0 = chainEval (sumOps o o') l 0)) := by
  obtain ⟨d, e1, -, -, e2⟩ := c45_start_partial (sum_lawful hlo hlo') l h hL hg s h0 h1 p hp preserve
  refine ⟨⟨d, e1, e2⟩, fun hs => ?_⟩
  obtain ⟨d', e1', -, x, a, y, a', w, σ, -, hd, -, ha, -, -, -, -, -, e2'⟩ :=
    c45_end_partial (sum_lawful hlo hlo') l h hL hg s hs h1 p hp preserve
  exact ⟨d', e1', fun hall => e2' hall.nonNeg (hall a' (by rw [hd]; simp) ha)⟩

/-- Concrete case for `c45_mixed_partial`: a chain of two lines, kept as members of two sorts. -/
example : Lawful curveOps (fun c => c.kind.Sampled ∧ c.updateLengths = c) ∧
    AllPos (sumOps curveOps curveOps) [.inl (lineC ORIGIN RIGHT), .inr (lineC RIGHT UP)] := by
  refine ⟨curve_lawful, ?_⟩
  have hp : ∀ p q : V3, q - p ≠ 0 → 0 < (lineC p q).length := fun p q h => by
    rw [lineC_length]; exact norm3_pos h
  intro a ha _
  rcases List.mem_cons.1 ha with rfl | ha
  · refine hp _ _ fun h => ?_
    have := congrFun h 0
    norm_num [ORIGIN, RIGHT] at this
  · rw [List.mem_singleton.1 ha]
    refine hp _ _ fun h => ?_
    have := congrFun h 0
    norm_num [UP, RIGHT] at this

end Verif
