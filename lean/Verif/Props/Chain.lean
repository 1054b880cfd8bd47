import Verif.Lemmas.Chain
import Verif.Props.Curve
import Verif.Spec.Curve

/-! # Properties C43, C44, C45, C46: chains of curves -/

namespace Verif

open Set

section
variable {α : Type} {o : CurveOps α}

/-! ### C43 -/

/-- **C43.** In a chain with non-negative member lengths and a positive total, every `s` in [0, 1] is
looked up in an active member, with a local parameter in [0, 1] that reproduces `s` as a share of the
total length; for `s > 0` that member has a positive length. -/
theorem c43_lookup (l : List α) (h : NonNeg o l) (hL : 0 < chainLen o l) (s : ℝ) (h0 : 0 ≤ s)
    (h1 : s ≤ 1) :
    ∃ (k : ℕ) (σ : ℝ) (a : α), getSIndex o l s = some (k, σ) ∧ l[k]? = some a ∧
      o.active a = true ∧ 0 ≤ σ ∧ σ ≤ 1 ∧
      ((l.take k).map o.len).sum + σ * o.len a = s * (l.map o.len).sum ∧
      (0 < s → 0 < σ ∧ 0 < o.length a) ∧ (s = 0 → k = activeMin o l) := by
  rcases h0.lt_or_eq with hpos | hz
  · obtain ⟨k, a, ha, e1, e2⟩ := exists_index h hL hpos h1
    have hlen : 0 < o.len a := by linarith
    have hact := active_of_len hlen
    refine ⟨k, _, a, getSIndex_eq h hL ha e1 e2, ha, hact, ?_, ?_, ?_, ?_, ?_⟩
    · exact div_nonneg (by linarith) hlen.le
    · rw [div_le_one hlen]; linarith
    · have := hlen.ne'
      change preLen o l k + _ = s * chainLen o l
      field_simp
      ring
    · intro _
      exact ⟨div_pos (by linarith) hlen, by rwa [← len_of_active hact]⟩
    · intro hs; exact absurd hs hpos.ne'
  · obtain ⟨a, ha, hact, e⟩ := getSIndex_nonpos h hL (s := s) (by rw [← hz])
    refine ⟨_, _, a, e, ha, hact, ?_, ?_, ?_, ?_, fun _ => rfl⟩
    · rw [← hz]; split_ifs <;> norm_num
    · rw [← hz]; split_ifs <;> norm_num
    · change preLen o l _ + _ = s * chainLen o l
      rw [preLen_activeMin (le_refl _), ← hz]
      split_ifs with hne
      · simp
      · push Not at hne; rw [hne]; ring
    · intro hs; rw [← hz] at hs; exact absurd hs (lt_irrefl _)

/-- **C43, outside [0, 1].** Before the start the first active member is extended, after the end the last
active one, in proportion to the lengths (if that member has a length). -/
theorem c43_extrapolate (l : List α) (h : NonNeg o l) (hL : 0 < chainLen o l) (s : ℝ)
    (hs : s < 0 ∨ 1 < s) :
    ∃ (k : ℕ) (σ : ℝ) (a : α), getSIndex o l s = some (k, σ) ∧ l[k]? = some a ∧
      o.active a = true ∧
      (s < 0 → ∀ (j : ℕ) (b : α), j < k → l[j]? = some b → o.active b = false) ∧
      (1 < s → ∀ (j : ℕ) (b : α), k < j → l[j]? = some b → o.active b = false) ∧
      (o.length a ≠ 0 → ((l.take k).map o.len).sum + σ * o.len a = s * (l.map o.len).sum) := by
  rcases hs with hs | hs
  · obtain ⟨a, ha, hact, e⟩ := getSIndex_nonpos h hL hs.le
    refine ⟨_, _, a, e, ha, hact, ?_, fun h' => by linarith, ?_⟩
    · intro _ j b hj hb; exact inactive_of_lt_activeMin o hj hb
    · intro hne
      rw [← len_of_active hact] at hne
      change preLen o l _ + _ = s * chainLen o l
      rw [preLen_activeMin (le_refl _), if_pos hne]
      field_simp
      ring
  · obtain ⟨k, a, ha, hact, hm, e⟩ := getSIndex_gt hL h hs
    refine ⟨_, _, a, e, ha, hact, fun h' => by linarith, ?_, ?_⟩
    · intro _ j b hj hb
      by_contra hne
      have := le_activeMaxSucc o hb (by simpa using hne)
      omega
    · intro hne
      rw [← len_of_active hact] at hne
      change preLen o l _ + _ = s * chainLen o l
      rw [if_pos hne]
      field_simp
      ring

/-! ### C44 -/

/-- Consecutive active members (with only inactive ones between) meet end to start. -/
def Meets (o : CurveOps α) (l : List α) : Prop :=
  ∀ (j k : ℕ) (a b : α), j < k → l[j]? = some a → l[k]? = some b → o.active a = true →
    o.active b = true → (∀ (i : ℕ) (c : α), j < i → i < k → l[i]? = some c → o.active c = false) →
    o.eval a 1 = o.eval b 0

/-- Every active member has a positive length. -/
def AllPos (o : CurveOps α) (l : List α) : Prop := ∀ a ∈ l, o.active a = true → 0 < o.length a

theorem AllPos.nonNeg {l : List α} (h : AllPos o l) : NonNeg o l := fun a ha hact => (h a ha hact).le

theorem preLen_inactive {l : List α} {j k : ℕ} (hjk : j ≤ k)
    (h : ∀ (i : ℕ) (c : α), j ≤ i → i < k → l[i]? = some c → o.active c = false) :
    preLen o l k = preLen o l j := by
  induction k with
  | zero => rw [show j = 0 by omega]
  | succ k ih =>
    rcases Nat.lt_or_ge j (k + 1) with h1 | h1
    · have e := ih (by omega) fun i c hi hik => h i c hi (by omega)
      rcases hk : l[k]? with _ | a
      · have : preLen o l (k + 1) = preLen o l k := by simp [preLen, List.take_add_one, hk]
        rw [this, e]
      · rw [preLen_succ o hk, len_of_inactive (h k a (by omega) (by omega) hk), e, add_zero]
    · rw [show j = k + 1 by omega]

theorem last_active_before {l : List α} {k i : ℕ} {a : α} (hi : i < k) (ha : l[i]? = some a)
    (hact : o.active a = true) :
    ∃ (j : ℕ) (b : α), j < k ∧ l[j]? = some b ∧ o.active b = true ∧
      ∀ (m : ℕ) (c : α), j < m → m < k → l[m]? = some c → o.active c = false := by
  induction k with
  | zero => omega
  | succ k ih =>
    rcases hk : l[k]? with _ | c
    · rcases Nat.lt_or_ge i k with h1 | h1
      · obtain ⟨j, b, hj, hb, hb', hm⟩ := ih h1
        refine ⟨j, b, by omega, hb, hb', ?_⟩
        intro m c h2 h3 h4
        rcases Nat.lt_or_ge m k with h5 | h5
        · exact hm m c h2 h5 h4
        · rw [show m = k by omega, hk] at h4; cases h4
      · rw [show i = k by omega, hk] at ha; cases ha
    · cases hc : o.active c with
      | true => exact ⟨k, c, by omega, hk, hc, fun m _ h2 h3 => by omega⟩
      | false =>
        rcases Nat.lt_or_ge i k with h1 | h1
        · obtain ⟨j, b, hj, hb, hb', hm⟩ := ih h1
          refine ⟨j, b, by omega, hb, hb', ?_⟩
          intro m d h2 h3 h4
          rcases Nat.lt_or_ge m k with h5 | h5
          · exact hm m d h2 h5 h4
          · rw [show m = k by omega, hk] at h4
            rw [← Option.some.inj h4]; exact hc
        · rw [show i = k by omega, hk] at ha
          rw [← Option.some.inj ha, hc] at hact; cases hact

/-- Evaluation on the closed interval of a member, when the members meet. -/
theorem chainEval_member {l : List α} (h : AllPos o l) (hm : Meets o l) (hL : 0 < chainLen o l)
    {k : ℕ} {a : α} {s : ℝ} (ha : l[k]? = some a) (hact : o.active a = true)
    (h1 : preLen o l k ≤ s * chainLen o l) (h2 : s * chainLen o l ≤ preLen o l k + o.len a) :
    chainEval o l s = o.eval a ((s * chainLen o l - preLen o l k) / o.len a) := by
  have hn := h.nonNeg
  have hmem : a ∈ l := List.mem_of_getElem? ha
  have hlen : 0 < o.len a := by rw [len_of_active hact]; exact h a hmem hact
  rcases h1.lt_or_eq with hlt | heq
  · rw [chainEval, getSIndex_eq hn hL ha hlt h2]
    simp [ha]
  · rw [← heq, sub_self, zero_div]
    rcases Nat.lt_or_ge (activeMin o l) k with h3 | h3
    · obtain ⟨b, hb, hb'⟩ := activeMin_spec o ha hact
      obtain ⟨j, c, hj, hc, hc', hbet⟩ := last_active_before h3 hb hb'
      have hcl : 0 < o.len c := by
        rw [len_of_active hc']; exact h c (List.mem_of_getElem? hc) hc'
      have e := preLen_inactive (o := o) (l := l) (j := j + 1) (k := k) (by omega)
        (fun i d h4 h5 h6 => hbet i d (by omega) h5 h6)
      rw [preLen_succ o hc] at e
      rw [chainEval, getSIndex_eq hn hL hc (by linarith) (by linarith), ← heq, e,
        add_sub_cancel_left, div_self hcl.ne']
      simp only [Option.bind_some, hc]
      exact hm j k c a hj hc ha hc' hact hbet
    · have hk := activeMin_le o ha hact
      have hk' : activeMin o l = k := by omega
      have hz : preLen o l k = 0 := preLen_activeMin hk'.symm.le
      have hs : s = 0 := by
        rw [hz] at heq
        rcases mul_eq_zero.1 heq.symm with h4 | h4
        · exact h4
        · exact absurd h4 hL.ne'
      obtain ⟨b, hb, _, e⟩ := getSIndex_nonpos hn hL (s := s) hs.le
      rw [hk', ha] at hb
      rw [chainEval, e, hk', ← Option.some.inj hb, if_pos hlen.ne', hs]
      simp [ha]

/-- **C44.** If every active member is a continuous curve of positive length and consecutive active
members meet, the chain is a continuous curve. -/
theorem c44_continuous (l : List α) (h : AllPos o l) (hm : Meets o l)
    (hex : ∃ a ∈ l, o.active a = true)
    (hc : ∀ a ∈ l, o.active a = true → Spec.ContinuousCurve (o.eval a)) :
    Spec.ContinuousCurve (chainEval o l) := by
  have hn := h.nonNeg
  have hL : 0 < chainLen o l := by
    obtain ⟨a, ha, hact⟩ := hex
    obtain ⟨k, hk, rfl⟩ := List.mem_iff_getElem.1 ha
    have hg : l[k]? = some l[k] := List.getElem?_eq_getElem hk
    have e := preLen_succ o hg
    have p1 := preLen_mono hn (Nat.zero_le k) hk.le
    have p2 := preLen_mono hn (show k + 1 ≤ l.length by omega) (le_refl _)
    rw [preLen_zero] at p1
    rw [preLen_length, e, len_of_active hact] at p2
    have := h _ ha hact
    linarith
  refine ⟨fun s => (chainEval o l s).getD 0, ?_, ?_⟩
  · have key : ∀ m, m ≤ l.length →
        ContinuousOn (fun s => (chainEval o l s).getD 0) (Icc 0 (preLen o l m / chainLen o l)) := by
      intro m
      induction m with
      | zero =>
        intro _
        rw [preLen_zero, zero_div, Icc_self]
        exact continuousOn_singleton _ _
      | succ m ih =>
        intro hmn
        have ih' := ih (by omega)
        have hg : l[m]? = some l[m] := List.getElem?_eq_getElem (by omega)
        have hmem : l[m] ∈ l := List.getElem_mem _
        have p0 := preLen_mono hn (Nat.zero_le m) (by omega)
        rw [preLen_zero] at p0
        have e := preLen_succ o hg
        cases hact : o.active l[m] with
        | false =>
          rw [e, len_of_inactive hact, add_zero]; exact ih'
        | true =>
          have hlen : 0 < o.len l[m] := by rw [len_of_active hact]; exact h _ hmem hact
          obtain ⟨g, hg1, hg2⟩ := hc _ hmem hact
          rw [← Icc_union_Icc_eq_Icc (b := preLen o l m / chainLen o l) (by positivity)
            (by rw [e]; gcongr; linarith)]
          apply ContinuousOn.union_of_isClosed ih' _ isClosed_Icc isClosed_Icc
          have hmap : ∀ s ∈ Icc (preLen o l m / chainLen o l) (preLen o l (m + 1) / chainLen o l),
              (s * chainLen o l - preLen o l m) / o.len l[m] ∈ Icc (0 : ℝ) 1 ∧
              chainEval o l s = o.eval l[m] ((s * chainLen o l - preLen o l m) / o.len l[m]) := by
            intro s hs
            obtain ⟨s1, s2⟩ := hs
            rw [div_le_iff₀ hL] at s1
            rw [le_div_iff₀ hL, e] at s2
            refine ⟨⟨div_nonneg (by linarith) hlen.le, ?_⟩, chainEval_member h hm hL hg hact s1 s2⟩
            rw [div_le_one hlen]; linarith
          have : ContinuousOn (fun s => g ((s * chainLen o l - preLen o l m) / o.len l[m]))
              (Icc (preLen o l m / chainLen o l) (preLen o l (m + 1) / chainLen o l)) := by
            apply ContinuousOn.comp hg1 (by fun_prop)
            intro s hs
            exact (hmap s hs).1
          apply this.congr
          intro s hs
          obtain ⟨⟨q1, q2⟩, q3⟩ := hmap s hs
          simp only [q3, hg2 _ q1 q2, Option.getD_some]
    have := key l.length (le_refl _)
    rwa [preLen_length, div_self hL.ne'] at this
  · intro s h0 h1
    obtain ⟨k, σ, a, e, ha, hact, s0, s1, -⟩ := c43_lookup l hn hL s h0 h1
    obtain ⟨g, -, hg2⟩ := hc a (List.mem_of_getElem? ha) hact
    have : chainEval o l s = some (g σ) := by
      rw [chainEval, e]
      simp only [Option.bind_some, ha]
      exact hg2 σ s0 s1
    simp only [this, Option.getD_some]

/-- **C44, ends.** Such a chain starts at the start of its first active member and ends at the end of its
last active member (no meeting condition needed). -/
theorem c44_ends (l : List α) (h : AllPos o l) (j k : ℕ) (a b : α) (ha : l[j]? = some a)
    (hb : l[k]? = some b) (hact : o.active a = true) (hbct : o.active b = true)
    (hfirst : ∀ (i : ℕ) (c : α), i < j → l[i]? = some c → o.active c = false)
    (hlast : ∀ (i : ℕ) (c : α), k < i → l[i]? = some c → o.active c = false) :
    chainEval o l 0 = o.eval a 0 ∧ chainEval o l 1 = o.eval b 1 := by
  have hn := h.nonNeg
  have hbl : 0 < o.len b := by rw [len_of_active hbct]; exact h b (List.mem_of_getElem? hb) hbct
  have hk := (List.getElem?_eq_some_iff.1 hb).1
  have htot : chainLen o l = preLen o l k + o.len b := by
    rw [← preLen_succ o hb, ← preLen_length]
    exact preLen_inactive (by omega) fun i c h1 _ h3 => hlast i c (by omega) h3
  have hp := preLen_mono hn (Nat.zero_le k) hk.le
  rw [preLen_zero] at hp
  have hL : 0 < chainLen o l := by linarith
  constructor
  · obtain ⟨c, hc, hc', e⟩ := getSIndex_nonpos hn hL (s := 0) (le_refl _)
    have h1 := activeMin_le o ha hact
    have h2 : activeMin o l = j := by
      rcases Nat.lt_or_ge (activeMin o l) j with h3 | h3
      · rw [hfirst _ c h3 hc] at hc'; cases hc'
      · omega
    rw [h2, ha] at hc
    have hal : 0 < o.len a := by rw [len_of_active hact]; exact h a (List.mem_of_getElem? ha) hact
    rw [chainEval, e, h2, ← Option.some.inj hc, if_pos hal.ne']
    simp [ha]
  · rw [chainEval, getSIndex_eq hn hL hb (by linarith) (by linarith), one_mul, htot,
      add_sub_cancel_left, div_self hbl.ne']
    simp [hb]

end

/-- Interpolation in a strictly increasing table is continuous on its range. -/
theorem npInterp_continuousOn {xp fp : ℕ → ℝ} {n : ℕ}
    (hx : ∀ i j, i < j → j ≤ n → xp i < xp j) :
    ContinuousOn (npInterp xp fp n) (Icc (xp 0) (xp n)) := by
  have key : ∀ m, m ≤ n → ContinuousOn (npInterp xp fp n) (Icc (xp 0) (xp m)) := by
    intro m
    induction m with
    | zero => intro _; rw [Icc_self]; exact continuousOn_singleton _ _
    | succ m ih =>
      intro hm
      have hle : xp 0 ≤ xp m := by
        rcases Nat.eq_zero_or_pos m with h | h
        · rw [h]
        · exact (hx 0 m h (by omega)).le
      rw [← Icc_union_Icc_eq_Icc hle (hx m (m + 1) (by omega) hm).le]
      apply ContinuousOn.union_of_isClosed (ih (by omega)) _ isClosed_Icc isClosed_Icc
      have : ContinuousOn (fun x => fp m + (fp (m + 1) - fp m) / (xp (m + 1) - xp m) * (x - xp m))
          (Icc (xp m) (xp (m + 1))) := by fun_prop
      apply this.congr
      intro x hx'
      exact npInterp_seg' (by omega) hx hx'.1 hx'.2
  exact key n (le_refl _)

/-- **C44, members.** A curve with a continuous function and no repeated samples is a continuous curve, so
C44 applies to chains of such curves. -/
theorem c44_member (c : Curve) (h : c.Strict) (hf : Continuous c.kind.fn) :
    Spec.ContinuousCurve (curveOps.eval c) := by
  refine ⟨fun s => c.kind.fn (npInterp c.lookup.s c.lookup.t c.lookup.n s), ?_, ?_⟩
  · apply hf.comp_continuousOn
    have := npInterp_continuousOn (fp := c.lookup.t) h.s_strict
    rwa [h.tab.s_zero, h.tab.s_last] at this
  · intro s h0 h1
    change c.eval s = _
    rw [Curve.eval, Curve.s2t, if_neg (not_lt.2 h0), if_neg (not_lt.2 h1)]
    rfl

/-- **C44, nesting.** A chain that is a member of another chain satisfies the member condition of C44, so
C44 holds for chains of chains of any depth. -/
theorem c44_nested {α : Type} (o : CurveOps α) (c : Chain α) (h : AllPos o c.curves)
    (hm : Meets o c.curves) (hact : (chainOps o).active c = true)
    (hc : ∀ a ∈ c.curves, o.active a = true → Spec.ContinuousCurve (o.eval a)) :
    Spec.ContinuousCurve ((chainOps o).eval c) := by
  apply c44_continuous c.curves h hm _ hc
  simp only [chainOps, Bool.and_eq_true, List.any_eq_true] at hact
  exact hact.2

/-! ### Concrete chain: two unit lines with an inactive one between -/

/-- A line over [0, 1]. -/
noncomputable def lineC (p q : V3) : Curve := Curve.make (.line p q) true 0 1

theorem lineC_eval (p q : V3) (s : ℝ) : (lineC p q).eval s = some ((1 - s) • p + s • q) := by
  rw [lineC, Curve.make, if_pos rfl, Curve.eval, s2t_line_arc _ (by intro f n h; cases h),
    updateLengths_kind]
  simp [CurveKind.fn]

theorem lineC_length (p q : V3) : (lineC p q).length = norm3 (q - p) := by
  rw [lineC, Curve.make, if_pos rfl]
  simp [Curve.updateLengths]

theorem lineC_active (p q : V3) : (lineC p q).active = true := by
  rw [lineC, Curve.make, if_pos rfl, updateLengths_active]

/-- An L-shaped chain with an inactive member between the two sides. -/
noncomputable def ellChain : List Curve :=
  [lineC 0 ![1, 0, 0], { lineC 0 ![5, 5, 5] with active := false }, lineC ![1, 0, 0] ![1, 1, 0]]

example : AllPos curveOps ellChain ∧ Meets curveOps ellChain ∧
    (∃ a ∈ ellChain, curveOps.active a = true) ∧
    ∀ a ∈ ellChain, curveOps.active a = true → Spec.ContinuousCurve (curveOps.eval a) := by
  have hc : ∀ p q, Spec.ContinuousCurve (curveOps.eval (lineC p q)) := by
    intro p q
    refine ⟨fun s => (1 - s) • p + s • q, by fun_prop, ?_⟩
    intro s _ _
    exact lineC_eval p q s
  have hp : ∀ p q : V3, q - p ≠ 0 → 0 < curveOps.length (lineC p q) := by
    intro p q hne
    change 0 < (lineC p q).length
    rw [lineC_length]; exact norm3_pos hne
  refine ⟨?_, ?_, ⟨lineC 0 ![1, 0, 0], by simp [ellChain], lineC_active 0 ![1, 0, 0]⟩, ?_⟩
  · intro a ha hact
    simp only [ellChain, List.mem_cons, List.not_mem_nil, or_false] at ha
    rcases ha with rfl | rfl | rfl
    · exact hp _ _ (by intro h; have := congrFun h 0; simp at this)
    · cases hact
    · exact hp _ _ (by intro h; have := congrFun h 1; simp at this)
  · intro j k a b hjk ha hb hact hbct _
    have hk : k < 3 := (List.getElem?_eq_some_iff.1 hb).1
    have : (j = 0 ∧ k = 1) ∨ (j = 0 ∧ k = 2) ∨ (j = 1 ∧ k = 2) := by omega
    rcases this with ⟨rfl, rfl⟩ | ⟨rfl, rfl⟩ | ⟨rfl, rfl⟩
    · simp only [ellChain] at hb; cases hb; cases hbct
    · simp only [ellChain] at ha hb; cases ha; cases hb
      change (lineC _ _).eval 1 = (lineC _ _).eval 0
      rw [lineC_eval, lineC_eval]; simp
    · simp only [ellChain] at ha; cases ha; cases hact
  · intro a ha hact
    simp only [ellChain, List.mem_cons, List.not_mem_nil, or_false] at ha
    rcases ha with rfl | rfl | rfl
    · exact hc _ _
    · cases hact
    · exact hc _ _

end Verif
