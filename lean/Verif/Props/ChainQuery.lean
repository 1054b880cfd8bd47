import Verif.Model.ChainQuery
import Verif.Spec.Jump
import Verif.Props.Chain2
import Verif.Props.Flank3
import Mathlib.Analysis.Real.Sqrt
import Mathlib.Topology.Algebra.Order.Field

/-!
# C108: `is_continuous` and `is_closed`
-/

namespace Verif

open Set Filter Topology

section
variable {α : Type} {o : CurveOps α}

theorem norm3_continuous : Continuous (norm3 : V3 → ℝ) := by
  unfold norm3 dot
  fun_prop

theorem norm3_sub_comm (p q : V3) : norm3 (p - q) = norm3 (q - p) := by
  rw [← norm3_neg, neg_sub]

/-- A continuous curve stays close. -/
theorem cont_close {g : ℝ → V3} (hg : ContinuousOn g (Icc 0 1)) {s : ℝ} (hs : s ∈ Icc (0 : ℝ) 1) {ε : ℝ}
    (hε : 0 < ε) : ∃ η > 0, ∀ s' ∈ Icc (0 : ℝ) 1, |s' - s| < η → norm3 (g s' - g s) < ε := by
  have h1 : ContinuousWithinAt (fun x => norm3 (g x - g s)) (Icc 0 1) s :=
    norm3_continuous.continuousAt.comp_continuousWithinAt ((hg s hs).sub continuousWithinAt_const)
  rw [Metric.continuousWithinAt_iff] at h1
  obtain ⟨η, h0, h2⟩ := h1 ε hε
  refine ⟨η, h0, fun s' hs' hd => ?_⟩
  have := h2 hs' (by rwa [Real.dist_eq])
  rw [Real.dist_eq, sub_self, show norm3 (0 : V3) = 0 by simp [norm3, dot], sub_zero] at this
  exact lt_of_le_of_lt (le_abs_self _) this

/-- The member to the right of a position. -/
theorem right_index {l : List α} (hL : 0 < chainLen o l) {s : ℝ} (h0 : 0 ≤ s) (h1 : s < 1) :
    ∃ (k : ℕ) (a : α), l[k]? = some a ∧ preLen o l k ≤ s * chainLen o l ∧
      s * chainLen o l < preLen o l k + o.len a := by
  classical
  have hex : ∃ m, s * chainLen o l < preLen o l (m + 1) := by
    have hl : l.length ≠ 0 := by
      intro e
      rw [List.length_eq_zero_iff.1 e] at hL
      simp [chainLen] at hL
    refine ⟨l.length - 1, ?_⟩
    rw [show l.length - 1 + 1 = l.length by omega, preLen_length]
    nlinarith
  obtain ⟨m, hm, hmin⟩ : ∃ m, s * chainLen o l < preLen o l (m + 1) ∧
      ∀ j < m, ¬ s * chainLen o l < preLen o l (j + 1) :=
    ⟨Nat.find hex, Nat.find_spec hex, fun j hj => Nat.find_min hex hj⟩
  have hle : preLen o l m ≤ s * chainLen o l := by
    cases m with
    | zero => rw [preLen_zero]; positivity
    | succ m => exact not_lt.1 (hmin m (Nat.lt_succ_self m))
  rcases hk : l[m]? with _ | a
  · have : preLen o l (m + 1) = preLen o l m := by simp [preLen, List.take_add_one, hk]
    linarith
  · exact ⟨m, a, hk, hle, by rwa [preLen_succ o hk] at hm⟩

/-- The active members follow each other without inactive ones between. -/
def Contiguous (o : CurveOps α) (l : List α) : Prop :=
  ∀ (i j k : ℕ) (a b c : α), i < j → j < k → l[i]? = some a → l[j]? = some b → l[k]? = some c →
    o.active a = true → o.active c = true → o.active b = true

theorem chainLen_pos_of {l : List α} (h : AllPos o l) (hex : ∃ a ∈ l, o.active a = true) : 0 < chainLen o l := by
  obtain ⟨a, ha, hact⟩ := hex
  obtain ⟨k, hk, rfl⟩ := List.mem_iff_getElem.1 ha
  have hg : l[k]? = some l[k] := List.getElem?_eq_getElem hk
  have hn := h.nonNeg
  have e := preLen_succ o hg
  have p1 := preLen_mono hn (Nat.zero_le k) hk.le
  have p2 := preLen_mono hn (show k + 1 ≤ l.length by omega) (le_refl _)
  rw [preLen_zero] at p1
  rw [preLen_length, e, len_of_active hact] at p2
  have := h _ ha hact
  linarith

/-- Value of the chain inside a member, excluding the start of the member. -/
theorem chainEval_in {l : List α} (h : NonNeg o l) (hL : 0 < chainLen o l) {k : ℕ} {a : α} {s : ℝ}
    (ha : l[k]? = some a) (h1 : preLen o l k < s * chainLen o l)
    (h2 : s * chainLen o l ≤ preLen o l k + o.len a) :
    chainEval o l s = o.eval a ((s * chainLen o l - preLen o l k) / o.len a) := by
  rw [chainEval, getSIndex_eq h hL ha h1 h2]; simp [ha]

theorem isContinuous_iff (l : List α) :
    isContinuous o l = true ↔ ∀ k, k + 1 < l.length → continuityEntry o l k = true := by
  rw [isContinuous, continuityList, ← List.map_dropLast, List.all_map]
  simp only [List.all_eq_true, Function.comp, id]
  have : (List.range l.length).dropLast = List.range (l.length - 1) := by
    rcases hn : l.length with _ | n
    · rfl
    · rw [List.range_succ]; simp
  rw [this]
  constructor
  · intro hk k hlt; exact hk k (by rw [List.mem_range]; omega)
  · intro hk k hlt; rw [List.mem_range] at hlt; exact hk k (by omega)

theorem continuityEntry_eq {l : List α} {k : ℕ} {a b : α} (ha : l[k]? = some a) (hb : l[k + 1]? = some b) :
    continuityEntry o l k = (nearPoints (o.eval a 1) (o.eval b 0) || !o.active a || !o.active b) := by
  have hlt := (List.getElem?_eq_some_iff.1 hb).1
  rw [continuityEntry, Nat.mod_eq_of_lt hlt, ha, hb]

theorem nearPoints_iff (p q : V3) : nearPoints (some p) (some q) = true ↔ norm3 (p - q) < DELTA / 100 := by
  simp [nearPoints]

/-- Between neighbouring active members the chain is at the end of the first one. -/
theorem join_value {l : List α} (h : AllPos o l) (hL : 0 < chainLen o l) {j : ℕ} {a : α}
    (ha : l[j]? = some a) (hact : o.active a = true) :
    chainEval o l (preLen o l (j + 1) / chainLen o l) = o.eval a 1 := by
  have hlen : 0 < o.len a := by rw [len_of_active hact]; exact h a (List.mem_of_getElem? ha) hact
  have e : preLen o l (j + 1) / chainLen o l * chainLen o l = preLen o l j + o.len a := by
    rw [div_mul_cancel₀ _ hL.ne', preLen_succ o ha]
  rw [chainEval_in h.nonNeg hL ha (by rw [e]; linarith) e.le, e, add_sub_cancel_left, div_self hlen.ne']

/-- **C108 (partial).** If `is_continuous` is true and no inactive member lies between active ones, the path has no jump
larger than the tolerance. -/
theorem c108_continuous_partial (l : List α) (h : AllPos o l) (hex : ∃ a ∈ l, o.active a = true)
    (hcon : Contiguous o l) (hc : ∀ a ∈ l, o.active a = true → Spec.ContinuousCurve (o.eval a))
    (hi : isContinuous o l = true) : Spec.NoJump (chainEval o l) (DELTA / 100) := by
  have hn := h.nonNeg
  have hL := chainLen_pos_of h hex
  have hD : (0 : ℝ) < DELTA / 100 := by norm_num [DELTA]
  have hlen : ∀ {k : ℕ} {a : α}, l[k]? = some a → o.active a = true → 0 < o.len a := fun {k a} ha hact => by
    rw [len_of_active hact]; exact h a (List.mem_of_getElem? ha) hact
  rintro s ⟨s0, s1⟩
  -- value at `s`
  obtain ⟨k0, σ, a0, e0, ha0, hact0, σ0, σ1, -⟩ := c43_lookup l hn hL s s0 s1
  obtain ⟨g0, -, hg0⟩ := hc a0 (List.mem_of_getElem? ha0) hact0
  have hval : chainEval o l s = some (g0 σ) := by
    rw [chainEval, e0]; simp only [Option.bind_some, ha0]; exact hg0 σ σ0 σ1
  obtain ⟨p, hp⟩ : ∃ p, chainEval o l s = some p := ⟨_, hval⟩
  refine ⟨p, hp, fun ε hε => ?_⟩
  -- to the left
  have left : ∃ η > 0, ∀ s' ∈ Icc (0 : ℝ) 1, s' ≤ s → s - s' < η →
      ∃ p', chainEval o l s' = some p' ∧ norm3 (p' - p) < DELTA / 100 + ε := by
    rcases s0.lt_or_eq with hpos | hz
    · obtain ⟨k, a, ha, h1, h2⟩ := exists_index hn hL hpos s1
      have hla : 0 < o.len a := by linarith
      obtain ⟨g, gc, hg⟩ := hc a (List.mem_of_getElem? ha) (active_of_len hla)
      have hsm : (s * chainLen o l - preLen o l k) / o.len a ∈ Icc (0 : ℝ) 1 :=
        ⟨div_nonneg (by linarith) hla.le, by rw [div_le_one hla]; linarith⟩
      obtain ⟨η, hη, hcl⟩ := cont_close gc hsm hε
      have hps : p = g ((s * chainLen o l - preLen o l k) / o.len a) := by
        rw [chainEval_in hn hL ha h1 h2, hg _ hsm.1 hsm.2] at hp
        exact (Option.some.inj hp).symm
      refine ⟨min (η * o.len a / chainLen o l) ((s * chainLen o l - preLen o l k) / chainLen o l),
        lt_min (by positivity) (div_pos (by linarith) hL), fun s' hs' hle hd => ?_⟩
      have d1 := lt_of_lt_of_le hd (min_le_left _ _)
      have d2 := lt_of_lt_of_le hd (min_le_right _ _)
      rw [lt_div_iff₀ hL] at d1 d2
      have q1 : preLen o l k < s' * chainLen o l := by linarith
      have q2 : s' * chainLen o l ≤ preLen o l k + o.len a := by nlinarith
      have hsm' : (s' * chainLen o l - preLen o l k) / o.len a ∈ Icc (0 : ℝ) 1 :=
        ⟨div_nonneg (by linarith) hla.le, by rw [div_le_one hla]; linarith⟩
      refine ⟨_, by rw [chainEval_in hn hL ha q1 q2, hg _ hsm'.1 hsm'.2], ?_⟩
      have := hcl _ hsm' (by
        rw [← sub_div, abs_div, abs_of_pos hla, div_lt_iff₀ hla, abs_sub_comm]
        rw [abs_of_nonneg (by nlinarith)]
        linarith)
      rw [hps]; linarith
    · refine ⟨1, one_pos, fun s' hs' hle _ => ⟨p, ?_, ?_⟩⟩
      · rw [show s' = s by linarith [hs'.1], hp]
      · rw [sub_self, show norm3 (0 : V3) = 0 by simp [norm3, dot]]; linarith
  -- to the right
  have right : ∃ η > 0, ∀ s' ∈ Icc (0 : ℝ) 1, s < s' → s' - s < η →
      ∃ p', chainEval o l s' = some p' ∧ norm3 (p' - p) < DELTA / 100 + ε := by
    rcases s1.lt_or_eq with hlt | hz
    · obtain ⟨k, b, hb, h1, h2⟩ := right_index hL s0 hlt
      have hlb : 0 < o.len b := by linarith
      have hbct := active_of_len hlb
      obtain ⟨g, gc, hg⟩ := hc b (List.mem_of_getElem? hb) hbct
      have hsm : (s * chainLen o l - preLen o l k) / o.len b ∈ Icc (0 : ℝ) 1 :=
        ⟨div_nonneg (by linarith) hlb.le, by rw [div_le_one hlb]; linarith⟩
      obtain ⟨η, hη, hcl⟩ := cont_close gc hsm hε
      -- the chain's value at `s` and the value of this member
      have hnear : norm3 (g ((s * chainLen o l - preLen o l k) / o.len b) - p) < DELTA / 100 := by
        have same : ∀ {q : V3}, some q = o.eval b ((s * chainLen o l - preLen o l k) / o.len b) →
            chainEval o l s = some q →
            norm3 (g ((s * chainLen o l - preLen o l k) / o.len b) - p) < DELTA / 100 := by
          intro q e1 e2
          rw [hg _ hsm.1 hsm.2] at e1
          rw [hp] at e2
          rw [Option.some.inj e2, Option.some.inj e1, sub_self, show norm3 (0 : V3) = 0 by simp [norm3, dot]]
          exact hD
        rcases h1.lt_or_eq with hlt' | heq
        · have := chainEval_in hn hL hb hlt' h2.le
          rw [hp] at this
          exact same this hp
        · rcases s0.lt_or_eq with hpos | hzero
          · obtain ⟨j, a, ha, q1, q2⟩ := exists_index hn hL hpos s1
            have hla : 0 < o.len a := by linarith
            have hact := active_of_len hla
            have hjk : j < k := by
              by_contra hge
              have := preLen_mono hn (not_lt.1 hge) (List.getElem?_eq_some_iff.1 ha).1.le
              linarith
            have hkl := (List.getElem?_eq_some_iff.1 hb).1
            have hk : k = j + 1 := by
              by_contra hne
              have hg' : l[j + 1]? = some l[j + 1] := List.getElem?_eq_getElem (by omega)
              have hact' := hcon j (j + 1) k a _ b (by omega) (by omega) ha hg' hb hact hbct
              have p1 := preLen_mono hn (show j + 1 + 1 ≤ k by omega) hkl.le
              rw [preLen_succ o hg', preLen_succ o ha] at p1
              have := hlen hg' hact'
              linarith
            subst hk
            have e := (isContinuous_iff l).1 hi j (by omega)
            rw [continuityEntry_eq ha hb, hact, hbct] at e
            simp only [Bool.not_true, Bool.or_false] at e
            have hv : chainEval o l s = o.eval a 1 := by
              rw [chainEval_in hn hL ha q1 q2, ← heq, preLen_succ o ha, add_sub_cancel_left, div_self hla.ne']
            rw [← hv, hp, hg 0 le_rfl zero_le_one, nearPoints_iff] at e
            rw [← heq, sub_self, zero_div, norm3_sub_comm]
            exact e
          · obtain ⟨c, hc1, hc2, e⟩ := getSIndex_nonpos hn hL (s := s) hzero.ge
            have hk : activeMin o l = k := by
              have hle := activeMin_le o hb hbct
              rcases hle.lt_or_eq with hlt' | he
              · have p1 := preLen_mono hn (show activeMin o l + 1 ≤ k by omega) (List.getElem?_eq_some_iff.1 hb).1.le
                rw [preLen_succ o hc1, heq, ← hzero] at p1
                have := hlen hc1 hc2
                have p2 := preLen_mono hn (Nat.zero_le (activeMin o l)) (List.getElem?_eq_some_iff.1 hc1).1.le
                rw [preLen_zero] at p2
                linarith
              · exact he
            rw [hk, hb] at hc1
            have hv : chainEval o l s = o.eval b 0 := by
              rw [chainEval, e, hk, ← Option.some.inj hc1, if_pos hlb.ne', ← hzero]
              simp [hb]
            rw [heq, sub_self, zero_div] at same ⊢
            rw [hp] at hv
            exact same hv hp
      refine ⟨min (η * o.len b / chainLen o l) ((preLen o l k + o.len b - s * chainLen o l) / chainLen o l),
        lt_min (by positivity) (div_pos (by linarith) hL), fun s' hs' hle hd => ?_⟩
      have d1 := lt_of_lt_of_le hd (min_le_left _ _)
      have d2 := lt_of_lt_of_le hd (min_le_right _ _)
      rw [lt_div_iff₀ hL] at d1 d2
      have q1 : preLen o l k < s' * chainLen o l := by nlinarith
      have q2 : s' * chainLen o l ≤ preLen o l k + o.len b := by linarith
      have hsm' : (s' * chainLen o l - preLen o l k) / o.len b ∈ Icc (0 : ℝ) 1 :=
        ⟨div_nonneg (by linarith) hlb.le, by rw [div_le_one hlb]; linarith⟩
      refine ⟨_, by rw [chainEval_in hn hL hb q1 q2, hg _ hsm'.1 hsm'.2], ?_⟩
      have := hcl _ hsm' (by
        rw [← sub_div, abs_div, abs_of_pos hlb, div_lt_iff₀ hlb, abs_of_nonneg (by nlinarith)]
        linarith)
      have tri := norm3_add_le (g ((s' * chainLen o l - preLen o l k) / o.len b) -
        g ((s * chainLen o l - preLen o l k) / o.len b)) (g ((s * chainLen o l - preLen o l k) / o.len b) - p)
      rw [sub_add_sub_cancel] at tri
      linarith
    · refine ⟨1, one_pos, fun s' hs' hle _ => ?_⟩
      linarith [hs'.2]
  obtain ⟨η1, hη1, L⟩ := left
  obtain ⟨η2, hη2, R⟩ := right
  refine ⟨min η1 η2, lt_min hη1 hη2, fun s' hs' hd => ?_⟩
  rcases le_or_gt s' s with hle | hgt
  · exact L s' hs' hle (by
      rw [abs_of_nonpos (by linarith)] at hd; linarith [min_le_left η1 η2])
  · exact R s' hs' hgt (by
      rw [abs_of_pos (by linarith)] at hd; linarith [min_le_right η1 η2])

/-- **C108, no false alarm.** If `is_continuous` is false, the path has a jump of at least the tolerance. -/
theorem c108_alarm (l : List α) (h : AllPos o l) (hc : ∀ a ∈ l, o.active a = true → Spec.ContinuousCurve (o.eval a))
    (hi : isContinuous o l = false) : Spec.Jump (chainEval o l) (DELTA / 100) := by
  have hn := h.nonNeg
  obtain ⟨k, hk, hf⟩ : ∃ k, k + 1 < l.length ∧ continuityEntry o l k = false := by
    by_contra hne
    push Not at hne
    rw [(isContinuous_iff l).2 fun k hk => by simpa using hne k hk] at hi
    cases hi
  have ha : l[k]? = some l[k] := List.getElem?_eq_getElem (by omega)
  have hb : l[k + 1]? = some l[k + 1] := List.getElem?_eq_getElem hk
  rw [continuityEntry_eq ha hb] at hf
  simp only [Bool.or_eq_false_iff, Bool.not_eq_false'] at hf
  obtain ⟨⟨hnear, hact⟩, hbct⟩ := hf
  have hL := chainLen_pos_of h ⟨_, List.getElem_mem (by omega : k < l.length), hact⟩
  have hla : 0 < o.len l[k] := by rw [len_of_active hact]; exact h _ (List.getElem_mem _) hact
  have hlb : 0 < o.len l[k + 1] := by rw [len_of_active hbct]; exact h _ (List.getElem_mem _) hbct
  obtain ⟨ga, -, hga⟩ := hc _ (List.getElem_mem (by omega : k < l.length)) hact
  obtain ⟨g, gc, hg⟩ := hc _ (List.getElem_mem hk) hbct
  rw [hga 1 zero_le_one le_rfl, hg 0 le_rfl zero_le_one, ← Bool.not_eq_true, nearPoints_iff, not_lt] at hnear
  obtain ⟨P, hP⟩ : ∃ P, P = preLen o l (k + 1) := ⟨_, rfl⟩
  have hP0 : 0 ≤ P := by
    have := preLen_mono hn (Nat.zero_le (k + 1)) hk.le
    rwa [preLen_zero, ← hP] at this
  have hP1 : P + o.len l[k + 1] ≤ chainLen o l := by
    have := preLen_mono hn (show k + 1 + 1 ≤ l.length by omega) le_rfl
    rwa [preLen_succ o hb, preLen_length, ← hP] at this
  have hv := join_value h hL ha hact
  rw [← hP, hga 1 zero_le_one le_rfl] at hv
  have hs1 : P / chainLen o l ≤ 1 := by rw [div_le_one hL]; linarith
  refine ⟨P / chainLen o l, ⟨div_nonneg hP0 hL.le, hs1⟩, _, hv, fun ε hε η hη => ?_⟩
  obtain ⟨η', hη', hcl⟩ := cont_close gc (s := 0) ⟨le_rfl, zero_le_one⟩ hε
  obtain ⟨x, hx⟩ : ∃ x, x = min (min (η' / 2) (1 / 2)) (η * chainLen o l / (2 * o.len l[k + 1])) := ⟨_, rfl⟩
  have x0 : 0 < x := by rw [hx]; positivity
  have x1 : x ≤ 1 / 2 := by rw [hx]; exact (min_le_left _ _).trans (min_le_right _ _)
  have x2 : x ≤ η' / 2 := by rw [hx]; exact (min_le_left _ _).trans (min_le_left _ _)
  have x3 : x * o.len l[k + 1] ≤ η * chainLen o l / 2 := by
    have : x ≤ η * chainLen o l / (2 * o.len l[k + 1]) := by rw [hx]; exact min_le_right _ _
    rw [le_div_iff₀ (by positivity)] at this
    linarith
  obtain ⟨s', hs'⟩ : ∃ s', s' = (P + x * o.len l[k + 1]) / chainLen o l := ⟨_, rfl⟩
  have es : s' * chainLen o l = P + x * o.len l[k + 1] := by rw [hs', div_mul_cancel₀ _ hL.ne']
  have hxl : 0 < x * o.len l[k + 1] := by positivity
  have hin := chainEval_in hn hL hb (s := s') (by rw [es, ← hP]; linarith) (by rw [es, ← hP]; nlinarith)
  rw [es, ← hP, add_sub_cancel_left, mul_div_assoc, div_self hlb.ne', mul_one,
    hg x x0.le (by linarith)] at hin
  refine ⟨s', ⟨?_, ?_⟩, ?_, _, hin, ?_⟩
  · rw [hs']; positivity
  · rw [hs', div_le_one hL]; nlinarith
  · rw [hs', ← sub_div, add_sub_cancel_left, abs_of_pos (by positivity), div_lt_iff₀ hL]
    have : 0 < η * chainLen o l := by positivity
    linarith
  · have c := hcl x ⟨x0.le, by linarith⟩ (by rw [sub_zero, abs_of_pos x0]; linarith)
    have tri := norm3_add_le (ga 1 - g x) (g x - g 0)
    rw [sub_add_sub_cancel] at tri
    rw [norm3_sub_comm]
    linarith

/-- **C108, `is_closed` (partial).** If `is_closed` is true, moreover the ends coincide up to the tolerance. -/
theorem c108_closed_partial (l : List α) (h : AllPos o l) (hex : ∃ a ∈ l, o.active a = true)
    (hcon : Contiguous o l) (hc : ∀ a ∈ l, o.active a = true → Spec.ContinuousCurve (o.eval a))
    (hi : isClosedChain o l = true) : Spec.NoJump (chainEval o l) (DELTA / 100) ∧
      ∃ p q, chainEval o l 0 = some p ∧ chainEval o l 1 = some q ∧ norm3 (p - q) < DELTA / 100 := by
  rw [isClosedChain, Bool.and_eq_true] at hi
  have hj := c108_continuous_partial l h hex hcon hc hi.2
  obtain ⟨p, hp, -⟩ := hj 0 ⟨le_rfl, zero_le_one⟩
  obtain ⟨q, hq, -⟩ := hj 1 ⟨zero_le_one, le_rfl⟩
  refine ⟨hj, p, q, hp, hq, ?_⟩
  have := hi.1
  rwa [hp, hq, nearPoints_iff] at this

end

theorem lineC_cont (p q : V3) : Spec.ContinuousCurve (curveOps.eval (lineC p q)) :=
  ⟨fun s => (1 - s) • p + s • q, by fun_prop, fun s _ _ => lineC_eval p q s⟩

theorem lineC_pos {p q : V3} (h : p ≠ q) : 0 < curveOps.length (lineC p q) := by
  change 0 < (lineC p q).length
  rw [lineC_length]; exact norm3_pos (sub_ne_zero.2 h.symm)

/-- Lines with a skipped member between them. -/
theorem skipped_pos {p q r t : V3} (h1 : p ≠ q) (h2 : r ≠ t) {c : Curve} (hc : c.active = false) :
    AllPos curveOps [lineC p q, c, lineC r t] ∧
    ∀ a ∈ [lineC p q, c, lineC r t], curveOps.active a = true → Spec.ContinuousCurve (curveOps.eval a) := by
  constructor <;> intro a ha hact <;> simp only [List.mem_cons, List.not_mem_nil, or_false] at ha <;>
    rcases ha with rfl | rfl | rfl
  · exact lineC_pos h1
  · change a.active = true at hact; rw [hc] at hact; cases hact
  · exact lineC_pos h2
  · exact lineC_cont _ _
  · change a.active = true at hact; rw [hc] at hact; cases hact
  · exact lineC_cont _ _

/-- **C108 fails with an inactive member in the middle.** Two lines with an inactive curve between them are reported to
be continuous however far apart they are: the path has a jump of the distance of the two points. If the second line
ends where the first one starts, the chain is reported to be closed as well. -/
theorem c108_violated (p q r t : V3) (h1 : p ≠ q) (h2 : r ≠ t) (c : Curve) (hc : c.active = false) :
    isContinuous curveOps [lineC p q, c, lineC r t] = true ∧
    Spec.Jump (chainEval curveOps [lineC p q, c, lineC r t]) (norm3 (r - q)) ∧
    (r ≠ p → isClosedChain curveOps [lineC p q, c, lineC r p] = true) := by
  obtain ⟨hall, hcont⟩ := skipped_pos h1 h2 hc
  have hn := hall.nonNeg
  have aq : curveOps.active (lineC p q) = true := lineC_active p q
  have ar : curveOps.active (lineC r t) = true := lineC_active r t
  have ac : curveOps.active c = false := hc
  have con : ∀ t', isContinuous curveOps [lineC p q, c, lineC r t'] = true := by
    intro t'
    rw [isContinuous_iff]
    intro k hk
    simp only [List.length_cons, List.length_nil] at hk
    have : k = 0 ∨ k = 1 := by omega
    rcases this with rfl | rfl
    · rw [continuityEntry_eq (a := lineC p q) (b := c) rfl rfl, ac]; simp
    · rw [continuityEntry_eq (a := c) (b := lineC r t') rfl rfl, ac]; simp
  refine ⟨con t, ?_, ?_⟩
  · have hL := chainLen_pos_of hall ⟨lineC p q, by simp, aq⟩
    obtain ⟨L, hLd⟩ : ∃ L, L = chainLen curveOps [lineC p q, c, lineC r t] := ⟨_, rfl⟩
    have l1 : 0 < curveOps.len (lineC p q) := by rw [len_of_active aq]; exact lineC_pos h1
    have l2 : 0 < curveOps.len (lineC r t) := by rw [len_of_active ar]; exact lineC_pos h2
    obtain ⟨A, hA⟩ : ∃ A, A = curveOps.len (lineC p q) := ⟨_, rfl⟩
    obtain ⟨B, hB⟩ : ∃ B, B = curveOps.len (lineC r t) := ⟨_, rfl⟩
    have hLAB : L = A + B := by
      rw [hLd, chainLen, List.map_cons, List.map_cons, List.map_cons, len_of_inactive ac, ← hA, ← hB]; simp
    have hp2 : preLen curveOps [lineC p q, c, lineC r t] 2 = A := by
      simp [preLen, len_of_inactive ac, ← hA]
    have hv := join_value hall hL (j := 0) (a := lineC p q) rfl aq
    rw [show preLen curveOps [lineC p q, c, lineC r t] (0 + 1) = A by simp [preLen, ← hA], ← hLd] at hv
    change _ = (lineC p q).eval 1 at hv
    rw [lineC_eval] at hv
    rw [← hLd] at hL
    rw [← hA] at l1
    rw [← hB] at l2
    have hrt : 0 < norm3 (t - r) := norm3_pos (sub_ne_zero.2 h2.symm)
    refine ⟨A / L, ⟨by positivity, by rw [div_le_one hL]; linarith⟩, _, hv, fun ε hε η hη => ?_⟩
    obtain ⟨x, hx⟩ : ∃ x, x = min (min (ε / (2 * norm3 (t - r))) (1 / 2)) (η * L / (2 * B)) := ⟨_, rfl⟩
    have x0 : 0 < x := by rw [hx]; positivity
    have x1 : x ≤ 1 / 2 := by rw [hx]; exact (min_le_left _ _).trans (min_le_right _ _)
    have x2 : x * norm3 (t - r) ≤ ε / 2 := by
      have : x ≤ ε / (2 * norm3 (t - r)) := by rw [hx]; exact (min_le_left _ _).trans (min_le_left _ _)
      rw [le_div_iff₀ (by positivity)] at this
      linarith
    have x3 : x * B ≤ η * L / 2 := by
      have : x ≤ η * L / (2 * B) := by rw [hx]; exact min_le_right _ _
      rw [le_div_iff₀ (by positivity)] at this
      linarith
    have hxB : 0 < x * B := by positivity
    obtain ⟨s', hs'⟩ : ∃ s', s' = (A + x * B) / L := ⟨_, rfl⟩
    have es : s' * L = A + x * B := by rw [hs', div_mul_cancel₀ _ hL.ne']
    have hin := chainEval_in hn (hLd ▸ hL) (k := 2) (a := lineC r t) (s := s') rfl
      (by rw [← hLd, es, hp2]; linarith) (by rw [← hLd, es, hp2, ← hB]; nlinarith)
    rw [← hLd, es, hp2, ← hB, add_sub_cancel_left, mul_div_assoc, div_self l2.ne', mul_one] at hin
    change _ = (lineC r t).eval x at hin
    rw [lineC_eval] at hin
    refine ⟨s', ⟨by rw [hs']; positivity, by rw [hs', div_le_one hL]; nlinarith⟩, ?_, _, hin, ?_⟩
    · rw [hs', ← sub_div, add_sub_cancel_left, abs_of_pos (by positivity), div_lt_iff₀ hL]
      have : 0 < η * L := by positivity
      linarith
    · have tri := norm3_add_le (((1 - x) • r + x • t) - ((1 - (1 : ℝ)) • p + (1 : ℝ) • q)) (x • (r - t))
      rw [show ((1 - x) • r + x • t) - ((1 - (1 : ℝ)) • p + (1 : ℝ) • q) + x • (r - t) = r - q by module,
        norm3_smul, abs_of_pos x0, norm3_sub_comm r t] at tri
      linarith
  · intro hrp
    obtain ⟨hall', -⟩ := skipped_pos h1 hrp hc
    have ar' : curveOps.active (lineC r p) = true := lineC_active r p
    obtain ⟨e0, e1⟩ := c44_ends _ hall' 0 2 (lineC p q) (lineC r p) rfl rfl aq ar' (by intro i c h; omega)
      (by intro i c' h hi; have := (List.getElem?_eq_some_iff.1 hi).1; simp at this; omega)
    rw [isClosedChain, con p, e0, e1]
    change (nearPoints ((lineC p q).eval 0) ((lineC r p).eval 1) && true) = true
    rw [lineC_eval, lineC_eval, Bool.and_true, nearPoints_iff]
    have : ((1 - (0 : ℝ)) • p + (0 : ℝ) • q) - ((1 - (1 : ℝ)) • r + (1 : ℝ) • p) = 0 := by module
    rw [this]; norm_num [norm3, dot, DELTA]

/-- Two lines forth and back are closed, and meet the conditions of `c108_closed_partial`. -/
theorem c108_case : AllPos curveOps [lineC 0 RIGHT, lineC RIGHT 0] ∧ Contiguous curveOps [lineC 0 RIGHT, lineC RIGHT 0] ∧
    isClosedChain curveOps [lineC 0 RIGHT, lineC RIGHT 0] = true := by
  have hne : (0 : V3) ≠ RIGHT := by intro e; have := congrFun e 0; simp [RIGHT] at this
  have hall : AllPos curveOps [lineC 0 RIGHT, lineC RIGHT 0] := by
    intro a ha hact
    simp only [List.mem_cons, List.not_mem_nil, or_false] at ha
    rcases ha with rfl | rfl
    · exact lineC_pos hne
    · exact lineC_pos hne.symm
  have ar' : curveOps.active (lineC 0 RIGHT) = true := lineC_active 0 RIGHT
  have ar : curveOps.active (lineC RIGHT 0) = true := lineC_active RIGHT 0
  refine ⟨hall, ?_, ?_⟩
  · intro i j k a b c hij hjk _ _ hk
    have := (List.getElem?_eq_some_iff.1 hk).1
    simp at this; omega
  · obtain ⟨e0, e1⟩ := c44_ends _ hall 0 1 (lineC 0 RIGHT) (lineC RIGHT 0) rfl rfl ar' ar (by intro i c h; omega)
      (by intro i c' h hi; have := (List.getElem?_eq_some_iff.1 hi).1; simp at this; omega)
    rw [isClosedChain, e0, e1, (isContinuous_iff _).2, Bool.and_true]
    · change nearPoints ((lineC 0 RIGHT).eval 0) ((lineC RIGHT 0).eval 1) = true
      rw [lineC_eval, lineC_eval, nearPoints_iff]
      norm_num [norm3, dot, DELTA]
    · intro k hk
      simp only [List.length_cons, List.length_nil] at hk
      have : k = 0 := by omega
      subst this
      rw [continuityEntry_eq (a := lineC 0 RIGHT) (b := lineC RIGHT 0) rfl rfl]
      change (nearPoints ((lineC 0 RIGHT).eval 1) ((lineC RIGHT 0).eval 0) || _ || _) = true
      rw [lineC_eval, lineC_eval, Bool.or_eq_true, Bool.or_eq_true, nearPoints_iff]
      left; left
      norm_num [norm3, dot, DELTA]

/-- Two lines one unit apart are reported not to be continuous. -/
theorem c108_alarm_case : AllPos curveOps [lineC 0 RIGHT, lineC 0 RIGHT] ∧
    isContinuous curveOps [lineC 0 RIGHT, lineC 0 RIGHT] = false := by
  have hne : (0 : V3) ≠ RIGHT := by intro e; have := congrFun e 0; simp [RIGHT] at this
  constructor
  · intro a ha hact
    simp only [List.mem_cons, List.not_mem_nil, or_false, or_self] at ha
    rw [ha]; exact lineC_pos hne
  · rw [← Bool.not_eq_true, isContinuous_iff]
    intro h
    have := h 0 (by simp)
    rw [continuityEntry_eq (a := lineC 0 RIGHT) (b := lineC 0 RIGHT) rfl rfl] at this
    rw [show curveOps.active (lineC 0 RIGHT) = true from lineC_active 0 RIGHT] at this
    change (nearPoints ((lineC 0 RIGHT).eval 1) ((lineC 0 RIGHT).eval 0) || _ || _) = true at this
    rw [lineC_eval, lineC_eval] at this
    simp only [Bool.not_true, Bool.or_false] at this
    rw [nearPoints_iff] at this
    rw [show ((1 - (1 : ℝ)) • (0 : V3) + (1 : ℝ) • RIGHT) - ((1 - (0 : ℝ)) • 0 + (0 : ℝ) • RIGHT) = RIGHT by module,
      norm3, show dot RIGHT RIGHT = 1 by simp [dot, RIGHT]] at this
    norm_num [DELTA] at this

end Verif
