import Verif.Props.ChainQuery
import Verif.Props.Arc

/-!
# C109: flattening nested chains; C110: bridging inactive members
-/

namespace Verif

open Set

section
variable {α : Type} {o : CurveOps α}

/-- The member that is responsible for a position: it is active, it starts before the position or is the first active
one, and it ends at or after the position or is the last active one. -/
theorem chainEval_sel {x y : List α} {a : α} (h : AllPos o (x ++ a :: y)) (hact : o.active a = true) {s : ℝ}
    (h1 : (∀ b ∈ x, o.active b = false) ∨ chainLen o x < s * chainLen o (x ++ a :: y))
    (h2 : (∀ b ∈ y, o.active b = false) ∨ s * chainLen o (x ++ a :: y) ≤ chainLen o x + o.len a) :
    chainEval o (x ++ a :: y) s = o.eval a ((s * chainLen o (x ++ a :: y) - chainLen o x) / o.len a) := by
  obtain ⟨l, hl⟩ : ∃ l, l = x ++ a :: y := ⟨_, rfl⟩
  rw [← hl] at h h1 h2 ⊢
  have hn := h.nonNeg
  have hg : l[x.length]? = some a := by rw [hl]; simp
  have hpl : preLen o l x.length = chainLen o x := by rw [hl]; exact preLen_split x _
  have hla : 0 < o.len a := by rw [len_of_active hact]; exact h a (List.mem_of_getElem? hg) hact
  have hL := chainLen_pos_of h ⟨a, List.mem_of_getElem? hg, hact⟩
  have hxn : NonNeg o x := fun b hb => hn b (by rw [hl]; simp [hb])
  have hyn : NonNeg o y := fun b hb => hn b (by rw [hl]; simp [hb])
  have hLs : chainLen o l = chainLen o x + (o.len a + chainLen o y) := by
    rw [hl, chainLen_append, chainLen_cons]
  have inx : ∀ j b, j < x.length → l[j]? = some b → b ∈ x := by
    intro j b hj hb
    rw [hl, List.getElem?_append_left hj] at hb
    exact List.mem_of_getElem? hb
  have iny : ∀ j b, x.length < j → l[j]? = some b → b ∈ y := by
    intro j b hj hb
    rw [hl, List.getElem?_append_right hj.le, show j - x.length = (j - x.length - 1) + 1 by omega,
      List.getElem?_cons_succ] at hb
    exact List.mem_of_getElem? hb
  rcases le_or_gt s 0 with hs | hs
  · obtain ⟨b, hb, hb', e⟩ := getSIndex_nonpos hn hL hs
    have hx : ∀ b ∈ x, o.active b = false := by
      rcases h1 with h1 | h1
      · exact h1
      · have := chainLen_nonneg hxn; nlinarith
    have hk : activeMin o l = x.length := by
      have h3 := activeMin_le o hg hact
      rcases h3.lt_or_eq with h4 | h4
      · rw [hx b (inx _ b h4 hb)] at hb'; cases hb'
      · exact h4
    rw [hk, hg] at hb
    rw [chainEval, e, hk, ← Option.some.inj hb, if_pos hla.ne', chainLen_inactive hx]
    simp [hg]
  · rcases le_or_gt s 1 with hs1 | hs1
    · have q1 : chainLen o x < s * chainLen o l := by
        rcases h1 with h1 | h1
        · rw [chainLen_inactive h1]; positivity
        · exact h1
      have q2 : s * chainLen o l ≤ chainLen o x + o.len a := by
        rcases h2 with h2 | h2
        · have := chainLen_inactive h2; nlinarith
        · exact h2
      rw [chainEval_in hn hL hg (by rw [hpl]; exact q1) (by rw [hpl]; exact q2), hpl]
    · obtain ⟨k, b, hb, hb', hm, e⟩ := getSIndex_gt hL hn hs1
      have hy : ∀ b ∈ y, o.active b = false := by
        rcases h2 with h2 | h2
        · exact h2
        · have := chainLen_nonneg hyn; nlinarith
      have hk : k = x.length := by
        have h3 := le_activeMaxSucc o hg hact
        rcases (show x.length ≤ k by omega).lt_or_eq with h4 | h4
        · rw [hy b (iny _ b h4 hb)] at hb'; cases hb'
        · exact h4.symm
      subst hk
      rw [hg] at hb
      rw [chainEval, e, ← Option.some.inj hb, if_pos hla.ne', hpl]
      simp [hg]

/-- There is such a member for every position. -/
theorem sel_exists {l : List α} (h : AllPos o l) (hex : ∃ a ∈ l, o.active a = true) (s : ℝ) :
    ∃ x a y, l = x ++ a :: y ∧ o.active a = true ∧
      ((∀ b ∈ x, o.active b = false) ∨ chainLen o x < s * chainLen o l) ∧
      ((∀ b ∈ y, o.active b = false) ∨ s * chainLen o l ≤ chainLen o x + o.len a) := by
  have hL := chainLen_pos_of h hex
  have hn := h.nonNeg
  rcases le_or_gt s 0 with hs | hs
  · obtain ⟨a, ha⟩ : ∃ a, l.find? o.active = some a := by
      obtain ⟨b, hb, hb'⟩ := hex
      exact Option.isSome_iff_exists.1 (List.find?_isSome.2 ⟨b, hb, hb'⟩)
    obtain ⟨hact, x, y, rfl, hx⟩ := List.find?_eq_some_iff_append.1 ha
    have hx' : ∀ b ∈ x, o.active b = false := fun b hb => by simpa using hx b hb
    refine ⟨x, a, y, rfl, hact, .inl hx', .inr ?_⟩
    have : 0 ≤ o.len a := len_nonneg hn (by simp)
    rw [chainLen_inactive hx']; nlinarith
  · rcases le_or_gt s 1 with hs1 | hs1
    · obtain ⟨k, a, ha, q1, q2⟩ := exists_index hn hL hs hs1
      obtain ⟨hk, e⟩ := List.getElem?_eq_some_iff.1 ha
      have hsplit : l = l.take k ++ a :: l.drop (k + 1) := by
        rw [← e, List.cons_getElem_drop_succ, List.take_append_drop]
      refine ⟨l.take k, a, l.drop (k + 1), hsplit, active_of_len (o := o) (by linarith), .inr q1, .inr q2⟩
    · obtain ⟨a, ha⟩ : ∃ a, l.reverse.find? o.active = some a := by
        obtain ⟨b, hb, hb'⟩ := hex
        exact Option.isSome_iff_exists.1 (List.find?_isSome.2 ⟨b, List.mem_reverse.2 hb, hb'⟩)
      obtain ⟨hact, x, y, e, hx⟩ := List.find?_eq_some_iff_append.1 ha
      have e' : l = y.reverse ++ a :: x.reverse := by
        rw [← List.reverse_reverse l, e]; simp
      have hx' : ∀ b ∈ x.reverse, o.active b = false := fun b hb => by simpa using hx b (List.mem_reverse.1 hb)
      refine ⟨y.reverse, a, x.reverse, e', hact, .inr ?_, .inl hx'⟩
      have hla : 0 < o.len a := by
        rw [len_of_active hact]; exact h a (by rw [e']; simp) hact
      have hl' : chainLen o l = chainLen o y.reverse + o.len a := by
        rw [e', chainLen_append, chainLen_cons, chainLen_inactive hx']; ring
      have : chainLen o l < s * chainLen o l := by nlinarith
      linarith

end

/-- Every chain inside has its own flag set. -/
def FlagsOn : (n : ℕ) → Nest n → Prop
  | 0, _ => True
  | n + 1, (x : Chain (Nest n) ⊕ Curve) => match x with
    | .inl c => c.flag = true ∧ ∀ y ∈ c.curves, FlagsOn n y
    | .inr _ => True

/-- What flattening a member means: the flattened list is active if the member is, has its length, and runs through the
same points. -/
structure FlatOk (n : ℕ) (x : Nest n) : Prop where
  active : (nestOps n).active x = true ↔ ∃ a ∈ flatten n x, curveOps.active a = true
  length : (nestOps n).active x = true → (nestOps n).length x = chainLen curveOps (flatten n x)
  eval : (nestOps n).active x = true → ∀ s, (nestOps n).eval x s = chainEval curveOps (flatten n x) s

theorem FlatOk.len {n : ℕ} {x : Nest n} (h : FlatOk n x) : (nestOps n).len x = chainLen curveOps (flatten n x) := by
  cases hx : (nestOps n).active x with
  | true => rw [len_of_active hx, h.length hx]
  | false =>
    rw [len_of_inactive hx, chainLen_inactive]
    intro b hb
    by_contra hne
    rw [h.active.2 ⟨b, hb, by simpa using hne⟩] at hx
    cases hx

theorem single_eval {α : Type} {o : CurveOps α} {a : α} (hact : o.active a = true) (hpos : 0 < o.length a) (s : ℝ) :
    chainEval o [a] s = o.eval a s := by
  have h : AllPos o ([] ++ a :: []) := by
    intro b hb _; simp at hb; rw [hb]; exact hpos
  have := chainEval_sel (x := []) (y := []) h hact (s := s) (.inl (by simp)) (.inl (by simp))
  rw [show ([] : List α) ++ a :: [] = [a] from rfl] at this
  rw [this]
  congr 1
  have hl : o.len a = o.length a := len_of_active hact
  simp [chainLen, hl, hpos.ne']

/-- Flattening a list whose members can be flattened. -/
theorem flat_list {n : ℕ} {l : List (Nest n)} (hl : ∀ x ∈ l, FlatOk n x)
    (hpos : AllPos curveOps (getCurves n l)) :
    ((l.any (nestOps n).active = true) ↔ ∃ a ∈ getCurves n l, curveOps.active a = true) ∧
    chainLen (nestOps n) l = chainLen curveOps (getCurves n l) ∧
    ((∃ a ∈ getCurves n l, curveOps.active a = true) → ∀ s,
      chainEval (nestOps n) l s = chainEval curveOps (getCurves n l) s) := by
  have hany : (l.any (nestOps n).active = true) ↔ ∃ a ∈ getCurves n l, curveOps.active a = true := by
    rw [List.any_eq_true]
    constructor
    · rintro ⟨x, hx, hx'⟩
      obtain ⟨a, ha, ha'⟩ := (hl x hx).active.1 hx'
      exact ⟨a, List.mem_flatMap.2 ⟨x, hx, ha⟩, ha'⟩
    · rintro ⟨a, ha, ha'⟩
      obtain ⟨x, hx, hax⟩ := List.mem_flatMap.1 ha
      exact ⟨x, hx, (hl x hx).active.2 ⟨a, hax, ha'⟩⟩
  have hlen : ∀ m : List (Nest n), (∀ x ∈ m, FlatOk n x) →
      chainLen (nestOps n) m = chainLen curveOps (getCurves n m) := by
    intro m
    induction m with
    | nil => intro _; rfl
    | cons x m ih =>
      intro hm
      rw [chainLen_cons, (hm x (by simp)).len, ih fun y hy => hm y (by simp [hy]), getCurves, getCurves,
        List.flatMap_cons, chainLen_append]
  refine ⟨hany, hlen l hl, fun hex s => ?_⟩
  have hnest : AllPos (nestOps n) l := by
    intro x hx hact
    rw [(hl x hx).length hact]
    apply chainLen_pos_of _ ((hl x hx).active.1 hact)
    intro a ha; exact hpos a (List.mem_flatMap.2 ⟨x, hx, ha⟩)
  have hexn : ∃ x ∈ l, (nestOps n).active x = true := List.any_eq_true.1 (hany.2 hex)
  obtain ⟨X, x, Y, e, hxact, h1, h2⟩ := sel_exists hnest hexn s
  have hX : ∀ y ∈ X, FlatOk n y := fun y hy => hl y (by rw [e]; simp [hy])
  have hY : ∀ y ∈ Y, FlatOk n y := fun y hy => hl y (by rw [e]; simp [hy])
  have hxok : FlatOk n x := hl x (by rw [e]; simp)
  have hinact : ∀ m : List (Nest n), (∀ y ∈ m, FlatOk n y) → (∀ y ∈ m, (nestOps n).active y = false) →
      ∀ b ∈ getCurves n m, curveOps.active b = false := by
    intro m hm hf b hb
    obtain ⟨y, hy, hby⟩ := List.mem_flatMap.1 hb
    by_contra hne
    have := (hm y hy).active.2 ⟨b, hby, by simpa using hne⟩
    rw [hf y hy] at this; cases this
  obtain ⟨L, hLd⟩ : ∃ L, L = chainLen (nestOps n) l := ⟨_, rfl⟩
  have hxl : 0 < (nestOps n).len x := by
    rw [len_of_active hxact]; exact hnest x (by rw [e]; simp) hxact
  have hflat : getCurves n l = getCurves n X ++ (flatten n x ++ getCurves n Y) := by
    rw [e, getCurves, getCurves, getCurves, List.flatMap_append, List.flatMap_cons]
  -- the outer lookup
  have outer : chainEval (nestOps n) l s = chainEval curveOps (flatten n x)
      ((s * L - chainLen curveOps (getCurves n X)) / chainLen curveOps (flatten n x)) := by
    have := chainEval_sel (s := s) (e ▸ hnest) hxact (by rw [← e]; exact h1) (by rw [← e]; exact h2)
    rw [← e, hxok.eval hxact, hlen X hX, hxok.len, ← hLd] at this
    exact this
  -- the inner lookup
  have hposx : AllPos curveOps (flatten n x) := fun a ha => hpos a (by rw [hflat]; simp [ha])
  obtain ⟨u, a, v, eu, haact, q1, q2⟩ := sel_exists hposx (hxok.active.1 hxact)
    ((s * L - chainLen curveOps (getCurves n X)) / chainLen curveOps (flatten n x))
  rw [hxok.len] at hxl
  rw [div_mul_cancel₀ _ hxl.ne'] at q1 q2
  have inner := chainEval_sel (s := (s * L - chainLen curveOps (getCurves n X)) / chainLen curveOps (flatten n x))
    (eu ▸ hposx) haact (by rw [← eu, div_mul_cancel₀ _ hxl.ne']; exact q1)
    (by rw [← eu, div_mul_cancel₀ _ hxl.ne']; exact q2)
  rw [← eu, div_mul_cancel₀ _ hxl.ne'] at inner
  -- the lookup in the flat list
  have hflat' : getCurves n l = (getCurves n X ++ u) ++ a :: (v ++ getCurves n Y) := by
    rw [hflat, eu]; simp
  rw [hlen l hl] at hLd
  have hxsum : chainLen curveOps (flatten n x) = chainLen curveOps u + (curveOps.len a + chainLen curveOps v) := by
    rw [eu, chainLen_append, chainLen_cons]
  have flat := chainEval_sel (s := s) (hflat' ▸ hpos) haact
    (by
      rw [← hflat', ← hLd, chainLen_append]
      rcases q1 with q1 | q1
      · rcases h1 with h1 | h1
        · left
          intro b hb
          rcases List.mem_append.1 hb with hb | hb
          · exact hinact X hX h1 b hb
          · exact q1 b hb
        · right
          rw [chainLen_inactive q1, ← hlen X hX]
          rw [hlen l hl, ← hLd] at h1
          linarith
      · right; linarith)
    (by
      rw [← hflat', ← hLd, chainLen_append]
      rcases q2 with q2 | q2
      · rcases h2 with h2 | h2
        · left
          intro b hb
          rcases List.mem_append.1 hb with hb | hb
          · exact q2 b hb
          · exact hinact Y hY h2 b hb
        · right
          rw [hlen l hl, ← hLd, hxok.len, hlen X hX, hxsum, chainLen_inactive q2] at h2
          linarith
      · right; linarith)
  rw [← hflat', ← hLd, chainLen_append] at flat
  rw [outer, inner, flat]
  congr 2; ring

theorem flatOk : ∀ (n : ℕ) (x : Nest n), FlagsOn n x → AllPos curveOps (flatten n x) → FlatOk n x
  | 0, (x : Curve), _, hp => by
    refine ⟨?_, ?_, ?_⟩
    · change x.active = true ↔ ∃ a ∈ [x], a.active = true
      simp
    · intro hx
      change x.length = chainLen curveOps [x]
      have : curveOps.len x = x.length := len_of_active hx
      simp [chainLen, this]
    · intro hx s
      exact (single_eval hx (hp x (by simp [flatten]) hx) s).symm
  | n + 1, .inr c, _, hp => by
    refine ⟨?_, ?_, ?_⟩
    · change c.active = true ↔ ∃ a ∈ [c], a.active = true
      simp
    · intro hx
      change c.length = chainLen curveOps [c]
      have : curveOps.len c = c.length := len_of_active hx
      simp [chainLen, this]
    · intro hx s
      exact (single_eval (o := curveOps) (a := c) hx (hp c (by simp [flatten]) hx) s).symm
  | n + 1, .inl c, hf, hp => by
    obtain ⟨hflag, hin⟩ := hf
    have hp' : AllPos curveOps (getCurves n c.curves) := hp
    have hok : ∀ y ∈ c.curves, FlatOk n y := fun y hy =>
      flatOk n y (hin y hy) fun a ha => hp' a (List.mem_flatMap.2 ⟨y, hy, ha⟩)
    obtain ⟨f1, f2, f3⟩ := flat_list hok hp'
    have e : (nestOps (n + 1)).active (.inl c) = c.curves.any (nestOps n).active := by
      change (c.flag && c.curves.any (nestOps n).active) = _
      rw [hflag, Bool.true_and]
    refine ⟨by rw [e]; exact f1, fun _ => f2, fun hx s => ?_⟩
    rw [e] at hx
    exact f3 (f1.1 hx) s

/-- **C109 (partial).** A chain with nested chains, all of them switched on, runs through exactly the same points as the
chain of the curves from `get_curves`, position by position (also beyond its ends), and has the same length. -/
theorem c109_partial (n : ℕ) (l : List (Nest n)) (hf : ∀ x ∈ l, FlagsOn n x) (hp : AllPos curveOps (getCurves n l))
    (hex : ∃ a ∈ getCurves n l, a.active = true) :
    (∀ s, chainEval (nestOps n) l s = chainEval curveOps (getCurves n l) s) ∧
    chainLen (nestOps n) l = chainLen curveOps (getCurves n l) := by
  obtain ⟨-, f2, f3⟩ := flat_list (fun x hx => flatOk n x (hf x hx) fun a ha =>
    hp a (List.mem_flatMap.2 ⟨x, hx, ha⟩)) hp
  exact ⟨f3 hex, f2⟩

theorem lineC_len (p q : V3) : curveOps.len (lineC p q) = norm3 (q - p) := by
  rw [len_of_active (show curveOps.active (lineC p q) = true from lineC_active p q)]
  exact lineC_length p q

/-- **C109 fails for a chain that is switched off.** `get_curves` brings its curves back: the flat chain is longer and
ends elsewhere. -/
theorem c109_violated (p q r t : V3) (h1 : p ≠ q) (h2 : r ≠ t) :
    ∃ l : List (Nest 1), l = [.inr (lineC p q), .inl ⟨[lineC r t], false⟩] ∧
      chainEval (nestOps 1) l 1 = some q ∧ chainEval curveOps (getCurves 1 l) 1 = some t ∧
      chainLen (nestOps 1) l = norm3 (q - p) ∧
      chainLen curveOps (getCurves 1 l) = norm3 (q - p) + norm3 (t - r) := by
  obtain ⟨X, hX⟩ : ∃ X : Nest 1, X = (Sum.inr (lineC p q) : Chain Curve ⊕ Curve) := ⟨_, rfl⟩
  obtain ⟨Y, hY⟩ : ∃ Y : Nest 1, Y = (Sum.inl ⟨[lineC r t], false⟩ : Chain Curve ⊕ Curve) := ⟨_, rfl⟩
  have hact : (nestOps 1).active X = true := hX ▸ lineC_active p q
  have hin : (nestOps 1).active Y = false := hY ▸ rfl
  have hlX : (nestOps 1).len X = norm3 (q - p) := by
    rw [len_of_active hact, hX]; exact lineC_length p q
  have hlY : chainLen (nestOps 1) [Y] = 0 := chainLen_inactive (by
    intro b hb; rw [List.mem_singleton.1 hb]; exact hin)
  have hflat : getCurves 1 [X, Y] = [lineC p q, lineC r t] := by rw [hX, hY]; rfl
  refine ⟨[X, Y], by rw [hX, hY]; rfl, ?_, ?_, ?_, ?_⟩
  · have hall : AllPos (nestOps 1) ([] ++ X :: [Y]) := by
      intro a ha hact'
      rcases List.mem_cons.1 ha with rfl | ha
      · rw [hX]; exact lineC_pos h1
      · rw [List.mem_singleton.1 ha, hin] at hact'; cases hact'
    refine (chainEval_one hall.nonNeg (x := []) (by
      rw [hlX]; exact norm3_pos (sub_ne_zero.2 h1.symm)) hlY).trans ?_
    rw [hX]
    change (lineC p q).eval 1 = some q
    rw [lineC_eval]; simp
  · rw [hflat]
    have hall : AllPos curveOps ([lineC p q] ++ lineC r t :: []) := by
      intro a ha _
      simp only [List.mem_append, List.mem_cons, List.not_mem_nil, or_false] at ha
      rcases ha with rfl | rfl
      · exact lineC_pos h1
      · exact lineC_pos h2
    refine (chainEval_one hall.nonNeg (by
      rw [lineC_len]; exact norm3_pos (sub_ne_zero.2 h2.symm)) rfl).trans ?_
    change (lineC r t).eval 1 = some t
    rw [lineC_eval]; simp
  · rw [chainLen_cons, hlX, hlY, add_zero]
  · rw [hflat, chainLen_cons, chainLen_cons, lineC_len, lineC_len, show chainLen curveOps [] = 0 from rfl]; ring

/-- A chain inside a chain that meets the conditions of `c109_partial`. -/
theorem c109_case : ∃ l : List (Nest 1), l = [.inr (lineC 0 RIGHT), .inl ⟨[lineC RIGHT 0, lineC 0 RIGHT], true⟩] ∧
    (∀ x ∈ l, FlagsOn 1 x) ∧ AllPos curveOps (getCurves 1 l) ∧ ∃ a ∈ getCurves 1 l, a.active = true := by
  have hne : (0 : V3) ≠ RIGHT := by intro e; have := congrFun e 0; simp [RIGHT] at this
  refine ⟨_, rfl, ?_, ?_, lineC 0 RIGHT, ?_, lineC_active _ _⟩
  · intro x hx
    rcases List.mem_cons.1 hx with rfl | hx
    · trivial
    · rw [List.mem_singleton.1 hx]; exact ⟨rfl, fun _ _ => trivial⟩
  · change AllPos curveOps [lineC 0 RIGHT, lineC RIGHT 0, lineC 0 RIGHT]
    intro a ha _
    simp only [List.mem_cons, List.not_mem_nil, or_false] at ha
    rcases ha with rfl | rfl | rfl
    · exact lineC_pos hne
    · exact lineC_pos hne.symm
    · exact lineC_pos hne
  · change lineC 0 RIGHT ∈ [lineC 0 RIGHT, lineC RIGHT 0, lineC 0 RIGHT]
    simp

/-! ### Removing and bridging inactive members -/

section
variable {α : Type} {o : CurveOps α}

theorem chainLen_del (l : List α) : chainLen o (delInactive o l) = chainLen o l := by
  induction l with
  | nil => rfl
  | cons a l ih =>
    rw [chainLen_cons, ← ih, delInactive, List.filter_cons]
    cases ha : o.active a with
    | true => rw [if_pos rfl, chainLen_cons]; rfl
    | false => rw [if_neg (by simp), len_of_inactive ha, zero_add]; rfl

/-- **C110, `del_inactive_curves`.** Removing the inactive members leaves no inactive one and changes neither the length
nor any point, at positions on and beyond the chain. -/
theorem c110_delete (l : List α) (h : AllPos o l) (hex : ∃ a ∈ l, o.active a = true) :
    (∀ a ∈ delInactive o l, o.active a = true) ∧ chainLen o (delInactive o l) = chainLen o l ∧
    ∀ s, chainEval o (delInactive o l) s = chainEval o l s := by
  refine ⟨fun a ha => by simpa using (List.mem_filter.1 ha).2, chainLen_del l, fun s => ?_⟩
  obtain ⟨x, a, y, e, hact, h1, h2⟩ := sel_exists h hex s
  have e' : delInactive o l = delInactive o x ++ a :: delInactive o y := by
    rw [e, delInactive, List.filter_append, List.filter_cons, if_pos (by exact hact)]; rfl
  have hd : AllPos o (delInactive o l) := fun b hb => h b (List.mem_filter.1 hb).1
  have hx := chainLen_del (o := o) x
  have hl := chainLen_del (o := o) l
  have r1 := chainEval_sel (s := s) (e ▸ h) hact (by rw [← e]; exact h1) (by rw [← e]; exact h2)
  have r2 := chainEval_sel (s := s) (e' ▸ hd) hact (by
      rw [← e', hl, hx]
      exact h1.imp (fun g b hb => g b (List.mem_filter.1 hb).1) id) (by
      rw [← e', hl, hx]
      exact h2.imp (fun g b hb => g b (List.mem_filter.1 hb).1) id)
  rw [← e] at r1
  rw [← e', hl, hx] at r2
  rw [r1, r2]

end

/-- State of the loop of `get_curves(lerp_inactive=True)` after `k` passes. -/
structure Lerped (l : List Curve) (k : ℕ) (l' : List Curve) : Prop where
  len : l'.length = l.length
  keep : ∀ (j : ℕ) (c : Curve), l[j]? = some c → (c.active = true ∨ k ≤ j) → l'[j]? = some c
  bridge : ∀ (j : ℕ) (c : Curve), l[j]? = some c → c.active = false → j < k → ∃ p q : V3,
    l'[j]? = some (Curve.make (.line p q) false 0 1) ∧
    (j = 0 → (l[l.length - 1]?).bind (·.eval 1) = some p) ∧
    (∀ i, j = i + 1 → (l'[i]?).bind (·.eval 1) = some p) ∧
    (j + 1 < l.length → (l[j + 1]?).bind (·.eval 0) = some q) ∧
    (j + 1 = l.length → (l'[0]?).bind (·.eval 0) = some q)

theorem lerpLoop_state {l : List Curve} (h2 : 2 ≤ l.length) : ∀ (k : ℕ) {l' : List Curve}, k ≤ l.length →
    lerpLoop l k = some l' → Lerped l k l'
  | 0, l', _, e => by
    simp only [lerpLoop, Option.some.injEq] at e
    subst e
    exact ⟨rfl, fun j c hc _ => hc, fun j c _ _ h => absurd h (Nat.not_lt_zero _)⟩
  | k + 1, l', hk, e => by
    simp only [lerpLoop, Option.bind_eq_some_iff] at e
    obtain ⟨m, hm, e⟩ := e
    have ih := lerpLoop_state h2 k (by omega) hm
    have hg : l[k]? = some l[k] := List.getElem?_eq_getElem (by omega)
    have hmk : m[k]? = some l[k] := ih.keep k _ hg (.inr le_rfl)
    rw [lerpStep, hmk] at e
    simp only at e
    cases hact : l[k].active with
    | true =>
      rw [hact, if_pos rfl, Option.some.injEq] at e
      subst e
      refine ⟨ih.len, fun j c hc hj => ih.keep j c hc (hj.imp id fun h => by omega), fun j c hc hin hj => ?_⟩
      rcases Nat.lt_or_ge j k with h | h
      · exact ih.bridge j c hc hin h
      · rw [show j = k by omega, hg] at hc
        rw [← Option.some.inj hc, hact] at hin; cases hin
    | false =>
      rw [hact, if_neg (by simp)] at e
      split at e
      · rename_i p q hp hq
        rw [Option.some.injEq] at e
        subst e
        rw [ih.len] at hp hq
        refine ⟨by rw [List.length_set, ih.len], fun j c hc hj => ?_, fun j c hc hin hj => ?_⟩
        · have hjk : k ≠ j := by
            rintro rfl
            rw [hg] at hc
            rcases hj with hj | hj
            · rw [← Option.some.inj hc, hact] at hj; cases hj
            · omega
          rw [List.getElem?_set_ne hjk]
          exact ih.keep j c hc (hj.imp id fun h => by omega)
        · rcases Nat.lt_or_ge j k with h | h
          · obtain ⟨p', q', b1, b2, b3, b4, b5⟩ := ih.bridge j c hc hin h
            refine ⟨p', q', by rw [List.getElem?_set_ne (by omega)]; exact b1, b2, ?_, b4, ?_⟩
            · intro i hi
              rw [List.getElem?_set_ne (by omega)]; exact b3 i hi
            · intro hj; omega
          · have hjk : j = k := by omega
            subst hjk
            refine ⟨p, q, by rw [List.getElem?_set_self (by rw [ih.len]; omega)], ?_, ?_, ?_, ?_⟩
            · rintro rfl
              rw [show (0 + l.length - 1) % l.length = l.length - 1 by rw [Nat.mod_eq_of_lt] <;> omega] at hp
              rwa [ih.keep (l.length - 1) _ (List.getElem?_eq_getElem (by omega)) (.inr (Nat.zero_le _)),
                ← List.getElem?_eq_getElem (by omega)] at hp
            · rintro i rfl
              rw [List.getElem?_set_ne (by omega)]
              rwa [show (i + 1 + l.length - 1) % l.length = i by
                rw [show i + 1 + l.length - 1 = i + l.length by omega, Nat.add_mod_right,
                  Nat.mod_eq_of_lt (by omega)]] at hp
            · intro hlt
              rw [Nat.mod_eq_of_lt hlt] at hq
              rwa [ih.keep (j + 1) _ (List.getElem?_eq_getElem hlt) (.inr (by omega)),
                ← List.getElem?_eq_getElem hlt] at hq
            · intro hlt
              rw [hlt, Nat.mod_self] at hq
              rw [List.getElem?_set_ne (by omega)]; exact hq
      · cases e

theorem line_off_eval (p q : V3) : (Curve.make (.line p q) false 0 1).eval 0 = some p ∧
    (Curve.make (.line p q) false 0 1).eval 1 = some q := by
  rw [make_eval _ (by intro f n h; cases h), make_eval _ (by intro f n h; cases h)]
  simp [CurveKind.fn]

/-- **C110, `get_curves(lerp_inactive=True)`.** The active curves are untouched, every inactive one is replaced by an
inactive straight line, and next to an inactive curve there is no gap: it starts where its predecessor ends and ends where
its successor starts, around the whole list. The path itself is unchanged. -/
theorem c110_bridge (l out : List Curve) (h2 : 2 ≤ l.length) (e : lerpInactive l = some out) :
    out.length = l.length ∧
    (∀ (j : ℕ) (c : Curve), l[j]? = some c → c.active = true → out[j]? = some c) ∧
    (∀ (j : ℕ) (c : Curve), l[j]? = some c → c.active = false →
      ∃ d p q, out[j]? = some d ∧ d.kind = .line p q ∧ d.active = false) ∧
    (∀ (j : ℕ) (a b : Curve), out[j]? = some a → out[(j + 1) % l.length]? = some b →
      (a.active = false ∨ b.active = false) → ∃ p, a.eval 1 = some p ∧ b.eval 0 = some p) ∧
    (AllPos curveOps l → (∃ a ∈ l, a.active = true) → ∀ s, chainEval curveOps out s = chainEval curveOps l s) := by
  have st := lerpLoop_state h2 l.length le_rfl e
  have orig : ∀ (j : ℕ) (a : Curve), out[j]? = some a →
      ∃ c, l[j]? = some c ∧ a.active = c.active ∧ (c.active = true → a = c) := by
    intro j a ha
    have hj := (List.getElem?_eq_some_iff.1 ha).1
    rw [st.len] at hj
    have hg : l[j]? = some l[j] := List.getElem?_eq_getElem hj
    refine ⟨_, hg, ?_⟩
    cases hact : l[j].active with
    | true =>
      have := st.keep j _ hg (.inl hact)
      rw [ha] at this
      rw [Option.some.inj this]; exact ⟨hact, fun _ => rfl⟩
    | false =>
      obtain ⟨p, q, b1, -⟩ := st.bridge j _ hg hact hj
      rw [ha] at b1
      rw [Option.some.inj b1]; exact ⟨rfl, fun h => by cases h⟩
  refine ⟨st.len, fun j c hc hact => st.keep j c hc (.inl hact), fun j c hc hact => ?_, ?_, ?_⟩
  · obtain ⟨p, q, b1, -⟩ := st.bridge j c hc hact (List.getElem?_eq_some_iff.1 hc).1
    exact ⟨_, p, q, b1, rfl, rfl⟩
  · intro j a b ha hb hin
    have hj := (List.getElem?_eq_some_iff.1 ha).1
    rw [st.len] at hj
    obtain ⟨ca, hca, aa, ka⟩ := orig j a ha
    obtain ⟨cb, hcb, ab, kb⟩ := orig _ b hb
    rcases Nat.lt_or_ge (j + 1) l.length with hlt | hge
    · rw [Nat.mod_eq_of_lt hlt] at hb hcb
      cases hbact : cb.active with
      | false =>
        obtain ⟨p, q, b1, -, b3, -⟩ := st.bridge (j + 1) cb hcb hbact hlt
        have e1 := b3 j rfl
        rw [ha, Option.bind_some] at e1
        rw [hb] at b1
        exact ⟨p, e1, by rw [Option.some.inj b1]; exact (line_off_eval p q).1⟩
      | true =>
        have hain : ca.active = false := by
          rw [aa, ab, hbact] at hin; simpa using hin
        obtain ⟨p, q, b1, -, -, b4, -⟩ := st.bridge j ca hca hain hj
        have e1 := b4 hlt
        rw [hcb, Option.bind_some, ← kb hbact] at e1
        rw [ha] at b1
        exact ⟨q, by rw [Option.some.inj b1]; exact (line_off_eval p q).2, e1⟩
    · have hjn : j + 1 = l.length := by omega
      rw [hjn, Nat.mod_self] at hb hcb
      cases haact : ca.active with
      | false =>
        obtain ⟨p, q, b1, -, -, -, b5⟩ := st.bridge j ca hca haact hj
        have e1 := b5 hjn
        rw [hb, Option.bind_some] at e1
        rw [ha] at b1
        exact ⟨q, by rw [Option.some.inj b1]; exact (line_off_eval p q).2, e1⟩
      | true =>
        have hbin : cb.active = false := by
          rw [aa, ab, haact] at hin; simpa using hin
        obtain ⟨p, q, b1, b2, -⟩ := st.bridge 0 cb hcb hbin (by omega)
        have e1 := b2 rfl
        rw [show l.length - 1 = j by omega, hca, Option.bind_some, ← ka haact] at e1
        rw [hb] at b1
        exact ⟨p, e1, by rw [Option.some.inj b1]; exact (line_off_eval p q).1⟩
  · intro hp hex s
    have hsame : delInactive curveOps out = delInactive curveOps l := by
      have hgen : ∀ (x y : List Curve), x.length = y.length → (∀ (j : ℕ) (a : Curve), x[j]? = some a →
          ∃ c, y[j]? = some c ∧ a.active = c.active ∧ (c.active = true → a = c)) →
          delInactive curveOps x = delInactive curveOps y := by
        intro x
        induction x with
        | nil => intro y hl _; rw [List.length_eq_zero_iff.1 hl.symm]
        | cons a x ih =>
          intro y hl ho
          cases y with
          | nil => simp at hl
          | cons c y =>
            obtain ⟨c', hc', h1, h3⟩ := ho 0 a rfl
            have : c = c' := by simpa using hc'
            subst this
            have ih' := ih y (by simpa using hl) fun j a' ha' => ho (j + 1) a' (by simpa using ha')
            simp only [delInactive] at ih' ⊢
            rw [List.filter_cons, List.filter_cons, ih']
            change (if a.active = true then _ else _) = if c.active = true then _ else _
            cases hc : c.active with
            | true => rw [h1, hc, if_pos rfl, if_pos rfl, h3 hc]
            | false => rw [h1, hc, if_neg (by simp), if_neg (by simp)]
      exact hgen out l st.len orig
    have hmem : ∀ a ∈ out, a.active = true → a ∈ l := by
      intro a ha hact
      obtain ⟨j, hj, rfl⟩ := List.mem_iff_getElem.1 ha
      obtain ⟨c, hc, h1, h3⟩ := orig j _ (List.getElem?_eq_getElem hj)
      rw [h3 (by rw [← h1]; exact hact)]
      exact List.mem_of_getElem? hc
    have hpo : AllPos curveOps out := fun a ha hact => hp a (hmem a ha hact) hact
    have hexo : ∃ a ∈ out, curveOps.active a = true := by
      obtain ⟨a, ha, hact⟩ := hex
      obtain ⟨j, hj, rfl⟩ := List.mem_iff_getElem.1 ha
      exact ⟨_, List.mem_of_getElem? (st.keep j _ (List.getElem?_eq_getElem hj) (.inl hact)), hact⟩
    rw [← (c110_delete l hp hex).2.2 s, ← (c110_delete out hpo hexo).2.2 s, hsame]

/-- The L-shaped chain with an inactive curve between its sides can be bridged. -/
theorem c110_case : ∃ out, lerpInactive ellChain = some out := by
  have a0 : (lineC 0 ![1, 0, 0]).active = true := lineC_active _ _
  have a2 : (lineC ![1, 0, 0] ![1, 1, 0]).active = true := lineC_active _ _
  simp only [lerpInactive, ellChain, List.length_cons, List.length_nil, lerpLoop, Option.bind_some, lerpStep]
  simp [a0, a2, lineC_eval]

end Verif
