import Verif.Spec.CurveHeap
import Verif.Props.Curve
import Verif.Props.Chain
import Verif.Model.Arc

/-!
# C138 Copies of curves
-/

namespace Verif

open Real

/-! ## What the view of an object depends on -/

theorem resolve_congr (s : CurveShape) {c d : ℕ → ℝ → V3} (h : ∀ j ∈ s.operands, c j = d j) :
    s.resolve c = s.resolve d := by
  cases s <;> simp_all [CurveShape.resolve, CurveShape.operands]

theorem captures_of_cls {s t : CurveShape} (h : s.cls = t.cls) : s.captures = t.captures := by
  cases s <;> cases t <;> simp_all [CurveShape.cls, CurveShape.captures]

theorem readShape_of_owner {H : CurveHeap} {o w : CurveCell} (hc : o.shape.captures = true)
    (hw : H[o.owner]? = some w) : readShape H o = w.shape := by
  simp [readShape, hc, hw]

theorem readShape_own {H : CurveHeap} {o : CurveCell} (hc : o.shape.captures = false) : readShape H o = o.shape := by
  simp [readShape, hc]

theorem view_none {H : CurveHeap} {i : ℕ} (h : H[i]? = none) : viewCurve H i = none := by
  rw [viewCurve, h]

theorem view_some {H : CurveHeap} {i : ℕ} {o : CurveCell} (h : H[i]? = some o) :
    viewCurve H i = some ⟨(readShape H o).resolve
      (fun j s => if j < i then ((viewCurve H j).map (·.evalD s)).getD 0 else 0),
      o.active, o.t0, o.t1, o.length, o.lookup⟩ := by
  rw [viewCurve, h]

/-- Two heaps that agree on everything `i` depends on show the same curve. -/
theorem view_frame {H H' : CurveHeap} (i : ℕ) (hc : ∀ k, Calls H i k → H'[k]? = H[k]?)
    (ha : ∀ k, ReadsAttributes H i k → (H'[k]?).map CurveCell.shape = (H[k]?).map CurveCell.shape) :
    viewCurve H' i = viewCurve H i := by
  induction i using Nat.strong_induction_on with
  | _ i ih =>
    cases ho : H[i]? with
    | none => rw [view_none ho, view_none (by rw [hc i (.self i), ho])]
    | some o =>
      have ho' : H'[i]? = some o := by rw [hc i (.self i), ho]
      have hs : readShape H' o = readShape H o := by
        unfold readShape
        split
        · next h => rw [ha o.owner ⟨i, o, .self i, ho, h, rfl⟩]
        · rfl
      rw [view_some ho, view_some ho', hs]
      congr 2
      apply resolve_congr
      intro j hj
      funext s
      by_cases hji : j < i
      · rw [if_pos hji, if_pos hji, ih j hji (fun k hk => hc k (.operand ho hj hk))]
        rintro k ⟨m, p, h1, h2⟩
        exact ha k ⟨m, p, .operand ho hj h1, h2⟩
      · rw [if_neg hji, if_neg hji]

/-- Such heaps also have the same dependencies. -/
theorem calls_frame {H H' : CurveHeap} {i k : ℕ} (h : Calls H' i k) (hc : ∀ k, Calls H i k → H'[k]? = H[k]?)
    (ha : ∀ k, ReadsAttributes H i k → (H'[k]?).map CurveCell.shape = (H[k]?).map CurveCell.shape) :
    Calls H i k := by
  induction h with
  | self i => exact .self i
  | @operand i j k o h1 h2 h3 ih =>
    have ho : H[i]? = some o := by rw [← hc i (.self i), h1]
    have hs : readShape H' o = readShape H o := by
      unfold readShape
      split
      · next h => rw [ha o.owner ⟨i, o, .self i, ho, h, rfl⟩]
      · rfl
    rw [hs] at h2
    refine .operand ho h2 (ih (fun k hk => hc k (.operand ho h2 hk)) ?_)
    rintro k ⟨m, p, h4, h5⟩
    exact ha k ⟨m, p, .operand ho h2 h4, h5⟩

theorem reads_frame {H H' : CurveHeap} {i k : ℕ} (h : ReadsAttributes H' i k)
    (hc : ∀ k, Calls H i k → H'[k]? = H[k]?)
    (ha : ∀ k, ReadsAttributes H i k → (H'[k]?).map CurveCell.shape = (H[k]?).map CurveCell.shape) :
    ReadsAttributes H i k := by
  obtain ⟨j, o, h1, h2, h3, h4⟩ := h
  have hj := calls_frame h1 hc ha
  exact ⟨j, o, hj, by rw [← hc j hj, h2], h3, h4⟩

/-! ## Well-formed heaps -/

theorem FormedHeap.read_operands {H : CurveHeap} (hf : FormedHeap H) {i : ℕ} {o : CurveCell} (ho : H[i]? = some o)
    {j : ℕ} (hj : j ∈ (readShape H o).operands) : j < i := by
  cases hc : o.shape.captures with
  | false => rw [readShape_own hc] at hj; exact (hf i o ho).2.1 j hj
  | true =>
    obtain ⟨w, hw, _⟩ := (hf i o ho).2.2 hc
    rw [readShape_of_owner hc hw] at hj
    exact lt_of_lt_of_le ((hf _ w hw).2.1 j hj) (hf i o ho).1

theorem FormedHeap.calls_le {H : CurveHeap} (hf : FormedHeap H) {i k : ℕ} (h : Calls H i k) : k ≤ i := by
  induction h with
  | self i => exact le_rfl
  | operand h1 h2 _ ih => exact ih.trans (hf.read_operands h1 h2).le

theorem FormedHeap.reads_le {H : CurveHeap} (hf : FormedHeap H) {i k : ℕ} (h : ReadsAttributes H i k) : k ≤ i := by
  obtain ⟨j, o, h1, h2, _, rfl⟩ := h
  exact (hf j o h2).1.trans (hf.calls_le h1)

theorem formed_nil : FormedHeap [] := by
  intro i o h
  simp at h

/-- Changing one cell without changing its class keeps the form. -/
theorem FormedHeap.set {H : CurveHeap} (hf : FormedHeap H) {i : ℕ} {o p : CurveCell} (ho : H[i]? = some o)
    (hc : p.shape.cls = o.shape.cls) (hw : p.owner = o.owner) (hop : ∀ j ∈ p.shape.operands, j < i) :
    FormedHeap (H.set i p) := by
  have hi : i < H.length := by
    by_contra hn
    rw [List.getElem?_eq_none (by omega)] at ho
    simp at ho
  have key : ∀ (k : ℕ) (w : CurveCell), H[k]? = some w → ∃ w' : CurveCell, (H.set i p)[k]? = some w' ∧
      w'.shape.cls = w.shape.cls := by
    intro k w hk
    by_cases hki : i = k
    · subst hki
      rw [ho] at hk
      cases hk
      exact ⟨p, by simp [hi], hc⟩
    · exact ⟨w, by rw [List.getElem?_set_ne hki, hk], rfl⟩
  intro k q hq
  by_cases hki : i = k
  · subst hki
    rw [List.getElem?_set_self hi] at hq
    cases hq
    refine ⟨hw ▸ (hf i o ho).1, hop, fun h => ?_⟩
    obtain ⟨w, h1, h2⟩ := (hf i o ho).2.2 (by rw [← captures_of_cls hc, h])
    obtain ⟨w', h3, h4⟩ := key _ w h1
    exact ⟨w', by rw [hw, h3], by rw [h4, h2, hc]⟩
  · rw [List.getElem?_set_ne hki] at hq
    refine ⟨(hf k q hq).1, (hf k q hq).2.1, fun h => ?_⟩
    obtain ⟨w, h1, h2⟩ := (hf k q hq).2.2 h
    obtain ⟨w', h3, h4⟩ := key _ w h1
    exact ⟨w', h3, by rw [h4, h2]⟩

theorem store_some {H H' : CurveHeap} {i : ℕ} {c : Option Curve} (h : storeCurve H i c = some H') :
    ∃ o d, H[i]? = some o ∧ c = some d ∧ H' = H.set i (o.store d) := by
  unfold storeCurve at h
  split at h
  · next o d h1 => exact ⟨o, d, h1, rfl, (Option.some.inj h).symm⟩
  · cases h

/-- Every step that changes an object replaces its cell by one of the same class; only `assign` and the reversal of NURBS
pieces change attributes of the class. -/
theorem step_object {H H' : CurveHeap} {a : CurveAct} {i : ℕ} (ha : a.object = some i) (h : stepCurve H a = some H') :
    ∃ o p : CurveCell, H[i]? = some o ∧ H' = H.set i p ∧ p.shape.cls = o.shape.cls ∧ p.owner = o.owner ∧
      ((∀ j ∈ o.shape.operands, j < i) → ∀ j ∈ p.shape.operands, j < i) ∧
      (a.assigned = none → o.shape.captures = true → p.shape = o.shape) := by
  cases a with
  | new s active t0 t1 => cases ha
  | copy j => cases ha
  | assign j s =>
    cases ha
    simp only [stepCurve] at h
    split at h
    · cases h
    · next o ho =>
      split at h
      · next hs =>
        cases h
        exact ⟨o, { o with shape := s }, ho, rfl, hs.1, rfl, fun _ => hs.2.2, fun hn => by cases hn⟩
      · cases h
  | setActive j b =>
    cases ha
    simp only [stepCurve, Option.map_eq_some_iff] at h
    obtain ⟨o, ho, rfl⟩ := h
    exact ⟨o, _, ho, rfl, rfl, rfl, fun h => h, fun _ _ => rfl⟩
  | reverse j =>
    cases ha
    simp only [stepCurve, Option.map_eq_some_iff] at h
    obtain ⟨o, ho, rfl⟩ := h
    refine ⟨o, _, ho, rfl, ?_⟩
    rcases o with ⟨s, w, b, t0, t1, l, lk⟩
    cases s <;> simp [CurveCell.reverse, CurveShape.cls, CurveShape.operands, CurveShape.captures]
  | startOn j s =>
    cases ha
    obtain ⟨o, d, h1, _, h2⟩ := store_some h
    exact ⟨o, _, h1, h2, rfl, rfl, fun h => h, fun _ _ => rfl⟩
  | endOn j s =>
    cases ha
    obtain ⟨o, d, h1, _, h2⟩ := store_some h
    exact ⟨o, _, h1, h2, rfl, rfl, fun h => h, fun _ _ => rfl⟩
  | startAndEndOn j s s' =>
    cases ha
    obtain ⟨o, d, h1, _, h2⟩ := store_some h
    exact ⟨o, _, h1, h2, rfl, rfl, fun h => h, fun _ _ => rfl⟩
  | updateLengths j =>
    cases ha
    obtain ⟨o, d, h1, _, h2⟩ := store_some h
    exact ⟨o, _, h1, h2, rfl, rfl, fun h => h, fun _ _ => rfl⟩

/-- Constructing appends one object. -/
theorem new_some {H H' : CurveHeap} {s : CurveShape} {active : Bool} {t0 t1 : ℝ}
    (h : newCurve H s active t0 t1 = some H') :
    ∃ p : CurveCell, H' = H ++ [p] ∧ p.shape = s ∧ p.owner = H.length ∧ (∀ j ∈ s.operands, j < H.length) := by
  unfold newCurve at h
  split at h
  · cases h
  · next a u v hargs =>
    have hop : ∀ j ∈ s.operands, j < H.length := by
      intro j hj
      by_contra hn
      have hnone : H[j]? = none := List.getElem?_eq_none (by omega)
      cases s <;> simp only [CurveShape.operands, List.mem_cons, List.not_mem_nil, or_false] at hj <;>
        first
        | (subst hj; simp [ctorArgs, hnone] at hargs)
        | (rcases hj with rfl | rfl <;> simp [ctorArgs, hnone] at hargs)
    dsimp only at h
    split at h
    · obtain ⟨o, d, h1, _, h2⟩ := store_some h
      rw [List.getElem?_append_right le_rfl] at h1
      simp at h1
      subst h1
      exact ⟨_, by rw [h2, List.set_append_right _ _ le_rfl]; simp; rfl, rfl, rfl, hop⟩
    · cases h
      exact ⟨_, rfl, rfl, rfl, hop⟩

theorem copy_some {H H' : CurveHeap} {i : ℕ} (h : copyCurve H i = some H') :
    i < H.length ∧ H' = H ++ (H.take (i + 1)).mapIdx (CurveCell.copied H.length) := by
  unfold copyCurve at h
  split at h
  · next hi => exact ⟨hi, (Option.some.inj h).symm⟩
  · cases h

/-- The copied block. -/
theorem copy_cell {H H' : CurveHeap} {i n : ℕ} (h : copyCurve H i = some H') (hn : n ≤ i) {o : CurveCell}
    (ho : H[n]? = some o) : H'[H.length + n]? = some (o.copied H.length n) := by
  obtain ⟨_, rfl⟩ := copy_some h
  rw [List.getElem?_append_right (by omega)]
  simp [show n < i + 1 by omega, ho]

theorem moveRefs_cls (n : ℕ) (s : CurveShape) : (s.moveRefs n).cls = s.cls := by
  cases s <;> rfl

theorem moveRefs_captures (n : ℕ) (s : CurveShape) : (s.moveRefs n).captures = s.captures := by
  cases s <;> rfl

theorem step_old {H H' : CurveHeap} {a : CurveAct} (h : stepCurve H a = some H') {k : ℕ} (hk : k < H.length)
    (hn : a.object ≠ some k) : H'[k]? = H[k]? := by
  cases ha : a.object with
  | some i =>
    obtain ⟨o, p, _, rfl, _⟩ := step_object ha h
    rw [List.getElem?_set_ne (by rintro rfl; exact hn ha)]
  | none =>
    cases a with
    | new s b u v =>
      obtain ⟨p, rfl, _⟩ := new_some h
      exact List.getElem?_append_left hk
    | copy i =>
      obtain ⟨_, rfl⟩ := copy_some h
      exact List.getElem?_append_left hk
    | _ => cases ha

theorem step_length {H H' : CurveHeap} {a : CurveAct} (h : stepCurve H a = some H') : H.length ≤ H'.length := by
  cases ha : a.object with
  | some i =>
    obtain ⟨o, p, _, rfl, _⟩ := step_object ha h
    simp
  | none =>
    cases a with
    | new s b u v =>
      obtain ⟨p, rfl, _⟩ := new_some h
      simp
    | copy i =>
      obtain ⟨_, rfl⟩ := copy_some h
      simp
    | _ => cases ha

/-- Every step keeps the form. -/
theorem c138_formed {H H' : CurveHeap} (hf : FormedHeap H) {a : CurveAct} (h : stepCurve H a = some H') :
    FormedHeap H' := by
  cases ha : a.object with
  | some i =>
    obtain ⟨o, p, h1, rfl, h2, h3, h4, _⟩ := step_object ha h
    exact hf.set h1 h2 h3 (h4 (hf i o h1).2.1)
  | none =>
    cases a with
    | new s b u v =>
      obtain ⟨p, rfl, rfl, h2, h3⟩ := new_some h
      intro k q hq
      by_cases hk : k < H.length
      · rw [List.getElem?_append_left hk] at hq
        refine ⟨(hf k q hq).1, (hf k q hq).2.1, fun hc => ?_⟩
        obtain ⟨w, h5, h6⟩ := (hf k q hq).2.2 hc
        exact ⟨w, by rw [List.getElem?_append_left (lt_of_le_of_lt (hf k q hq).1 hk), h5], h6⟩
      · have hk' : k = H.length := by
          by_contra hne
          rw [List.getElem?_eq_none (by simp; omega)] at hq
          cases hq
        subst hk'
        simp at hq
        subst hq
        exact ⟨h2.le, h3, fun _ => ⟨p, by simp [h2], rfl⟩⟩
    | copy i =>
      have hi := (copy_some h).1
      intro k q hq
      by_cases hk : k < H.length
      · rw [step_old h hk (by simp [CurveAct.object])] at hq
        refine ⟨(hf k q hq).1, (hf k q hq).2.1, fun hc => ?_⟩
        obtain ⟨w, h5, h6⟩ := (hf k q hq).2.2 hc
        exact ⟨w, by rw [step_old h (lt_of_le_of_lt (hf k q hq).1 hk) (by simp [CurveAct.object]), h5], h6⟩
      · obtain ⟨n, rfl⟩ : ∃ n, k = H.length + n := ⟨k - H.length, by omega⟩
        have hn : n ≤ i := by
          by_contra hne
          obtain ⟨_, rfl⟩ := copy_some h
          rw [List.getElem?_eq_none (by simp; omega)] at hq
          cases hq
        obtain ⟨o, ho⟩ : ∃ o, H[n]? = some o := ⟨_, List.getElem?_eq_getElem (by omega)⟩
        rw [copy_cell h hn ho] at hq
        cases hq
        obtain ⟨f1, f2, f3⟩ := hf n o ho
        refine ⟨?_, ?_, fun hc => ?_⟩
        · simp only [CurveCell.copied]
          split <;> omega
        · intro j hj
          simp only [CurveCell.copied] at hj
          cases hs : o.shape <;> rw [hs] at hj f2 <;>
            simp only [CurveShape.moveRefs, CurveShape.operands, List.mem_cons, List.not_mem_nil, or_false] at hj f2 <;>
            first
            | (subst hj; have := f2 _ rfl; omega)
            | (rcases hj with rfl | rfl
               · have := f2 _ (.inl rfl); omega
               · have := f2 _ (.inr rfl); omega)
        · simp only [CurveCell.copied, moveRefs_captures] at hc
          obtain ⟨w, h5, h6⟩ := f3 hc
          refine ⟨w, ?_, by simp only [CurveCell.copied, moveRefs_cls]; exact h6⟩
          simp only [CurveCell.copied, hc, if_true]
          rw [step_old h (by omega) (by simp [CurveAct.object]), h5]
    | _ => cases ha

theorem c138_formed_run {H H' : CurveHeap} (hf : FormedHeap H) {P : List CurveAct} (h : runCurve H P = some H') :
    FormedHeap H' := by
  induction P generalizing H with
  | nil => cases h; exact hf
  | cons a P ih =>
    rw [runCurve, Option.bind_eq_some_iff] at h
    obtain ⟨H1, h1, h2⟩ := h
    exact ih (c138_formed hf h1) h2

/-! ## What programs leave alone -/

theorem assigned_object {a : CurveAct} {k : ℕ} (h : a.assigned = some k) : a.object = some k := by
  cases a <;> simp_all [CurveAct.assigned, CurveAct.object]

theorem step_agrees {H H' : CurveHeap} (hf : FormedHeap H) {a : CurveAct} (h : stepCurve H a = some H') {i : ℕ}
    (hi : i < H.length) (h1 : ∀ k, a.object = some k → ¬ Calls H i k)
    (h2 : ∀ k, a.assigned = some k → ¬ ReadsAttributes H i k) :
    (∀ k, Calls H i k → H'[k]? = H[k]?) ∧
    (∀ k, ReadsAttributes H i k → (H'[k]?).map CurveCell.shape = (H[k]?).map CurveCell.shape) := by
  refine ⟨fun k hk => step_old h (lt_of_le_of_lt (hf.calls_le hk) hi) fun hn => h1 k hn hk, fun k hk => ?_⟩
  by_cases hn : a.object = some k
  · obtain ⟨o, p, h3, rfl, _, _, _, h4⟩ := step_object hn h
    have has : a.assigned = none := by
      cases hs : a.assigned with
      | none => rfl
      | some m =>
        have := assigned_object hs
        rw [hn] at this
        cases this
        exact absurd hk (h2 k hs)
    have hcap : o.shape.captures = true := by
      obtain ⟨j, q, _, hq, hc, rfl⟩ := hk
      obtain ⟨w, hw, hcls⟩ := (hf j q hq).2.2 hc
      rw [h3] at hw
      cases hw
      rw [captures_of_cls hcls, hc]
    rw [h3, List.getElem?_set_self (lt_of_le_of_lt (hf.reads_le hk) hi)]
    simp [h4 has hcap]
  · rw [step_old h (lt_of_le_of_lt (hf.reads_le hk) hi) hn]

/-- **C138** A program leaves a curve as it is (points, range, length, lookup table) if it changes no curve that this one
calls and sets no attributes that this one captured. Programs may construct and copy whatever they like, and they may
change ranges of curves whose attributes are captured. -/
theorem c138_program {H H' : CurveHeap} (hf : FormedHeap H) {P : List CurveAct} (h : runCurve H P = some H') {i : ℕ}
    (hi : i < H.length) (h1 : ∀ a ∈ P, ∀ k, a.object = some k → ¬ Calls H i k)
    (h2 : ∀ a ∈ P, ∀ k, a.assigned = some k → ¬ ReadsAttributes H i k) :
    viewCurve H' i = viewCurve H i := by
  induction P generalizing H with
  | nil => cases h; rfl
  | cons a P ih =>
    rw [runCurve, Option.bind_eq_some_iff] at h
    obtain ⟨H1, h3, h4⟩ := h
    obtain ⟨e1, e2⟩ := step_agrees hf h3 hi (h1 a (by simp)) (h2 a (by simp))
    rw [ih (c138_formed hf h3) h4 (lt_of_lt_of_le hi (step_length h3)) ?_ ?_, view_frame i e1 e2]
    · exact fun b hb k hk hc => h1 b (by simp [hb]) k hk (calls_frame hc e1 e2)
    · exact fun b hb k hk hc => h2 b (by simp [hb]) k hk (reads_frame hc e1 e2)

/-- **C138** Changes of newer curves never reach older ones: a program that changes only curves with higher numbers than
`i` leaves `i` as it is. In particular no change of a copy is visible in its original, whatever the classes. -/
theorem c138_original {H H' : CurveHeap} (hf : FormedHeap H) {P : List CurveAct} (h : runCurve H P = some H') {i : ℕ}
    (hi : i < H.length) (h1 : ∀ a ∈ P, ∀ k, a.object = some k → i < k) : viewCurve H' i = viewCurve H i :=
  c138_program hf h hi (fun a ha k hk hc => absurd (hf.calls_le hc) (not_le.mpr (h1 a ha k hk)))
    (fun a ha k hk hc => absurd (hf.reads_le hc) (not_le.mpr (h1 a ha k (assigned_object hk))))

/-! ## Copies -/

theorem copied_shape_captures (n i : ℕ) (o : CurveCell) : (o.copied n i).shape.captures = o.shape.captures :=
  moveRefs_captures n o.shape

/-- **C138** At the moment of copying, the copy is the same curve as the original, and nothing else has changed. -/
theorem c138_copy {H H' : CurveHeap} (hf : FormedHeap H) {i : ℕ} (h : stepCurve H (.copy i) = some H') :
    viewCurve H' (H.length + i) = viewCurve H i ∧ ∀ n < H.length, viewCurve H' n = viewCurve H n := by
  have old : ∀ n < H.length, viewCurve H' n = viewCurve H n := by
    intro n hn
    obtain ⟨e1, e2⟩ := step_agrees hf h hn (by simp [CurveAct.object]) (by simp [CurveAct.assigned])
    exact view_frame n e1 e2
  have hi := (copy_some h).1
  refine ⟨?_, old⟩
  suffices hall : ∀ n ≤ i, viewCurve H' (H.length + n) = viewCurve H n from hall i le_rfl
  intro n
  induction n using Nat.strong_induction_on with
  | _ n ih =>
    intro hn
    obtain ⟨o, ho⟩ : ∃ o, H[n]? = some o := ⟨_, List.getElem?_eq_getElem (by omega)⟩
    rw [view_some ho, view_some (copy_cell h hn ho)]
    obtain ⟨f1, f2, f3⟩ := hf n o ho
    congr 2
    cases hc : o.shape.captures with
    | true =>
      obtain ⟨w, hw, hcls⟩ := f3 hc
      have hw' : H'[(o.copied H.length n).owner]? = some w := by
        simp only [CurveCell.copied, hc, if_true]
        rw [step_old h (by omega) (by simp [CurveAct.object]), hw]
      rw [readShape_of_owner hc hw, readShape_of_owner (by rw [copied_shape_captures, hc]) hw']
      apply resolve_congr
      intro j hj
      have hjn : j < n := lt_of_lt_of_le ((hf _ w hw).2.1 j hj) f1
      funext s
      rw [if_pos (by omega), if_pos hjn, old j (by omega)]
    | false =>
      rw [readShape_own hc, readShape_own (by rw [copied_shape_captures, hc])]
      simp only [CurveCell.copied]
      have key : ∀ j < n, (if H.length + j < H.length + n then
          ((viewCurve H' (H.length + j)).map fun x : Curve => x.evalD).getD 0 else 0) =
          (if j < n then ((viewCurve H j).map fun x : Curve => x.evalD).getD 0 else 0) := by
        intro j hj
        rw [if_pos (by omega), if_pos hj, ih j hj (by omega)]
      have key2 : ∀ (j : ℕ) (s : ℝ), j < n → (if H.length + j < H.length + n then
          ((viewCurve H' (H.length + j)).map fun x : Curve => x.evalD s).getD 0 else 0) =
          (if j < n then ((viewCurve H j).map fun x : Curve => x.evalD s).getD 0 else 0) := by
        intro j s hj
        rw [if_pos (by omega), if_pos hj, ih j hj (by omega)]
      cases hs : o.shape with
      | sum a b =>
        rw [hs] at f2
        simp only [CurveShape.moveRefs, CurveShape.resolve]
        congr 1
        funext t
        rw [key2 a t (f2 a (by simp [CurveShape.operands])), key2 b t (f2 b (by simp [CurveShape.operands]))]
      | diff a b =>
        rw [hs] at f2
        simp only [CurveShape.moveRefs, CurveShape.resolve]
        congr 1
        funext t
        rw [key2 a t (f2 a (by simp [CurveShape.operands])), key2 b t (f2 b (by simp [CurveShape.operands]))]
      | scaled a k =>
        rw [hs] at f2
        simp only [CurveShape.moveRefs, CurveShape.resolve]
        congr 1
        funext t
        rw [key2 a t (f2 a (by simp [CurveShape.operands]))]
      | quot a k =>
        rw [hs] at f2
        have ha := f2 a (by simp [CurveShape.operands])
        simp only [CurveShape.moveRefs, CurveShape.resolve]
        congr 1
        funext t
        rw [if_pos (by omega), if_pos ha, old a (by omega)]
      | mapped T a => rw [hs] at hc; cases hc
      | involute r a v z => rw [hs] at hc; cases hc
      | spherical r a c v z => rw [hs] at hc; cases hc
      | octoidal r a c al v z => rw [hs] at hc; cases hc
      | plain f => rfl
      | line p q => rfl
      | arc r a c M => rfl
      | nurb p w => rfl

/-- The copy of a self-contained curve calls only copied objects and captured nothing. -/
theorem own_calls {H H' : CurveHeap} {i : ℕ} (h : stepCurve H (.copy i) = some H') {n : ℕ}
    (hs : SelfContained H n) (hn : n ≤ i) (hf : FormedHeap H) {m k : ℕ} (hm : m = H.length + n) (hk : Calls H' m k) :
    ∃ l, k = H.length + l ∧ l ≤ i ∧ SelfContained H l := by
  induction hk generalizing n with
  | self j => exact ⟨n, hm, hn, hs⟩
  | @operand a j k p h1 h2 h3 ih =>
    subst hm
    obtain @⟨_, o, ho, hc, hq, hops⟩ := hs
    rw [copy_cell h hn ho] at h1
    cases h1
    rw [readShape_own (by rw [copied_shape_captures, hc])] at h2
    have f2 := (hf n o ho).2.1
    have hj : ∃ l ∈ o.shape.operands, j = H.length + l := by
      simp only [CurveCell.copied] at h2
      cases hsh : o.shape <;> rw [hsh] at h2 hc hq <;>
        simp_all [CurveShape.moveRefs, CurveShape.operands, CurveShape.cls, CurveShape.captures]
      all_goals rcases h2 with h2 | h2 <;> simp [h2]
    obtain ⟨l, hl, rfl⟩ := hj
    exact ih (hops l hl) ((f2 l hl).le.trans hn) rfl

/-- **C138** Copies of lines, arcs, NURBS pieces, curves of plain functions and of sums, differences and multiples of them
are independent: whatever a program does afterwards with all other curves, the copy stays what the original was when it was
copied, as long as the program does not change the copy or a copy made along with it (numbers `H.length` to
`H.length + i`). -/
theorem c138_copy_partial {H H1 H2 : CurveHeap} (hf : FormedHeap H) {i : ℕ} (hs : SelfContained H i)
    (h : stepCurve H (.copy i) = some H1) {P : List CurveAct} (hP : runCurve H1 P = some H2)
    (hn : ∀ a ∈ P, ∀ k, a.object = some k → k < H.length ∨ H.length + i < k) :
    viewCurve H2 (H.length + i) = viewCurve H i := by
  have hi := (copy_some h).1
  obtain ⟨o, ho⟩ : ∃ o, H[i]? = some o := ⟨_, List.getElem?_eq_getElem hi⟩
  rw [← (c138_copy hf h).1]
  apply c138_program (c138_formed hf h) hP
  · by_contra hc
    have := copy_cell h le_rfl ho
    rw [List.getElem?_eq_none (by omega)] at this
    cases this
  · intro a ha k hk hc
    obtain ⟨l, rfl, hl, _⟩ := own_calls h hs le_rfl hf rfl hc
    have := hn a ha _ hk
    omega
  · rintro a ha k hk ⟨j, p, hj, hp, hcap, rfl⟩
    obtain ⟨l, rfl, hl, hsl⟩ := own_calls h hs le_rfl hf rfl hj
    obtain @⟨_, q, hq, hqc, _⟩ := hsl
    rw [copy_cell h hl hq] at hp
    cases hp
    rw [copied_shape_captures, hqc] at hcap
    cases hcap

/-- **C138** The copy of an involute, a spherical involute or an octoid stays what it was as long as nobody changes the copy
or sets attributes of the curve it was copied from; reversing and trimming that curve is harmless. -/
theorem c138_formula_partial {H H1 H2 : CurveHeap} (hf : FormedHeap H) {i : ℕ} {o : CurveCell} (ho : H[i]? = some o)
    (hc : o.shape.captures = true) (hop : o.shape.operands = []) (h : stepCurve H (.copy i) = some H1)
    {P : List CurveAct} (hP : runCurve H1 P = some H2)
    (h1 : ∀ a ∈ P, a.object ≠ some (H.length + i)) (h2 : ∀ a ∈ P, a.assigned ≠ some o.owner) :
    viewCurve H2 (H.length + i) = viewCurve H i := by
  have hi := (copy_some h).1
  have hcell := copy_cell h le_rfl ho
  obtain ⟨w, hw, hcls⟩ := (hf i o ho).2.2 hc
  have hwop : w.shape.operands = [] := by
    cases hs : w.shape <;> cases hs' : o.shape <;> simp_all [CurveShape.cls, CurveShape.operands]
  have hcown : (o.copied H.length i).owner = o.owner := by simp [CurveCell.copied, hc]
  have hread : readShape H1 (o.copied H.length i) = w.shape := by
    apply readShape_of_owner (by rw [copied_shape_captures, hc])
    rw [hcown, step_old h (lt_of_le_of_lt (hf i o ho).1 hi) (by simp [CurveAct.object]), hw]
  have hcalls : ∀ k, Calls H1 (H.length + i) k → k = H.length + i := by
    intro k hk
    cases hk with
    | self => rfl
    | operand g1 g2 _ =>
      rw [hcell] at g1
      cases g1
      rw [hread, hwop] at g2
      cases g2
  rw [← (c138_copy hf h).1]
  apply c138_program (c138_formed hf h) hP
  · by_contra hn
    rw [List.getElem?_eq_none (by omega)] at hcell
    cases hcell
  · intro a ha k hk hcall
    rw [hcalls k hcall] at hk
    exact h1 a ha hk
  · rintro a ha k hk ⟨j, p, hj, hp, _, rfl⟩
    rw [hcalls j hj, hcell] at hp
    cases hp
    rw [hcown] at hk
    exact h2 a ha hk

/-- **C138** What a copy of such a curve, or of a transformed curve, does not have is attributes of its own: setting them
changes no point of the copy, nor its range and length. -/
theorem c138_deaf {H H1 H2 : CurveHeap} {i : ℕ} {o : CurveCell} (hf : FormedHeap H) (ho : H[i]? = some o)
    (hc : o.shape.captures = true) (h : stepCurve H (.copy i) = some H1) {s : CurveShape}
    (h2 : stepCurve H1 (.assign (H.length + i) s) = some H2) :
    viewCurve H2 (H.length + i) = viewCurve H i ∧
      ∃ p, H2[H.length + i]? = some p ∧ p.shape = s := by
  have hi := (copy_some h).1
  have hcell := copy_cell h le_rfl ho
  have hf1 := c138_formed hf h
  obtain ⟨w, hw, hcls⟩ := (hf i o ho).2.2 hc
  have hcown : (o.copied H.length i).owner = o.owner := by simp [CurveCell.copied, hc]
  have how := (hf i o ho).1
  have hlt : H.length + i < H1.length := by
    by_contra hn
    rw [List.getElem?_eq_none (by omega)] at hcell
    cases hcell
  simp only [stepCurve, hcell] at h2
  split at h2
  · next hs =>
    cases h2
    refine ⟨?_, ⟨_, List.getElem?_set_self hlt, rfl⟩⟩
    rw [← (c138_copy hf h).1, view_some hcell, view_some (List.getElem?_set_self hlt)]
    have hsc : s.captures = true := by rw [captures_of_cls hs.1, copied_shape_captures, hc]
    have hw1 : H1[o.owner]? = some w := by
      rw [step_old h (by omega) (by simp [CurveAct.object]), hw]
    have e1 : readShape H1 (o.copied H.length i) = w.shape :=
      readShape_of_owner (by rw [copied_shape_captures, hc]) (by rw [hcown, hw1])
    have e2 : readShape (H1.set (H.length + i) { o.copied H.length i with shape := s })
        { o.copied H.length i with shape := s } = w.shape := by
      apply readShape_of_owner hsc
      dsimp only
      rw [hcown, List.getElem?_set_ne (by omega), hw1]
    rw [e1, e2]
    congr 2
    apply resolve_congr
    intro j hj
    funext t
    have hjo : j < o.owner := (hf _ w hw).2.1 j hj
    rw [if_pos (by omega), if_pos (by omega)]
    congr 2
    apply view_frame j
    · intro k hk
      have := hf1.calls_le hk
      rw [List.getElem?_set_ne (by omega)]
    · intro k hk
      have := hf1.reads_le hk
      rw [List.getElem?_set_ne (by omega)]
  · cases h2

/-! ## Methods act on the view -/

theorem view_store {H : CurveHeap} (hf : FormedHeap H) {i : ℕ} {o : CurveCell} (ho : H[i]? = some o) {c d : Curve}
    (hv : viewCurve H i = some c) (hk : d.kind = c.kind) (ha : d.active = c.active) :
    viewCurve (H.set i (o.store d)) i = some d := by
  have hi : i < H.length := by
    by_contra hn
    rw [List.getElem?_eq_none (by omega)] at ho
    cases ho
  rw [view_some ho] at hv
  cases hv
  rw [view_some (List.getElem?_set_self hi)]
  have hr : readShape (H.set i (o.store d)) (o.store d) = readShape H o := by
    cases hcap : o.shape.captures with
    | false => rw [readShape_own hcap, readShape_own (by exact hcap)]; rfl
    | true =>
      obtain ⟨w, hw, _⟩ := (hf i o ho).2.2 hcap
      rw [readShape_of_owner hcap hw]
      by_cases he : i = o.owner
      · rw [← he, ho] at hw
        cases hw
        rw [readShape_of_owner (w := o.store d) (by exact hcap)
          (by show (H.set i (o.store d))[o.owner]? = _; rw [← he, List.getElem?_set_self hi])]
        rfl
      · exact readShape_of_owner (by exact hcap)
          (by show (H.set i (o.store d))[o.owner]? = _; rw [List.getElem?_set_ne he, hw])
  rw [hr]
  simp only at hk ha
  have hkind : (readShape H o).resolve (fun j s => if j < i then
      ((viewCurve (H.set i (o.store d)) j).map (·.evalD s)).getD 0 else 0) = d.kind := by
    rw [hk]
    apply resolve_congr
    intro j hj
    funext s
    have hji := hf.read_operands ho hj
    rw [if_pos hji, if_pos hji]
    congr 2
    apply view_frame j
    · intro k hk'
      have := hf.calls_le hk'
      rw [List.getElem?_set_ne (by omega)]
    · intro k hk'
      have := hf.reads_le hk'
      rw [List.getElem?_set_ne (by omega)]
  rw [hkind]
  simp only [CurveCell.store, ← ha]

theorem updateLengths_kind_active (c : Curve) :
    c.updateLengths.kind = c.kind ∧ c.updateLengths.active = c.active := by
  unfold Curve.updateLengths
  split <;> simp_all

/-- **C138** On every object, whatever it captured, trimming acts as on the value: afterwards the object is the trimmed
curve. -/
theorem c138_trim {H H' : CurveHeap} (hf : FormedHeap H) {i : ℕ} {c : Curve} (hv : viewCurve H i = some c) (s s' : ℝ) :
    (stepCurve H (.startOn i s) = some H' → viewCurve H' i = c.setStartOn s) ∧
    (stepCurve H (.endOn i s) = some H' → viewCurve H' i = c.setEndOn s) ∧
    (stepCurve H (.startAndEndOn i s s') = some H' → viewCurve H' i = c.setStartAndEndOn s s') ∧
    (stepCurve H (.updateLengths i) = some H' → viewCurve H' i = some c.updateLengths) := by
  refine ⟨fun h => ?_, fun h => ?_, fun h => ?_, fun h => ?_⟩ <;> obtain ⟨o, d, h1, h2, rfl⟩ := store_some h <;>
    rw [hv] at h2
  · rw [Option.bind_some] at h2
    rw [h2]
    rw [Curve.setStartOn, Option.map_eq_some_iff] at h2
    obtain ⟨t, _, rfl⟩ := h2
    exact view_store hf h1 hv (updateLengths_kind_active _).1 (updateLengths_kind_active _).2
  · rw [Option.bind_some] at h2
    rw [h2]
    rw [Curve.setEndOn, Option.map_eq_some_iff] at h2
    obtain ⟨t, _, rfl⟩ := h2
    exact view_store hf h1 hv (updateLengths_kind_active _).1 (updateLengths_kind_active _).2
  · rw [Option.bind_some] at h2
    rw [h2]
    unfold Curve.setStartAndEndOn at h2
    split at h2
    · cases h2
      exact view_store hf h1 hv (updateLengths_kind_active _).1 (updateLengths_kind_active _).2
    · cases h2
  · rw [Option.map_some] at h2
    cases h2
    exact view_store hf h1 hv (updateLengths_kind_active _).1 (updateLengths_kind_active _).2

/-- **C138** Reversing acts as on the value as well, except that a NURBS piece flips its points and weights and keeps range,
length and lookup table. -/
theorem c138_reverse {H H' : CurveHeap} (hf : FormedHeap H) {i : ℕ} {o : CurveCell} (ho : H[i]? = some o) {c : Curve}
    (hv : viewCurve H i = some c) (h : stepCurve H (.reverse i) = some H') :
    (o.shape.cls ≠ 3 → viewCurve H' i = some c.reverse) ∧
    (∀ points weights, o.shape = .nurb points weights →
      viewCurve H' i = some { c with kind := .generic (nurbFn points.reverse weights.reverse) 20 }) := by
  simp only [stepCurve, ho, Option.map_some] at h
  cases h
  constructor
  · intro hn
    have he : o.reverse = o.store c.reverse := by
      rw [view_some ho] at hv
      cases hv
      rcases o with ⟨s, w, b, t0, t1, l, lk⟩
      cases s <;> first | exact absurd rfl hn | rfl
    rw [he]
    exact view_store hf ho hv rfl rfl
  · intro points weights hs
    have hi : i < H.length := by
      by_contra hn
      rw [List.getElem?_eq_none (by omega)] at ho
      cases ho
    rw [view_some (List.getElem?_set_self hi)]
    rw [view_some ho] at hv
    cases hv
    have hr : o.reverse = { o with shape := .nurb points.reverse weights.reverse } := by
      unfold CurveCell.reverse
      rw [hs]
    rw [hr, readShape_own (by rfl)]
    rfl

/-- **C138** Setting attributes of a curve that is not a copy of one with captured attributes gives the curve of the new
attributes, with the old range, length and lookup table. -/
theorem c138_assign {H H' : CurveHeap} (hf : FormedHeap H) {i : ℕ} {o : CurveCell} (ho : H[i]? = some o) {c : Curve}
    (hv : viewCurve H i = some c) (hw : o.shape.captures = true → o.owner = i) {s : CurveShape}
    (h : stepCurve H (.assign i s) = some H') :
    viewCurve H' i = some { c with kind := s.resolve fun j t => ((viewCurve H j).map (·.evalD t)).getD 0 } := by
  have hi : i < H.length := by
    by_contra hn
    rw [List.getElem?_eq_none (by omega)] at ho
    cases ho
  simp only [stepCurve, ho] at h
  split at h
  · next hs =>
    cases h
    rw [view_some ho] at hv
    cases hv
    rw [view_some (List.getElem?_set_self hi)]
    have hr : readShape (H.set i { o with shape := s }) { o with shape := s } = s := by
      cases hc : s.captures with
      | false => exact readShape_own hc
      | true =>
        refine readShape_of_owner (w := { o with shape := s }) hc ?_
        dsimp only
        rw [hw (by rw [← captures_of_cls hs.1, hc]), List.getElem?_set_self hi]
    rw [hr]
    congr 2
    apply resolve_congr
    intro j hj
    have hji := hs.2.2 j hj
    funext t
    rw [if_pos hji, view_frame (H := H) j]
    · intro k hk
      have := hf.calls_le hk
      rw [List.getElem?_set_ne (by omega)]
    · intro k hk
      have := hf.reads_le hk
      rw [List.getElem?_set_ne (by omega)]
  · cases h

/-- A copy calls copies and objects that are not newer than its original. -/
theorem copy_calls {H H' : CurveHeap} (hf : FormedHeap H) {i : ℕ} (h : stepCurve H (.copy i) = some H') {m k : ℕ}
    (hk : Calls H' m k) (hm : m ≤ i ∨ H.length ≤ m ∧ m ≤ H.length + i) : k ≤ i ∨ H.length ≤ k := by
  have hi := (copy_some h).1
  have hf' := c138_formed hf h
  induction hk with
  | self m => omega
  | @operand m j k p h1 h2 h3 ih =>
    apply ih
    have hj := hf'.read_operands h1 h2
    rcases hm with hm | ⟨hm1, hm2⟩
    · omega
    · obtain ⟨x, rfl⟩ : ∃ x, m = H.length + x := ⟨m - H.length, by omega⟩
      obtain ⟨o, ho⟩ : ∃ o, H[x]? = some o := ⟨_, List.getElem?_eq_getElem (by omega)⟩
      rw [copy_cell h (by omega) ho] at h1
      cases h1
      obtain ⟨f1, f2, f3⟩ := hf x o ho
      cases hc : o.shape.captures with
      | true =>
        obtain ⟨w, hw, _⟩ := f3 hc
        rw [readShape_of_owner (w := w) (by rw [copied_shape_captures, hc])
          (by simp only [CurveCell.copied, hc, if_true]
              rw [step_old h (by omega) (by simp [CurveAct.object]), hw])] at h2
        have := (hf _ w hw).2.1 j h2
        omega
      | false =>
        rw [readShape_own (by rw [copied_shape_captures, hc])] at h2
        simp only [CurveCell.copied] at h2
        cases hs : o.shape <;> rw [hs] at h2 f2 <;>
          simp only [CurveShape.moveRefs, CurveShape.operands, List.mem_cons, List.not_mem_nil, or_false] at h2 f2 <;>
          first
          | (subst h2; first | omega | (have := f2 _ rfl; omega))
          | (rcases h2 with rfl | rfl <;> omega)

/-- **C138** `cut`: a copy with a new end and a copy with a new start. Both pieces are the pieces of the value, and the
original is still whole. -/
theorem c138_cut {H H' : CurveHeap} (hf : FormedHeap H) {i : ℕ} {c : Curve} (hv : viewCurve H i = some c) (s : ℝ)
    {n m : ℕ} (hn : n = H.length + i) (hm : m = (H.length + (i + 1)) + i)
    (h : runCurve H [.copy i, .copy i, .endOn n s, .startOn m s] = some H') :
    viewCurve H' i = some c ∧ (viewCurve H' n).isSome ∧ viewCurve H' n = c.setEndOn s ∧
      (viewCurve H' m).isSome ∧ viewCurve H' m = c.setStartOn s := by
  simp only [runCurve, Option.bind_eq_some_iff] at h
  obtain ⟨H1, h1, H2, h2, H3, h3, H4, h4, h5⟩ := h
  cases h5
  have hi := (copy_some h1).1
  have f1 := c138_formed hf h1
  have f2 := c138_formed f1 h2
  have f3 := c138_formed f2 h3
  have hl1 : H1.length = H.length + (i + 1) := by
    obtain ⟨_, rfl⟩ := copy_some h1
    simp [Nat.min_eq_left (show i + 1 ≤ H.length from hi)]
  have hl2 : H2.length = H1.length + (i + 1) := by
    obtain ⟨_, rfl⟩ := copy_some h2
    simp [Nat.min_eq_left (show i + 1 ≤ H1.length by omega)]
  have v1n : viewCurve H1 n = some c := by rw [hn, (c138_copy hf h1).1, hv]
  have v1i : viewCurve H1 i = some c := by rw [(c138_copy hf h1).2 i hi, hv]
  have v2n : viewCurve H2 n = some c := by rw [(c138_copy f1 h2).2 n (by omega), v1n]
  have v2i : viewCurve H2 i = some c := by rw [(c138_copy f1 h2).2 i (by omega), v1i]
  have v2m : viewCurve H2 m = some c := by rw [hm, ← hl1, (c138_copy f1 h2).1, v1i]
  have v3n := (c138_trim f2 v2n s s).2.1 h3
  have hsome : (c.setEndOn s).isSome := by
    obtain ⟨o, d, _, g2, _⟩ := store_some h3
    rw [v2n, Option.bind_some] at g2
    simp [g2]
  -- the copies of the second copy do not depend on the first one
  have v3i : viewCurve H3 i = some c := by
    rw [c138_original f2 (P := [.endOn n s]) (by simp [runCurve, h3]) (by omega) (by simp [CurveAct.object]; omega), v2i]
  have hl3 : H3.length = H2.length := by
    obtain ⟨o, d, _, _, rfl⟩ := store_some h3
    simp
  have v3m : viewCurve H3 m = some c := by
    rw [c138_program f2 (P := [.endOn n s]) (by simp [runCurve, h3]) (by omega) ?_ (by simp [CurveAct.assigned]), v2m]
    intro a ha k hk hc
    simp only [List.mem_singleton] at ha
    subst ha
    cases hk
    have := copy_calls f1 h2 hc (by omega)
    omega
  have v4m := (c138_trim f3 v3m s s).1 h4
  have hsome2 : (c.setStartOn s).isSome := by
    obtain ⟨o, d, _, g2, _⟩ := store_some h4
    rw [v3m, Option.bind_some] at g2
    simp [g2]
  have v4i : viewCurve H' i = some c := by
    rw [c138_original f3 (P := [.startOn m s]) (by simp [runCurve, h4]) (by omega) (by simp [CurveAct.object]; omega), v3i]
  have v4n : viewCurve H' n = c.setEndOn s := by
    rw [c138_original f3 (P := [.startOn m s]) (by simp [runCurve, h4]) (by omega) (by simp [CurveAct.object]; omega), v3n]
  exact ⟨v4i, by rw [v4n, hsome], v4n, by rw [v4m, hsome2], v4m⟩

/-! ## Construction -/

theorem new_exists {H : CurveHeap} {s : CurveShape} {active a : Bool} {t0 t1 u v : ℝ}
    (h : ctorArgs H active t0 t1 s = some (a, u, v)) : ∃ H', stepCurve H (.new s active t0 t1) = some H' := by
  simp only [stepCurve, newCurve, h]
  split
  · have ho : (H ++ [(⟨s, H.length, a, u, v, 0, Lookup.default⟩ : CurveCell)])[H.length]? =
      some ⟨s, H.length, a, u, v, 0, Lookup.default⟩ := by simp
    rw [view_some ho]
    simp [storeCurve]
  · exact ⟨_, rfl⟩

/-- **C138** A new curve is the curve of its class with the attributes and operands it was given, as the model of `Curve`
constructs it; the existing curves are not changed. -/
theorem c138_new {H H' : CurveHeap} (hf : FormedHeap H) {s : CurveShape} {active a : Bool} {t0 t1 u v : ℝ}
    (hargs : ctorArgs H active t0 t1 s = some (a, u, v)) (h : stepCurve H (.new s active t0 t1) = some H') :
    viewCurve H' H.length =
      some (Curve.make (s.resolve fun j t => ((viewCurve H j).map (·.evalD t)).getD 0) a u v) ∧
    ∀ n < H.length, viewCurve H' n = viewCurve H n := by
  have old : ∀ n < H.length, viewCurve H' n = viewCurve H n := by
    intro n hn
    obtain ⟨e1, e2⟩ := step_agrees hf h hn (by simp [CurveAct.object]) (by simp [CurveAct.assigned])
    exact view_frame n e1 e2
  refine ⟨?_, old⟩
  obtain ⟨p, hp, hps, hpo, hop⟩ := new_some h
  have hcell : H'[H.length]? = some p := by rw [hp]; simp
  have hread : readShape H' p = s := by
    cases hc : p.shape.captures with
    | false => rw [readShape_own hc, hps]
    | true => rw [readShape_of_owner hc (by rw [hpo, hcell]), hps]
  have hkind : s.resolve (fun j t => if j < H.length then ((viewCurve H' j).map (·.evalD t)).getD 0 else 0) =
      s.resolve fun j t => ((viewCurve H j).map (·.evalD t)).getD 0 := by
    apply resolve_congr
    intro j hj
    funext t
    rw [if_pos (hop j hj), old j (hop j hj)]
  obtain ⟨H1, hH1⟩ : ∃ H1, H1 = H ++ [(⟨s, H.length, a, u, v, 0, Lookup.default⟩ : CurveCell)] := ⟨_, rfl⟩
  simp only [stepCurve, newCurve, hargs] at h
  rw [← hH1] at h
  have ho : H1[H.length]? = some ⟨s, H.length, a, u, v, 0, Lookup.default⟩ := by rw [hH1]; simp
  have hread1 : readShape H1 ⟨s, H.length, a, u, v, 0, Lookup.default⟩ = s := by
    unfold readShape
    dsimp only
    rw [ho]
    split <;> rfl
  have hkind1 : s.resolve (fun j t => if j < H.length then ((viewCurve H1 j).map (·.evalD t)).getD 0 else 0) =
      s.resolve fun j t => ((viewCurve H j).map (·.evalD t)).getD 0 := by
    apply resolve_congr
    intro j hj
    funext t
    rw [if_pos (hop j hj), view_frame (H := H) j]
    · intro k hk
      rw [hH1, List.getElem?_append_left (lt_of_le_of_lt (hf.calls_le hk) (hop j hj))]
    · intro k hk
      rw [hH1, List.getElem?_append_left (lt_of_le_of_lt (hf.reads_le hk) (hop j hj))]
  have hv1 : viewCurve H1 H.length =
      some ⟨s.resolve fun j t => ((viewCurve H j).map (·.evalD t)).getD 0, a, u, v, 0, Lookup.default⟩ := by
    rw [view_some ho, hread1, hkind1]
  rw [Curve.make]
  split at h
  · next ha =>
    rw [if_pos ha]
    obtain ⟨o, d, h1, h2, h3⟩ := store_some h
    rw [hv1, Option.map_some] at h2
    cases h2
    rw [ho] at h1
    cases h1
    rw [view_some hcell, hread, hkind]
    rw [h3, List.getElem?_set_self (by rw [hH1]; simp)] at hcell
    cases hcell
    obtain ⟨c, hc⟩ : ∃ c : Curve, c = ⟨s.resolve fun j t => ((viewCurve H j).map (·.evalD t)).getD 0, a, u, v, 0,
      Lookup.default⟩ := ⟨_, rfl⟩
    rw [← hc]
    have k1 := updateLengths_kind c
    have k2 := updateLengths_active c
    rw [hc] at k1 k2
    dsimp only at k1 k2
    rw [← hc] at k1 k2
    simp only [CurveCell.store]
    rw [← k1, ← k2]
  · next ha =>
    rw [if_neg ha]
    cases h
    exact hv1

theorem view_cell {H : CurveHeap} {i : ℕ} {c : Curve} (hv : viewCurve H i = some c) :
    ∃ o, H[i]? = some o ∧ o.active = c.active ∧ o.t0 = c.t0 ∧ o.t1 = c.t1 := by
  cases ho : H[i]? with
  | none => rw [view_none ho] at hv; cases hv
  | some o => rw [view_some ho] at hv; cases hv; exact ⟨o, rfl, rfl, rfl, rfl⟩

/-- **C138** Arithmetic and transformation on objects give what they give on values: sum, difference, multiple, quotient and
transformed curve. The arguments `active` and range of the constructor play no role. -/
theorem c138_arith {H H' : CurveHeap} (hf : FormedHeap H) {i j : ℕ} {a b : Curve} (va : viewCurve H i = some a)
    (vb : viewCurve H j = some b) (k : ℝ) (T : V3 → V3) (active : Bool) (t0 t1 : ℝ) :
    (stepCurve H (.new (.sum i j) active t0 t1) = some H' → viewCurve H' H.length = some (a.add b)) ∧
    (stepCurve H (.new (.diff i j) active t0 t1) = some H' → viewCurve H' H.length = some (a.sub b)) ∧
    (stepCurve H (.new (.scaled i k) active t0 t1) = some H' → viewCurve H' H.length = some (a.mul k)) ∧
    (stepCurve H (.new (.quot i k) active t0 t1) = some H' → viewCurve H' H.length = some (a.div k)) ∧
    (stepCurve H (.new (.mapped T i) active t0 t1) = some H' →
      viewCurve H' H.length = some (transformedCurve T a.evalD a.active)) := by
  obtain ⟨o, ho, o1, o2, o3⟩ := view_cell va
  obtain ⟨p, hp, p1, _⟩ := view_cell vb
  refine ⟨fun h => ?_, fun h => ?_, fun h => ?_, fun h => ?_, fun h => ?_⟩
  · rw [(c138_new hf (by simp only [ctorArgs, ho, hp]; rfl) h).1, o1, p1]
    simp only [CurveShape.resolve, va, vb, Option.map_some, Option.getD_some, Curve.add]
  · rw [(c138_new hf (by simp only [ctorArgs, ho, hp]; rfl) h).1, o1, p1]
    simp only [CurveShape.resolve, va, vb, Option.map_some, Option.getD_some, Curve.sub]
  · rw [(c138_new hf (by simp only [ctorArgs, ho]; rfl) h).1, o1]
    simp only [CurveShape.resolve, va, Option.map_some, Option.getD_some, Curve.mul]
  · rw [(c138_new hf (by simp only [ctorArgs, ho]; rfl) h).1, o1, o2, o3]
    simp only [CurveShape.resolve, va, Option.map_some, Option.getD_some, Curve.div]
  · rw [(c138_new hf (by simp only [ctorArgs, ho]; rfl) h).1, o1]
    simp only [CurveShape.resolve, va, Option.map_some, Option.getD_some, transformedCurve]

/-- **C138** The curves of formulas, lines, arcs and NURBS pieces as objects. -/
theorem c138_formulas {H H' : CurveHeap} (hf : FormedHeap H) (active : Bool) (t0 t1 r angle c alpha z : ℝ) (v p q : V3)
    (M : M3) (points : List V3) (weights : List ℝ) :
    (stepCurve H (.new (.involute r angle v z) active t0 t1) = some H' → viewCurve H' H.length =
      some (.make (.generic (fun t => involuteCircle t r angle v z) 20) active t0 t1)) ∧
    (stepCurve H (.new (.spherical r angle c v z) active t0 t1) = some H' → viewCurve H' H.length =
      some (.make (.generic (fun t => involuteSphere t r c angle v z) 20) active t0 t1)) ∧
    (stepCurve H (.new (.octoidal r angle c alpha v z) active t0 t1) = some H' → viewCurve H' H.length =
      some (.make (.generic (fun t => octoid t r (1 / c) alpha angle v z) 20) active t0 t1)) ∧
    (stepCurve H (.new (.line p q) active t0 t1) = some H' →
      viewCurve H' H.length = some (.make (.line p q) active 0 1)) ∧
    (stepCurve H (.new (.arc r angle p M) active t0 t1) = some H' →
      viewCurve H' H.length = some (.make (.arc r angle p M) active 0 1)) ∧
    (stepCurve H (.new (.nurb points weights) active t0 t1) = some H' →
      viewCurve H' H.length = some (NurbObj.make points weights active).curve) := by
  refine ⟨fun h => ?_, fun h => ?_, fun h => ?_, fun h => ?_, fun h => ?_, fun h => ?_⟩
  all_goals exact (c138_new hf rfl h).1

/-! ## What goes wrong -/

/-- **C138** The copy of an involute, a spherical involute or an octoid follows its original: setting attributes of the
original changes the points of the copy in the same way, whose range, length and lookup table stay. -/
theorem c138_follow {H H1 H2 : CurveHeap} (hf : FormedHeap H) {i : ℕ} {o : CurveCell} (ho : H[i]? = some o)
    (hc : o.shape.captures = true) (how : o.owner = i) {c : Curve} (hv : viewCurve H i = some c)
    (h : stepCurve H (.copy i) = some H1) {s : CurveShape} (hs : s.operands = [])
    (h2 : stepCurve H1 (.assign i s) = some H2) :
    viewCurve H2 (H.length + i) = some { c with kind := s.resolve fun _ _ => 0 } := by
  have hi := (copy_some h).1
  have hcell := copy_cell h le_rfl ho
  have ho1 : H1[i]? = some o := by rw [step_old h hi (by simp [CurveAct.object]), ho]
  have hi1 : i < H1.length := lt_of_lt_of_le hi (step_length h)
  simp only [stepCurve, ho1] at h2
  split at h2
  · next hg =>
    cases h2
    have hcell2 : (H1.set i { o with shape := s })[H.length + i]? = some (o.copied H.length i) := by
      rw [List.getElem?_set_ne (by omega), hcell]
    rw [view_some hcell2, readShape_of_owner (w := { o with shape := s }) (by rw [copied_shape_captures, hc])
      (by simp only [CurveCell.copied, hc, if_true, how]; exact List.getElem?_set_self hi1)]
    rw [view_some ho] at hv
    cases hv
    simp only [CurveCell.copied]
    congr 2
    exact resolve_congr s (by rw [hs]; simp)
  · cases h2

/-- **C138** The copy of a transformed curve has a target of its own that it never uses: programs that change only copies
made along with it, its target among them, leave it as it is. -/
theorem c138_target {H H1 H2 : CurveHeap} (hf : FormedHeap H) {i : ℕ} {o : CurveCell} (ho : H[i]? = some o)
    (hc : o.shape.captures = true) (h : stepCurve H (.copy i) = some H1) {P : List CurveAct}
    (hP : runCurve H1 P = some H2) (hk : ∀ a ∈ P, ∀ k, a.object = some k → H.length ≤ k ∧ k ≠ H.length + i) :
    viewCurve H2 (H.length + i) = viewCurve H i := by
  have hi := (copy_some h).1
  have hf1 := c138_formed hf h
  have hcell := copy_cell h le_rfl ho
  obtain ⟨w, hw, _⟩ := (hf i o ho).2.2 hc
  have how := (hf i o ho).1
  have hcown : (o.copied H.length i).owner = o.owner := by simp [CurveCell.copied, hc]
  have hread : readShape H1 (o.copied H.length i) = w.shape := by
    apply readShape_of_owner (by rw [copied_shape_captures, hc])
    rw [hcown, step_old h (by omega) (by simp [CurveAct.object]), hw]
  have hcalls : ∀ k, Calls H1 (H.length + i) k → k = H.length + i ∨ k < i := by
    intro k hk
    cases hk with
    | self => exact .inl rfl
    | operand g1 g2 g3 =>
      rw [hcell] at g1
      cases g1
      rw [hread] at g2
      have := (hf _ w hw).2.1 _ g2
      have := hf1.calls_le g3
      omega
  rw [← (c138_copy hf h).1]
  apply c138_program hf1 hP
  · by_contra hn
    rw [List.getElem?_eq_none (by omega)] at hcell
    cases hcell
  · intro a ha k hk' hcall
    have := hk a ha k hk'
    have := hcalls k hcall
    omega
  · rintro a ha k hk' ⟨j, p, hj, hp, hcap, rfl⟩
    have h1 := hk a ha _ (assigned_object hk')
    rcases hcalls j hj with rfl | hj'
    · rw [hcell] at hp
      cases hp
      rw [hcown] at h1
      omega
    · have := (hf1 j p hp).1
      omega

theorem tabled_eval_one {c : Curve} (h : c.Tabled) (k : CurveKind) :
    Curve.eval { c with kind := k } 1 = some (k.fn c.t1) := by
  obtain ⟨m, hm⟩ : ∃ m, c.lookup.n = m + 1 := ⟨c.lookup.n - 1, by have := h.pos; omega⟩
  have e : Curve.s2t { c with kind := k } 1 = some c.t1 := by
    unfold Curve.s2t
    dsimp only
    rw [if_neg (by norm_num), if_neg (by norm_num)]
    unfold npInterp
    have hs := h.s_last
    have ht := h.t_last
    rw [hm] at hs ht ⊢
    rw [if_neg (by rw [h.s_zero]; norm_num)]
    simp [lastLe, hs, ht]
  rw [Curve.eval, e]
  rfl

theorem make_tabled {k : CurveKind} (hk : k.Sampled) (u v : ℝ) : (Curve.make k true u v).Tabled := by
  rw [Curve.make, if_pos rfl]
  exact updateLengths_tabled _ hk

/-- **C138** The full claim fails: `a = InvoluteCurve(r=1); b = a.copy(); a.r = 2` moves the end of `b` to twice its distance
from the axis. -/
theorem c138_violated : ∃ H H1 H2 : CurveHeap, ∃ b b' : Curve,
    runCurve [] [.new (.involute 1 0 0 0) true 0 1] = some H ∧ stepCurve H (.copy 0) = some H1 ∧
    stepCurve H1 (.assign 0 (.involute 2 0 0 0)) = some H2 ∧ viewCurve H1 1 = some b ∧ viewCurve H2 1 = some b' ∧
    b.eval 1 = some (app (Rz 1) (RIGHT + DOWN)) ∧ b'.eval 1 = some (app (Rz 1) ((2 : ℝ) • (RIGHT + DOWN))) ∧
    b'.length = b.length ∧ ¬ CopyIndependent := by
  obtain ⟨H, hH⟩ := new_exists (H := []) (s := .involute 1 0 0 0) (active := true) (t0 := 0) (t1 := 1) rfl
  obtain ⟨hv, _⟩ := c138_new formed_nil rfl hH
  have hf := c138_formed formed_nil hH
  obtain ⟨p, hp, hps, hpo, _⟩ :=
    new_some (H := []) (s := .involute 1 0 0 0) (active := true) (t0 := 0) (t1 := 1) hH
  have hlen : H.length = 1 := by rw [hp]; rfl
  have hp0 : H[0]? = some p := by rw [hp]; rfl
  obtain ⟨H1, h1⟩ : ∃ H1, stepCurve H (.copy 0) = some H1 := by
    simp [stepCurve, copyCurve, hlen]
  have hp1 : H1[0]? = some p := by rw [step_old h1 (by omega) (by simp [CurveAct.object]), hp0]
  obtain ⟨H2, h2⟩ : ∃ H2, stepCurve H1 (.assign 0 (.involute 2 0 0 0)) = some H2 := by
    simp [stepCurve, hp1, hps, CurveShape.cls, CurveShape.operands]
  have hvc := c138_follow hf hp0 (by rw [hps]; rfl) (by rw [hpo]; rfl) hv h1 rfl h2
  have hcp := (c138_copy hf h1).1
  rw [hlen] at hvc hcp
  rw [show ([] : CurveHeap).length = 0 from rfl] at hv
  rw [hv] at hcp
  have e1 : ∀ r : ℝ, involuteCircle 1 r 0 0 0 = app (Rz 1) (r • (RIGHT + DOWN)) := by
    intro r
    simp [involuteCircle]
  have htab : (Curve.make (CurveShape.resolve (fun j t => ((viewCurve [] j).map (·.evalD t)).getD 0)
      (.involute 1 0 0 0)) true 0 1).Tabled := make_tabled (by show 1 ≤ 20; norm_num) 0 1
  have t1 : (Curve.make (CurveShape.resolve (fun j t => ((viewCurve [] j).map (·.evalD t)).getD 0)
      (.involute 1 0 0 0)) true 0 1).t1 = 1 := by
    rw [Curve.make, if_pos rfl, updateLengths_t1]
  refine ⟨H, H1, H2, _, _, by simpa [runCurve] using hH, h1, h2, hcp, hvc, ?_, ?_, rfl, ?_⟩
  · have := tabled_eval_one htab (Curve.make (CurveShape.resolve (fun j t => ((viewCurve [] j).map (·.evalD t)).getD 0)
      (.involute 1 0 0 0)) true 0 1).kind
    rw [t1] at this
    refine this.trans ?_
    rw [Curve.make, if_pos rfl, updateLengths_kind]
    simp [CurveShape.resolve, CurveKind.fn, e1]
  · rw [tabled_eval_one htab, t1]
    simp [CurveShape.resolve, CurveKind.fn, e1]
  · intro hall
    have := (hall H H1 H2 0 [.assign 0 (.involute 2 0 0 0)] hf h1 (by simp [runCurve, h2])).2
      (by simp [CurveAct.object, hlen])
    rw [hlen, hvc, hv] at this
    have hk := congrArg (fun c : Option Curve => c.bind (·.eval 1)) this
    simp only [Option.bind_some] at hk
    rw [tabled_eval_one htab, t1] at hk
    have h4 := tabled_eval_one htab (Curve.make (CurveShape.resolve (fun j t => ((viewCurve [] j).map (·.evalD t)).getD 0)
      (.involute 1 0 0 0)) true 0 1).kind
    rw [t1] at h4
    have h5 := hk.trans h4
    rw [Curve.make, if_pos rfl, updateLengths_kind] at h5
    simp only [CurveShape.resolve, CurveKind.fn, e1, Option.some.injEq] at h5
    have h6 := congrFun h5 0
    have h7 := congrFun h5 1
    simp [app, Rz, RIGHT, DOWN, Matrix.mulVec, Matrix.vecHead, Matrix.vecTail] at h6 h7
    have := sin_sq_add_cos_sq (1 : ℝ)
    nlinarith

theorem straight_chordLen {f : ℝ → V3} {v : V3} (hf : ∀ x y : ℝ, f y - f x = (y - x) • v) {a b : ℝ} (hab : a ≤ b) (n i : ℕ) :
    chordLen f (linspace a b n) i = (linspace a b n i - a) * norm3 v := by
  induction i with
  | zero => simp [chordLen, linspace]
  | succ i ih =>
    have h0 : 0 ≤ linspace a b n (i + 1) - linspace a b n i := by
      have : linspace a b n (i + 1) - linspace a b n i = (b - a) * (1 / n) := by
        unfold linspace; push_cast; ring
      rw [this]
      exact mul_nonneg (by linarith) (by positivity)
    rw [chordLen, ih, hf, norm3_smul, abs_of_nonneg h0]
    ring

theorem straight_generic {f : ℝ → V3} {v : V3} (hf : ∀ x y : ℝ, f y - f x = (y - x) • v) (c : Curve)
    (hk : c.kind = .generic f 20) (h0 : c.t0 = 0) (h1 : c.t1 = 1) : c.updateLengths.length = norm3 v := by
  have : c.updateLengths.length = chordLen f (linspace 0 1 20) 20 := by
    unfold Curve.updateLengths
    rw [hk]
    simp [h0, h1]
  rw [this, straight_chordLen hf (by norm_num)]
  norm_num [linspace]

/-- **C138** A mirrored (or otherwise transformed) curve follows its target: trimming the target moves the end of the
mirrored curve, while its length stays what it was. Here a unit line is mirrored and then cut to half its length. -/
theorem c138_mirror_violated : ∃ H H1 : CurveHeap, ∃ b b' : Curve,
    runCurve [] [.new (.line 0 RIGHT) true 0 1, .new (.mapped (mirrorFunc RIGHT 0) 0) true 0 1] = some H ∧
    stepCurve H (.endOn 0 (1 / 2)) = some H1 ∧ viewCurve H 1 = some b ∧ viewCurve H1 1 = some b' ∧
    b.eval 1 = some LEFT ∧ b'.eval 1 = some ((1 / 2 : ℝ) • LEFT) ∧ b.length = 1 ∧ b'.length = 1 ∧
    b'.updateLengths.length = 1 / 2 := by
  obtain ⟨G, hG⟩ := new_exists (H := []) (s := .line 0 RIGHT) (active := true) (t0 := 0) (t1 := 1) rfl
  obtain ⟨hv, _⟩ := c138_new formed_nil rfl hG
  have fG := c138_formed formed_nil hG
  obtain ⟨p, hp, hps, hpo, _⟩ := new_some (H := []) (s := .line 0 RIGHT) (active := true) (t0 := 0) (t1 := 1) hG
  have hlen : G.length = 1 := by rw [hp]; rfl
  have hp0 : G[0]? = some p := by rw [hp]; rfl
  rw [show ([] : CurveHeap).length = 0 from rfl] at hv
  change viewCurve G 0 = some (lineC 0 RIGHT) at hv
  have hpa : p.active = true := by
    have := view_some hp0
    rw [hv] at this
    have := congrArg Curve.active (Option.some.inj this)
    rw [lineC_active] at this
    exact this.symm
  have hargs : ctorArgs G true 0 1 (.mapped (mirrorFunc RIGHT 0) 0) = some (true, 0, 1) := by
    simp [ctorArgs, hp0, hpa]
  obtain ⟨H, hH⟩ := new_exists hargs
  have fH := c138_formed fG hH
  obtain ⟨hw, hold⟩ := c138_new fG hargs hH
  have hv0 := hold 0 (by omega)
  rw [hv] at hv0
  rw [hlen] at hw
  obtain ⟨q, hq, hqs, hqo, _⟩ := new_some (s := .mapped (mirrorFunc RIGHT 0) 0) (active := true) (t0 := 0) (t1 := 1) hH
  have hq1 : H[1]? = some q := by rw [hq, List.getElem?_append_right (by omega)]; simp [hlen]
  have hq0 : H[0]? = some p := by rw [hq, List.getElem?_append_left (by omega), hp0]
  have hd : ∃ d, (lineC 0 RIGHT).setEndOn (1 / 2) = some d ∧ ∀ s, d.evalD s = (s / 2) • RIGHT := by
    have e0 : (lineC 0 RIGHT).s2t (1 / 2) = some (1 / 2) := by
      rw [lineC, Curve.make, if_pos rfl, s2t_line_arc _ (by intro f n h; cases h)]
      norm_num
    refine ⟨_, by rw [Curve.setEndOn, e0]; rfl, fun s => ?_⟩
    have hkd : (lineC 0 RIGHT).kind = .line 0 RIGHT := by
      rw [lineC, Curve.make, if_pos rfl, updateLengths_kind]
    have ht0 : (lineC 0 RIGHT).t0 = 0 := by
      rw [lineC, Curve.make, if_pos rfl, updateLengths_t0]
    rw [Curve.evalD, Curve.eval, s2t_line_arc _ (by intro f n h; rw [hkd] at h; cases h), updateLengths_kind]
    simp only [hkd, ht0, CurveKind.fn, Option.map_some, Option.getD_some]
    module
  obtain ⟨d, hd1, hd2⟩ := hd
  obtain ⟨H1, h1⟩ : ∃ H1, stepCurve H (.endOn 0 (1 / 2)) = some H1 := by
    simp only [stepCurve, hv0, Option.bind_some, hd1, storeCurve, hq0]
    exact ⟨_, rfl⟩
  have hd0 := (c138_trim fH hv0 (1 / 2) 0).2.1 h1
  rw [hd1] at hd0
  have hq1' : H1[1]? = some q := by
    rw [step_old h1 (by rw [hq]; simp [hlen]) (by simp [CurveAct.object]), hq1]
  have hcap : q.shape.captures = true := by rw [hqs]; rfl
  have r0 : readShape H q = .mapped (mirrorFunc RIGHT 0) 0 := by
    rw [readShape_of_owner hcap (by rw [hqo, hlen, hq1]), hqs]
  have r1 : readShape H1 q = .mapped (mirrorFunc RIGHT 0) 0 := by
    rw [readShape_of_owner hcap (by rw [hqo, hlen, hq1']), hqs]
  have hm : ∀ x : ℝ, mirrorFunc RIGHT 0 (x • RIGHT) = x • LEFT := by
    intro x
    apply V3.ext3 <;> simp [mirrorFunc, RIGHT, LEFT, dot] <;> ring
  have hn : norm3 LEFT = 1 := by simp [norm3, LEFT, dot]
  have hl : ∀ s, (lineC 0 RIGHT).evalD s = s • RIGHT := by
    intro s
    rw [Curve.evalD, lineC_eval]
    simp
  have hkind : (CurveShape.resolve (fun j t => ((viewCurve G j).map (·.evalD t)).getD 0)
      (.mapped (mirrorFunc RIGHT 0) 0)) = .generic (fun t => t • LEFT) 20 := by
    simp only [CurveShape.resolve, hv, Option.map_some, Option.getD_some, hl, hm]
  rw [hkind] at hw
  have hw' : viewCurve H1 1 = some { Curve.make (.generic (fun t => t • LEFT) 20) true 0 1 with
      kind := .generic (fun t => (t / 2) • LEFT) 20 } := by
    rw [view_some hq1] at hw
    rw [view_some hq1', r1]
    simp only [CurveShape.resolve, hd0, Option.map_some, Option.getD_some, hd2, hm, zero_lt_one, if_true]
    rw [← Option.some.inj hw]
  have htab := make_tabled (k := .generic (fun t => t • LEFT) 20) (by show 1 ≤ 20; norm_num) 0 1
  have t1 : (Curve.make (.generic (fun t : ℝ => t • LEFT) 20) true 0 1).t1 = 1 := by
    rw [Curve.make, if_pos rfl, updateLengths_t1]
  have t0 : (Curve.make (.generic (fun t : ℝ => t • LEFT) 20) true 0 1).t0 = 0 := by
    rw [Curve.make, if_pos rfl, updateLengths_t0]
  have hlen1 : (Curve.make (.generic (fun t : ℝ => t • LEFT) 20) true 0 1).length = 1 := by
    rw [Curve.make, if_pos rfl, straight_generic (f := fun t => t • LEFT) (v := LEFT) (by intro x y; module) _ rfl rfl rfl, hn]
  refine ⟨H, H1, _, _, by simp [runCurve, hG, hH], h1, hw, hw', ?_, ?_, hlen1, hlen1, ?_⟩
  · have := tabled_eval_one htab (Curve.make (.generic (fun t : ℝ => t • LEFT) 20) true 0 1).kind
    rw [t1] at this
    refine this.trans ?_
    rw [Curve.make, if_pos rfl, updateLengths_kind]
    simp [CurveKind.fn]
  · rw [tabled_eval_one htab, t1]
    simp [CurveKind.fn]
  · refine (straight_generic (f := fun t => (t / 2) • LEFT) (v := (1 / 2 : ℝ) • LEFT) (by intro x y; module)
      { Curve.make (.generic (fun t => t • LEFT) 20) true 0 1 with kind := .generic (fun t => (t / 2) • LEFT) 20 }
      rfl t0 t1).trans ?_
    rw [norm3_smul, hn]
    norm_num

/-- **C138** Case: a line, its double and a copy of the double. Trimming and moving the line afterwards changes the double
but not the copy, which is still twice the original line. -/
theorem c138_case : ∃ H H1 H2 : CurveHeap, ∃ d : Curve,
    runCurve [] [.new (.line 0 RIGHT) true 0 1, .new (.scaled 0 2) true 0 1] = some H ∧ SelfContained H 1 ∧
    stepCurve H (.copy 1) = some H1 ∧ runCurve H1 [.assign 0 (.line 0 UP), .reverse 0] = some H2 ∧
    viewCurve H 1 = some d ∧ viewCurve H2 3 = some d ∧ d.eval 1 = some ((2 : ℝ) • RIGHT) := by
  obtain ⟨G, hG⟩ := new_exists (H := []) (s := .line 0 RIGHT) (active := true) (t0 := 0) (t1 := 1) rfl
  obtain ⟨hv, _⟩ := c138_new formed_nil rfl hG
  have fG := c138_formed formed_nil hG
  obtain ⟨p, hp, hps, hpo, _⟩ := new_some (H := []) (s := .line 0 RIGHT) (active := true) (t0 := 0) (t1 := 1) hG
  have hlen : G.length = 1 := by rw [hp]; rfl
  have hp0 : G[0]? = some p := by rw [hp]; rfl
  rw [show ([] : CurveHeap).length = 0 from rfl] at hv
  change viewCurve G 0 = some (lineC 0 RIGHT) at hv
  have hpa : p.active = true := by
    have := view_some hp0
    rw [hv] at this
    have := congrArg Curve.active (Option.some.inj this)
    rw [lineC_active] at this
    exact this.symm
  have hargs : ctorArgs G true 0 1 (.scaled 0 2) = some (true, 0, 1) := by
    simp [ctorArgs, hp0, hpa]
  obtain ⟨H, hH⟩ := new_exists hargs
  have fH := c138_formed fG hH
  obtain ⟨hw, hold⟩ := c138_new fG hargs hH
  rw [hlen] at hw
  obtain ⟨q, hq, hqs, hqo, _⟩ := new_some (s := .scaled 0 2) (active := true) (t0 := 0) (t1 := 1) hH
  have hq1 : H[1]? = some q := by rw [hq, List.getElem?_append_right (by omega)]; simp [hlen]
  have hq0 : H[0]? = some p := by rw [hq, List.getElem?_append_left (by omega), hp0]
  have hlenH : H.length = 2 := by rw [hq]; simp [hlen]
  have hself : SelfContained H 1 := by
    refine .mk hq1 (by rw [hqs]; rfl) (by rw [hqs]; simp [CurveShape.cls]) ?_
    rw [hqs]
    intro j hj
    simp only [CurveShape.operands, List.mem_singleton] at hj
    subst hj
    exact .mk hq0 (by rw [hps]; rfl) (by rw [hps]; simp [CurveShape.cls]) (by rw [hps]; simp [CurveShape.operands])
  obtain ⟨H1, h1⟩ : ∃ H1, stepCurve H (.copy 1) = some H1 := by
    simp [stepCurve, copyCurve, hlenH]
  have hp1 : H1[0]? = some p := by rw [step_old h1 (by omega) (by simp [CurveAct.object]), hq0]
  have hl1 : 0 < H1.length := lt_of_lt_of_le (by omega) (step_length h1)
  obtain ⟨H2, h2⟩ : ∃ H2, runCurve H1 [.assign 0 (.line 0 UP), .reverse 0] = some H2 := by
    have ha : stepCurve H1 (.assign 0 (.line 0 UP)) = some (H1.set 0 { p with shape := .line 0 UP }) := by
      simp [stepCurve, hp1, hps, CurveShape.cls, CurveShape.operands]
    rw [runCurve, ha, Option.bind_some, runCurve]
    simp only [stepCurve, List.getElem?_set_self hl1, Option.map_some, Option.bind_some, runCurve]
    exact ⟨_, rfl⟩
  have hcopy := c138_copy_partial fH hself h1 h2 (by simp [CurveAct.object, hlenH])
  rw [hlenH, hw] at hcopy
  refine ⟨H, H1, H2, _, by simp [runCurve, hG, hH], hself, h1, h2, hw, hcopy, ?_⟩
  have hkind : (CurveShape.resolve (fun j t => ((viewCurve G j).map (·.evalD t)).getD 0) (.scaled 0 2)) =
      .generic (fun t => (2 : ℝ) • (lineC 0 RIGHT).evalD t) 20 := by
    simp only [CurveShape.resolve, hv, Option.map_some, Option.getD_some]
  rw [hkind]
  have htab := make_tabled (k := .generic (fun t => (2 : ℝ) • (lineC 0 RIGHT).evalD t) 20) (by show 1 ≤ 20; norm_num) 0 1
  have t1 : (Curve.make (.generic (fun t => (2 : ℝ) • (lineC 0 RIGHT).evalD t) 20) true 0 1).t1 = 1 := by
    rw [Curve.make, if_pos rfl, updateLengths_t1]
  have := tabled_eval_one htab (Curve.make (.generic (fun t => (2 : ℝ) • (lineC 0 RIGHT).evalD t) 20) true 0 1).kind
  rw [t1] at this
  refine this.trans ?_
  rw [Curve.make, if_pos rfl, updateLengths_kind]
  simp [CurveKind.fn, Curve.evalD, lineC_eval]

end Verif
