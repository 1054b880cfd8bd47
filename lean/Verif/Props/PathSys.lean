import Verif.Props.TrimChain
import Verif.Props.Undercut

/-!
# Property C45 for chains of chains and for curves that run backwards
-/

namespace Verif

open Real Set

/-! ### Curves that run backwards -/

/-- The same curve with the sign of the parameter changed. -/
noncomputable def Curve.flip (c : Curve) : Curve where
  kind := match c.kind with
    | .generic f n => .generic (fun t => f (-t)) n
    | k => k
  active := c.active
  t0 := -c.t0
  t1 := -c.t1
  length := c.length
  lookup := ⟨c.lookup.n, c.lookup.s, fun i => -c.lookup.t i⟩

/-- A curve of any function whose parameter falls, with up-to-date lengths, that does not meet itself. -/
structure Curve.BackOk (c : Curve) : Prop where
  gen : ∃ f n, c.kind = .generic f n
  path : c.flip.PathOk

theorem linspace_neg (a b : ℝ) (n i : ℕ) : linspace (-a) (-b) n i = -linspace a b n i := by
  rw [linspace, linspace]; ring

theorem chordLen_neg (f : ℝ → V3) {t t' : ℕ → ℝ} (h : ∀ i, t' i = -t i) (n : ℕ) :
    chordLen (fun x => f (-x)) t' n = chordLen f t n := by
  induction n with
  | zero => rfl
  | succ n ih => rw [chordLen, chordLen, ih, h, h, neg_neg, neg_neg]

theorem flip_update {c : Curve} (h : ∃ f n, c.kind = .generic f n) : c.updateLengths.flip = c.flip.updateLengths := by
  obtain ⟨f, n, h⟩ := h
  cases c with
  | mk k act t0 t1 len lk =>
    simp only at h
    subst h
    have e1 : chordLen (fun t => f (-t)) (linspace (-t0) (-t1) n) = chordLen f (linspace t0 t1 n) :=
      funext fun m => chordLen_neg f (fun i => linspace_neg t0 t1 n i) m
    simp only [Curve.flip, Curve.updateLengths, e1]
    congr 2
    exact funext fun i => (linspace_neg t0 t1 n i).symm

theorem flip_s2t {c : Curve} {s : ℝ} (hs : s ∈ Icc (0 : ℝ) 1) : c.flip.s2t s = (c.s2t s).map fun t => -t := by
  simp only [Curve.s2t, if_neg (not_lt.2 hs.1), if_neg (not_lt.2 hs.2), Option.map_some, Curve.flip, npInterp_neg]

theorem flip_eval {c : Curve} (h : ∃ f n, c.kind = .generic f n) {s : ℝ} (hs : s ∈ Icc (0 : ℝ) 1) :
    c.flip.eval s = c.eval s := by
  obtain ⟨f, n, h⟩ := h
  rw [Curve.eval, Curve.eval, flip_s2t hs, Option.map_map]
  congr 1
  funext t
  simp [Curve.flip, h, CurveKind.fn]

theorem flip_start {c : Curve} (h : ∃ f n, c.kind = .generic f n) {s : ℝ} (hs : s ∈ Icc (0 : ℝ) 1) :
    c.flip.setStartOn s = (c.setStartOn s).map Curve.flip := by
  rw [Curve.setStartOn, Curve.setStartOn, flip_s2t hs, Option.map_map, Option.map_map]
  congr 1
  funext t
  exact (flip_update (c := { c with t0 := t }) h).symm

theorem flip_end {c : Curve} (h : ∃ f n, c.kind = .generic f n) {s : ℝ} (hs : s ∈ Icc (0 : ℝ) 1) :
    c.flip.setEndOn s = (c.setEndOn s).map Curve.flip := by
  rw [Curve.setEndOn, Curve.setEndOn, flip_s2t hs, Option.map_map, Option.map_map]
  congr 1
  funext t
  exact (flip_update (c := { c with t1 := t }) h).symm

theorem flip_flip {c : Curve} (h : ∃ f n, c.kind = .generic f n) : c.flip.flip = c := by
  obtain ⟨f, n, h⟩ := h
  cases c with
  | mk k act t0 t1 len lk =>
    simp only at h
    subst h
    simp [Curve.flip]

theorem setEndOn_kind {c d : Curve} {s : ℝ} (h : c.setEndOn s = some d) : d.kind = c.kind ∧ d.t0 = c.t0 ∧ d.updateLengths = d := by
  rw [Curve.setEndOn, Option.map_eq_some_iff] at h
  obtain ⟨t, -, rfl⟩ := h
  exact ⟨updateLengths_kind _, updateLengths_t0 _, updateLengths_idem _⟩

theorem setStartOn_kind {c d : Curve} {s : ℝ} (h : c.setStartOn s = some d) : d.kind = c.kind ∧ d.updateLengths = d := by
  rw [Curve.setStartOn, Option.map_eq_some_iff] at h
  obtain ⟨t, -, rfl⟩ := h
  exact ⟨updateLengths_kind _, updateLengths_idem _⟩

theorem Curve.BackOk.fresh {c : Curve} (h : c.BackOk) : c.updateLengths = c := by
  have h1 := h.path.fresh
  rw [← flip_update h.gen] at h1
  have h2 := congrArg Curve.flip h1
  rwa [flip_flip h.gen, flip_flip (by rw [updateLengths_kind]; exact h.gen)] at h2

/-- The parameter of a backward curve falls from one end of its range to the other. -/
theorem Curve.BackOk.run {c : Curve} (h : c.BackOk) : ∃ τ : ℝ → ℝ, StrictMonoOn τ (Icc 0 1) ∧
    τ '' Icc 0 1 = Icc (-c.t0) (-c.t1) ∧ ∀ s ∈ Icc (0 : ℝ) 1, c.eval s = some (c.kind.fn (-τ s)) := by
  obtain ⟨τ, h1, h2, h3⟩ := h.path.run
  refine ⟨τ, h1, h2, fun s hs => ?_⟩
  rw [← flip_eval h.gen hs, Curve.eval, h3 s hs]
  obtain ⟨f, n, hk⟩ := h.gen
  simp [Curve.flip, hk, CurveKind.fn]

theorem Piece_congr {e e' f f' : ℝ → Option V3} {a b : ℝ} (h : Spec.Piece e f a b) (ha : 0 ≤ a) (hb : b ≤ 1)
    (he : ∀ s ∈ Icc (0 : ℝ) 1, e s = e' s) (hf : ∀ s ∈ Icc (0 : ℝ) 1, f s = f' s) : Spec.Piece e' f' a b := by
  obtain ⟨φ, h1, h2, h3⟩ := h
  refine ⟨φ, h1, h2, fun s hs => ?_⟩
  have m : φ s ∈ Icc a b := h2 ▸ mem_image_of_mem φ hs
  rw [← he s hs, h3 s hs, hf _ ⟨ha.trans m.1, m.2.trans hb⟩]

/-! ### Things that can be cut anywhere -/

/-- The members satisfying `P` can be cut at every place: what is left satisfies `P` again and runs through exactly the
piece asked for. -/
structure PathSys {α : Type} (o : CurveOps α) (P : α → Prop) : Prop where
  act : ∀ a, P a → o.active a = true
  pos : ∀ a, P a → 0 < o.length a
  upd : ∀ a, P a → o.updateLengths a = a
  off : ∀ a, o.active (o.setActive false a) = false
  val : ∀ a, P a → ∀ s ∈ Icc (0 : ℝ) 1, ∃ p, o.eval a s = some p
  start : ∀ a, P a → ∀ s, 0 ≤ s → s < 1 → ∃ b, o.setStart a s = some b ∧ P b ∧ Spec.Piece (o.eval b) (o.eval a) s 1
  fin : ∀ a, P a → ∀ s, 0 < s → s ≤ 1 → ∃ b, o.setEnd a s = some b ∧ P b ∧ Spec.Piece (o.eval b) (o.eval a) 0 s

/-- A curve that runs forwards or backwards and does not meet itself. -/
def Curve.AnyOk (c : Curve) : Prop := c.PathOk ∨ c.BackOk

theorem curve_sys : PathSys curveOps Curve.AnyOk where
  act a h := by
    rcases h with h | h
    · exact h.act
    · exact h.path.act
  pos a h := by
    rcases h with h | h
    · exact h.len
    · exact h.path.len
  upd a h := by
    rcases h with h | h
    · exact h.fresh
    · exact h.fresh
  off a := rfl
  val a h s hs := by
    rcases h with h | h
    · exact h.eval_some hs
    · obtain ⟨p, hp⟩ := h.path.eval_some hs
      exact ⟨p, by rw [← hp]; exact (flip_eval h.gen hs).symm⟩
  start a h s h0 h1 := by
    rcases h with h | h
    · obtain ⟨b, e, hb, hP⟩ := c41_start_path a h s h0 h1
      exact ⟨b, e, .inl hb, hP⟩
    · obtain ⟨b, e, hb, hP⟩ := c41_start_path a.flip h.path s h0 h1
      rw [flip_start h.gen ⟨h0, h1.le⟩, Option.map_eq_some_iff] at e
      obtain ⟨d, hd, rfl⟩ := e
      have hk : ∃ f n, d.kind = .generic f n := by rw [(setStartOn_kind hd).1]; exact h.gen
      exact ⟨d, hd, .inr ⟨hk, hb⟩, Piece_congr hP h0 (le_refl _) (fun x hx => flip_eval hk hx) fun x hx => flip_eval h.gen hx⟩
  fin a h s h0 h1 := by
    rcases h with h | h
    · obtain ⟨b, e, hb, hP⟩ := c41_end_path a h s h0 h1
      exact ⟨b, e, .inl hb, hP⟩
    · obtain ⟨b, e, hb, hP⟩ := c41_end_path a.flip h.path s h0 h1
      rw [flip_end h.gen ⟨h0.le, h1⟩, Option.map_eq_some_iff] at e
      obtain ⟨d, hd, rfl⟩ := e
      have hk : ∃ f n, d.kind = .generic f n := by rw [(setEndOn_kind hd).1]; exact h.gen
      exact ⟨d, hd, .inr ⟨hk, hb⟩, Piece_congr hP (le_refl _) h1 (fun x hx => flip_eval hk hx) fun x hx => flip_eval h.gen hx⟩

theorem sum_sys {α β : Type} {o : CurveOps α} {o' : CurveOps β} {P : α → Prop} {P' : β → Prop} (h : PathSys o P)
    (h' : PathSys o' P') : PathSys (sumOps o o') (Sum.elim P P') where
  act a := by cases a with
    | inl a => exact h.act a
    | inr a => exact h'.act a
  pos a := by cases a with
    | inl a => exact h.pos a
    | inr a => exact h'.pos a
  upd a ha := by cases a with
    | inl a => exact congrArg Sum.inl (h.upd a ha)
    | inr a => exact congrArg Sum.inr (h'.upd a ha)
  off a := by cases a with
    | inl a => exact h.off a
    | inr a => exact h'.off a
  val a := by cases a with
    | inl a => exact h.val a
    | inr a => exact h'.val a
  start a ha s h0 h1 := by cases a with
    | inl a =>
      obtain ⟨b, e, q⟩ := h.start a ha s h0 h1
      exact ⟨.inl b, by simp only [sumOps, Sum.elim_inl, e, Option.map_some], q⟩
    | inr a =>
      obtain ⟨b, e, q⟩ := h'.start a ha s h0 h1
      exact ⟨.inr b, by simp only [sumOps, Sum.elim_inr, e, Option.map_some], q⟩
  fin a ha s h0 h1 := by cases a with
    | inl a =>
      obtain ⟨b, e, q⟩ := h.fin a ha s h0 h1
      exact ⟨.inl b, by simp only [sumOps, Sum.elim_inl, e, Option.map_some], q⟩
    | inr a =>
      obtain ⟨b, e, q⟩ := h'.fin a ha s h0 h1
      exact ⟨.inr b, by simp only [sumOps, Sum.elim_inr, e, Option.map_some], q⟩

/-! ### Chains of such members -/

section
variable {α : Type} {o : CurveOps α} {P : α → Prop}

/-- A chain of members that can be cut. -/
def SysPath (o : CurveOps α) (P : α → Prop) (l : List α) : Prop :=
  (∀ a ∈ l, o.active a = true → P a) ∧ Meets o l ∧ ∃ a ∈ l, o.active a = true

theorem SysPath.allPos (S : PathSys o P) {l : List α} (h : SysPath o P l) : AllPos o l := fun a ha hact => S.pos a (h.1 a ha hact)

theorem SysPath.len_pos (S : PathSys o P) {l : List α} (h : SysPath o P l) : 0 < chainLen o l :=
  chainLen_pos_of (h.allPos S) h.2.2

theorem SysPath.eval_some (S : PathSys o P) {l : List α} (h : SysPath o P l) {s : ℝ} (hs : s ∈ Icc (0 : ℝ) 1) :
    ∃ p, chainEval o l s = some p := by
  obtain ⟨k, σ, a, e, ha, hact, s0, s1, -⟩ := c43_lookup l (h.allPos S).nonNeg (h.len_pos S) s hs.1 hs.2
  obtain ⟨p, hp⟩ := S.val a (h.1 a (List.mem_of_getElem? ha) hact) σ ⟨s0, s1⟩
  exact ⟨p, by rw [chainEval, e]; simp only [Option.bind_some, ha]; exact hp⟩

theorem SysPath.upd (S : PathSys o P) {l : List α} (h : ∀ a ∈ l, o.active a = true → P a) : chainUpdate o l = l := by
  rw [chainUpdate]
  refine (List.map_congr_left fun a ha => ?_).trans (List.map_id l)
  split_ifs with hact
  · exact S.upd a (h a ha hact)
  · rfl

/-- **C45, nested chains, start.** After `set_start_on(s)` a chain runs through exactly the part from `s` on, when `s`
is not the place where a member ends. The members are any things that can be cut. -/
theorem c45_sys_start (S : PathSys o P) (l : List α) (h : SysPath o P l) (s : ℝ) (h0 : 0 ≤ s) (h1 : s < 1)
    (hj : ∀ x a y, l = x ++ a :: y → o.active a = true → chainLen o x + o.len a ≠ s * chainLen o l) (preserve : Bool) :
    ∃ d, chainSetStart o l s preserve = some d ∧ SysPath o P d ∧ Spec.Piece (chainEval o d) (chainEval o l) s 1 ∧
      ∃ x a y w a', l = x ++ a :: y ∧ d = w ++ a' :: y ∧ o.active a = true ∧ P a' ∧ (∀ b ∈ w, o.active b = false) ∧
        chainLen o x ≤ s * chainLen o l ∧ s * chainLen o l < chainLen o x + o.len a := by
  obtain ⟨k, σ, a, e, ha, hact, s0, s1, hs, hpos, hzero⟩ := c43_lookup l (h.allPos S).nonNeg (h.len_pos S) s h0 h1.le
  have hmem := List.mem_of_getElem? ha
  have hsp := split_at ha
  obtain ⟨x, hx⟩ : ∃ x, x = l.take k := ⟨_, rfl⟩
  obtain ⟨y, hy⟩ : ∃ y, y = l.drop (k + 1) := ⟨_, rfl⟩
  rw [← hx, ← hy] at hsp
  have hs' : chainLen o x + σ * o.len a = s * chainLen o l := by rw [hx]; exact hs
  have hla : 0 < o.len a := by rw [len_of_active hact]; exact S.pos a (h.1 a hmem hact)
  have hσ : σ < 1 := lt_of_le_of_ne s1 fun e1 => hj x a y hsp hact (by rw [← hs', e1, one_mul])
  obtain ⟨a', q1, q2, q3⟩ := S.start a (h.1 a hmem hact) σ s0 hσ
  obtain ⟨w, hw⟩ : ∃ w : List α, w = if preserve then x.map (o.setActive false) else [] := ⟨_, rfl⟩
  have hwoff : ∀ b ∈ w, o.active b = false := by
    intro b hb
    rw [hw] at hb
    cases preserve with
    | false => simp at hb
    | true =>
      simp only [if_true, List.mem_map] at hb
      obtain ⟨c, _, rfl⟩ := hb
      exact S.off c
  have hok : ∀ b ∈ w ++ a' :: y, o.active b = true → P b := by
    intro b hb hbact
    rcases List.mem_append.1 hb with hb | hb
    · rw [hwoff b hb] at hbact; cases hbact
    · rcases List.mem_cons.1 hb with rfl | hb
      · exact q2
      · exact h.1 b (by rw [hsp]; simp [hb]) hbact
  have ha' := S.act a' q2
  have hall := h.allPos S
  have hL := h.len_pos S
  have hm := h.2.1
  rw [hsp] at hall hm
  obtain ⟨r1, r2⟩ := piece_start hall hm (fun b hb hbact => S.pos b (hok b hb hbact)) hwoff hact ha' s0 q3
  rw [← hsp, mul_comm (o.len a), hs', mul_div_cancel_right₀ s hL.ne'] at r2
  refine ⟨w ++ a' :: y, ?_, ⟨hok, r1, a', by simp, ha'⟩, r2, x, a, y, w, a', hsp, rfl, hact, q2, hwoff, ?_, ?_⟩
  · rw [chainSetStart, startRaw, e]
    simp only [Option.bind_some, ha, q1, Option.map_some, ← hx, ← hy, ← hw]
    rw [SysPath.upd S hok]
  · rw [← hs']; nlinarith
  · rw [← hs']; nlinarith

/-- **C45, nested chains, end.** After `set_end_on(s)` a chain runs through exactly the part up to `s`. The members are any
things that can be cut. -/
theorem c45_sys_end (S : PathSys o P) (l : List α) (h : SysPath o P l) (s : ℝ) (h0 : 0 < s) (h1 : s ≤ 1) (preserve : Bool) :
    ∃ d, chainSetEnd o l s preserve = some d ∧ SysPath o P d ∧ Spec.Piece (chainEval o d) (chainEval o l) 0 s ∧
      ∃ x a y a' w, l = x ++ a :: y ∧ d = x ++ a' :: w ∧ o.active a = true ∧ P a' ∧ ∀ b ∈ w, o.active b = false := by
  obtain ⟨k, σ, a, e, ha, hact, s0, s1, hs, hpos, -⟩ := c43_lookup l (h.allPos S).nonNeg (h.len_pos S) s h0.le h1
  have hmem := List.mem_of_getElem? ha
  have hsp := split_at ha
  obtain ⟨x, hx⟩ : ∃ x, x = l.take k := ⟨_, rfl⟩
  obtain ⟨y, hy⟩ : ∃ y, y = l.drop (k + 1) := ⟨_, rfl⟩
  rw [← hx, ← hy] at hsp
  have hs' : chainLen o x + σ * o.len a = s * chainLen o l := by rw [hx]; exact hs
  obtain ⟨a', q1, q2, q3⟩ := S.fin a (h.1 a hmem hact) σ (hpos h0).1 s1
  obtain ⟨w, hw⟩ : ∃ w : List α, w = if preserve then y.map (o.setActive false) else [] := ⟨_, rfl⟩
  have hwoff : ∀ b ∈ w, o.active b = false := by
    intro b hb
    rw [hw] at hb
    cases preserve with
    | false => simp at hb
    | true =>
      simp only [if_true, List.mem_map] at hb
      obtain ⟨c, _, rfl⟩ := hb
      exact S.off c
  have hok : ∀ b ∈ x ++ a' :: w, o.active b = true → P b := by
    intro b hb hbact
    rcases List.mem_append.1 hb with hb | hb
    · exact h.1 b (by rw [hsp]; simp [hb]) hbact
    · rcases List.mem_cons.1 hb with rfl | hb
      · exact q2
      · rw [hwoff b hb] at hbact; cases hbact
  have ha' := S.act a' q2
  have hall := h.allPos S
  have hL := h.len_pos S
  have hm := h.2.1
  rw [hsp] at hall hm
  obtain ⟨r1, r2⟩ := piece_end hall hm (fun b hb hbact => S.pos b (hok b hb hbact)) hwoff hact ha' s1 q3
  rw [← hsp, mul_comm (o.len a), hs', mul_div_cancel_right₀ s hL.ne'] at r2
  refine ⟨x ++ a' :: w, ?_, ⟨hok, r1, a', by simp, ha'⟩, r2, x, a, y, a', w, hsp, rfl, hact, q2, hwoff⟩
  rw [chainSetEnd, endRaw, e]
  simp only [Option.bind_some, ha, q1, Option.map_some, ← hx, ← hy, ← hw]
  rw [SysPath.upd S hok]

/-- A chain with one active member, which can be cut. -/
def OneActive (o : CurveOps α) (P : α → Prop) (c : Chain α) : Prop :=
  c.flag = true ∧ ∃ x a y, c.curves = x ++ a :: y ∧ P a ∧ (∀ b ∈ x, o.active b = false) ∧ ∀ b ∈ y, o.active b = false

theorem meets_one {x y : List α} {a : α} (hx : ∀ b ∈ x, o.active b = false) (hy : ∀ b ∈ y, o.active b = false) :
    Meets o (x ++ a :: y) := by
  have key : ∀ (i : ℕ) (b : α), (x ++ a :: y)[i]? = some b → o.active b = true → i = x.length := by
    intro i b hi hb
    rcases lt_trichotomy i x.length with h | h | h
    · rw [List.getElem?_append_left h] at hi
      rw [hx b (List.mem_of_getElem? hi)] at hb; cases hb
    · exact h
    · rw [List.getElem?_append_right h.le, show i - x.length = (i - x.length - 1) + 1 by omega, List.getElem?_cons_succ] at hi
      rw [hy b (List.mem_of_getElem? hi)] at hb; cases hb
  intro j k b c hjk hj hk hb hc _
  have h1 := key j b hj hb
  have h2 := key k c hk hc
  omega

theorem only_one {x y u v : List α} {a b : α} (hx : ∀ c ∈ x, o.active c = false) (hy : ∀ c ∈ y, o.active c = false)
    (hb : o.active b = true) (h : x ++ a :: y = u ++ b :: v) : (∀ c ∈ u, o.active c = false) ∧ ∀ c ∈ v, o.active c = false := by
  induction x generalizing u with
  | nil =>
    cases u with
    | nil =>
      simp only [List.nil_append, List.cons.injEq] at h
      exact ⟨by simp, by rw [← h.2]; exact hy⟩
    | cons z u =>
      simp only [List.nil_append, List.cons_append, List.cons.injEq] at h
      have := hy b (by rw [h.2]; simp)
      rw [hb] at this; cases this
  | cons z x ih =>
    cases u with
    | nil =>
      simp only [List.nil_append, List.cons_append, List.cons.injEq] at h
      have := hx b (by rw [← h.1]; simp)
      rw [hb] at this; cases this
    | cons z' u =>
      simp only [List.cons_append, List.cons.injEq] at h
      obtain ⟨h1, h2⟩ := ih (fun c hc => hx c (by simp [hc])) h.2
      refine ⟨fun c hc => ?_, h2⟩
      rcases List.mem_cons.1 hc with rfl | hc
      · exact hx c (by rw [h.1]; simp)
      · exact h1 c hc

theorem OneActive.sys (S : PathSys o P) {c : Chain α} (h : OneActive o P c) : SysPath o P c.curves := by
  obtain ⟨-, x, a, y, e, ha, hx, hy⟩ := h
  rw [e]
  refine ⟨fun b hb hact => ?_, meets_one hx hy, a, by simp, S.act a ha⟩
  rcases List.mem_append.1 hb with hb | hb
  · rw [hx b hb] at hact; cases hact
  · rcases List.mem_cons.1 hb with rfl | hb
    · exact ha
    · rw [hy b hb] at hact; cases hact

/-- A chain with one active member can itself be cut anywhere. -/
theorem one_sys (S : PathSys o P) : PathSys (chainOps o) (OneActive o P) where
  act c h := by
    obtain ⟨hf, x, a, y, e, ha, -⟩ := h
    show (c.flag && c.curves.any o.active) = true
    rw [hf, Bool.true_and, List.any_eq_true]
    exact ⟨a, by rw [e]; simp, S.act a ha⟩
  pos c h := (h.sys S).len_pos S
  upd c h := by
    show (⟨chainUpdate o c.curves, c.flag⟩ : Chain α) = c
    rw [SysPath.upd S (h.sys S).1]
  off c := Bool.false_and (c.curves.any o.active)
  val c h s hs := (h.sys S).eval_some S hs
  start c h s h0 h1 := by
    have hs := h.sys S
    obtain ⟨hf, x, a, y, e, ha, hx, hy⟩ := h
    have hlen : ∀ u b v, c.curves = u ++ b :: v → o.active b = true → chainLen o u + o.len b = chainLen o c.curves := by
      intro u b v hb hact
      obtain ⟨h1, h2⟩ := only_one hx hy hact (e.symm.trans hb)
      rw [hb, chainLen_append, chainLen_cons, chainLen_inactive h1, chainLen_inactive h2]; ring
    obtain ⟨d, hd, -, hP, u, b, v, w, b', e1, e2, hb, hb', hw, -⟩ := c45_sys_start S c.curves hs s h0 h1 (fun u b v hb hact => by
      rw [hlen u b v hb hact]
      have := hs.len_pos S
      nlinarith) false
    refine ⟨⟨d, c.flag⟩, ?_, ⟨hf, w, b', v, e2, hb', hw, (only_one hx hy hb (e.symm.trans e1)).2⟩, hP⟩
    show (chainSetStart o c.curves s false).map _ = _
    rw [hd]; rfl
  fin c h s h0 h1 := by
    have hs := h.sys S
    obtain ⟨hf, x, a, y, e, ha, hx, hy⟩ := h
    obtain ⟨d, hd, -, hP, u, b, v, b', w, e1, e2, hb, hb', hw⟩ := c45_sys_end S c.curves hs s h0 h1 false
    refine ⟨⟨d, c.flag⟩, ?_, ⟨hf, u, b', w, e2, hb', (only_one hx hy hb (e.symm.trans e1)).1, hw⟩, hP⟩
    show (chainSetEnd o c.curves s false).map _ = _
    rw [hd]; rfl

end

end Verif
