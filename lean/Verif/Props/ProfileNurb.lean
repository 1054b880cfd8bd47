import Verif.Model.ProfileNurb
import Verif.Spec.Wire
import Verif.Props.Closed
import Verif.Props.Nurbs
import Verif.Props.Surface
import Verif.Props.Fit
import Verif.Props.Bezier1
import Verif.Props.Transform
import Verif.Props.Boundary

/-! # Property C128: the NURBS outline of a slice -/

namespace Verif

open Real Set

/-! ### Pieces with fixed ends -/

/-- A piece from `a` to `b` whose end weights are 1. -/
structure PieceOk (n : Nurb V3) (a b : V3) : Prop where
  len : 2 ≤ n.points.length
  wlen : n.weights.length = n.points.length
  first : n.points.head? = some a
  last : n.points.getLast? = some b
  wfirst : n.weights.head? = some 1
  wlast : n.weights.getLast? = some 1

theorem head_getElem {α : Type*} {l : List α} {a : α} (h : l.head? = some a) (h0 : 0 < l.length) : l[0] = a := by
  rw [List.head?_eq_getElem?, List.getElem?_eq_getElem h0] at h
  exact Option.some.inj h

theorem last_getElem {α : Type*} {l : List α} {a : α} (h : l.getLast? = some a) (h0 : l.length - 1 < l.length) :
    l[l.length - 1] = a := by
  rw [List.getLast?_eq_getElem?, List.getElem?_eq_getElem h0] at h
  exact Option.some.inj h

theorem PieceOk.ends {n : Nurb V3} {a b : V3} (h : PieceOk n a b) :
    nurbezier 0 n.points n.weights = some a ∧ nurbezier 1 n.points n.weights = some b := by
  obtain ⟨pts, ws⟩ := n
  obtain ⟨h1, h2, h3, h4, h5, h6⟩ := h
  simp only at h1 h2 h3 h4 h5 h6 ⊢
  have w0 : ws[0]'(by omega) = 1 := head_getElem h5 _
  have w1 : ws[pts.length - 1]'(by omega) = 1 := by
    have := last_getElem h6 (by omega)
    simpa only [h2] using this
  have p0 : pts[0]'(by omega) = a := head_getElem h3 _
  have p1 : pts[pts.length - 1]'(by omega) = b := last_getElem h4 (by omega)
  have e1 : pts = List.ofFn fun i : Fin pts.length => pts[i] := List.ofFn_getElem.symm
  have e2 : ws = List.ofFn fun i : Fin pts.length => ws[i]'(by rw [h2]; exact i.2) := by
    apply List.ext_getElem
    · simp [h2]
    · intro i _ _; simp
  have := nurbezier_ends h1 (fun i : Fin pts.length => pts[i]) (fun i : Fin pts.length => ws[i]'(by rw [h2]; exact i.2))
    (fun e => one_ne_zero (w0.symm.trans e)) (fun e => one_ne_zero (w1.symm.trans e))
  rw [← e1, ← e2] at this
  simpa only [Fin.getElem_fin, p0, p1] using this

theorem PieceOk.map {n : Nurb V3} {a b : V3} (h : PieceOk n a b) (f : V3 → V3) :
    PieceOk ⟨n.points.map f, n.weights⟩ (f a) (f b) :=
  ⟨by simpa using h.len, by simpa using h.wlen, by simp [h.first], by simp [h.last], h.wfirst, h.wlast⟩

theorem PieceOk.rev {n : Nurb V3} {a b : V3} (h : PieceOk n a b) :
    PieceOk ⟨n.points.reverse, n.weights.reverse⟩ b a :=
  ⟨by simpa using h.len, by simpa using h.wlen, by simpa using h.last, by simpa using h.first,
    by simpa using h.wlast, by simpa using h.wfirst⟩

/-- Pieces one after the other. -/
inductive Pieces : List (Nurb V3) → V3 → V3 → Prop
  | nil (a : V3) : Pieces [] a a
  | cons {n : Nurb V3} {l : List (Nurb V3)} {a b c : V3} : PieceOk n a b → Pieces l b c → Pieces (n :: l) a c

theorem Pieces.append {l m : List (Nurb V3)} {a b c : V3} (h : Pieces l a b) (h' : Pieces m b c) :
    Pieces (l ++ m) a c := by
  induction h with
  | nil => exact h'
  | cons hp _ ih => exact .cons hp (ih h')

theorem Pieces.map {l : List (Nurb V3)} {a b : V3} (h : Pieces l a b) (f : V3 → V3) :
    Pieces (l.map fun n => ⟨n.points.map f, n.weights⟩) (f a) (f b) := by
  induction h with
  | nil => exact .nil _
  | cons hp _ ih => exact .cons (hp.map f) ih

theorem Pieces.rev {l : List (Nurb V3)} {a b : V3} (h : Pieces l a b) :
    Pieces (l.reverse.map fun n => ⟨n.points.reverse, n.weights.reverse⟩) b a := by
  induction h with
  | nil => exact .nil _
  | cons hp _ ih =>
    rw [List.reverse_cons, List.map_append]
    exact ih.append (.cons hp.rev (.nil _))

theorem Pieces.mem {l : List (Nurb V3)} {a b : V3} (h : Pieces l a b) : ∀ n ∈ l, ∃ p q, PieceOk n p q := by
  induction h with
  | nil => simp
  | cons hp _ ih =>
    intro m hm
    rcases List.mem_cons.1 hm with rfl | hm
    · exact ⟨_, _, hp⟩
    · exact ih m hm

/-- Evaluation of an edge. -/
noncomputable def pieceFn (x : List V3 × List ℝ) (t : ℝ) : Option V3 := nurbezier t x.1 x.2

theorem Pieces.wire {l : List (Nurb V3)} {a b : V3} (h : Pieces l a b) :
    Spec.Wire ((l.map fun n => (n.points, n.weights)).map pieceFn) a b := by
  induction h with
  | nil => exact .nil _
  | cons hp _ ih => exact .cons hp.ends.1 hp.ends.2 ih

theorem Pieces.joined {l : List (Nurb V3)} {a b : V3} (h : Pieces l a b) :
    Joined (l.map Nurb.points) ∧ Joined (l.map Nurb.weights) := by
  induction h with
  | nil => exact ⟨trivial, trivial⟩
  | cons hp ht ih =>
    cases ht with
    | nil => exact ⟨trivial, trivial⟩
    | cons hq _ =>
      exact ⟨⟨hp.last.trans hq.first.symm, ih.1⟩, ⟨hp.wlast.trans hq.wfirst.symm, ih.2⟩⟩

theorem Pieces.first {l : List (Nurb V3)} {a b : V3} (h : Pieces l a b) (hl : l ≠ []) :
    ∃ n, l.head? = some n ∧ n.points.head? = some a ∧ n.weights.head? = some 1 := by
  cases h with
  | nil => exact absurd rfl hl
  | cons hp _ => exact ⟨_, rfl, hp.first, hp.wfirst⟩

theorem Pieces.last {l : List (Nurb V3)} {a b : V3} (h : Pieces l a b) (hl : l ≠ []) :
    ∃ n, l.getLast? = some n ∧ n.points.getLast? = some b ∧ n.weights.getLast? = some 1 := by
  induction h with
  | nil => exact absurd rfl hl
  | @cons n l a b c hp ht ih =>
    cases ht with
    | nil => exact ⟨n, rfl, hp.last, hp.wlast⟩
    | cons hq hr =>
      obtain ⟨m, h1, h2⟩ := ih (by simp)
      exact ⟨m, by rw [List.getLast?_cons_cons]; exact h1, h2⟩

/-- `enforce_continuity` changes nothing if the ends agree exactly, unless the chain is closed with a gap. -/
theorem Pieces.enforce {l : List (Nurb V3)} {a b : V3} (h : Pieces l a b) (isClosed : List (Nurb V3) → Bool)
    (hc : isClosed l = true → a = b) : enforceContinuity isClosed l = l := by
  cases l with
  | nil => rfl
  | cons c cs =>
    have hlen : ∀ n ∈ c :: cs, 1 ≤ n.points.length ∧ 1 ≤ n.weights.length := by
      intro n hn
      obtain ⟨p, q, hp⟩ := h.mem n hn
      have := hp.len
      have := hp.wlen
      omega
    have hj : joinLoop c cs = c :: cs := by
      apply nurb_ext
      · rw [joinLoop_points, joinRows_noop]
        · rfl
        · intro x hx
          rw [← List.map_cons, List.mem_map] at hx
          obtain ⟨n, hn, rfl⟩ := hx
          exact (hlen n hn).1
        · exact h.joined.1
      · rw [joinLoop_weights, joinRows_noop]
        · rfl
        · intro x hx
          rw [← List.map_cons, List.mem_map] at hx
          obtain ⟨n, hn, rfl⟩ := hx
          exact (hlen n hn).2
        · exact h.joined.2
    simp only [enforceContinuity]
    rw [hj]
    split_ifs with hcl
    · have hab := hc hcl
      obtain ⟨x, x1, x2, x3⟩ := h.first (by simp)
      obtain ⟨y, y1, y2, y3⟩ := h.last (by simp)
      apply nurb_ext
      · rw [joinEnds_points, closeRows_noop]
        exact ⟨x.points, y.points, a, by rw [List.head?_map, x1]; rfl, by rw [List.getLast?_map, y1]; rfl, x2,
          by rw [y2, hab]⟩
      · rw [joinEnds_weights, closeRows_noop]
        exact ⟨x.weights, y.weights, 1, by rw [List.head?_map, x1]; rfl, by rw [List.getLast?_map, y1]; rfl, x3, y3⟩
    · rfl

/-! ### Conversion of single curves -/

/-- A fit whose ends are the ends of the curve. -/
def PinnedFit (fit : Curve → List V3 × List ℝ) : Prop :=
  ∀ (c : Curve) (a b : V3), c.eval 0 = some a → c.eval 1 = some b → PieceOk ⟨(fit c).1, (fit c).2⟩ a b

theorem ofFn_head {α : Type*} {n : ℕ} (f : Fin n → α) (h : 0 < n) : (List.ofFn f).head? = some (f ⟨0, h⟩) := by
  rw [List.head?_eq_getElem?, List.getElem?_eq_getElem (by simpa using h)]; simp

theorem ofFn_last {α : Type*} {n : ℕ} (f : Fin n → α) (h : 0 < n) :
    (List.ofFn f).getLast? = some (f ⟨n - 1, by omega⟩) := by
  rw [List.getLast?_eq_getElem?, List.getElem?_eq_getElem (by simp; omega)]; simp

/-- **C11 for `fit_nurb_optim`.** Whatever the optimiser returns, the fit starts and ends where the curve does. -/
theorem fit_pinned (opt : ℕ → ℝ → Curve → ℕ → ℝ) {n : ℕ} (hn : 2 ≤ n) {ratio : ℝ} (hr : 0 ≤ ratio) :
    PinnedFit (fitNurbOptim opt n ratio) := by
  intro c a b ha hb
  obtain ⟨N, hN⟩ : ∃ N, N = (⌈((n : ℝ) - 2) * 2 * ratio⌉ + 2).toNat := ⟨_, rfl⟩
  have h2 : 2 ≤ N := by
    have : (0 : ℤ) ≤ ⌈((n : ℝ) - 2) * 2 * ratio⌉ := by
      apply Int.ceil_nonneg
      have : (2 : ℝ) ≤ n := by exact_mod_cast hn
      have : (0 : ℝ) ≤ (n : ℝ) - 2 := by linarith
      positivity
    omega
  have hN1 : (((N - 1 : ℕ) : ℝ)) ≠ 0 := by
    have : N - 1 ≠ 0 := by omega
    exact_mod_cast this
  have ea : c.evalD (linspace 0 1 (N - 1) 0) = a := by
    rw [linspace]; simp [Curve.evalD, ha]
  have eb : c.evalD (linspace 0 1 (N - 1) (N - 1)) = b := by
    rw [linspace, div_self hN1]; simp [Curve.evalD, hb]
  have h0 : ¬ (1 ≤ 0 ∧ 0 < n - 1) := by omega
  have h1 : ¬ (1 ≤ n - 1 ∧ n - 1 < n - 1) := by omega
  have h3 : (0 : ℕ) ≠ n - 1 := by omega
  simp only [fitNurbOptim, ← hN, fitNurbPoints]
  refine ⟨by simpa using hn, by simp, ?_, ?_, ?_, ?_⟩
  · rw [ofFn_head _ (by omega)]
    simp only [fitPoints, if_neg h0, if_neg h3, ea]
  · rw [ofFn_last _ (by omega)]
    simp only [fitPoints, if_neg h1, if_true, eb]
  · rw [ofFn_head _ (by omega)]
    simp only [fitWeights, if_neg h0]
  · rw [ofFn_last _ (by omega)]
    simp only [fitWeights, if_neg h1]

theorem nurbArc_piece {p q m : V3} {x : List V3 × List ℝ} (h : calcNurbezierArc p q m = some x) :
    PieceOk ⟨x.1, x.2⟩ p q := by
  rw [calcNurbezierArc] at h
  simp only at h
  split at h
  · cases h
  · split_ifs at h
    obtain rfl := Option.some.inj h
    exact ⟨by simp, by simp, rfl, rfl, rfl, rfl⟩

theorem convert_piece {fit : Curve → List V3 × List ℝ} (hf : PinnedFit fit) {c : Curve} {a b : V3}
    (ha : c.eval 0 = some a) (hb : c.eval 1 = some b) {s : NurbSeg} (hs : convertSeg fit c = some s) :
    PieceOk s.nurb a b ∧ s.active = c.active := by
  rw [convertSeg, Option.map_eq_some_iff] at hs
  obtain ⟨x, hx, rfl⟩ := hs
  refine ⟨?_, rfl⟩
  rw [convertPlain] at hx
  split at hx
  · rw [ha, hb] at hx
    obtain rfl := Option.some.inj hx
    exact ⟨by simp, by simp, rfl, rfl, rfl, rfl⟩
  · split_ifs at hx
    · rw [ha, hb] at hx
      exact nurbArc_piece hx
    · obtain rfl := Option.some.inj hx
      exact hf c a b ha hb
  · obtain rfl := Option.some.inj hx
    exact hf c a b ha hb

theorem convertActive_pieces {fit : Curve → List V3 × List ℝ} (hf : PinnedFit fit) {cs : List Curve} {a b : V3}
    (h : Path curveOps cs a b) {ss : List NurbSeg} (hs : convertActive fit cs = some ss) :
    Pieces (ss.map NurbSeg.nurb) a b ∧ (∀ s ∈ ss, s.active = true) ∧ ((∃ c ∈ cs, c.active = true) → ss ≠ []) := by
  induction h generalizing ss with
  | nil =>
    obtain rfl := Option.some.inj hs
    exact ⟨.nil _, by simp, by simp⟩
  | @cons x l a b c hx _ ih =>
    have hact : x.active = true := hx.active
    rw [convertActive, if_pos hact, Option.bind_eq_some_iff] at hs
    obtain ⟨s, h1, h2⟩ := hs
    rw [Option.map_eq_some_iff] at h2
    obtain ⟨ss', h2, rfl⟩ := h2
    obtain ⟨k1, k2⟩ := convert_piece hf hx.start hx.stop h1
    obtain ⟨k3, k4, -⟩ := ih h2
    refine ⟨.cons k1 k3, ?_, by simp⟩
    intro s' hs'
    rcases List.mem_cons.1 hs' with rfl | hs'
    · rw [k2, hact]
    · exact k4 s' hs'
  | @skip x l a b hx _ ih =>
    have hact : x.active = false := hx
    rw [convertActive, if_neg (by rw [hact]; simp)] at hs
    obtain ⟨k3, k4, k5⟩ := ih hs
    refine ⟨k3, k4, ?_⟩
    rintro ⟨c, hc, hca⟩
    rcases List.mem_cons.1 hc with rfl | hc
    · rw [hact] at hca; cases hca
    · exact k5 ⟨c, hc, hca⟩

/-! ### The mirrored tooth -/

theorem flatRows_map {α β : Type*} (f : α → β) (ls : List (List α)) :
    flatRows (ls.map (List.map f)) = (flatRows ls).map f := by
  unfold flatRows
  rw [List.map_append, List.map_flatMap, List.flatMap_map]
  congr 1
  · simp [List.map_dropLast]
  · rw [List.getLast?_map]
    cases ls.getLast? with
    | none => rfl
    | some l => simp [List.getLast?_map]; cases l.getLast? <;> rfl

theorem mulV_flipY (p : V3) : mulV p ![1, -1, 1] = flipY p := by
  apply V3.ext3 <;> simp [mulV, flipY]

/-- A piece with mirrored control points. -/
def flipNurb (n : Nurb V3) : Nurb V3 := ⟨n.points.map flipY, n.weights⟩

/-- Writing the mirrored flat points into the members mirrors each member. -/
theorem setPoints_flip {cs : List (Nurb V3)} {a b : V3} (h : Pieces cs a b) (hne : cs ≠ []) :
    setPoints cs ((flatPoints cs).map flipY) = some (cs.map flipNurb) := by
  have hp : ∀ c ∈ cs, 2 ≤ c.points.length := fun c hc => by
    obtain ⟨p, q, k⟩ := h.mem c hc; exact k.len
  have hw : ∀ c ∈ cs, c.weights.length = c.points.length := fun c hc => by
    obtain ⟨p, q, k⟩ := h.mem c hc; exact k.wlen
  obtain ⟨cs', h1, h2, h3, h4, h5⟩ := (c52_write_read cs hne (fun c hc => le_trans (by norm_num) (hp c hc))
    ((flatPoints cs).map flipY)).2 (by simp)
  have hm := h.map flipY
  have hk : ∀ {xs ys : List (Nurb V3)}, xs.map (fun c => c.points.length) = ys.map (fun c => c.points.length) →
      knots xs = knots ys := by
    intro xs ys e
    rw [knots, knots, knotsFrom_eq, knotsFrom_eq, e]
  have e1 : cs'.map (fun c => c.points.length) = (cs.map flipNurb).map (fun c => c.points.length) := by
    rw [h4]; simp [flipNurb]
  have e2 : cs'.map Nurb.weights = (cs.map flipNurb).map Nurb.weights := by
    rw [h3]; simp [flipNurb]
  have e3 : flatPoints cs' = flatPoints (cs.map flipNurb) := by
    rw [h2, flatPoints, flatPoints, ← flatRows_map, List.map_map, List.map_map]; rfl
  have hj := hm.joined
  have hlen : ∀ c ∈ cs', 2 ≤ c.points.length := by
    intro c hc
    have : c.points.length ∈ cs'.map (fun c => c.points.length) := List.mem_map_of_mem hc
    rw [h4, List.mem_map] at this
    obtain ⟨d, hd, e⟩ := this
    rw [← e]; exact hp d hd
  have hwl : ∀ c ∈ cs', c.weights.length = c.points.length := by
    intro c hc
    obtain ⟨i, hi⟩ := List.mem_iff_getElem?.1 hc
    have g1 := congrArg (fun l => l[i]?) h3
    have g2 := congrArg (fun l => l[i]?) h4
    simp only [List.getElem?_map, hi, Option.map_some] at g1 g2
    cases hd : cs[i]? with
    | none => rw [hd] at g1; cases g1
    | some d =>
      rw [hd] at g1 g2
      simp only [Option.map_some, Option.some.injEq] at g1 g2
      rw [g1, g2]; exact hw d (List.mem_of_getElem? hd)
  have r1 := c52_roundtrip cs' hlen hwl h5 (by rw [h3]; exact h.joined.2)
  have r2 := c52_roundtrip (cs.map flipNurb)
    (fun c hc => by obtain ⟨p, q, k⟩ := hm.mem c hc; exact k.len)
    (fun c hc => by obtain ⟨p, q, k⟩ := hm.mem c hc; exact k.wlen) hj.1 hj.2
  rw [h1, ← r1, ← r2, hk e1, e3, flatWeights, flatWeights, e2]

theorem zipWith_restore (ss : List NurbSeg) (f : Nurb V3 → Nurb V3) :
    List.zipWith (fun n (s : NurbSeg) => (⟨n, s.active⟩ : NurbSeg)) ((ss.map NurbSeg.nurb).map f) ss =
      ss.map fun s => ⟨f s.nurb, s.active⟩ := by
  induction ss with
  | nil => rfl
  | cons s ss ih => simp only [List.map_cons, List.zipWith_cons_cons, ih]

theorem mirrorSegs_eq {ss : List NurbSeg} {a b : V3} (h : Pieces (ss.map NurbSeg.nurb) a b) (hne : ss ≠ []) :
    mirrorSegs ss = some (ss.reverse.map fun s => NurbSeg.reverse ⟨flipNurb s.nurb, s.active⟩) := by
  have e : (fun p : V3 => mulV p ![1, -1, 1]) = flipY := by funext p; exact mulV_flipY p
  rw [mirrorSegs, if_neg hne, e, setPoints_flip h (by simpa using hne), Option.map_some, zipWith_restore]
  simp [List.map_reverse, Function.comp_def]

/-! ### The outline -/

/-- Active members, in order. -/
def activeNurbs (ss : List NurbSeg) : List (Nurb V3) := (ss.filter NurbSeg.active).map NurbSeg.nurb

theorem activeNurbs_append (a b : List NurbSeg) : activeNurbs (a ++ b) = activeNurbs a ++ activeNurbs b := by
  simp [activeNurbs]

theorem activeNurbs_all {a : List NurbSeg} (h : ∀ s ∈ a, s.active = true) : activeNurbs a = a.map NurbSeg.nurb := by
  rw [activeNurbs, List.filter_eq_self.2 h]

section
variable {α : Type} {o : CurveOps α} {asEuler : M3 → ℝ × ℝ × ℝ} {tooth : α} {T : ℝ → V3}
  {pitch r θ z0 ρ φ z1 rA rD rO zO coneAngle zc sMid : ℝ} {P : RefProfile α} {E : ExtProfile α}
  {members : α → List Curve} {opt : ℕ → ℝ → Curve → ℕ → ℝ} {n : ℕ} {ratio : ℝ} {trf : GearTransform}

/-- What the conversion makes of the parts of a profile. -/
structure NurbFacts (T : ℝ → V3) (pitch : ℝ) (trf : GearTransform) (P : RefProfile α) (N : NurbProfile) : Prop where
  tooth : ∃ ss : List NurbSeg, Pieces (ss.map NurbSeg.nurb) (T 0) (T 1) ∧ (∀ s ∈ ss, s.active = true) ∧ ss ≠ [] ∧
    N.tooth = ss.map (NurbSeg.move fun p => applyGearTransform p trf) ∧
    N.mirror = (ss.reverse.map fun s => NurbSeg.reverse ⟨flipNurb s.nurb, s.active⟩).map
      (NurbSeg.move fun p => applyGearTransform p trf)
  ra : ∀ a b, P.ra.eval 0 = some a → P.ra.eval 1 = some b → N.ra.active = P.ra.active ∧
    PieceOk N.ra.nurb (applyGearTransform a trf) (applyGearTransform b trf)
  rd : ∀ a b, P.rd.eval 0 = some a → P.rd.eval 1 = some b → N.rd.active = P.rd.active ∧
    PieceOk N.rd.nurb (applyGearTransform a trf) (applyGearTransform b trf)
  ro : ∀ a b, P.ro.eval 0 = some a → P.ro.eval 1 = some b → N.ro.active = P.ro.active ∧
    PieceOk N.ro.nurb (applyGearTransform a trf) (applyGearTransform b trf)
  raActive : N.ra.active = P.ra.active
  rdActive : N.rd.active = P.rd.active

theorem convertSeg_active {fit : Curve → List V3 × List ℝ} {c : Curve} {s : NurbSeg} (h : convertSeg fit c = some s) :
    s.active = c.active := by
  rw [convertSeg, Option.map_eq_some_iff] at h
  obtain ⟨x, -, rfl⟩ := h
  rfl

theorem nurb_facts (ht : Path curveOps (members P.tooth) (T 0) (T 1)) (hex : ∃ c ∈ members P.tooth, c.active = true)
    (hn : 2 ≤ n) (hr : 0 ≤ ratio) {N : NurbProfile} (hN : profileToNurb members opt n ratio trf P = some N) :
    NurbFacts T pitch trf P N := by
  simp only [profileToNurb, Option.bind_eq_bind, Option.bind_eq_some_iff] at hN
  obtain ⟨ss, h1, mm, h2, ra, h3, rd, h4, ro, h5, h6⟩ := hN
  obtain rfl := Option.some.inj h6
  obtain ⟨k1, k2, k3⟩ := convertActive_pieces (fit_pinned opt hn hr) ht h1
  have hne := k3 hex
  rw [mirrorSegs_eq k1 hne] at h2
  obtain rfl := Option.some.inj h2
  have hp := fit_pinned opt (n := 4) (by norm_num) (ratio := 3 / 2) (by norm_num)
  refine ⟨⟨ss, k1, k2, hne, rfl, rfl⟩, ?_, ?_, ?_, (convertSeg_active h3 : ra.active = _),
    (convertSeg_active h4 : rd.active = _)⟩
  · intro a b ha hb
    obtain ⟨q1, q2⟩ := convert_piece hp ha hb h3
    exact ⟨q2, q1.map _⟩
  · intro a b ha hb
    obtain ⟨q1, q2⟩ := convert_piece hp ha hb h4
    exact ⟨q2, q1.map _⟩
  · intro a b ha hb
    obtain ⟨q1, q2⟩ := convert_piece hp ha hb h5
    exact ⟨q2, q1.map _⟩

theorem move_nurbs (ss : List NurbSeg) (f : V3 → V3) :
    (ss.map (NurbSeg.move f)).map NurbSeg.nurb = (ss.map NurbSeg.nurb).map fun n => ⟨n.points.map f, n.weights⟩ := by
  rw [List.map_map, List.map_map]; rfl

theorem flip_rev_pieces {ss : List NurbSeg} {a b : V3} (h : Pieces (ss.map NurbSeg.nurb) a b) :
    Pieces ((ss.reverse.map fun s => NurbSeg.reverse ⟨flipNurb s.nurb, s.active⟩).map NurbSeg.nurb) (flipY b)
      (flipY a) := by
  have := (h.map flipY).rev
  rw [← List.map_reverse, ← List.map_reverse, List.map_map, List.map_map] at this
  rw [List.map_map]
  exact this

/-- The active members of the profile run from the end of the previous tooth to the end of this one. -/
theorem profile_pieces {N : NurbProfile} (f : NurbFacts T pitch trf P N)
    (hra : Plain P.ra (T 1) (flipY (T 1)) ∨ (P.ra.active = false ∧ T 1 = flipY (T 1)))
    (hrd : Plain P.rd (rootStart T pitch) (T 0) ∨ (P.rd.active = false ∧ rootStart T pitch = T 0)) :
    Pieces (activeNurbs N.profile) (applyGearTransform (rootStart T pitch) trf) (applyGearTransform (flipY (T 0)) trf) ∧
      activeNurbs N.profile ≠ [] := by
  obtain ⟨ss, s1, s2, s3, s4, s5⟩ := f.tooth
  have hp : N.profile = [N.rd] ++ (N.tooth ++ ([N.ra] ++ N.mirror)) := rfl
  have ht : activeNurbs N.tooth = (ss.map NurbSeg.nurb).map fun n =>
      ⟨n.points.map fun p => applyGearTransform p trf, n.weights⟩ := by
    rw [activeNurbs_all, s4, move_nurbs]
    intro s hs
    rw [s4, List.mem_map] at hs
    obtain ⟨x, hx, rfl⟩ := hs
    exact s2 x hx
  have hm : activeNurbs N.mirror = ((ss.reverse.map fun s => NurbSeg.reverse ⟨flipNurb s.nurb, s.active⟩).map
      NurbSeg.nurb).map fun n => ⟨n.points.map fun p => applyGearTransform p trf, n.weights⟩ := by
    rw [activeNurbs_all, s5, move_nurbs]
    intro s hs
    rw [s5, List.mem_map] at hs
    obtain ⟨x, hx, rfl⟩ := hs
    rw [List.mem_map] at hx
    obtain ⟨y, hy, rfl⟩ := hx
    exact s2 y (List.mem_reverse.1 hy)
  have one : ∀ s : NurbSeg, activeNurbs [s] = if s.active then [s.nurb] else [] := by
    intro s
    by_cases h : s.active = true
    · simp [activeNurbs, h]
    · simp [activeNurbs, h]
  have hseg : ∀ {s : NurbSeg} {c : Curve} {a b : V3},
      (∀ a b, c.eval 0 = some a → c.eval 1 = some b → s.active = c.active ∧
        PieceOk s.nurb (applyGearTransform a trf) (applyGearTransform b trf)) → s.active = c.active →
      (Plain c a b ∨ (c.active = false ∧ a = b)) →
      Pieces (activeNurbs [s]) (applyGearTransform a trf) (applyGearTransform b trf) := by
    intro s c a b h1 h2 h3
    rw [one]
    rcases h3 with h3 | ⟨h3, rfl⟩
    · obtain ⟨k1, k2⟩ := h1 a b h3.start h3.stop
      rw [if_pos (by rw [k1]; exact h3.seg.active)]
      exact .cons k2 (.nil _)
    · rw [if_neg (by rw [h2, h3]; simp)]
      exact .nil _
  rw [hp, activeNurbs_append, activeNurbs_append, activeNurbs_append]
  constructor
  · refine (hseg f.rd f.rdActive hrd).append ?_
    rw [ht, hm]
    refine (s1.map fun p => applyGearTransform p trf).append ?_
    exact (hseg f.ra f.raActive hra).append ((flip_rev_pieces s1).map fun p => applyGearTransform p trf)
  · rw [ht]
    simp [s3]

theorem nurbsClosed_all {cont : List (Nurb V3) → Bool} {ss : List NurbSeg} {a b : V3}
    (h : Pieces (ss.map NurbSeg.nurb) a b) (hne : ss ≠ []) (hall : ∀ s ∈ ss, s.active = true)
    (hc : nurbsClosed cont (ss.map NurbSeg.active) (ss.map NurbSeg.nurb) = true) : norm3 (a - b) < DELTA / 100 := by
  have e : (((ss.map NurbSeg.nurb).zip (ss.map NurbSeg.active)).filter Prod.snd).map Prod.fst = ss.map NurbSeg.nurb := by
    clear h hne hc
    induction ss with
    | nil => rfl
    | cons s ss ih =>
      have h1 := hall s (by simp)
      simp only [List.map_cons, List.zip_cons_cons, List.filter_cons, h1, if_true]
      rw [ih fun x hx => hall x (by simp [hx])]
  obtain ⟨x, x1, x2, -⟩ := h.first (by simpa using hne)
  obtain ⟨y, y1, y2, -⟩ := h.last (by simpa using hne)
  simp only [nurbsClosed, e, x1, y1, Option.bind_some, x2, y2, Bool.and_eq_true, decide_eq_true_eq] at hc
  exact hc.1

theorem enforceSegs_noop {cont : List (Nurb V3) → Bool} {ss : List NurbSeg} {a b : V3}
    (h : Pieces (ss.map NurbSeg.nurb) a b) (hall : ∀ s ∈ ss, s.active = true)
    (hab : norm3 (a - b) < DELTA / 100 → a = b) : enforceSegs cont ss = ss := by
  by_cases hne : ss = []
  · rw [hne]; rfl
  · rw [enforceSegs, h.enforce _ fun hc => hab (nurbsClosed_all h hne hall hc)]
    have := zipWith_restore ss id
    rw [List.map_id] at this
    rw [this]
    simp

/-- The edges of the cover are the active members of the profile. -/
theorem cover_eq {cont : List (Nurb V3) → Bool} {N : NurbProfile} {a b : V3} (h : Pieces (activeNurbs N.profile) a b)
    (hab : norm3 (a - b) < DELTA / 100 → a = b) :
    coverEdges cont N = (activeNurbs N.profile).map fun n => (n.points, n.weights) := by
  have hall : ∀ s ∈ N.profile.filter NurbSeg.active, s.active = true := fun s hs => (List.mem_filter.1 hs).2
  rw [coverEdges, enforceSegs_noop h hall hab, genSplines, List.filter_eq_self.2 hall, activeNurbs, List.map_map]
  rfl

theorem patches_take {cs ds : List (Nurb V3)} {a b : V3} (h : Pieces (cs ++ ds) a b) (hd : ds.length = 3) :
    sidePatches (cs ++ ds) = cs.map fun n => (n.points, n.weights) := by
  obtain ⟨e1, e2⟩ := c89_patches_are_members (cs ++ ds)
    (fun c hc => by obtain ⟨p, q, k⟩ := h.mem c hc; exact k.len)
    (fun c hc => by obtain ⟨p, q, k⟩ := h.mem c hc; exact k.wlen) h.joined.1 h.joined.2
  rw [sidePatches, e1, e2]
  have e : List.zip ((cs ++ ds).map Nurb.points) ((cs ++ ds).map Nurb.weights) =
      (cs ++ ds).map fun n => (n.points, n.weights) := by
    rw [List.zip_map']
  simp only [e, List.length_map, List.length_append, hd, Nat.add_sub_cancel]
  rw [← List.map_take, List.take_left']
  rfl

/-- A placement on the axis commutes with turning about it. -/
theorem coaxial_turn (trf : GearTransform) (ho : trf.orientation = 1) (h0 : trf.center 0 = 0) (h1 : trf.center 1 = 0)
    (a : ℝ) (p : V3) : applyGearTransform (app (Rz a) p) trf = app (Rz a) (applyGearTransform p trf) := by
  have hc : app (Rz a) trf.center = trf.center := by
    rw [Rz_app]; apply V3.ext3 <;> simp [h0, h1]
  rw [applyGearTransform_eq, applyGearTransform_eq, ho, app_one, app_one, app_add, app_smul, hc, ← app_mul, ← Rz_add,
    ← app_mul, ← Rz_add, add_comm a]

theorem chord_cyl {r : ℝ} (hr : 0 < r) (γ z : ℝ) {δ : ℝ} (h0 : 0 ≤ δ) (h1 : δ ≤ π) :
    norm3 (cyl r (γ - δ) z - cyl r γ z) = 2 * r * sin (δ / 2) := by
  have hs : 0 ≤ sin (δ / 2) := sin_nonneg_of_nonneg_of_le_pi (by linarith) (by linarith)
  rw [norm3, show dot (cyl r (γ - δ) z - cyl r γ z) (cyl r (γ - δ) z - cyl r γ z) = (2 * r * sin (δ / 2)) ^ 2 by
    have e1 : cos δ = 1 - 2 * sin (δ / 2) ^ 2 := by
      have := cos_sq' (δ / 2)
      have h2 := cos_two_mul (δ / 2)
      rw [show 2 * (δ / 2) = δ by ring] at h2
      linarith
    simp only [dot, cyl, Pi.sub_apply, Matrix.cons_val_zero, Matrix.cons_val_one, Matrix.cons_val, cos_sub, sin_sub]
    have e2 := sin_sq_add_cos_sq γ
    have e3 := sin_sq_add_cos_sq δ
    linear_combination r ^ 2 * (cos δ ^ 2 + sin δ ^ 2 - 2 * cos δ + 1) * e2 + r ^ 2 * e3 - 2 * r ^ 2 * e1]
  exact sqrt_sq (by positivity)

theorem place_chord (trf : GearTransform) (ho : IsRot trf.orientation) (p q : V3) :
    norm3 (applyGearTransform p trf - applyGearTransform q trf) = |trf.scale| * norm3 (p - q) := by
  rw [applyGearTransform_eq, applyGearTransform_eq, add_sub_add_right_eq_sub, ← smul_sub, norm3_smul, ← app_sub,
    ← app_sub, ho.norm_app, (IsRot.Rz _).norm_app]

/-- The curves of `profile_closed`. -/
theorem closed_pieces {N : NurbProfileExt} (p : Parts o asEuler tooth T pitch r θ z0 ρ φ z1 rA rD rO zO coneAngle zc sMid P E)
    (ht : Path curveOps (members tooth) (T 0) (T 1)) (hex : ∃ c ∈ members tooth, c.active = true)
    (hn : 2 ≤ n) (hr : 0 ≤ ratio) (hN : profileToNurbExt members opt n ratio trf E = some N) :
    NurbFacts T pitch trf P N.base ∧
    ∃ ds, ds.length = 3 ∧ N.sideMembers = activeNurbs N.base.profile ++ ds ∧
      Pieces ds (applyGearTransform (flipY (T 0)) trf) (applyGearTransform (rootStart T pitch) trf) := by
  simp only [profileToNurbExt, Option.bind_eq_bind, Option.bind_eq_some_iff] at hN
  obtain ⟨B, h1, c0, h2, c2, h3, h4⟩ := hN
  obtain rfl := Option.some.inj h4
  rw [p.base] at h1
  have ht' : Path curveOps (members P.tooth) (T 0) (T 1) := by rw [p.tooth_eq]; exact ht
  have hex' : ∃ c ∈ members P.tooth, c.active = true := by rw [p.tooth_eq]; exact hex
  have f := nurb_facts (pitch := pitch) ht' hex' hn hr h1
  refine ⟨f, ?_⟩
  have hp := fit_pinned opt (n := 4) (by norm_num) (ratio := 3 / 2) (by norm_num)
  obtain ⟨a1, a2⟩ := convert_piece hp p.conn0.start p.conn0.stop h2
  obtain ⟨b1, b2⟩ := convert_piece hp p.conn2.start p.conn2.stop h3
  obtain ⟨o1, o2⟩ := f.ro _ _ p.ro.start p.ro.stop
  have a3 : c0.active = true := a2.trans p.conn0.seg.active
  have b3 : c2.active = true := b2.trans p.conn2.seg.active
  have o3 : B.ro.active = true := o1.trans p.ro.seg.active
  refine ⟨_, ?_, (activeNurbs_append _ _ : _), ?_⟩
  · simp [activeNurbs, NurbSeg.reverse, NurbSeg.move, a3, b3, o3]
  · have e : activeNurbs [(NurbSeg.move (fun p => applyGearTransform p trf) c2).reverse, B.ro.reverse,
        NurbSeg.move (fun p => applyGearTransform p trf) c0] =
        [(NurbSeg.move (fun p => applyGearTransform p trf) c2).reverse.nurb, B.ro.reverse.nurb,
        (NurbSeg.move (fun p => applyGearTransform p trf) c0).nurb] := by
      simp [activeNurbs, NurbSeg.reverse, NurbSeg.move, a3, b3, o3]
    change Pieces (activeNurbs [(NurbSeg.move (fun p => applyGearTransform p trf) c2).reverse, B.ro.reverse,
        NurbSeg.move (fun p => applyGearTransform p trf) c0]) _ _
    rw [e]
    exact .cons (b1.map fun p => applyGearTransform p trf).rev (.cons o2.rev
      (.cons (a1.map fun p => applyGearTransform p trf) (.nil _)))

/-- **C128, the outline of a slice.** For every trimmed tooth, whatever the optimiser returns: the edges of the cover run
without gaps from the end of the previous tooth to the end of this one; with the connectors and the ring they form a closed
wire; and the faces of the side surface are made of exactly the control points and weights of the edges of the cover. -/
theorem c128_outline (hE : EulerOk asEuler)
    (h : OutlineOk o tooth T pitch r θ z0 ρ φ z1 rA rO zO coneAngle zc) (rD sMid : ℝ)
    (hs : pitch * sMid = 2 * θ + pitch)
    (ht : Path curveOps (members tooth) (T 0) (T 1)) (hex : ∃ c ∈ members tooth, c.active = true)
    (opt : ℕ → ℝ → Curve → ℕ → ℝ) (n : ℕ) (hn : 2 ≤ n) (ratio : ℝ) (hr : 0 ≤ ratio) (trf : GearTransform)
    (ho : IsRot trf.orientation) (hsize : DELTA / 100 ≤ |trf.scale| * (2 * r * sin (pitch / 2))) :
    ∃ P E, closeProfile o asEuler tooth rA rD rO ![0, 0, zO] pitch = some P ∧
      profileExtensions o asEuler P coneAngle ![0, 0, zc] sMid = some E ∧
      ∀ N cont, profileToNurbExt members opt n ratio trf E = some N →
        coverEdges cont N.base ≠ [] ∧
        Spec.Wire ((coverEdges cont N.base).map pieceFn)
          (applyGearTransform (app (Rz (-pitch)) (flipY (T 0))) trf) (applyGearTransform (flipY (T 0)) trf) ∧
        Spec.Wire ((N.sideMembers.map fun n => (n.points, n.weights)).map pieceFn)
          (applyGearTransform (app (Rz (-pitch)) (flipY (T 0))) trf)
          (applyGearTransform (app (Rz (-pitch)) (flipY (T 0))) trf) ∧
        sidePatches N.sideMembers = coverEdges cont N.base := by
  obtain ⟨P, E, p⟩ := parts_exist hE h rD sMid hs
  refine ⟨P, E, p.made, p.ext, fun N cont hN => ?_⟩
  obtain ⟨f, ds, d1, d2, d3⟩ := closed_pieces p ht hex hn hr hN
  obtain ⟨g1, g2⟩ := profile_pieces f p.ra p.rd
  have hab : norm3 (applyGearTransform (rootStart T pitch) trf - applyGearTransform (flipY (T 0)) trf) < DELTA / 100 →
      applyGearTransform (rootStart T pitch) trf = applyGearTransform (flipY (T 0)) trf := by
    intro hlt
    exfalso
    rw [place_chord _ ho] at hlt
    rw [show rootStart T pitch = cyl r (-θ - pitch) z0 by rw [rootStart_polar h.tooth, h.root]; simp [cyl],
      show flipY (T 0) = cyl r (-θ) z0 by rw [h.root, flipY_cyl],
      chord_cyl h.tooth.rootPos _ _ h.tooth.pitchPos.le h.tooth.pitchLe] at hlt
    linarith
  have hcl := g1.append d3
  rw [cover_eq g1 hab, d2]
  refine ⟨by simpa using g2, g1.wire, hcl.wire, ?_⟩
  exact patches_take hcl d1

/-- **C128, symmetry.** Piece by piece the mirrored flank of the tooth is the mirror image of the flank, travelled
backwards, whatever the optimiser returned for the flank. -/
theorem c128_mirror (hE : EulerOk asEuler)
    (h : OutlineOk o tooth T pitch r θ z0 ρ φ z1 rA rO zO coneAngle zc) (rD sMid : ℝ)
    (hs : pitch * sMid = 2 * θ + pitch)
    (ht : Path curveOps (members tooth) (T 0) (T 1)) (hex : ∃ c ∈ members tooth, c.active = true)
    (opt : ℕ → ℝ → Curve → ℕ → ℝ) (n : ℕ) (hn : 2 ≤ n) (ratio : ℝ) (hr : 0 ≤ ratio) (trf : GearTransform)
    (ho : IsRot trf.orientation) (hsc : trf.scale ≠ 0) :
    ∃ P E, closeProfile o asEuler tooth rA rD rO ![0, 0, zO] pitch = some P ∧
      profileExtensions o asEuler P coneAngle ![0, 0, zc] sMid = some E ∧
      ∀ N, profileToNurbExt members opt n ratio trf E = some N →
        N.base.tooth ≠ [] ∧ N.base.mirror.length = N.base.tooth.length ∧
        ∀ (i : ℕ) (s t : NurbSeg), N.base.tooth[i]? = some s → N.base.mirror.reverse[i]? = some t →
          ∀ u p, pieceFn (s.nurb.points, s.nurb.weights) u = some (applyGearTransform p trf) ↔
            pieceFn (t.nurb.points, t.nurb.weights) (1 - u) = some (applyGearTransform (flipY p) trf) := by
  obtain ⟨P, E, p⟩ := parts_exist hE h rD sMid hs
  refine ⟨P, E, p.made, p.ext, fun N hN => ?_⟩
  obtain ⟨f, -⟩ := closed_pieces p ht hex hn hr hN
  obtain ⟨ss, -, -, s3, s4, s5⟩ := f.tooth
  have s6 : N.base.mirror.reverse = (ss.map fun s => NurbSeg.reverse ⟨flipNurb s.nurb, s.active⟩).map
      (NurbSeg.move fun p => applyGearTransform p trf) := by
    rw [s5, ← List.map_reverse, ← List.map_reverse, List.reverse_reverse]
  refine ⟨by rw [s4]; simpa using s3, by rw [s4, s5]; simp, ?_⟩
  intro i s t hi hj u q
  rw [s4, List.getElem?_map] at hi
  rw [s6, List.map_map, List.getElem?_map] at hj
  cases hx : ss[i]? with
  | none => rw [hx] at hi; cases hi
  | some x =>
    rw [hx] at hi hj
    obtain rfl := Option.some.inj hi
    obtain rfl := Option.some.inj hj
    have e1 : pieceFn ((NurbSeg.move (fun p => applyGearTransform p trf) x).nurb.points,
        (NurbSeg.move (fun p => applyGearTransform p trf) x).nurb.weights) u =
        (nurbezier u x.nurb.points x.nurb.weights).map fun p => applyGearTransform p trf :=
      c03_gear_transform trf u _ _
    have e2 : ∀ v, nurbezier v (x.nurb.points.map flipY) x.nurb.weights =
        (nurbezier v x.nurb.points x.nurb.weights).map flipY := by
      intro v
      let g : V3 →ᵃ[ℝ] V3 := (Matrix.toLin' (!![1, 0, 0; 0, -1, 0; 0, 0, 1] : M3)).toAffineMap
      have eg : (flipY : V3 → V3) = g := by
        funext w
        apply V3.ext3 <;> simp [g, flipY, Matrix.vecHead, Matrix.vecTail, Matrix.mulVec, dotProduct, Fin.sum_univ_three]
      rw [eg]; exact c03_affine_invariance g v _ _
    have e3 : pieceFn ((NurbSeg.move (fun p => applyGearTransform p trf)
          (NurbSeg.reverse ⟨flipNurb x.nurb, x.active⟩)).nurb.points,
        (NurbSeg.move (fun p => applyGearTransform p trf)
          (NurbSeg.reverse ⟨flipNurb x.nurb, x.active⟩)).nurb.weights) (1 - u) =
        ((nurbezier u x.nurb.points x.nurb.weights).map flipY).map fun p => applyGearTransform p trf := by
      refine (c03_gear_transform trf (1 - u) _ _).trans ?_
      change (nurbezier (1 - u) (x.nurb.points.map flipY).reverse x.nurb.weights.reverse).map _ = _
      rw [c04_reverse, sub_sub_cancel, e2]
    rw [e1, Function.comp_apply, e3]
    have hinj := applyGearTransform_inj hsc ho
    cases nurbezier u x.nurb.points x.nurb.weights with
    | none => simp
    | some w =>
      simp only [Option.map_some, Option.some.injEq]
      constructor
      · intro e; rw [hinj e]
      · intro e; rw [flipY_inj (hinj e)]

theorem Spec.Wire.append {l m : List (ℝ → Option V3)} {a b c : V3} (h : Spec.Wire l a b) (h' : Spec.Wire m b c) :
    Spec.Wire (l ++ m) a c := by
  induction h with
  | nil => exact h'
  | cons h0 h1 _ ih => exact .cons h0 h1 (ih h')

theorem Spec.Wire.map {l : List (ℝ → Option V3)} {a b : V3} (h : Spec.Wire l a b) (g : V3 → V3) :
    Spec.Wire (l.map fun f t => (f t).map g) (g a) (g b) := by
  induction h with
  | nil => exact .nil _
  | cons h0 h1 _ ih => exact .cons (by simp [h0]) (by simp [h1]) ih

/-- Copies of a wire, each turned on by the pitch angle. -/
theorem Spec.Wire.turn {l : List (ℝ → Option V3)} {a : V3} {pitch : ℝ} (h : Spec.Wire l a (app (Rz pitch) a)) (k : ℕ) :
    Spec.Wire ((List.range k).flatMap fun j => l.map fun f t => (f t).map (app (Rz (pitch * j)))) a
      (app (Rz (pitch * k)) a) := by
  induction k with
  | zero =>
    rw [Nat.cast_zero, mul_zero, Rz_zero, app_one]; exact .nil _
  | succ k ih =>
    rw [List.range_succ, List.flatMap_append]
    refine ih.append ?_
    have e : app (Rz (pitch * (k + 1 : ℕ))) a = app (Rz (pitch * k)) (app (Rz pitch) a) := by
      rw [← app_mul, ← Rz_add]; congr 2; push_cast; ring
    rw [e]
    simpa using h.map (app (Rz (pitch * k)))

/-- **C128, the cover of a cylindrical gear.** If the slice sits on the axis of the gear, the edges of all teeth form one
closed wire: the outline of the cover has no gap, whatever the optimiser returned. -/
theorem c128_cover (hE : EulerOk asEuler)
    (h : OutlineOk o tooth T pitch r θ z0 ρ φ z1 rA rO zO coneAngle zc) (rD sMid : ℝ)
    (hs : pitch * sMid = 2 * θ + pitch)
    (ht : Path curveOps (members tooth) (T 0) (T 1)) (hex : ∃ c ∈ members tooth, c.active = true)
    (opt : ℕ → ℝ → Curve → ℕ → ℝ) (n : ℕ) (hn : 2 ≤ n) (ratio : ℝ) (hr : 0 ≤ ratio) (trf : GearTransform)
    (ho : trf.orientation = 1) (h0 : trf.center 0 = 0) (h1 : trf.center 1 = 0)
    (hsize : DELTA / 100 ≤ |trf.scale| * (2 * r * sin (pitch / 2))) (k : ℕ) (hk : pitch * k = 2 * π) :
    ∃ P E, closeProfile o asEuler tooth rA rD rO ![0, 0, zO] pitch = some P ∧
      profileExtensions o asEuler P coneAngle ![0, 0, zc] sMid = some E ∧
      ∀ N cont, profileToNurbExt members opt n ratio trf E = some N →
        ∃ a, Spec.Wire ((List.range k).flatMap fun j => ((coverEdges cont N.base).map pieceFn).map
          fun f t => (f t).map (app (Rz (pitch * j)))) a a := by
  obtain ⟨P, E, e1, e2, e3⟩ := c128_outline hE h rD sMid hs ht hex opt n hn ratio hr trf (by rw [ho]; exact IsRot.one) hsize
  refine ⟨P, E, e1, e2, fun N cont hN => ?_⟩
  obtain ⟨-, g, -⟩ := e3 N cont hN
  obtain ⟨a, ha⟩ : ∃ a, a = applyGearTransform (app (Rz (-pitch)) (flipY (T 0))) trf := ⟨_, rfl⟩
  have hb : applyGearTransform (flipY (T 0)) trf = app (Rz pitch) a := by
    rw [ha, ← coaxial_turn trf ho h0 h1, ← app_mul, ← Rz_add, add_neg_cancel, Rz_zero, app_one]
  rw [← ha, hb] at g
  refine ⟨a, ?_⟩
  have := g.turn k
  rwa [hk, show Rz (2 * π) = 1 by ext i j; fin_cases i <;> fin_cases j <;> simp [Rz], app_one] at this

/-! ### The conversion succeeds -/

theorem calcArc_some {p q m : V3} (h : cross (p - m) (q - m) ≠ 0 ∨ 0 < dot (p - m) (q - m)) :
    ∃ x, calcNurbezierArc p q m = some x := by
  have hne : (1 / 2 : ℝ) • (p + q) - m ≠ 0 := by
    intro e
    have e1 : q - m = -(p - m) := by
      have : (2 : ℝ) • ((1 / 2 : ℝ) • (p + q) - m) = 0 := by rw [e, smul_zero]
      have e2 : (2 : ℝ) • ((1 / 2 : ℝ) • (p + q) - m) = (q - m) + (p - m) := by module
      rw [e2] at this
      exact eq_neg_of_add_eq_zero_left this
    rcases h with h | h
    · apply h; rw [e1]; apply V3.ext3 <;> simp [cross] <;> ring
    · rw [e1] at h
      have : dot (p - m) (-(p - m)) = -dot (p - m) (p - m) := by simp [dot]; ring
      rw [this] at h
      have := dot_self_nonneg (p - m)
      linarith
  rw [calcNurbezierArc]
  simp only [normalizeVector_some hne]
  rw [if_neg]
  · exact ⟨_, rfl⟩
  · obtain ⟨A, hA⟩ : ∃ A, A = angleBetween (p - m) (q - m) := ⟨_, rfl⟩
    have h1 : 0 ≤ A := by
      rw [hA, angleBetween, arctan2, Complex.arg_nonneg_iff]; exact norm3_nonneg _
    have h2 : A < π := by
      refine lt_of_le_of_ne (by rw [hA, angleBetween, arctan2]; exact Complex.arg_le_pi _) ?_
      intro e
      rw [hA, angleBetween, arctan2, Complex.arg_eq_pi_iff] at e
      simp only at e
      rcases h with h | h
      · exact h (norm3_eq_zero.1 e.2)
      · linarith [e.1]
    rw [← hA]
    exact (cos_pos_of_mem_Ioo ⟨by linarith, by linarith⟩).ne'

/-- A line, or an arc whose ends are not opposite to each other. -/
def Exact (c : Curve) : Prop :=
  (∃ p q, c.kind = .line p q) ∨ ∃ r ang m M p q, c.kind = .arc r ang m M ∧ c.eval 0 = some p ∧ c.eval 1 = some q ∧
    (cross (p - m) (q - m) ≠ 0 ∨ 0 < dot (p - m) (q - m))

theorem convertSeg_some (fit : Curve → List V3 × List ℝ) {c : Curve} {a b : V3} (ha : c.eval 0 = some a)
    (hb : c.eval 1 = some b) (h : Exact c ∨ ∃ f k, c.kind = .generic f k) : ∃ s, convertSeg fit c = some s := by
  rcases h with (⟨p, q, h⟩ | ⟨r, ang, m, M, p, q, h, h0, h1, h2⟩) | ⟨f, k, h⟩
  · refine ⟨⟨⟨[a, b], [1, 1]⟩, c.active⟩, ?_⟩
    rw [convertSeg, convertPlain, h]
    simp only [ha, hb]
    rfl
  · rw [convertSeg, convertPlain, h]
    simp only [h0, h1]
    split_ifs
    · obtain ⟨x, hx⟩ := calcArc_some h2
      exact ⟨_, by rw [hx]; rfl⟩
    · exact ⟨_, rfl⟩
  · refine ⟨⟨⟨(fit c).1, (fit c).2⟩, c.active⟩, ?_⟩
    rw [convertSeg, convertPlain, h]
    rfl

theorem cyl_exact {ρ z α β : ℝ} (hρ : 0 < ρ) (h : |β - α| < π) :
    cross (cyl ρ α z - ![0, 0, z]) (cyl ρ β z - ![0, 0, z]) ≠ 0 ∨
      0 < dot (cyl ρ α z - ![0, 0, z]) (cyl ρ β z - ![0, 0, z]) := by
  by_cases hb : β = α
  · right
    rw [hb]
    simp [dot, cyl]
    nlinarith [sin_sq_add_cos_sq α, mul_pos hρ hρ]
  · left
    intro e
    have e2 := congrFun e 2
    simp [cross, cyl] at e2
    have hz : sin (β - α) = 0 := by
      have : ρ ^ 2 * sin (β - α) = 0 := by rw [sin_sub]; linarith
      rcases mul_eq_zero.1 this with h1 | h1
      · exact absurd h1 (by positivity)
      · exact h1
    rw [abs_lt] at h
    exact hb (sub_eq_zero.1 ((sin_eq_zero_iff_of_lt_of_lt h.1 h.2).1 hz))

theorem closing_exact {c : Curve} {ρ z α β : ℝ} (hc : c.arcCenter = some ![0, 0, z]) (h0 : c.eval 0 = some (cyl ρ α z))
    (h1 : c.eval 1 = some (cyl ρ β z)) (hρ : 0 < ρ) (h : |β - α| < π) : Exact c := by
  right
  rw [Curve.arcCenter] at hc
  split at hc
  · rename_i r ang m M hk
    obtain rfl := Option.some.inj hc
    exact ⟨r, ang, _, M, _, _, hk, h0, h1, cyl_exact hρ h⟩
  · cases hc

/-- The root arc, or the point on the dedendum circle that stands for it. -/
theorem rootArc_ends (hE : EulerOk asEuler) (h : OutlineOk o tooth T pitch r θ z0 ρ φ z1 rA rO zO coneAngle zc)
    {rd : Curve} (hrd : closingArc asEuler (rootStart T pitch) (T 0) (T 0) rD = some rd) :
    Plain rd (rootStart T pitch) (T 0) ∨ (rd.active = false ∧ rootStart T pitch = T 0 ∧
      ∀ s, 0 ≤ s → s ≤ 1 → rd.eval s = some (cyl rD θ z0)) := by
  have hpi := pi_pos
  obtain ⟨-, d2⟩ := rootArc hE h hrd
  have hrs : rootStart T pitch = cyl r (-θ - pitch) z0 := by
    rw [rootStart_polar h.tooth, h.root]; simp [cyl]
  rcases d2 with d2 | ⟨d2, d3⟩
  · exact Or.inl d2
  · refine Or.inr ⟨d2, d3, ?_⟩
    rw [d3, closingArc, if_neg (by rw [sub_self, norm3_eq_zero.2 rfl]; norm_num), h.root, midOnAxis_cyl] at hrd
    rw [← Option.some.inj hrd]
    exact (inactiveArc rD z0 θ h.tooth.rootPos (by linarith [h.rootAngle]) (by linarith [h.tooth.angleLt])).2.2

theorem connector_line {c p q : V3} {x : Curve} (h : connector asEuler 0 c p q = some x) : ∃ a b, x.kind = .line a b := by
  rw [connector, if_pos rfl] at h
  rw [← Option.some.inj h]
  exact ⟨_, _, made_kind _ _ _⟩

theorem ext_connectors {P : RefProfile α} {E : ExtProfile α} {c : V3} {s : ℝ}
    (h : profileExtensions o asEuler P coneAngle c s = some E) :
    (∃ p q, connector asEuler coneAngle c p q = some E.roConnector0) ∧
      ∃ p q, connector asEuler coneAngle c p q = some E.roConnector2 := by
  rw [profileExtensions] at h
  iterate 14 replace h := (Option.bind_eq_some_iff.1 h).choose_spec.2
  obtain ⟨c0, h0, h⟩ := Option.bind_eq_some_iff.1 h
  obtain ⟨c1, -, h⟩ := Option.bind_eq_some_iff.1 h
  obtain ⟨c2, h2, h⟩ := Option.bind_eq_some_iff.1 h
  iterate 3 replace h := (Option.bind_eq_some_iff.1 h).choose_spec.2
  rw [← Option.some.inj h]
  exact ⟨⟨_, _, h0⟩, ⟨_, _, h2⟩⟩

/-- **C128, the conversion succeeds** for every trimmed tooth of a cylindrical gear with three or more teeth, if the curves
of its flank are lines, arcs with ends that are not opposite, or other curves. -/
theorem c128_converts (hE : EulerOk asEuler)
    (h : OutlineOk o tooth T pitch r θ z0 ρ φ z1 rA rO zO 0 zc) (rD sMid : ℝ) (hrD : 0 < rD) (hp3 : pitch < π)
    (hs : pitch * sMid = 2 * θ + pitch)
    (ht : Path curveOps (members tooth) (T 0) (T 1)) (hex : ∃ c ∈ members tooth, c.active = true)
    (hm : ∀ c ∈ members tooth, Exact c ∨ ∃ f k, c.kind = .generic f k)
    (opt : ℕ → ℝ → Curve → ℕ → ℝ) (n : ℕ) (hn : 2 ≤ n) (ratio : ℝ) (hr : 0 ≤ ratio) (trf : GearTransform) :
    ∃ P E N, closeProfile o asEuler tooth rA rD rO ![0, 0, zO] pitch = some P ∧
      profileExtensions o asEuler P 0 ![0, 0, zc] sMid = some E ∧
      profileToNurbExt members opt n ratio trf E = some N := by
  have hpi := pi_pos
  obtain ⟨P, E, p⟩ := parts_exist hE h rD sMid hs
  obtain ⟨P', hP', f, q0, q1, -, -, -, hra, hrd⟩ := close_facts hE h.tooth rA rD rO ![0, 0, zO]
  rw [p.made] at hP'
  obtain rfl := Option.some.inj hP'
  have hρ' : 0 < (if φ = 0 then rA else ρ) := by
    split_ifs
    · exact h.addPos
    · exact h.tipPos
  obtain ⟨t1, -, t3, t4, -⟩ := tipArc hE h hra
  have xra : Exact P.ra := closing_exact t4 t1 t3 hρ' (by rw [abs_lt]; constructor <;> linarith [h.tipGt, h.tipLe])
  have hrs : rootStart T pitch = cyl r (-θ - pitch) z0 := by
    rw [rootStart_polar h.tooth, h.root]; simp [cyl]
  have xrd : ∃ a b, P.rd.eval 0 = some a ∧ P.rd.eval 1 = some b ∧ Exact P.rd := by
    have d1 := (rootArc hE h hrd).1
    rcases rootArc_ends hE h hrd with d2 | ⟨-, -, i3⟩
    · refine ⟨_, _, d2.start, d2.stop, closing_exact d1 (by rw [d2.start, hrs]) (by rw [d2.stop, h.root]) h.tooth.rootPos ?_⟩
      rw [abs_lt]; constructor <;> linarith [h.tooth.angleGe, h.tooth.angleLt]
    · exact ⟨_, _, i3 0 le_rfl zero_le_one, i3 1 zero_le_one le_rfl, closing_exact d1 (i3 0 le_rfl zero_le_one)
        (i3 1 zero_le_one le_rfl) hrD (by rw [sub_self, abs_zero]; exact hpi)⟩
  obtain ⟨d0, d1, xd0, xd1, xrd⟩ := xrd
  obtain ⟨M, hM⟩ := p.roKind
  have xro : Exact P.ro := closing_exact (by rw [Curve.arcCenter, hM]) p.ro.start p.ro.stop h.ringPos
    (by rw [abs_lt]; constructor <;> linarith [h.tooth.pitchPos])
  have xc : (∃ a b, E.roConnector0.kind = .line a b) ∧ ∃ a b, E.roConnector2.kind = .line a b := by
    obtain ⟨e0, e2⟩ := ext_connectors p.ext
    exact ⟨connector_line e0.choose_spec.choose_spec, connector_line e2.choose_spec.choose_spec⟩
  have hconv : ∀ {cs : List Curve} {a b : V3}, Path curveOps cs a b →
      (∀ c ∈ cs, Exact c ∨ ∃ f k, c.kind = .generic f k) → ∃ ss, convertActive (fitNurbOptim opt n ratio) cs = some ss := by
    intro cs a b hp
    induction hp with
    | nil => intro _; exact ⟨[], rfl⟩
    | @cons x l a b c hx _ ih =>
      intro hcs
      obtain ⟨s, e1⟩ := convertSeg_some (fitNurbOptim opt n ratio) hx.start hx.stop (hcs x (by simp))
      obtain ⟨ss, e2⟩ := ih fun c hc => hcs c (by simp [hc])
      refine ⟨s :: ss, ?_⟩
      rw [convertActive, if_pos (show x.active = true from hx.active), e1, e2]; rfl
    | @skip x l a b hx _ ih =>
      intro hcs
      obtain ⟨ss, e2⟩ := ih fun c hc => hcs c (by simp [hc])
      have hx' : x.active = false := hx
      exact ⟨ss, by rw [convertActive, hx']; exact e2⟩
  obtain ⟨ss, e1⟩ := hconv ht hm
  obtain ⟨k1, -, k3⟩ := convertActive_pieces (fit_pinned opt hn hr) ht e1
  have e2 := mirrorSegs_eq k1 (k3 hex)
  obtain ⟨sa, e3⟩ := convertSeg_some (fitNurbOptim opt 4 (3 / 2)) t1 t3 (Or.inl xra)
  obtain ⟨sd, e4⟩ := convertSeg_some (fitNurbOptim opt 4 (3 / 2)) xd0 xd1 (Or.inl xrd)
  obtain ⟨so, e5⟩ := convertSeg_some (fitNurbOptim opt 4 (3 / 2)) p.ro.start p.ro.stop (Or.inl xro)
  obtain ⟨s0, e6⟩ := convertSeg_some (fitNurbOptim opt 4 (3 / 2)) p.conn0.start p.conn0.stop (Or.inl (Or.inl xc.1))
  obtain ⟨s2, e7⟩ := convertSeg_some (fitNurbOptim opt 4 (3 / 2)) p.conn2.start p.conn2.stop (Or.inl (Or.inl xc.2))
  refine ⟨P, E, ?_⟩
  simp only [profileToNurbExt, profileToNurb, p.base, p.tooth_eq, e1, e2, e3, e4, e5, e6, e7, Option.bind_eq_bind,
    Option.bind_some]
  exact ⟨_, p.made, p.ext, rfl⟩

end

/-- Concrete case for C128: the tooth with a straight flank of four, two copies of the profile per half turn. The tooth is
converted whatever the optimiser says, and its cover is closed. -/
example : ∃ asEuler P E N, closeProfile curveOps asEuler (lineC ![√3, -1, 0] ![3, -1 / 2, 0]) (√(37 / 4)) 2 1 ![0, 0, 0]
        (π / 2) = some P ∧
      profileExtensions curveOps asEuler P 0 ![0, 0, 0] (1 / 3) = some E ∧
      profileToNurbExt (fun c => [c]) (fun _ _ _ _ => 7) 4 3 ⟨⟨OUT, 1, 2⟩, π / 5⟩ E = some N ∧
      ∃ a, Spec.Wire ((List.range 4).flatMap fun j => ((coverEdges (fun _ => true) N.base).map pieceFn).map
          fun f t => (f t).map (app (Rz (π / 2 * j)))) a a := by
  obtain ⟨asEuler, hE⟩ := eulerOk_exists
  have hl : Plain (lineC ![√3, -1, 0] ![3, -1 / 2, 0]) (exampleFlank 0) (exampleFlank 1) := by
    have hne : (![√3, -1, 0] : V3) ≠ ![3, -1 / 2, 0] := by
      intro e
      have := congrFun e 1
      norm_num at this
    have := line_plain hne
    rw [show exampleFlank 0 = ![√3, -1, 0] by simp [exampleFlank], show exampleFlank 1 = ![3, -1 / 2, 0] by
      apply V3.ext3 <;> simp [exampleFlank] <;> norm_num]
    exact this
  have hp : Path curveOps [lineC ![√3, -1, 0] ![3, -1 / 2, 0]] (exampleFlank 0) (exampleFlank 1) := .cons hl.seg (.nil _)
  have hex : ∃ c ∈ [lineC ![√3, -1, 0] ![3, -1 / 2, 0]], c.active = true := ⟨_, by simp, hl.seg.active⟩
  obtain ⟨P, E, N, e1, e2, e3⟩ := c128_converts (members := fun c => [c]) hE exampleOutline 2 (1 / 3) (by norm_num)
    (by linarith [pi_pos]) (by ring) hp hex
    (by
      intro c hc
      rw [List.mem_singleton] at hc
      rw [hc]
      exact Or.inl (Or.inl ⟨_, _, made_kind _ _ _⟩))
    (fun _ _ _ _ => 7) 4 (by norm_num) 3 (by norm_num) ⟨⟨OUT, 1, 2⟩, π / 5⟩
  obtain ⟨P', E', g1, g2, g3⟩ := c128_cover (members := fun c => [c]) hE exampleOutline 2 (1 / 3) (by ring) hp hex
    (fun _ _ _ _ => 7) 4 (by norm_num) 3 (by norm_num) ⟨⟨OUT, 1, 2⟩, π / 5⟩ rfl (by simp [OUT]) (by simp [OUT])
    (by
      rw [show π / 2 / 2 = π / 4 by ring, sin_pi_div_four]
      have : (1 : ℝ) ≤ √2 := by rw [Real.one_le_sqrt]; norm_num
      rw [DELTA]; norm_num; linarith) 4 (by push_cast; ring)
  rw [e1] at g1
  obtain rfl := Option.some.inj g1
  rw [e2] at g2
  obtain rfl := Option.some.inj g2
  exact ⟨asEuler, P, E, N, e1, e2, e3, g3 N _ e3⟩

end Verif
