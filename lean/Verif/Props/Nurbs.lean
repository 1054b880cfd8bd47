import Verif.Model.Nurbs

/-! # NURBS curves: C52, C53 -/

namespace Verif

variable {E α : Type*}

/-- Neighbouring arrays share their end row: the specification of a continuous curve. -/
def Joined : List (List α) → Prop
  | l :: l' :: ls => l.getLast? = l'.head? ∧ Joined (l' :: ls)
  | _ => True

/-! ### C52 -/

theorem flatRows_cons (l l' : List α) (ls : List (List α)) :
    flatRows (l :: l' :: ls) = l.dropLast ++ flatRows (l' :: ls) := by
  simp [flatRows]

theorem flatRows_single {l : List α} (h : l ≠ []) : flatRows [l] = l := by
  simp only [flatRows, List.flatMap_cons, List.flatMap_nil, List.append_nil, List.getLast?_singleton,
    Option.bind_some]
  rw [List.getLast?_eq_getLast_of_ne_nil h]
  exact List.dropLast_append_getLast h

theorem flatRows_head {l : List α} (h : 2 ≤ l.length) (ls : List (List α)) :
    (flatRows (l :: ls)).head? = l.head? := by
  match l, h with
  | a :: b :: t, _ =>
    cases ls with
    | nil => rw [flatRows_single (by simp)]
    | cons l' ls => rw [flatRows_cons]; simp

theorem flatRows_length (ls : List (List α)) (h : ∀ l ∈ ls, 1 ≤ l.length) (hne : ls ≠ []) :
    (flatRows ls).length = (ls.map fun l => l.length - 1).sum + 1 := by
  induction ls with
  | nil => exact absurd rfl hne
  | cons l ls ih =>
    have hl := h l (by simp)
    cases ls with
    | nil => rw [flatRows_single (by intro e; rw [e] at hl; simp at hl)]; simp; omega
    | cons l' ls =>
      rw [flatRows_cons, List.length_append, ih (fun l hl => h l (by simp [hl])) (by simp)]
      simp; omega

/-- Reading back one member from the flat rows. -/
theorem slice_flatRows {l : List α} {ls : List (List α)} (hl : ∀ x ∈ l :: ls, 2 ≤ x.length)
    (hj : Joined (l :: ls)) (P : List α) {k : ℕ} (hk : k = l.length - 1 + P.length + 1) :
    slice (P ++ flatRows (l :: ls)) P.length k = l := by
  have h1 := hl l (by simp)
  have hne : l ≠ [] := by intro e; rw [e] at h1; simp at h1
  rw [slice, List.drop_left, hk, show l.length - 1 + P.length + 1 - P.length = l.length by omega]
  cases ls with
  | nil => rw [flatRows_single hne, List.take_length]
  | cons l' ls =>
    rw [flatRows_cons]
    have h2 := flatRows_head (hl l' (by simp)) ls
    rw [← hj.1, List.getLast?_eq_getLast_of_ne_nil hne] at h2
    obtain ⟨t, ht⟩ : ∃ t, flatRows (l' :: ls) = l.getLast hne :: t := by
      cases hf : flatRows (l' :: ls) with
      | nil => rw [hf] at h2; simp at h2
      | cons a t => rw [hf] at h2; simp at h2; exact ⟨t, by rw [h2]⟩
    have h3 : l.length = l.dropLast.length + 1 := by rw [List.length_dropLast]; omega
    rw [ht, h3, List.take_length_add_append]
    simp only [List.take_succ_cons, List.take_zero]
    exact List.dropLast_append_getLast hne

theorem fromPointsLoop_flat (cs : List (Nurb E)) (hp : ∀ c ∈ cs, 2 ≤ c.points.length)
    (hw : ∀ c ∈ cs, c.weights.length = c.points.length) (jp : Joined (cs.map Nurb.points))
    (jw : Joined (cs.map Nurb.weights)) (P : List E) (Q : List ℝ) (hPQ : P.length = Q.length) :
    fromPointsLoop (P ++ flatPoints cs) (Q ++ flatWeights cs) (knotsFrom P.length cs) = cs := by
  induction cs generalizing P Q with
  | nil => rfl
  | cons c cs ih =>
    have h1 := hp c (by simp)
    have h2 := hw c (by simp)
    have hsp := slice_flatRows (l := c.points) (ls := cs.map Nurb.points)
      (by intro x hx
          rcases List.mem_cons.1 hx with h | h
          · rw [h]; exact h1
          · obtain ⟨d, hd, rfl⟩ := List.mem_map.1 h; exact hp d (by simp [hd])) jp P rfl
    have hsw := slice_flatRows (l := c.weights) (ls := cs.map Nurb.weights)
      (by intro x hx
          rcases List.mem_cons.1 hx with h | h
          · rw [h, h2]; exact h1
          · obtain ⟨d, hd, rfl⟩ := List.mem_map.1 h
            rw [hw d (by simp [hd])]; exact hp d (by simp [hd])) jw Q rfl
    rw [h2, ← hPQ] at hsw
    cases cs with
    | nil =>
      simp only [knotsFrom, fromPointsLoop]
      have e1 : flatPoints [c] = flatRows (c.points :: []) := rfl
      have e2 : flatWeights [c] = flatRows (c.weights :: []) := rfl
      rw [e1, e2]
      simp only [List.map_nil] at hsp hsw
      rw [hsp, hsw]
    | cons d ds =>
      have e1 : flatPoints (c :: d :: ds) = flatRows (c.points :: (d :: ds).map Nurb.points) := rfl
      have e2 : flatWeights (c :: d :: ds) = flatRows (c.weights :: (d :: ds).map Nurb.weights) := rfl
      have e3 : flatPoints (c :: d :: ds) = c.points.dropLast ++ flatPoints (d :: ds) :=
        flatRows_cons _ _ _
      have e4 : flatWeights (c :: d :: ds) = c.weights.dropLast ++ flatWeights (d :: ds) :=
        flatRows_cons _ _ _
      simp only [knotsFrom, fromPointsLoop]
      congr 1
      · rw [e1, e2, hsp, hsw]
      · have := ih (fun x hx => hp x (by simp [hx])) (fun x hx => hw x (by simp [hx])) jp.2 jw.2
          (P ++ c.points.dropLast) (Q ++ c.weights.dropLast) (by simp [hPQ, h2])
        rw [e3, e4, ← List.append_assoc, ← List.append_assoc]
        rw [show (P ++ c.points.dropLast).length = c.points.length - 1 + P.length by simp; omega] at this
        simpa only [knotsFrom] using this

/-- **C52, round trip.** Reading points, weights and knots of a continuous NURBS curve and rebuilding
gives exactly the same members, for any number of members with at least two control points. -/
theorem c52_roundtrip (cs : List (Nurb E)) (hp : ∀ c ∈ cs, 2 ≤ c.points.length)
    (hw : ∀ c ∈ cs, c.weights.length = c.points.length) (jp : Joined (cs.map Nurb.points))
    (jw : Joined (cs.map Nurb.weights)) :
    fromPoints (flatPoints cs) (knots cs) (some (flatWeights cs)) = cs :=
  fromPointsLoop_flat cs hp hw jp jw [] [] rfl

theorem flatRows_replicate (x : β) (ns : List ℕ) (h : ∀ n ∈ ns, 1 ≤ n) (hne : ns ≠ []) :
    flatRows (ns.map fun n => List.replicate n x) = List.replicate ((ns.map fun n => n - 1).sum + 1) x := by
  induction ns with
  | nil => exact absurd rfl hne
  | cons n ns ih =>
    have hn := h n (by simp)
    cases ns with
    | nil =>
      rw [List.map_cons, List.map_nil, flatRows_single (by intro e; rw [List.replicate_eq_nil_iff] at e; omega)]
      simp; omega
    | cons m ns =>
      have := ih (fun k hk => h k (by simp [hk])) (by simp)
      rw [List.map_cons] at this
      rw [List.map_cons, List.map_cons, flatRows_cons, this, List.dropLast_replicate, List.replicate_append_replicate]
      congr 1

theorem joined_replicate (x : β) (ns : List ℕ) (h : ∀ n ∈ ns, 1 ≤ n) :
    Joined (ns.map fun n => List.replicate n x) := by
  induction ns with
  | nil => trivial
  | cons n ns ih =>
    cases ns with
    | nil => trivial
    | cons m ns =>
      refine ⟨?_, ih fun k hk => h k (by simp [hk])⟩
      have h1 := h n (by simp)
      have h2 := h m (by simp)
      rw [List.getLast?_replicate, List.head?_replicate, if_neg (by omega), if_neg (by omega)]

/-- **C52, rebuilding without weights.** If no weights are passed, the members keep their points, and every member has one
weight 1 per point. -/
theorem c52_default (cs : List (Nurb E)) (hp : ∀ c ∈ cs, 2 ≤ c.points.length) (jp : Joined (cs.map Nurb.points)) :
    fromPoints (flatPoints cs) (knots cs) none = cs.map fun c => ⟨c.points, c.points.map fun _ => 1⟩ := by
  rcases eq_or_ne cs [] with rfl | hne
  · rfl
  obtain ⟨cs', hcs⟩ : ∃ cs', cs' = cs.map fun c => (⟨c.points, c.points.map fun _ => (1 : ℝ)⟩ : Nurb E) := ⟨_, rfl⟩
  have e1 : cs'.map Nurb.points = cs.map Nurb.points := by rw [hcs, List.map_map]; rfl
  have e2 : cs'.map Nurb.weights = (cs.map fun c => c.points.length).map fun n => List.replicate n (1 : ℝ) := by
    rw [hcs, List.map_map, List.map_map]
    apply List.map_congr_left
    intro c _
    exact List.map_const'
  have hns : ∀ n ∈ cs.map fun c => c.points.length, 1 ≤ n := by
    intro n hn
    obtain ⟨c, hc, rfl⟩ := List.mem_map.1 hn
    have := hp c hc
    omega
  have e3 : flatWeights cs' = List.replicate (flatPoints cs).length 1 := by
    rw [flatWeights, e2, flatRows_replicate _ _ hns (by simpa using hne), flatPoints,
      flatRows_length _ (by
        intro l hl
        obtain ⟨c, hc, rfl⟩ := List.mem_map.1 hl
        have := hp c hc
        omega) (by simpa using hne), List.map_map, List.map_map]
    rfl
  have e4 : knots cs' = knots cs := by
    have : ∀ k, knotsFrom k cs' = knotsFrom k cs := by
      rw [hcs]
      clear hcs e1 e2 e3 hns jp hp hne
      induction cs with
      | nil => intro k; rfl
      | cons c cs ih => intro k; rw [List.map_cons, knotsFrom, knotsFrom, ih]
    exact this 0
  have := c52_roundtrip cs' (by rw [hcs]; intro c hc; obtain ⟨d, hd, rfl⟩ := List.mem_map.1 hc; exact hp d hd)
    (by rw [hcs]; intro c hc; obtain ⟨d, hd, rfl⟩ := List.mem_map.1 hc; simp) (by rw [e1]; exact jp)
    (by rw [e2]; exact joined_replicate _ _ hns)
  rw [e3, e4, flatPoints, e1, ← flatPoints] at this
  rw [← hcs, ← this]
  conv_rhs => rw [fromPoints]
  rw [fromPoints]
  rfl

/-- Two members that share a point, rebuilt without weights. -/
example : fromPoints (flatPoints [(⟨[1, 2, 3], [1, 2, 4]⟩ : Nurb ℝ), ⟨[3, 5], [4, 1]⟩])
    (knots [(⟨[1, 2, 3], [1, 2, 4]⟩ : Nurb ℝ), ⟨[3, 5], [4, 1]⟩]) none = [⟨[1, 2, 3], [1, 1, 1]⟩, ⟨[3, 5], [1, 1]⟩] :=
  c52_default _ (by intro c hc; simp at hc; rcases hc with rfl | rfl <;> simp) ⟨rfl, trivial⟩

/-- Knots in terms of the numbers of points. -/
def knotsL : ℕ → List ℕ → List ℕ
  | k, [] => [k]
  | k, n :: ns => k :: knotsL (n - 1 + k) ns

theorem knotsFrom_eq (k : ℕ) (cs : List (Nurb E)) :
    knotsFrom k cs = knotsL k (cs.map fun c => c.points.length) := by
  induction cs generalizing k with
  | nil => rfl
  | cons c cs ih => simp [knotsFrom, knotsL, ih]

theorem knotsL_get (k : ℕ) (ns : List ℕ) (i : ℕ) (hi : i ≤ ns.length) :
    (knotsL k ns)[i]? = some (k + ((ns.take i).map fun n => n - 1).sum) := by
  induction ns generalizing k i with
  | nil => simp at hi; subst hi; simp [knotsL]
  | cons n ns ih =>
    cases i with
    | zero => simp [knotsL]
    | succ i =>
      simp only [knotsL, List.getElem?_cons_succ, List.take_succ_cons, List.map_cons, List.sum_cons]
      rw [ih _ i (by simpa using hi)]
      congr 1; omega

/-- **C52, knots.** Knot `i` is the sum of the degrees (points minus one) of the first `i` members;
there is one more knot than members, and the last knot is the index of the last flat point. -/
theorem c52_knots (cs : List (Nurb E)) :
    (knots cs).length = cs.length + 1 ∧
    (∀ i, i ≤ cs.length → (knots cs)[i]? = some (((cs.take i).map fun c => c.points.length - 1).sum)) ∧
    ((∀ c ∈ cs, 1 ≤ c.points.length) → cs ≠ [] →
      (knots cs).getLast? = some ((flatPoints cs).length - 1)) := by
  have hlen : ∀ (k : ℕ) (ns : List ℕ), (knotsL k ns).length = ns.length + 1 := by
    intro k ns
    induction ns generalizing k with
    | nil => rfl
    | cons n ns ih => simp [knotsL, ih]
  have hget : ∀ i, i ≤ cs.length →
      (knots cs)[i]? = some (((cs.take i).map fun c => c.points.length - 1).sum) := by
    intro i hi
    rw [knots, knotsFrom_eq, knotsL_get _ _ _ (by simpa using hi), zero_add, ← List.map_take,
      List.map_map]
    rfl
  refine ⟨by rw [knots, knotsFrom_eq, hlen, List.length_map], hget, ?_⟩
  intro h hne
  rw [List.getLast?_eq_getElem?, knots, knotsFrom_eq, hlen, List.length_map, Nat.add_sub_cancel,
    ← knotsFrom_eq, ← knots, hget _ (le_refl _), List.take_length, flatPoints, flatRows_length _ _ (by
      simpa using hne), Nat.add_sub_cancel, List.map_map]
  · rfl
  · intro l hl
    obtain ⟨c, hc, rfl⟩ := List.mem_map.1 hl
    exact h c hc

/-- Successive slices with one shared row. -/
def slicesFrom (N : List α) : ℕ → List ℕ → List (List α)
  | _, [] => []
  | k, n :: ns => slice N k (k + n) :: slicesFrom N (n - 1 + k) ns

theorem slicesFrom_get (N : List α) (k : ℕ) (ns : List ℕ) (i : ℕ) :
    (slicesFrom N k ns)[i]? = (ns[i]?).map fun n =>
      slice N ((knotsL k ns).getD i 0) ((knotsL k ns).getD i 0 + n) := by
  induction ns generalizing k i with
  | nil => simp [slicesFrom]
  | cons n ns ih =>
    cases i with
    | zero => simp [slicesFrom, knotsL]
    | succ i => simp [slicesFrom, knotsL, ih]

theorem slice_length (N : List α) (i j : ℕ) : (slice N i j).length = min (j - i) (N.length - i) := by
  simp [slice]

theorem flatRows_slices (N : List α) (k : ℕ) (ns : List ℕ) (hne : ns ≠ []) (h : ∀ n ∈ ns, 1 ≤ n)
    (hN : N.length = k + (ns.map fun n => n - 1).sum + 1) :
    flatRows (slicesFrom N k ns) = N.drop k := by
  induction ns generalizing k with
  | nil => exact absurd rfl hne
  | cons n ns ih =>
    have hn := h n (by simp)
    simp only [List.map_cons, List.sum_cons] at hN
    cases ns with
    | nil =>
      simp only [List.map_nil, List.sum_nil] at hN
      simp only [slicesFrom]
      have : slice N k (k + n) = N.drop k := by
        rw [slice, Nat.add_sub_cancel_left, List.take_of_length_le]
        rw [List.length_drop]; omega
      rw [this, flatRows_single]
      intro e
      have := congrArg List.length e
      rw [List.length_drop] at this
      simp at this; omega
    | cons n' ns =>
      have ih' := ih (n - 1 + k) (by simp) (fun x hx => h x (by simp [hx])) (by omega)
      rw [show slicesFrom N k (n :: n' :: ns) = slice N k (k + n) :: slicesFrom N (n - 1 + k) (n' :: ns)
        from rfl]
      rw [show slicesFrom N (n - 1 + k) (n' :: ns) = slice N (n - 1 + k) (n - 1 + k + n') ::
        slicesFrom N (n' - 1 + (n - 1 + k)) ns from rfl] at ih' ⊢
      rw [flatRows_cons, ih']
      have h1 : (slice N k (k + n)).dropLast = (N.drop k).take (n - 1) := by
        rw [slice, Nat.add_sub_cancel_left, List.dropLast_eq_take, List.take_take, List.length_take,
          List.length_drop]
        congr 1; omega
      rw [h1, show N.drop (n - 1 + k) = (N.drop k).drop (n - 1) by rw [List.drop_drop]; congr 1; omega,
        List.take_append_drop]

theorem slicesFrom_joined (N : List α) (k : ℕ) (ns : List ℕ) (h : ∀ n ∈ ns, 1 ≤ n)
    (hN : k + (ns.map fun n => n - 1).sum + 1 ≤ N.length) : Joined (slicesFrom N k ns) := by
  induction ns generalizing k with
  | nil => trivial
  | cons n ns ih =>
    have hn := h n (by simp)
    simp only [List.map_cons, List.sum_cons] at hN
    cases ns with
    | nil => trivial
    | cons n' ns =>
      have ih' := ih (n - 1 + k) (fun x hx => h x (by simp [hx])) (by omega)
      have hn' := h n' (by simp)
      refine ⟨?_, ih'⟩
      rw [List.getLast?_eq_getElem?, List.head?_eq_getElem?, slice_length, slice, slice,
        List.getElem?_take, List.getElem?_take, List.getElem?_drop, List.getElem?_drop,
        if_pos (by omega), if_pos (by omega)]
      congr 1; omega

theorem knotsL_bound (ns : List ℕ) (i n : ℕ) (hi : ns[i]? = some n) (h : ∀ n ∈ ns, 1 ≤ n) :
    (knotsL 0 ns).getD i 0 + n ≤ (ns.map fun n => n - 1).sum + 1 := by
  have hil : i < ns.length := (List.getElem?_eq_some_iff.1 hi).1
  rw [List.getD_eq_getElem?_getD, knotsL_get 0 ns i hil.le, Option.getD_some, zero_add]
  have h1 : ns = ns.take i ++ n :: ns.drop (i + 1) := by
    have e := (List.getElem?_eq_some_iff.1 hi).2
    rw [← e, ← List.drop_eq_getElem_cons hil, List.take_append_drop]
  have h2 := congrArg (fun l => (List.map (fun n => n - 1) l).sum) h1
  simp only [List.map_append, List.sum_append, List.map_cons, List.sum_cons] at h2
  have h3 := h n (List.mem_of_getElem? hi)
  rw [h2]; omega

/-- The setter loop writes, at every listed index, the slice starting at the knot of the member. -/
theorem setPointsLoop_get (new : List E) (ns : List ℕ) (hns : ∀ n ∈ ns, 1 ≤ n)
    (hnew : new.length = (ns.map fun n => n - 1).sum + 1) (ks : List ℕ) (cs : List (Nurb E))
    (hcs : cs.map (fun c => c.points.length) = ns) (i : ℕ) :
    (setPointsLoop new ks cs)[i]? = if i ∈ ks then (cs[i]?).map fun c => { c with
        points := slice new ((knotsL 0 ns).getD i 0) ((knotsL 0 ns).getD i 0 + c.points.length) }
      else cs[i]? := by
  induction ks generalizing cs with
  | nil => simp [setPointsLoop]
  | cons k ks ih =>
    have hk : (knots cs).getD k 0 = (knotsL 0 ns).getD k 0 := by rw [knots, knotsFrom_eq, hcs]
    simp only [setPointsLoop]
    rw [hk]
    set f : Nurb E → Nurb E := fun c => { c with
      points := slice new ((knotsL 0 ns).getD k 0) ((knotsL 0 ns).getD k 0 + c.points.length) } with hf
    have hlen : ∀ c, cs[k]? = some c → (f c).points.length = c.points.length := by
      intro c hc
      have h1 : ns[k]? = some c.points.length := by rw [← hcs, List.getElem?_map, hc]; rfl
      have h2 := knotsL_bound ns k _ h1 hns
      rw [hf]
      simp only [slice_length]
      omega
    have hcs' : (cs.modify k f).map (fun c => c.points.length) = ns := by
      rw [← hcs]
      apply List.ext_getElem?
      intro j
      rw [List.getElem?_map, List.getElem?_map, List.getElem?_modify]
      by_cases hj : k = j
      · subst hj
        cases hc : cs[k]? with
        | none => simp
        | some c => simp [hlen c hc]
      · simp [hj]
    rw [ih _ hcs', List.getElem?_modify]
    by_cases hik : k = i
    · subst hik
      simp only [List.mem_cons, true_or, if_true]
      cases hc : cs[k]? with
      | none => simp
      | some c =>
        have h1 : ns[k]? = some c.points.length := by rw [← hcs, List.getElem?_map, hc]; rfl
        by_cases hm : k ∈ ks
        · simp only [hm, if_true, Option.map_some, Option.map_eq_map]
          rw [hlen c hc]
        · simp [hm, hf]
    · simp only [List.mem_cons, show (i = k) = False by simp [Ne.symm hik], false_or]
      simp [hik]

/-- **C52, write and read.** Writing points of the right number and reading them back returns what was
written; weights and member sizes are kept, and the members are continuous afterwards. -/
theorem c52_write_read (cs : List (Nurb E)) (hne : cs ≠ []) (hp : ∀ c ∈ cs, 1 ≤ c.points.length)
    (new : List E) :
    (new.length ≠ (flatPoints cs).length → setPoints cs new = none) ∧
    (new.length = (flatPoints cs).length → ∃ cs', setPoints cs new = some cs' ∧ flatPoints cs' = new ∧
      cs'.map Nurb.weights = cs.map Nurb.weights ∧
      cs'.map (fun c => c.points.length) = cs.map (fun c => c.points.length) ∧
      Joined (cs'.map Nurb.points)) := by
  constructor
  · intro h; rw [setPoints, if_pos h]
  · intro h
    rw [setPoints, if_neg (by simpa using h)]
    refine ⟨_, rfl, ?_⟩
    obtain ⟨ns, hns⟩ : ∃ ns, ns = cs.map (fun c => c.points.length) := ⟨_, rfl⟩
    have hn1 : ∀ n ∈ ns, 1 ≤ n := by
      intro n hn
      rw [hns] at hn
      obtain ⟨c, hc, rfl⟩ := List.mem_map.1 hn
      exact hp c hc
    have hnew : new.length = (ns.map fun n => n - 1).sum + 1 := by
      rw [h, flatPoints, flatRows_length _ _ (by simpa using hne), hns, List.map_map, List.map_map]
      · rfl
      · intro l hl
        obtain ⟨c, hc, rfl⟩ := List.mem_map.1 hl
        exact hp c hc
    have hget := setPointsLoop_get new ns hn1 hnew (List.range cs.length) cs hns.symm
    have hpts : (setPointsLoop new (List.range cs.length) cs).map Nurb.points = slicesFrom new 0 ns := by
      apply List.ext_getElem?
      intro i
      rw [List.getElem?_map, hget i, slicesFrom_get, hns, List.getElem?_map]
      by_cases hi : i < cs.length
      · rw [if_pos (List.mem_range.2 hi)]
        cases cs[i]? <;> simp
      · rw [if_neg (by simpa using hi), List.getElem?_eq_none (by omega)]; rfl
    refine ⟨?_, ?_, ?_, by rw [hpts]; exact slicesFrom_joined _ _ _ hn1 (by omega)⟩
    · rw [flatPoints, hpts, flatRows_slices _ _ _ (by rw [hns]; simpa using hne) hn1 (by omega),
        List.drop_zero]
    · apply List.ext_getElem?
      intro i
      rw [List.getElem?_map, hget i, List.getElem?_map]
      split_ifs
      · cases cs[i]? <;> simp
      · rfl
    · apply List.ext_getElem?
      intro i
      rw [List.getElem?_map, hget i, List.getElem?_map]
      split_ifs
      · cases hc : cs[i]? with
        | none => rfl
        | some c =>
          have h1 : ns[i]? = some c.points.length := by rw [hns, List.getElem?_map, hc]; rfl
          have h2 := knotsL_bound ns i _ h1 hn1
          simp only [Option.map_some, slice_length, Option.some.injEq]
          omega
      · rfl

/-- A concrete continuous curve: a quadratic and a cubic piece. -/
def twoPieces : List (Nurb ℤ) := [⟨[0, 1, 2], [1, 2, 1]⟩, ⟨[2, 3, 5, 8], [1, 1, 3, 1]⟩]

example : (∀ c ∈ twoPieces, 2 ≤ c.points.length) ∧
    (∀ c ∈ twoPieces, c.weights.length = c.points.length) ∧ Joined (twoPieces.map Nurb.points) ∧
    Joined (twoPieces.map Nurb.weights) ∧ flatPoints twoPieces = [0, 1, 2, 3, 5, 8] ∧
    knots twoPieces = [0, 2, 5] := by
  simp [twoPieces, Joined, flatPoints, flatRows, knots, knotsFrom]

/-! ### C53 -/

section
variable [AddCommGroup E] [Module ℝ E]

/-- The row operations of `joinLoop` on one kind of array. -/
noncomputable def joinRows : List E → List (List E) → List (List E)
  | l, [] => [l]
  | l, l' :: ls => setLast l (midRow l l') :: joinRows (setHead l' (midRow l l')) ls

theorem joinLoop_points (c : Nurb E) (cs : List (Nurb E)) :
    (joinLoop c cs).map Nurb.points = joinRows c.points (cs.map Nurb.points) := by
  induction cs generalizing c with
  | nil => rfl
  | cons d ds ih => simp only [joinLoop, List.map_cons, joinRows]; rw [ih]; rfl

theorem joinLoop_weights (c : Nurb E) (cs : List (Nurb E)) :
    (joinLoop c cs).map Nurb.weights = joinRows c.weights (cs.map Nurb.weights) := by
  induction cs generalizing c with
  | nil => rfl
  | cons d ds ih => simp only [joinLoop, List.map_cons, joinRows]; rw [ih]; rfl

theorem setHead_length (l : List α) (v : α) : (setHead l v).length = l.length := by simp [setHead]
theorem setLast_length (l : List α) (v : α) : (setLast l v).length = l.length := by simp [setLast]
theorem setHead_head {l : List α} (h : 1 ≤ l.length) (v : α) : (setHead l v).head? = some v := by
  rw [List.head?_eq_getElem?, setHead, List.getElem?_set_self (by omega)]
theorem setLast_last {l : List α} (h : 1 ≤ l.length) (v : α) : (setLast l v).getLast? = some v := by
  rw [List.getLast?_eq_getElem?, setLast_length, setLast, List.getElem?_set_self (by omega)]
theorem setHead_last {l : List α} (h : 2 ≤ l.length) (v : α) :
    (setHead l v).getLast? = l.getLast? := by
  rw [List.getLast?_eq_getElem?, List.getLast?_eq_getElem?, setHead_length, setHead,
    List.getElem?_set_ne (by omega)]
theorem setLast_head {l : List α} (h : 2 ≤ l.length) (v : α) : (setLast l v).head? = l.head? := by
  rw [List.head?_eq_getElem?, List.head?_eq_getElem?, setLast, List.getElem?_set_ne (by omega)]
theorem setHead_inner (l : List α) (v : α) {j : ℕ} (h : 0 < j) : (setHead l v)[j]? = l[j]? := by
  rw [setHead, List.getElem?_set_ne (by omega)]
theorem setLast_inner (l : List α) (v : α) {j : ℕ} (h : j + 1 < l.length) :
    (setLast l v)[j]? = l[j]? := by
  rw [setLast, List.getElem?_set_ne (by omega)]

theorem head_some {l : List α} (h : 1 ≤ l.length) : ∃ a, l.head? = some a := by
  cases l with
  | nil => simp at h
  | cons a t => exact ⟨a, rfl⟩
theorem last_some {l : List α} (h : 1 ≤ l.length) : ∃ a, l.getLast? = some a := by
  have : l ≠ [] := by intro e; rw [e] at h; simp at h
  exact ⟨_, List.getLast?_eq_getLast_of_ne_nil this⟩

/-- Everything the joining loop does: member `k` keeps its size and its inner rows; its first row is kept
in the first member and else becomes the midpoint of the old last row of member `k - 1` and its old
first row; likewise its last row. -/
theorem joinRows_spec (l : List E) (ls : List (List E)) (h : ∀ x ∈ l :: ls, 2 ≤ x.length) (k : ℕ)
    (r : List E) (hk : (l :: ls)[k]? = some r) :
    ∃ r', (joinRows l ls)[k]? = some r' ∧ r'.length = r.length ∧
      (∀ j, 0 < j → j + 1 < r.length → r'[j]? = r[j]?) ∧
      (k = 0 → r'.head? = r.head?) ∧
      (∀ q, 0 < k → (l :: ls)[k - 1]? = some q → r'.head? = some (midRow q r)) ∧
      ((l :: ls)[k + 1]? = none → r'.getLast? = r.getLast?) ∧
      (∀ q, (l :: ls)[k + 1]? = some q → r'.getLast? = some (midRow r q)) := by
  induction ls generalizing l k r with
  | nil =>
    cases k with
    | zero =>
      simp only [List.getElem?_cons_zero, Option.some.injEq] at hk
      subst hk
      exact ⟨l, rfl, rfl, fun _ _ _ => rfl, fun _ => rfl, fun _ h => absurd h (by omega), fun _ => rfl,
        fun q hq => by simp at hq⟩
    | succ k => simp at hk
  | cons l' ls ih =>
    have hl := h l (by simp)
    have hl' := h l' (by simp)
    have h' : ∀ x ∈ setHead l' (midRow l l') :: ls, 2 ≤ x.length := by
      intro x hx
      rcases List.mem_cons.1 hx with e | e
      · rw [e, setHead_length]; exact hl'
      · exact h x (by simp [e])
    cases k with
    | zero =>
      simp only [List.getElem?_cons_zero, Option.some.injEq] at hk
      subst hk
      refine ⟨setLast l (midRow l l'), rfl, setLast_length _ _, fun j _ h2 => setLast_inner _ _ h2,
        fun _ => setLast_head hl _, fun _ h => absurd h (by omega), fun e => by simp at e, ?_⟩
      intro q hq
      simp only [zero_add, List.getElem?_cons_succ, List.getElem?_cons_zero, Option.some.injEq] at hq
      subst hq
      exact setLast_last (by omega) _
    | succ k =>
      have hmid : ∀ q, midRow (setHead l' (midRow l l')) q = midRow l' q := by
        intro q; rw [midRow, setHead_last hl', midRow]
      cases k with
      | zero =>
        simp only [zero_add, List.getElem?_cons_succ, List.getElem?_cons_zero, Option.some.injEq] at hk
        subst hk
        obtain ⟨r', h1, h2, h3, h4, -, h6, h7⟩ := ih (setHead l' (midRow l l')) h' 0 _ rfl
        refine ⟨r', h1, by rw [h2, setHead_length], ?_, fun e => absurd e (by omega), ?_, ?_, ?_⟩
        · intro j hj0 hj1
          rw [h3 j hj0 (by rw [setHead_length]; exact hj1), setHead_inner _ _ hj0]
        · intro q _ hq
          simp only [zero_add, Nat.sub_self, List.getElem?_cons_zero, Option.some.injEq] at hq
          subst hq
          rw [h4 rfl, setHead_head (by omega)]
        · intro e; rw [h6 (by simpa using e), setHead_last hl']
        · intro q hq; rw [h7 q (by simpa using hq), hmid]
      | succ k =>
        obtain ⟨r', h1, h2, h3, h4, h5, h6, h7⟩ := ih (setHead l' (midRow l l')) h' (k + 1) r
          (by simpa using hk)
        refine ⟨r', h1, h2, h3, fun e => absurd e (by omega), ?_, ?_, ?_⟩
        · intro q _ hq
          cases k with
          | zero =>
            simp only [zero_add, Nat.add_sub_cancel, List.getElem?_cons_succ, List.getElem?_cons_zero,
              Option.some.injEq] at hq
            subst hq
            rw [h5 (setHead l' (midRow l l')) (by omega) rfl, hmid]
          | succ k => exact h5 q (by omega) (by simpa using hq)
        · intro e; exact h6 (by simpa using e)
        · intro q hq; exact h7 q (by simpa using hq)

theorem joinRows_length (l : List E) (ls : List (List E)) :
    (joinRows l ls).length = ls.length + 1 := by
  induction ls generalizing l with
  | nil => rfl
  | cons l' ls ih => simp [joinRows, ih]

theorem half_self (x : E) : half x x = x := by
  rw [half, ← two_smul ℝ x, smul_smul]; norm_num

/-- Joining rows that already agree changes nothing. -/
theorem joinRows_noop (l : List E) (ls : List (List E)) (h : ∀ x ∈ l :: ls, 1 ≤ x.length)
    (hj : Joined (l :: ls)) : joinRows l ls = l :: ls := by
  induction ls generalizing l with
  | nil => rfl
  | cons l' ls ih =>
    have hl := h l (by simp)
    have hl' := h l' (by simp)
    obtain ⟨a, ha⟩ := last_some hl
    have hb : l'.head? = some a := by rw [← hj.1, ha]
    have hm : midRow l l' = a := by rw [midRow, ha, hb]; exact half_self a
    have e1 : setLast l a = l := by
      rw [setLast]
      rw [List.getLast?_eq_getElem?] at ha
      obtain ⟨h1, h2⟩ := List.getElem?_eq_some_iff.1 ha
      rw [← h2, List.set_getElem_self]
    have e2 : setHead l' a = l' := by
      rw [setHead]
      rw [List.head?_eq_getElem?] at hb
      obtain ⟨h1, h2⟩ := List.getElem?_eq_some_iff.1 hb
      rw [← h2, List.set_getElem_self]
    simp only [joinRows]
    rw [hm, e1, e2, ih l' (fun x hx => h x (by simp [hx])) hj.2]

theorem joinRows_joined (l : List E) (ls : List (List E)) (h : ∀ x ∈ l :: ls, 2 ≤ x.length) :
    Joined (joinRows l ls) := by
  induction ls generalizing l with
  | nil => trivial
  | cons l' ls ih =>
    have hl := h l (by simp)
    have hl' := h l' (by simp)
    have h' : ∀ x ∈ setHead l' (midRow l l') :: ls, 2 ≤ x.length := by
      intro x hx
      rcases List.mem_cons.1 hx with e | e
      · rw [e, setHead_length]; exact hl'
      · exact h x (by simp [e])
    have hih := ih _ h'
    obtain ⟨r', h1, -, -, h4, -⟩ := joinRows_spec (setHead l' (midRow l l')) ls h' 0 _ rfl
    simp only [joinRows]
    cases hjr : joinRows (setHead l' (midRow l l')) ls with
    | nil => trivial
    | cons a as =>
      rw [hjr] at h1 hih
      simp only [List.getElem?_cons_zero, Option.some.injEq] at h1
      subst h1
      refine ⟨?_, hih⟩
      rw [h4 rfl, setHead_head (by omega), setLast_last (by omega)]

/-- Joined, by index. -/
theorem joined_iff (ls : List (List α)) : Joined ls ↔
    ∀ (i : ℕ) (a b : List α), ls[i]? = some a → ls[i + 1]? = some b → a.getLast? = b.head? := by
  induction ls with
  | nil => simp [Joined]
  | cons l ls ih =>
    cases ls with
    | nil => simp [Joined]
    | cons l' ls =>
      constructor
      · rintro ⟨h1, h2⟩ i a b ha hb
        cases i with
        | zero => simp at ha hb; rw [← ha, ← hb]; exact h1
        | succ i => exact ih.1 h2 i a b (by simpa using ha) (by simpa using hb)
      · intro h
        exact ⟨h 0 l l' rfl rfl, ih.2 fun i a b ha hb => h (i + 1) a b (by simpa using ha)
          (by simpa using hb)⟩

/-- The row operations of `joinEnds` on one kind of array. -/
noncomputable def closeRows (ls : List (List E)) : List (List E) :=
  (ls.modify (ls.length - 1) (setLast · (midRow (ls.getLast?.getD []) (ls.head?.getD [])))).modify 0
    (setHead · (midRow (ls.getLast?.getD []) (ls.head?.getD [])))

theorem map_modify' {β : Type*} (f : α → α) (f' : β → β) (g : α → β) (h : ∀ x, g (f x) = f' (g x))
    (l : List α) (i : ℕ) : (l.modify i f).map g = (l.map g).modify i f' := by
  apply List.ext_getElem?
  intro j
  rw [List.getElem?_map, List.getElem?_modify, List.getElem?_modify, List.getElem?_map]
  cases l[j]? with
  | none => rfl
  | some a => by_cases hij : i = j <;> simp [hij, h]

theorem joinEnds_points (cs : List (Nurb E)) :
    (joinEnds cs).map Nurb.points = closeRows (cs.map Nurb.points) := by
  rw [joinEnds, closeRows, List.getLast?_map, List.head?_map, List.length_map]
  cases hh : cs.head? with
  | none => simp at hh; subst hh; rfl
  | some a =>
    cases hl : cs.getLast? with
    | none => simp at hl; subst hl; simp at hh
    | some z =>
      simp only [Option.map_some, Option.getD_some]
      rw [map_modify' _ (setHead · (midRow z.points a.points)) _ (fun _ => rfl),
        map_modify' _ (setLast · (midRow z.points a.points)) _ (fun _ => rfl)]

theorem joinEnds_weights (cs : List (Nurb E)) :
    (joinEnds cs).map Nurb.weights = closeRows (cs.map Nurb.weights) := by
  rw [joinEnds, closeRows, List.getLast?_map, List.head?_map, List.length_map]
  cases hh : cs.head? with
  | none => simp at hh; subst hh; rfl
  | some a =>
    cases hl : cs.getLast? with
    | none => simp at hl; subst hl; simp at hh
    | some z =>
      simp only [Option.map_some, Option.getD_some]
      rw [map_modify' _ (setHead · (midRow z.weights a.weights)) _ (fun _ => rfl),
        map_modify' _ (setLast · (midRow z.weights a.weights)) _ (fun _ => rfl)]

theorem closeRows_get (ls : List (List E)) (i : ℕ) :
    (closeRows ls)[i]? = (ls[i]?).map fun r =>
      let m := midRow (ls.getLast?.getD []) (ls.head?.getD [])
      let r1 := if i = ls.length - 1 then setLast r m else r
      if i = 0 then setHead r1 m else r1 := by
  rw [closeRows, List.getElem?_modify, List.getElem?_modify]
  cases ls[i]? with
  | none => rfl
  | some r =>
    simp only [Option.map_eq_map, Option.map_some]
    simp only [eq_comm (a := i)]

/-- What closing does to the rows. -/
theorem closeRows_spec (ls : List (List E)) (h : ∀ x ∈ ls, 2 ≤ x.length) :
    (closeRows ls).length = ls.length ∧ (Joined ls → Joined (closeRows ls)) ∧
    (∀ i r, ls[i]? = some r → ∃ r', (closeRows ls)[i]? = some r' ∧ r'.length = r.length ∧
      (∀ j, 0 < j → j + 1 < r.length → r'[j]? = r[j]?) ∧
      (0 < i → r'.head? = r.head?) ∧ (i + 1 < ls.length → r'.getLast? = r.getLast?)) ∧
    (∀ a z, ls.head? = some a → ls.getLast? = some z → ∃ a' z', (closeRows ls).head? = some a' ∧
      (closeRows ls).getLast? = some z' ∧ a'.head? = some (midRow z a) ∧
      z'.getLast? = some (midRow z a)) := by
  have hlen : (closeRows ls).length = ls.length := by simp [closeRows]
  have hspec : ∀ i r, ls[i]? = some r → ∃ r', (closeRows ls)[i]? = some r' ∧ r'.length = r.length ∧
      (∀ j, 0 < j → j + 1 < r.length → r'[j]? = r[j]?) ∧
      (0 < i → r'.head? = r.head?) ∧ (i + 1 < ls.length → r'.getLast? = r.getLast?) := by
    intro i r hr
    have hrl := h r (List.mem_of_getElem? hr)
    refine ⟨_, by rw [closeRows_get, hr]; rfl, ?_, ?_, ?_, ?_⟩
    · simp only
      split_ifs <;> simp [setHead_length, setLast_length]
    · intro j hj0 hj1
      simp only
      split_ifs
      · rw [setHead_inner _ _ hj0, setLast_inner _ _ hj1]
      · rw [setHead_inner _ _ hj0]
      · rw [setLast_inner _ _ hj1]
      · rfl
    · intro hi
      simp only
      rw [if_neg (show ¬ i = 0 by omega)]
      split_ifs
      · exact setLast_head hrl _
      · rfl
    · intro hi
      simp only
      rw [if_neg (show ¬ i = ls.length - 1 by omega)]
      split_ifs
      · exact setHead_last hrl _
      · rfl
  refine ⟨hlen, ?_, hspec, ?_⟩
  · intro hj
    rw [joined_iff] at hj ⊢
    intro i a b ha hb
    have hib : i + 1 < ls.length := by
      have := (List.getElem?_eq_some_iff.1 hb).1; rwa [hlen] at this
    obtain ⟨a0, ha0⟩ : ∃ a0, ls[i]? = some a0 := ⟨_, List.getElem?_eq_getElem (by omega)⟩
    obtain ⟨b0, hb0⟩ : ∃ b0, ls[i + 1]? = some b0 := ⟨_, List.getElem?_eq_getElem hib⟩
    obtain ⟨a', h1, -, -, -, h2⟩ := hspec i a0 ha0
    obtain ⟨b', h3, -, -, h4, -⟩ := hspec (i + 1) b0 hb0
    rw [ha] at h1; rw [hb] at h3
    rw [Option.some.inj h1, Option.some.inj h3, h2 hib, h4 (by omega)]
    exact hj i a0 b0 ha0 hb0
  · intro a z ha hz
    have hal := h a (List.mem_of_mem_head? ha)
    have hzl := h z (List.mem_of_getLast? hz)
    have ha0 : ls[0]? = some a := by rw [← List.head?_eq_getElem?]; exact ha
    have hz0 : ls[ls.length - 1]? = some z := by rw [← List.getLast?_eq_getElem?]; exact hz
    refine ⟨_, _, by rw [List.head?_eq_getElem?, closeRows_get, ha0]; rfl,
      by rw [List.getLast?_eq_getElem?, hlen, closeRows_get, hz0]; rfl, ?_, ?_⟩
    · simp only [hz, ha, Option.getD_some, if_true]
      apply setHead_head
      split_ifs
      · rw [setLast_length]; omega
      · omega
    · simp only [hz, ha, Option.getD_some, if_true]
      split_ifs
      · rw [setHead_last (by rw [setLast_length]; exact hzl), setLast_last (by omega)]
      · exact setLast_last (by omega) _

theorem nurb_ext {a b : List (Nurb E)} (hp : a.map Nurb.points = b.map Nurb.points)
    (hw : a.map Nurb.weights = b.map Nurb.weights) : a = b := by
  apply List.ext_getElem?
  intro i
  have h1 := congrArg (fun l => l[i]?) hp
  have h2 := congrArg (fun l => l[i]?) hw
  simp only [List.getElem?_map] at h1 h2
  cases ha : a[i]? with
  | none => rw [ha] at h1; cases hb : b[i]? with
    | none => rfl
    | some y => rw [hb] at h1; simp at h1
  | some x => cases hb : b[i]? with
    | none => rw [ha, hb] at h1; simp at h1
    | some y =>
      rw [ha, hb] at h1 h2
      simp only [Option.map_some, Option.some.injEq] at h1 h2
      rw [Nurb.ext h1 h2]

/-- The members have at least two control points and as many weights. -/
def Proper (cs : List (Nurb E)) : Prop :=
  ∀ c ∈ cs, 2 ≤ c.points.length ∧ 2 ≤ c.weights.length

/-- The ends of a curve meet: the specification of a closed curve. -/
def EndsMeet (ls : List (List α)) : Prop :=
  ∃ a z v, ls.head? = some a ∧ ls.getLast? = some z ∧ a.head? = some v ∧ z.getLast? = some v

theorem proper_points {cs : List (Nurb E)} (h : Proper cs) : ∀ x ∈ cs.map Nurb.points, 2 ≤ x.length := by
  intro x hx
  obtain ⟨c, hc, rfl⟩ := List.mem_map.1 hx
  exact (h c hc).1

theorem proper_weights {cs : List (Nurb E)} (h : Proper cs) :
    ∀ x ∈ cs.map Nurb.weights, 2 ≤ x.length := by
  intro x hx
  obtain ⟨c, hc, rfl⟩ := List.mem_map.1 hx
  exact (h c hc).2

theorem rows_proper {ls ms : List (List E)} (hl : ms.length = ls.length)
    (hspec : ∀ (i : ℕ) (r : List E), ls[i]? = some r → ∃ r', ms[i]? = some r' ∧ r'.length = r.length)
    (h : ∀ x ∈ ls, 2 ≤ x.length) : ∀ x ∈ ms, 2 ≤ x.length := by
  intro x hx
  obtain ⟨i, hi⟩ := List.mem_iff_getElem?.1 hx
  have hil : i < ls.length := by rw [← hl]; exact (List.getElem?_eq_some_iff.1 hi).1
  obtain ⟨r', h1, h2⟩ := hspec i _ (List.getElem?_eq_getElem hil)
  rw [hi] at h1
  rw [Option.some.inj h1, h2]
  exact h _ (List.getElem_mem hil)

theorem closeRows_meet (ls : List (List E)) (hls : ∀ x ∈ ls, 2 ≤ x.length) (hne : ls ≠ []) :
    EndsMeet (closeRows ls) := by
  obtain ⟨a', z', h1, h2, h3, h4⟩ := (closeRows_spec ls hls).2.2.2 _ _ (List.head?_eq_some_head hne)
    (List.getLast?_eq_getLast_of_ne_nil hne)
  exact ⟨a', z', _, h1, h2, h3, h4⟩

/-- Joining, with or without closing, on one kind of rows. -/
theorem rows_key (l : List E) (ls : List (List E)) (hl : ∀ x ∈ l :: ls, 2 ≤ x.length)
    (hjl : ∀ x ∈ joinRows l ls, 2 ≤ x.length) (k : ℕ) (r : List E) (hr : (l :: ls)[k]? = some r)
    (ms : List (List E)) (hms : ms = joinRows l ls ∨ ms = closeRows (joinRows l ls)) :
    ms.length = (l :: ls).length ∧ ∃ r', ms[k]? = some r' ∧ r'.length = r.length ∧
      (∀ j, 0 < j → j + 1 < r.length → r'[j]? = r[j]?) ∧
      (∀ b, (l :: ls)[k + 1]? = some b → ∀ x y, r.getLast? = some x → b.head? = some y →
        r'.getLast? = some ((1 / 2 : ℝ) • (x + y))) := by
  obtain ⟨r1, g1, g2, g3, -, -, -, g7⟩ := joinRows_spec l ls hl k r hr
  have g8 : ∀ b, (l :: ls)[k + 1]? = some b → ∀ x y, r.getLast? = some x → b.head? = some y →
      r1.getLast? = some ((1 / 2 : ℝ) • (x + y)) := by
    intro b hb x y hx hy
    rw [g7 b hb, midRow, hx, hy]; rfl
  rcases hms with e | e
  · rw [e]; exact ⟨by simp [joinRows_length], r1, g1, g2, g3, g8⟩
  · obtain ⟨q1, -, q3, -⟩ := closeRows_spec (joinRows l ls) hjl
    obtain ⟨r2, k1, k2, k3, -, k5⟩ := q3 k r1 g1
    rw [e]
    refine ⟨by rw [q1, joinRows_length]; simp, r2, k1, by rw [k2, g2], ?_, ?_⟩
    · intro j h0 h1
      rw [k3 j h0 (by rw [g2]; exact h1), g3 j h0 h1]
    · intro b hb x y hx hy
      rw [k5 (by
        have := (List.getElem?_eq_some_iff.1 hb).1
        rw [joinRows_length]; simpa using this), g8 b hb x y hx hy]

/-- **C53, continuity.** After `enforce_continuity` every member ends exactly where the next one starts,
in points and weights, whatever `is_closed` returns; if the curve counts as closed after joining the
inner ends, then the ends of the whole curve agree exactly as well. -/
theorem c53_continuous (isClosed : List (Nurb E) → Bool) (c : Nurb E) (cs : List (Nurb E))
    (h : Proper (c :: cs)) :
    Joined ((enforceContinuity isClosed (c :: cs)).map Nurb.points) ∧
    Joined ((enforceContinuity isClosed (c :: cs)).map Nurb.weights) ∧
    (isClosed (joinLoop c cs) = true →
      EndsMeet ((enforceContinuity isClosed (c :: cs)).map Nurb.points) ∧
      EndsMeet ((enforceContinuity isClosed (c :: cs)).map Nurb.weights)) := by
  have hp := proper_points h
  have hw := proper_weights h
  have jp := joinRows_joined c.points (cs.map Nurb.points) hp
  have jw := joinRows_joined c.weights (cs.map Nurb.weights) hw
  have pp := rows_proper (joinRows_length c.points (cs.map Nurb.points)) (fun i r hr => by
    obtain ⟨r', h1, h2, -⟩ := joinRows_spec _ _ hp i r hr; exact ⟨r', h1, h2⟩) hp
  have pw := rows_proper (joinRows_length c.weights (cs.map Nurb.weights)) (fun i r hr => by
    obtain ⟨r', h1, h2, -⟩ := joinRows_spec _ _ hw i r hr; exact ⟨r', h1, h2⟩) hw
  simp only [enforceContinuity]
  split_ifs with hc
  · rw [joinEnds_points, joinEnds_weights, joinLoop_points, joinLoop_weights]
    refine ⟨(closeRows_spec _ pp).2.1 jp, (closeRows_spec _ pw).2.1 jw, fun _ => ⟨?_, ?_⟩⟩
    · apply closeRows_meet _ pp; intro e
      have := joinRows_length c.points (cs.map Nurb.points); rw [e] at this; simp at this
    · apply closeRows_meet _ pw; intro e
      have := joinRows_length c.weights (cs.map Nurb.weights); rw [e] at this; simp at this
  · rw [joinLoop_points, joinLoop_weights]
    exact ⟨jp, jw, fun e => absurd e hc⟩

/-- **C53, what is kept.** The number of members and of rows and all inner control points and weights are
unchanged. The first row of an inner member becomes the midpoint of the two old rows that met there; so
does, in an inner member, the last row. -/
theorem c53_inner (isClosed : List (Nurb E) → Bool) (c : Nurb E) (cs : List (Nurb E))
    (h : Proper (c :: cs)) (k : ℕ) (d : Nurb E) (hk : (c :: cs)[k]? = some d) :
    (enforceContinuity isClosed (c :: cs)).length = (c :: cs).length ∧
    ∃ d', (enforceContinuity isClosed (c :: cs))[k]? = some d' ∧
      d'.points.length = d.points.length ∧ d'.weights.length = d.weights.length ∧
      (∀ j, 0 < j → j + 1 < d.points.length → d'.points[j]? = d.points[j]?) ∧
      (∀ j, 0 < j → j + 1 < d.weights.length → d'.weights[j]? = d.weights[j]?) ∧
      (∀ b, (c :: cs)[k + 1]? = some b →
        (∀ x y, d.points.getLast? = some x → b.points.head? = some y →
          d'.points.getLast? = some ((1 / 2 : ℝ) • (x + y))) ∧
        (∀ x y, d.weights.getLast? = some x → b.weights.head? = some y →
          d'.weights.getLast? = some ((1 / 2 : ℝ) • (x + y)))) := by
  have hp := proper_points h
  have hw := proper_weights h
  have pp := rows_proper (joinRows_length c.points (cs.map Nurb.points)) (fun i r hr => by
    obtain ⟨r', h1, h2, -⟩ := joinRows_spec _ _ hp i r hr; exact ⟨r', h1, h2⟩) hp
  have pw := rows_proper (joinRows_length c.weights (cs.map Nurb.weights)) (fun i r hr => by
    obtain ⟨r', h1, h2, -⟩ := joinRows_spec _ _ hw i r hr; exact ⟨r', h1, h2⟩) hw
  obtain ⟨R, hR⟩ : ∃ R, R = enforceContinuity isClosed (c :: cs) := ⟨_, rfl⟩
  have hRp : R.map Nurb.points = joinRows c.points (cs.map Nurb.points) ∨
      R.map Nurb.points = closeRows (joinRows c.points (cs.map Nurb.points)) := by
    rw [hR]; simp only [enforceContinuity]
    split_ifs
    · right; rw [joinEnds_points, joinLoop_points]
    · left; rw [joinLoop_points]
  have hRw : R.map Nurb.weights = joinRows c.weights (cs.map Nurb.weights) ∨
      R.map Nurb.weights = closeRows (joinRows c.weights (cs.map Nurb.weights)) := by
    rw [hR]; simp only [enforceContinuity]
    split_ifs
    · right; rw [joinEnds_weights, joinLoop_weights]
    · left; rw [joinLoop_weights]
  have hkp : (c.points :: cs.map Nurb.points)[k]? = some d.points := by
    rw [← List.map_cons, List.getElem?_map, hk]; rfl
  have hkw : (c.weights :: cs.map Nurb.weights)[k]? = some d.weights := by
    rw [← List.map_cons, List.getElem?_map, hk]; rfl
  obtain ⟨l1, rp, p1, p2, p3, p4⟩ := rows_key c.points (cs.map Nurb.points) hp pp k d.points hkp _ hRp
  obtain ⟨-, rw', w1, w2, w3, w4⟩ := rows_key c.weights (cs.map Nurb.weights) hw pw k d.weights hkw _ hRw
  rw [← hR]
  refine ⟨by simpa using l1, ?_⟩
  rw [List.getElem?_map] at p1 w1
  cases hd : R[k]? with
  | none => rw [hd] at p1; simp at p1
  | some d' =>
    rw [hd, Option.map_some, Option.some.injEq] at p1 w1
    rw [← p1] at p2 p3 p4
    rw [← w1] at w2 w3 w4
    refine ⟨d', rfl, p2, w2, p3, w3, fun b hb => ⟨?_, ?_⟩⟩
    · exact p4 b.points (by rw [← List.map_cons, List.getElem?_map, hb]; rfl)
    · exact w4 b.weights (by rw [← List.map_cons, List.getElem?_map, hb]; rfl)

theorem closeRows_noop (ls : List (List E)) (h : EndsMeet ls) : closeRows ls = ls := by
  obtain ⟨a, z, v, ha, hz, hav, hzv⟩ := h
  have hm : midRow z a = v := by rw [midRow, hzv, hav]; exact half_self v
  have ha0 : ls[0]? = some a := by rw [← List.head?_eq_getElem?]; exact ha
  have hz0 : ls[ls.length - 1]? = some z := by rw [← List.getLast?_eq_getElem?]; exact hz
  have e1 : setLast z v = z := by
    rw [List.getLast?_eq_getElem?] at hzv
    obtain ⟨h1, h2⟩ := List.getElem?_eq_some_iff.1 hzv
    rw [setLast, ← h2, List.set_getElem_self]
  have e2 : setHead a v = a := by
    rw [List.head?_eq_getElem?] at hav
    obtain ⟨h1, h2⟩ := List.getElem?_eq_some_iff.1 hav
    rw [setHead, ← h2, List.set_getElem_self]
  apply List.ext_getElem?
  intro i
  rw [closeRows_get]
  cases hi : ls[i]? with
  | none => rfl
  | some r =>
    simp only [ha, hz, Option.getD_some, hm, Option.map_some, Option.some.injEq]
    have s1 : (if i = ls.length - 1 then setLast r v else r) = r := by
      split_ifs with h
      · rw [h, hz0] at hi; rw [← Option.some.inj hi]; exact e1
      · rfl
    rw [s1]
    split_ifs with h
    · rw [h, ha0] at hi; rw [← Option.some.inj hi]; exact e2
    · rfl

theorem joinLoop_noop (c : Nurb E) (cs : List (Nurb E)) (hp : ∀ x ∈ (c :: cs).map Nurb.points, 1 ≤ x.length)
    (hw : ∀ x ∈ (c :: cs).map Nurb.weights, 1 ≤ x.length) (jp : Joined ((c :: cs).map Nurb.points))
    (jw : Joined ((c :: cs).map Nurb.weights)) : joinLoop c cs = c :: cs :=
  nurb_ext (by rw [joinLoop_points]; exact joinRows_noop _ _ hp jp)
    (by rw [joinLoop_weights]; exact joinRows_noop _ _ hw jw)

/-- **C53, nothing to do.** A continuous open curve is left unchanged, and so is a continuous curve whose
ends meet. -/
theorem c53_noop (isClosed : List (Nurb E) → Bool) (c : Nurb E) (cs : List (Nurb E))
    (h : Proper (c :: cs)) (jp : Joined ((c :: cs).map Nurb.points))
    (jw : Joined ((c :: cs).map Nurb.weights))
    (he : isClosed (c :: cs) = true → EndsMeet ((c :: cs).map Nurb.points) ∧
      EndsMeet ((c :: cs).map Nurb.weights)) :
    enforceContinuity isClosed (c :: cs) = c :: cs := by
  have hj := joinLoop_noop c cs (fun x hx => by have := proper_points h x hx; omega)
    (fun x hx => by have := proper_weights h x hx; omega) jp jw
  simp only [enforceContinuity]
  rw [hj]
  split_ifs with hc
  · obtain ⟨e1, e2⟩ := he hc
    exact nurb_ext (by rw [joinEnds_points]; exact closeRows_noop _ e1)
      (by rw [joinEnds_weights]; exact closeRows_noop _ e2)
  · rfl

/-- **C53, idempotent.** Doing it again changes nothing. -/
theorem c53_idempotent (isClosed : List (Nurb E) → Bool) (c : Nurb E) (cs : List (Nurb E))
    (h : Proper (c :: cs)) :
    enforceContinuity isClosed (enforceContinuity isClosed (c :: cs)) =
      enforceContinuity isClosed (c :: cs) := by
  obtain ⟨j1, j2, j3⟩ := c53_continuous isClosed c cs h
  have hprop : Proper (enforceContinuity isClosed (c :: cs)) := by
    intro d hd
    obtain ⟨i, hi⟩ := List.mem_iff_getElem?.1 hd
    have hlen := (c53_inner isClosed c cs h 0 c rfl).1
    have hil : i < (c :: cs).length := by rw [← hlen]; exact (List.getElem?_eq_some_iff.1 hi).1
    obtain ⟨-, d', g1, g2, g3, -⟩ := c53_inner isClosed c cs h i _ (List.getElem?_eq_getElem hil)
    rw [hi] at g1
    have := h _ (List.getElem_mem hil)
    rw [Option.some.inj g1, g2, g3]; exact this
  cases hR : enforceContinuity isClosed (c :: cs) with
  | nil =>
    have := (c53_inner isClosed c cs h 0 c rfl).1
    rw [hR] at this; simp at this
  | cons d ds =>
    rw [hR] at j1 j2 j3 hprop
    apply c53_noop isClosed d ds hprop j1 j2
    intro hc
    by_cases hcl : isClosed (joinLoop c cs) = true
    · exact j3 hcl
    · have : enforceContinuity isClosed (c :: cs) = joinLoop c cs := by
        simp only [enforceContinuity]; rw [if_neg hcl]
      rw [← this, hR] at hcl
      exact absurd hc hcl

/-- A concrete case with a gap. -/
example : Proper [(⟨[0, 1, 2], [1, 1, 1]⟩ : Nurb ℝ), ⟨[3, 4], [1, 2]⟩] := by
  intro c hc
  simp at hc
  rcases hc with rfl | rfl <;> simp

end

end Verif
