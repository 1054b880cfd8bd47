import Verif.Model.Shell
import Verif.Props.ProfileNurb
import Mathlib.Algebra.BigOperators.Group.Finset.Basic
import Mathlib.Algebra.Order.Group.Multiset

/-! # Property C130: the faces of a cylindrical gear close up -/

namespace Verif

open Real Spec

/-! ### Slices -/

/-- What C128 says about a slice: its profile runs from a point to the same point one pitch further, three closing pieces
lead back, and the cover is made of the pieces of the profile. -/
def ShellSlice (pitch : ℝ) (cont : List (Nurb V3) → Bool) (S : NurbProfileExt) : Prop :=
  ∃ (a : V3) (cs ds : List (Nurb V3)), cs ≠ [] ∧ ds.length = 3 ∧ S.sideMembers = cs ++ ds ∧
    Pieces cs a (app (Rz pitch) a) ∧ Pieces ds (app (Rz pitch) a) a ∧
    coverEdges cont S.base = cs.map fun n => (n.points, n.weights)

theorem flat_lengths {cs : List (Nurb V3)} {a b : V3} (h : Pieces cs a b) :
    (flatWeights cs).length = (flatPoints cs).length := by
  by_cases hne : cs = []
  · rw [hne]; rfl
  have e1 := flatRows_length (cs.map Nurb.points) (fun l hl => by
    obtain ⟨c, hc, rfl⟩ := List.mem_map.1 hl
    obtain ⟨p, q, k⟩ := h.mem c hc
    have := k.len; omega) (by simpa using hne)
  have e2 := flatRows_length (cs.map Nurb.weights) (fun l hl => by
    obtain ⟨c, hc, rfl⟩ := List.mem_map.1 hl
    obtain ⟨p, q, k⟩ := h.mem c hc
    have := k.len; have := k.wlen; omega) (by simpa using hne)
  rw [flatWeights, flatPoints, e1, e2, List.map_map, List.map_map]
  congr 2
  apply List.map_congr_left
  intro c hc
  obtain ⟨p, q, k⟩ := h.mem c hc
  simp [k.wlen]

theorem rowPoints_packRow (n : ℕ) (cs : List (Nurb V3)) (hn : (flatPoints cs).length = n) :
    rowPoints n (packRow n cs) = flatPoints cs := by
  apply List.ext_getElem
  · simp [rowPoints, hn]
  · intro i h1 h2
    simp only [rowPoints, List.getElem_ofFn, packRow]
    have h3 : ∀ e : ℕ, e < 4 → (4 * i + e) % 4 = e ∧ (4 * i + e) / 4 = i := fun e he => by omega
    have h4 : (4 * i) % 4 = 0 ∧ 4 * i / 4 = i := by omega
    rw [h4.1, h4.2, (h3 1 (by norm_num)).1, (h3 1 (by norm_num)).2, (h3 2 (by norm_num)).1, (h3 2 (by norm_num)).2]
    have hg : (flatPoints cs).getD i 0 = (flatPoints cs)[i] := by
      rw [List.getD_eq_getElem?_getD, List.getElem?_eq_getElem h2, Option.getD_some]
    rw [hg]
    apply V3.ext3 <;> simp <;> rfl

theorem rowWeights_packRow (n : ℕ) (cs : List (Nurb V3)) (hn : (flatWeights cs).length = n) :
    rowWeights n (packRow n cs) = flatWeights cs := by
  apply List.ext_getElem
  · simp [rowWeights, hn]
  · intro i h1 h2
    simp only [rowWeights, List.getElem_ofFn, packRow]
    have h3 : (4 * i + 3) % 4 = 3 ∧ (4 * i + 3) / 4 = i := by omega
    rw [if_pos h3.1, h3.2, List.getD_eq_getElem?_getD, List.getElem?_eq_getElem h2, Option.getD_some]

theorem rowPoints_length (n : ℕ) (r : Fin (4 * n) → ℝ) : (rowPoints n r).length = n := by simp [rowPoints]

theorem rowWeights_length (n : ℕ) (r : Fin (4 * n) → ℝ) : (rowWeights n r).length = n := by simp [rowWeights]

/-! ### The rows of a section -/

theorem ofFn_ends {β : Type*} (k : ℕ) (S : ℕ → β) :
    (List.ofFn fun i : Fin (k + 2) => S i) = S 0 :: ((List.ofFn fun i : Fin k => S (i + 1)) ++ [S (k + 1)]) := by
  rw [List.ofFn_succ]
  congr 1
  rw [List.ofFn_succ_last]
  simp

/-- The rows of a section begin with the lower and end with the upper slice; without inner control rows there are only
these two. -/
theorem sideRows_shape {q : ℕ} (prof : ℝ → Fin q → ℝ) (z : ℕ → ℝ) (m : ℕ) (hm : 2 ≤ m) (ratio : ℝ)
    (hr : 1 ≤ ratio) (x : ℕ → ℕ → ℝ) (ii : ℕ) :
    ∃ mid, sideRows prof z m ratio x ii = prof (z ii) :: (mid ++ [prof (z (ii + 1))]) ∧ (m = 2 → mid = []) := by
  obtain ⟨h1, h2, h3⟩ := c77_section_count m hm ratio hr
  obtain ⟨o, ho⟩ : ∃ o, o = (nZTweens m ratio).toNat := ⟨_, rfl⟩
  have ho2 : 2 ≤ o := by omega
  have hl : sideTargets prof z m ratio ii (o - 1) = prof (z (ii + 1)) := by
    rw [sideTargets, ← ho, linspaceAt_last _ _ _ ho2]
  have hf : sideTargets prof z m ratio ii 0 = prof (z ii) := by
    rw [sideTargets, linspaceAt_first]
  rw [sideRows]
  simp only [← ho]
  split_ifs with h
  · subst h
    refine ⟨[], ?_, fun _ => rfl⟩
    have hl' : sideTargets prof z m ratio ii 1 = prof (z (ii + 1)) := hl
    simp [List.ofFn_succ, hf, hl']
  · have hm3 : m ≠ 2 := by
      intro e; apply h
      have := h3.2 e
      omega
    obtain ⟨k, rfl⟩ : ∃ k, m = k + 2 := ⟨m - 2, by omega⟩
    refine ⟨List.ofFn fun i : Fin k =>
      surfPoints q (k + 2) o (sideTargets prof z (k + 2) ratio ii) (x ii) (i + 1), ?_, fun e => absurd e hm3⟩
    have e0 : surfPoints q (k + 2) o (sideTargets prof z (k + 2) ratio ii) (x ii) 0 = prof (z ii) := by
      rw [surfPoints, if_neg (by omega), if_neg (by omega), hf]
    have e1 : surfPoints q (k + 2) o (sideTargets prof z (k + 2) ratio ii) (x ii) (k + 1) = prof (z (ii + 1)) := by
      rw [surfPoints, if_neg (by omega), if_pos (by omega), hl]
    rw [ofFn_ends, e0, e1]

/-! ### Borders of a face -/

/-- Column `c` of the control data, turned. -/
noncomputable def columnBorder {n : ℕ} (a : ℝ) (rows : List (Fin (4 * n) → ℝ)) (c : ℕ) : Border :=
  .bezier (rows.map fun r => app (Rz a) ((rowPoints n r).getD c 0)) (rows.map fun r => (rowWeights n r).getD c 0)

theorem slice_map {α β : Type*} (f : α → β) (l : List α) (i j : ℕ) : slice (l.map f) i j = (slice l i j).map f := by
  simp [slice]

theorem slice_ends {α : Type*} (l : List α) (d : α) {i j : ℕ} (hij : i < j) (hj : j < l.length) :
    (slice l i (j + 1)).headD d = l.getD i d ∧ (slice l i (j + 1)).getLastD d = l.getD j d := by
  constructor
  · rw [List.headD_eq_head?_getD, List.head?_eq_getElem?, slice, List.getElem?_take_of_lt (by omega), List.getElem?_drop,
      add_zero, List.getD_eq_getElem?_getD]
  · have hlen : (slice l i (j + 1)).length = j + 1 - i := by rw [slice_length]; omega
    rw [List.getLastD_eq_getLast?, List.getLast?_eq_getElem?, hlen, slice, List.getElem?_take_of_lt (by omega),
      List.getElem?_drop, List.getD_eq_getElem?_getD]
    congr 2; omega

theorem getLastD_ends {β : Type*} (x : β) (l : List β) (y d : β) : (x :: (l ++ [y])).getLastD d = y := by
  rw [← List.cons_append, List.getLastD_eq_getLast?, List.getLast?_concat]; rfl

theorem face_borders {n : ℕ} (a : ℝ) (first last : Fin (4 * n) → ℝ) (mid : List (Fin (4 * n) → ℝ)) {i j : ℕ}
    (hij : i < j) (hj : j < n) :
    (BezierFace.turn a ⟨((first :: (mid ++ [last])).map (rowPoints n)).map fun r => slice r i (j + 1),
        ((first :: (mid ++ [last])).map (rowWeights n)).map fun r => slice r i (j + 1)⟩).borders =
      [.bezier ((slice (rowPoints n first) i (j + 1)).map (app (Rz a))) (slice (rowWeights n first) i (j + 1)),
       .bezier ((slice (rowPoints n last) i (j + 1)).map (app (Rz a))) (slice (rowWeights n last) i (j + 1)),
       columnBorder a (first :: (mid ++ [last])) i, columnBorder a (first :: (mid ++ [last])) j] := by
  have hp : ∀ r : Fin (4 * n) → ℝ, ((slice (rowPoints n r) i (j + 1)).map (app (Rz a))).headD 0 =
      app (Rz a) ((rowPoints n r).getD i 0) ∧ ((slice (rowPoints n r) i (j + 1)).map (app (Rz a))).getLastD 0 =
      app (Rz a) ((rowPoints n r).getD j 0) := by
    intro r
    have hjr : j < (rowPoints n r).length := by rw [rowPoints_length]; exact hj
    rw [← slice_map]
    have := slice_ends ((rowPoints n r).map (app (Rz a))) 0 hij (by simpa using hjr)
    rw [this.1, this.2]
    simp only [List.getD_eq_getElem?_getD, List.getElem?_map]
    rw [List.getElem?_eq_getElem hjr, List.getElem?_eq_getElem (by omega : i < (rowPoints n r).length)]
    exact ⟨rfl, rfl⟩
  have hw : ∀ r : Fin (4 * n) → ℝ, (slice (rowWeights n r) i (j + 1)).headD 0 = (rowWeights n r).getD i 0 ∧
      (slice (rowWeights n r) i (j + 1)).getLastD 0 = (rowWeights n r).getD j 0 :=
    fun r => slice_ends _ _ hij (by rw [rowWeights_length]; exact hj)
  have hlp : ∀ (x : List V3) (l : List (List V3)) (y : List V3), (x :: (l ++ [y])).getLastD [] = y :=
    fun x l y => getLastD_ends x l y []
  have hlw : ∀ (x : List ℝ) (l : List (List ℝ)) (y : List ℝ), (x :: (l ++ [y])).getLastD [] = y :=
    fun x l y => getLastD_ends x l y []
  simp only [BezierFace.turn, BezierFace.borders, List.map_map, Function.comp_def, columnBorder]
  congr 1
  congr 1
  · simp only [List.map_cons, List.map_append, List.map_nil, hlp, hlw]
  congr 1
  · congr 1
    · exact List.map_congr_left fun r _ => (hp r).1
    · exact List.map_congr_left fun r _ => (hw r).1
  congr 1
  · congr 1
    · exact List.map_congr_left fun r _ => (hp r).2
    · exact List.map_congr_left fun r _ => (hw r).2

/-! ### Knots -/

theorem knots_step {cs : List (Nurb V3)} (hp : ∀ c ∈ cs, 2 ≤ c.points.length) {p : ℕ} (h : p < cs.length) :
    (knots cs).getD p 0 < (knots cs).getD (p + 1) 0 ∧ (knots cs).getD (p + 1) 0 < (flatPoints cs).length := by
  obtain ⟨-, k2, -⟩ := c52_knots cs
  rw [List.getD_eq_getElem?_getD, List.getD_eq_getElem?_getD, k2 p h.le, k2 (p + 1) h, Option.getD_some,
    Option.getD_some]
  have h1 := hp cs[p] (List.getElem_mem _)
  have e : cs.take (p + 1) = cs.take p ++ [cs[p]] := by
    rw [List.take_succ_eq_append_getElem h]
  refine ⟨by
    rw [e, List.map_append, List.sum_append]
    simp only [List.map_cons, List.map_nil, List.sum_cons, List.sum_nil]
    omega, ?_⟩
  rw [flatPoints, flatRows_length _ (fun l hl => by
    obtain ⟨c, hc, rfl⟩ := List.mem_map.1 hl
    have := hp c hc; omega) (by intro e; simp at e; rw [e] at h; simp at h), List.map_map]
  have e2 : ((cs.take (p + 1)).map fun c => c.points.length - 1).sum +
      ((cs.drop (p + 1)).map fun c => c.points.length - 1).sum = (cs.map fun c => c.points.length - 1).sum := by
    rw [← List.sum_append, ← List.map_append, List.take_append_drop]
  have e3 : ((fun l : List V3 => l.length - 1) ∘ Nurb.points) = fun c : Nurb V3 => c.points.length - 1 := rfl
  rw [e3]
  omega

theorem knots_zero (cs : List (Nurb V3)) : (knots cs).getD 0 0 = 0 := by
  obtain ⟨-, k2, -⟩ := c52_knots cs
  rw [List.getD_eq_getElem?_getD, k2 0 (Nat.zero_le _)]; simp

theorem knots_width {cs : List (Nurb V3)} (hp : ∀ c ∈ cs, 2 ≤ c.points.length) (hne : cs ≠ []) :
    (flatPoints cs).length = (knots cs).getLastD 0 + 1 := by
  obtain ⟨-, -, k3⟩ := c52_knots cs
  rw [List.getLastD_eq_getLast?, k3 (fun c hc => by have := hp c hc; omega) hne, Option.getD_some]
  have : 1 ≤ (flatPoints cs).length := by
    rw [flatPoints, flatRows_length _ (fun l hl => by
      obtain ⟨c, hc, rfl⟩ := List.mem_map.1 hl
      have := hp c hc; omega) (by simpa using hne)]
    omega
  omega

/-- Cutting the flat points and weights at the knots gives back member `p`. -/
theorem slice_member {cs : List (Nurb V3)} {a b : V3} (h : Pieces cs a b) {p : ℕ} (hp : p < cs.length) :
    slice (flatPoints cs) ((knots cs).getD p 0) ((knots cs).getD (p + 1) 0 + 1) = cs[p].points ∧
      slice (flatWeights cs) ((knots cs).getD p 0) ((knots cs).getD (p + 1) 0 + 1) = cs[p].weights := by
  obtain ⟨e1, e2⟩ := c89_patches_are_members cs
    (fun c hc => by obtain ⟨p, q, k⟩ := h.mem c hc; exact k.len)
    (fun c hc => by obtain ⟨p, q, k⟩ := h.mem c hc; exact k.wlen) h.joined.1 h.joined.2
  have hk := (c52_knots cs).1
  have f1 := congrArg (fun l => l[p]?) e1
  have f2 := congrArg (fun l => l[p]?) e2
  simp only [patchesOf, List.getElem?_map, hk, Nat.add_sub_cancel, List.getElem?_range hp, Option.map_some,
    List.getElem?_eq_getElem hp] at f1 f2
  exact ⟨Option.some.inj f1, Option.some.inj f2⟩

/-! ### Seams -/

/-- One row of control data goes on, one pitch further, where it began. `c` is the column of the last knot of the
profile. -/
def RowSeam {n : ℕ} (pitch : ℝ) (c : ℕ) (row : Fin (4 * n) → ℝ) : Prop :=
  (rowPoints n row).getD c 0 = app (Rz pitch) ((rowPoints n row).getD 0 0) ∧
    (rowWeights n row).getD c 0 = (rowWeights n row).getD 0 0

theorem seam_data {cs ds : List (Nurb V3)} {a b : V3} (hc : Pieces cs a b) (hne : cs ≠ []) (hd : Pieces ds b a)
    (hdl : ds.length = 3) :
    (flatPoints (cs ++ ds)).getD ((knots (cs ++ ds)).getD cs.length 0) 0 = b ∧
      (flatPoints (cs ++ ds)).getD 0 0 = a ∧
      (flatWeights (cs ++ ds)).getD ((knots (cs ++ ds)).getD cs.length 0) 0 = 1 ∧
      (flatWeights (cs ++ ds)).getD 0 0 = 1 := by
  have hall := hc.append hd
  have hlen : ∀ c ∈ cs ++ ds, 2 ≤ c.points.length := fun c hc => by obtain ⟨p, q, k⟩ := hall.mem c hc; exact k.len
  have hfl := flat_lengths hall
  have hpos : 0 < cs.length := List.length_pos_of_ne_nil hne
  have at0 : ∀ p (hp : p < (cs ++ ds).length),
      (flatPoints (cs ++ ds)).getD ((knots (cs ++ ds)).getD p 0) 0 = (cs ++ ds)[p].points.headD 0 ∧
      (flatWeights (cs ++ ds)).getD ((knots (cs ++ ds)).getD p 0) 0 = (cs ++ ds)[p].weights.headD 0 := by
    intro p hp
    obtain ⟨s1, s2⟩ := knots_step hlen hp
    obtain ⟨m1, m2⟩ := slice_member hall hp
    rw [← m1, ← m2, (slice_ends _ _ s1 s2).1, (slice_ends _ _ s1 (by rw [hfl]; exact s2)).1]
    exact ⟨rfl, rfl⟩
  have f0 := at0 0 (by rw [List.length_append]; omega)
  have f1 := at0 cs.length (by rw [List.length_append]; omega)
  rw [knots_zero] at f0
  obtain ⟨n, n1, n2, n3⟩ := hc.first hne
  obtain ⟨n', n1', n2', n3'⟩ := hd.first (by intro e; rw [e] at hdl; simp at hdl)
  have g0 : (cs ++ ds)[0]'(by rw [List.length_append]; omega) = n := by
    rw [List.getElem_append_left hpos]; exact head_getElem n1 hpos
  have g1 : (cs ++ ds)[cs.length]'(by rw [List.length_append]; omega) = n' := by
    rw [List.getElem_append_right le_rfl]
    simp only [Nat.sub_self]
    exact head_getElem n1' (by omega)
  rw [g0] at f0
  rw [g1] at f1
  rw [f1.1, f0.1, f1.2, f0.2]
  simp [List.headD_eq_head?_getD, n2, n3, n2', n3']

/-! ### The faces of one section -/

/-- Member `p` of a slice, turned. -/
noncomputable def memberBorder (a : ℝ) (S : NurbProfileExt) (p : ℕ) : Border :=
  .bezier (((S.sideMembers.map Nurb.points).getD p []).map (app (Rz a))) ((S.sideMembers.map Nurb.weights).getD p [])

section
variable {N : ℝ → NurbProfileExt} {z : ℕ → ℝ} {m : ℕ} {ratio : ℝ} {x : ℕ → ℕ → ℝ} {pitch : ℝ}
  {cont : List (Nurb V3) → Bool}

theorem ShellSlice.pieces {S : NurbProfileExt} (h : ShellSlice pitch cont S) : ∃ a, Pieces S.sideMembers a a := by
  obtain ⟨a, cs, ds, -, -, h3, h4, h5, -⟩ := h
  exact ⟨a, by rw [h3]; exact h4.append h5⟩

theorem ShellSlice.len {S : NurbProfileExt} (h : ShellSlice pitch cont S) : ∀ c ∈ S.sideMembers, 2 ≤ c.points.length := by
  obtain ⟨a, ha⟩ := h.pieces
  intro c hc
  obtain ⟨p, q, k⟩ := ha.mem c hc
  exact k.len

theorem ShellSlice.ne {S : NurbProfileExt} (h : ShellSlice pitch cont S) : S.sideMembers ≠ [] := by
  obtain ⟨a, cs, ds, h1, -, h3, -⟩ := h
  rw [h3]; simp [h1]

/-- Slices with the same knots have the same width and the same number of members. -/
theorem same_shape {S S' : NurbProfileExt} (h : ShellSlice pitch cont S) (h' : ShellSlice pitch cont S')
    (hk : knots S.sideMembers = knots S'.sideMembers) :
    (flatPoints S.sideMembers).length = (flatPoints S'.sideMembers).length ∧
      S.sideMembers.length = S'.sideMembers.length := by
  rw [knots_width h.len h.ne, knots_width h'.len h'.ne, hk]
  refine ⟨rfl, ?_⟩
  have e1 := (c52_knots S.sideMembers).1
  have e2 := (c52_knots S'.sideMembers).1
  rw [hk] at e1
  omega

theorem member_slice {S : NurbProfileExt} (h : ShellSlice pitch cont S) (a : ℝ) {p : ℕ} (hp : p < S.sideMembers.length)
    {n : ℕ} (hn : (flatPoints S.sideMembers).length = n) (ks : List ℕ) (hk : knots S.sideMembers = ks) :
    Border.bezier ((slice (rowPoints n (packRow n S.sideMembers)) (ks.getD p 0) (ks.getD (p + 1) 0 + 1)).map (app (Rz a)))
      (slice (rowWeights n (packRow n S.sideMembers)) (ks.getD p 0) (ks.getD (p + 1) 0 + 1)) = memberBorder a S p := by
  obtain ⟨b, hb⟩ := h.pieces
  obtain ⟨m1, m2⟩ := slice_member hb hp
  rw [rowPoints_packRow n _ hn, rowWeights_packRow n _ (by rw [flat_lengths hb, hn]), ← hk, m1, m2, memberBorder]
  simp [List.getD_eq_getElem?_getD, List.getElem?_eq_getElem hp]

/-- The borders of the faces of section `ii`, turned by `a`. -/
theorem section_borders (hS : ∀ h, ShellSlice pitch cont (N h))
    (hK : ∀ h h', knots (N h).sideMembers = knots (N h').sideMembers) (hm : 2 ≤ m) (hr : 1 ≤ ratio) (ii : ℕ) (a : ℝ) :
    (((sideFaces N z m ratio x ii).map (BezierFace.turn a)).map BezierFace.borders) =
      (List.range ((N (z 0)).sideMembers.length - 3)).map fun p =>
        [memberBorder a (N (z ii)) p, memberBorder a (N (z (ii + 1))) p,
          columnBorder a (sideData N z m ratio x ii) ((knots (N (z 0)).sideMembers).getD p 0),
          columnBorder a (sideData N z m ratio x ii) ((knots (N (z 0)).sideMembers).getD (p + 1) 0)] := by
  obtain ⟨L, hL⟩ : ∃ L, L = (N (z 0)).sideMembers.length := ⟨_, rfl⟩
  have hlen : (knots (N (z ii)).sideMembers).length - 1 = L := by
    rw [(c52_knots _).1, (same_shape (hS (z ii)) (hS (z 0)) (hK _ _)).2, hL]; omega
  rw [sideFaces]
  simp only [hlen, List.length_map, List.length_range]
  rw [← List.map_take, List.take_range, List.map_map, List.map_map, min_eq_left (by omega), ← hL]
  apply List.map_congr_left
  intro p hp
  have hp : p < L - 3 := List.mem_range.1 hp
  have hii : p < (N (z ii)).sideMembers.length := by
    rw [(same_shape (hS (z ii)) (hS (z 0)) (hK _ _)).2]; omega
  have hi1 : p < (N (z (ii + 1))).sideMembers.length := by
    rw [(same_shape (hS (z (ii + 1))) (hS (z 0)) (hK _ _)).2]; omega
  obtain ⟨s1, s2⟩ := knots_step (hS (z ii)).len hii
  obtain ⟨mid, hmid, -⟩ := sideRows_shape (fun h => packRow (sideWidth N z ii) (N h).sideMembers) z m hm ratio hr x ii
  simp only [Function.comp_apply]
  have hd : sideData N z m ratio x ii = packRow (sideWidth N z ii) (N (z ii)).sideMembers ::
    (mid ++ [packRow (sideWidth N z ii) (N (z (ii + 1))).sideMembers]) := hmid
  rw [hd, face_borders a _ _ mid s1 s2,
    member_slice (n := sideWidth N z ii) (hS (z ii)) a hii rfl _ rfl,
    member_slice (n := sideWidth N z ii) (hS (z (ii + 1))) a hi1 (same_shape (hS _) (hS _) (hK _ _)).1 _ (hK _ _), hK (z ii) (z 0)]

/-- The borders of a cover. -/
theorem cover_borders {S : NurbProfileExt} (h : ShellSlice pitch cont S) (trf : GearTransform) (teeth : ℕ)
    (ring : Option ℝ) : coverBorders cont S trf pitch teeth ring =
      ((List.range teeth).flatMap fun (j : ℕ) => (List.range (S.sideMembers.length - 3)).map fun p =>
        memberBorder (pitch * j) S p) ++ (ring.toList.map fun r => Border.circle r (trf.center 2)) := by
  obtain ⟨a, cs, ds, h1, h2, h3, h4, h5, h6⟩ := h
  rw [coverBorders]
  congr 2
  funext j
  rw [h6, List.map_map, h3, List.length_append, h2, Nat.add_sub_cancel]
  apply List.ext_getElem
  · simp
  · intro i i1 i2
    have hi : i < cs.length := by simpa using i1
    simp only [List.getElem_map, Function.comp_apply, List.getElem_range, memberBorder, h3, List.map_append]
    rw [List.getD_eq_getElem?_getD, List.getD_eq_getElem?_getD, List.getElem?_append_left (by simpa using hi),
      List.getElem?_append_left (by simpa using hi)]
    simp [List.getElem?_eq_getElem hi]

/-- The columns of a section on both sides of the seam between two teeth. -/
theorem column_seam {n : ℕ} {rows : List (Fin (4 * n) → ℝ)} {c : ℕ} (h : ∀ r ∈ rows, RowSeam pitch c r) (j : ℕ) :
    columnBorder (pitch * j) rows c = columnBorder (pitch * (j + 1 : ℕ)) rows 0 := by
  rw [columnBorder, columnBorder]
  congr 1
  · apply List.map_congr_left
    intro r hr
    rw [(h r hr).1, ← app_mul, ← Rz_add]
    congr 2; push_cast; ring
  · exact List.map_congr_left fun r hr => (h r hr).2

theorem column_full {n : ℕ} {rows : List (Fin (4 * n) → ℝ)} {c k : ℕ} (hk : pitch * k = 2 * π) :
    columnBorder (pitch * k) rows c = columnBorder (pitch * (0 : ℕ)) rows c := by
  have : Rz (2 * π) = Rz 0 := by ext i j; fin_cases i <;> fin_cases j <;> simp [Rz]
  rw [hk, columnBorder, columnBorder, this, Nat.cast_zero, mul_zero]

/-- The rows taken from the slices have the seam. -/
theorem slice_seam {S : NurbProfileExt} (h : ShellSlice pitch cont S) {n : ℕ} (hn : (flatPoints S.sideMembers).length = n) :
    RowSeam pitch ((knots S.sideMembers).getD (S.sideMembers.length - 3) 0) (packRow n S.sideMembers) := by
  obtain ⟨a, cs, ds, h1, h2, h3, h4, h5, h6⟩ := h
  have hall := h4.append h5
  obtain ⟨g1, g2, g3, g4⟩ := seam_data h4 h1 h5 h2
  rw [← h3] at hall g1 g2 g3 g4
  have e : S.sideMembers.length - 3 = cs.length := by rw [h3, List.length_append, h2]; omega
  rw [e, RowSeam, rowPoints_packRow n _ hn, rowWeights_packRow n _ (by rw [flat_lengths hall, hn]), g1, g2, g3, g4]
  exact ⟨rfl, rfl⟩

/-! ### Counting borders -/

theorem coe_flatMap_range {β : Type*} (n : ℕ) (f : ℕ → List β) :
    (((List.range n).flatMap f : List β) : Multiset β) = ∑ i ∈ Finset.range n, (f i : Multiset β) := by
  induction n with
  | zero => rfl
  | succ n ih => rw [List.range_succ, List.flatMap_append, Finset.sum_range_succ, ← ih, ← Multiset.coe_add]; simp

theorem coe_map_range {β : Type*} (n : ℕ) (f : ℕ → β) :
    (((List.range n).map f : List β) : Multiset β) = ∑ i ∈ Finset.range n, {f i} := by
  induction n with
  | zero => rfl
  | succ n ih => rw [List.range_succ, List.map_append, Finset.sum_range_succ, ← ih, ← Multiset.coe_add]; simp

theorem flatten_map_range {β : Type*} (n : ℕ) (f : ℕ → List β) :
    ((List.range n).map f).flatten = (List.range n).flatMap f := rfl

/-- Shifting a cyclic index. -/
theorem sum_cyclic {M : Type*} [AddCommMonoid M] [IsRightCancelAdd M] (k : ℕ) (f : ℕ → M) (h : f k = f 0) :
    ∑ j ∈ Finset.range k, f (j + 1) = ∑ j ∈ Finset.range k, f j := by
  have e1 := Finset.sum_range_succ f k
  have e2 := Finset.sum_range_succ' f k
  rw [e1, h] at e2
  exact (add_right_cancel e2).symm

/-- **C130, the seams decide.** Every tooth closes up with the next one, every section with the next one, and the side
surfaces with the covers and, for a ring gear, with the outer ring, provided every row of the control data goes on one pitch
further where it began. -/
theorem c130_seams (hS : ∀ h, ShellSlice pitch cont (N h))
    (hK : ∀ h h', knots (N h).sideMembers = knots (N h').sideMembers) (hm : 2 ≤ m) (hr : 1 ≤ ratio)
    (trf : ℝ → GearTransform) (teeth sections : ℕ) (hk : pitch * teeth = 2 * π) (ring : Option ℝ)
    (hz : ∀ h, (trf h).center 2 = h)
    (hseam : ∀ ii < sections, ∀ r ∈ sideData N z m ratio x ii,
      RowSeam pitch ((knots (N (z 0)).sideMembers).getD ((N (z 0)).sideMembers.length - 3) 0) r) :
    ClosedShell (gearFaces N trf z m ratio x cont pitch teeth sections ring) := by
  obtain ⟨P, hP⟩ : ∃ P, P = (N (z 0)).sideMembers.length - 3 := ⟨_, rfl⟩
  have hPs : ∀ h, (N h).sideMembers.length - 3 = P := fun h => by
    rw [(same_shape (hS h) (hS (z 0)) (hK _ _)).2, hP]
  rw [← hP] at hseam
  -- the members of the slice at knot `ii` of height
  obtain ⟨g, hg⟩ : ∃ g : ℕ → Multiset Border, g = fun ii => ∑ j ∈ Finset.range teeth, ∑ p ∈ Finset.range P,
    {memberBorder (pitch * j) (N (z ii)) p} := ⟨_, rfl⟩
  -- the columns
  obtain ⟨c, hc⟩ : ∃ c : ℕ → ℕ → ℕ → Multiset Border, c = fun (ii j p : ℕ) =>
    {columnBorder (pitch * j) (sideData N z m ratio x ii) ((knots (N (z 0)).sideMembers).getD p 0)} := ⟨_, rfl⟩
  obtain ⟨w, hw⟩ : ∃ w : ℕ → Multiset Border, w = fun ii => ((ring.toList.map fun r => Border.circle r (z ii) : List Border) :
    Multiset Border) := ⟨_, rfl⟩
  have hside : (((sideSurfaces N z m ratio x pitch teeth sections).map BezierFace.borders).flatten : Multiset Border) =
      ∑ ii ∈ Finset.range sections, (g ii + g (ii + 1) +
        ∑ j ∈ Finset.range teeth, ∑ p ∈ Finset.range P, (c ii j p + c ii j (p + 1))) := by
    rw [sideSurfaces, List.map_flatMap, ← List.flatMap_id, List.flatMap_assoc, coe_flatMap_range]
    have e : ∀ j : ℕ, (((List.map BezierFace.borders ((List.range sections).flatMap fun ii =>
        (sideFaces N z m ratio x ii).map (BezierFace.turn (pitch * j)))).flatMap id : List Border) : Multiset Border) =
        ∑ ii ∈ Finset.range sections, ∑ p ∈ Finset.range P, ({memberBorder (pitch * j) (N (z ii)) p} +
          {memberBorder (pitch * j) (N (z (ii + 1))) p} + (c ii j p + c ii j (p + 1))) := by
      intro j
      rw [List.map_flatMap, List.flatMap_assoc, coe_flatMap_range]
      refine Finset.sum_congr rfl fun ii _ => ?_
      rw [section_borders hS hK hm hr ii, ← hP, List.flatMap_map, coe_flatMap_range]
      refine Finset.sum_congr rfl fun p _ => ?_
      rw [hc]
      simp only [id]
      rfl
    simp only [e]
    rw [Finset.sum_comm]
    refine Finset.sum_congr rfl fun ii _ => ?_
    rw [hg]
    simp only [Finset.sum_add_distrib]
  have hcover : ∀ ii, (coverBorders cont (N (z ii)) (trf (z ii)) pitch teeth ring : Multiset Border) = g ii + w ii := by
    intro ii
    rw [cover_borders (hS _), ← Multiset.coe_add, coe_flatMap_range, hg, hw, hPs, hz]
    congr 1
    exact Finset.sum_congr rfl fun j _ => coe_map_range _ _
  have hring : ((ring.toList.map fun r => [Border.circle r (z 0), Border.circle r (z sections)]).flatten :
      Multiset Border) = w 0 + w sections := by
    rw [hw]
    cases ring with
    | none => rfl
    | some r => rfl
  have htotal : ((gearFaces N trf z m ratio x cont pitch teeth sections ring).flatten : Multiset Border) =
      (∑ ii ∈ Finset.range sections, (g ii + g (ii + 1) +
        ∑ j ∈ Finset.range teeth, ∑ p ∈ Finset.range P, (c ii j p + c ii j (p + 1)))) + (w 0 + w sections) +
      ((g 0 + w 0) + (g sections + w sections)) := by
    rw [gearFaces, List.flatten_append, List.flatten_append, ← Multiset.coe_add, ← Multiset.coe_add, hside, hring]
    congr 1
    rw [← hcover, ← hcover, Multiset.coe_add]
    simp
  have hcol : ∀ ii < sections, ∑ j ∈ Finset.range teeth, ∑ p ∈ Finset.range P, c ii j (p + 1) =
      ∑ j ∈ Finset.range teeth, ∑ p ∈ Finset.range P, c ii j p := by
    intro ii hii
    have h1 : ∀ j, c ii j P = c ii (j + 1) 0 := by
      intro j
      rw [hc]
      simp only [knots_zero]
      rw [column_seam (hseam ii hii) j]
    have h2 : c ii teeth 0 = c ii 0 0 := by
      rw [hc]
      simp only [column_full hk]
    have h3 : ∀ j, ∑ p ∈ Finset.range P, c ii j (p + 1) + c ii j 0 =
        ∑ p ∈ Finset.range P, c ii j p + c ii (j + 1) 0 := by
      intro j
      rw [← h1, ← Finset.sum_range_succ, ← Finset.sum_range_succ']
    have h4 := Finset.sum_congr (rfl : Finset.range teeth = _) fun j _ => h3 j
    rw [Finset.sum_add_distrib, Finset.sum_add_distrib, sum_cyclic teeth (fun j => c ii j 0) h2] at h4
    exact add_right_cancel h4
  have hrow : ∑ ii ∈ Finset.range sections, g (ii + 1) + g 0 = ∑ ii ∈ Finset.range sections, g ii + g sections := by
    rw [← Finset.sum_range_succ', ← Finset.sum_range_succ]
  refine ⟨∑ ii ∈ Finset.range sections, g ii + g sections +
    ∑ ii ∈ Finset.range sections, ∑ j ∈ Finset.range teeth, ∑ p ∈ Finset.range P, c ii j p + (w 0 + w sections), ?_⟩
  rw [htotal]
  have e5 : ∑ ii ∈ Finset.range sections, (g ii + g (ii + 1) +
        ∑ j ∈ Finset.range teeth, ∑ p ∈ Finset.range P, (c ii j p + c ii j (p + 1))) =
      ∑ ii ∈ Finset.range sections, g ii + ∑ ii ∈ Finset.range sections, g (ii + 1) +
      (∑ ii ∈ Finset.range sections, ∑ j ∈ Finset.range teeth, ∑ p ∈ Finset.range P, c ii j p +
       ∑ ii ∈ Finset.range sections, ∑ j ∈ Finset.range teeth, ∑ p ∈ Finset.range P, c ii j p) := by
    rw [← Finset.sum_add_distrib, ← Finset.sum_add_distrib, ← Finset.sum_add_distrib]
    refine Finset.sum_congr rfl fun ii hii => ?_
    rw [← hcol ii (Finset.mem_range.1 hii)]
    congr 1
    simp only [Finset.sum_add_distrib]
    rw [hcol ii (Finset.mem_range.1 hii)]
  rw [e5]
  obtain ⟨A, hA⟩ : ∃ A, A = ∑ ii ∈ Finset.range sections, g ii := ⟨_, rfl⟩
  obtain ⟨B, hB⟩ : ∃ B, B = ∑ ii ∈ Finset.range sections, g (ii + 1) := ⟨_, rfl⟩
  rw [← hA, ← hB] at hrow
  rw [← hA, ← hB]
  generalize (∑ ii ∈ Finset.range sections, ∑ j ∈ Finset.range teeth, ∑ p ∈ Finset.range P, c ii j p) = C
  calc A + B + (C + C) + (w 0 + w sections) + (g 0 + w 0 + (g sections + w sections))
      = A + (B + g 0) + (C + C) + (w 0 + w sections) + (w 0 + w sections) + g sections := by abel
    _ = A + (A + g sections) + (C + C) + (w 0 + w sections) + (w 0 + w sections) + g sections := by rw [hrow]
    _ = _ := by abel

/-- **C130, ruled sides.** With two vertical control points (straight teeth) the faces close up, whatever the optimisers
returned. -/
theorem c130_ruled (hS : ∀ h, ShellSlice pitch cont (N h))
    (hK : ∀ h h', knots (N h).sideMembers = knots (N h').sideMembers) (hr : 1 ≤ ratio)
    (trf : ℝ → GearTransform) (teeth sections : ℕ) (hk : pitch * teeth = 2 * π) (ring : Option ℝ)
    (hz : ∀ h, (trf h).center 2 = h) :
    ClosedShell (gearFaces N trf z 2 ratio x cont pitch teeth sections ring) := by
  refine c130_seams hS hK le_rfl hr trf teeth sections hk ring hz ?_
  intro ii _ r hrow
  obtain ⟨mid, hmid, h2⟩ := sideRows_shape (fun h => packRow (sideWidth N z ii) (N h).sideMembers) z 2 le_rfl ratio hr x ii
  rw [h2 rfl] at hmid
  have hd : r ∈ [packRow (sideWidth N z ii) (N (z ii)).sideMembers, packRow (sideWidth N z ii) (N (z (ii + 1))).sideMembers] := by
    have : sideData N z 2 ratio x ii = [packRow (sideWidth N z ii) (N (z ii)).sideMembers,
      packRow (sideWidth N z ii) (N (z (ii + 1))).sideMembers] := hmid
    rwa [this] at hrow
  have key : ∀ h, RowSeam pitch ((knots (N (z 0)).sideMembers).getD ((N (z 0)).sideMembers.length - 3) 0)
      (packRow (sideWidth N z ii) (N h).sideMembers) := by
    intro h
    have := slice_seam (n := sideWidth N z ii) (hS h) (same_shape (hS h) (hS (z ii)) (hK _ _)).1
    rwa [hK h (z 0), (same_shape (hS h) (hS (z 0)) (hK _ _)).2] at this
  rcases List.mem_cons.1 hd with rfl | hd
  · exact key _
  · rw [List.mem_singleton] at hd
    rw [hd]; exact key _

/-! ### Fitted sides -/

/-- The rows that have the seam form a linear space. -/
def seamSpace (n : ℕ) (pitch : ℝ) (c : ℕ) : Submodule ℝ (Fin (4 * n) → ℝ) where
  carrier := {r | RowSeam pitch c r}
  add_mem' := by
    intro r s hr hs
    have e1 : ∀ c, (rowPoints n (r + s)).getD c 0 = (rowPoints n r).getD c 0 + (rowPoints n s).getD c 0 := by
      intro c
      simp only [rowPoints, List.getD_eq_getElem?_getD, List.getElem?_ofFn]
      split_ifs
      · apply V3.ext3 <;> simp
      · simp
    have e2 : ∀ c, (rowWeights n (r + s)).getD c 0 = (rowWeights n r).getD c 0 + (rowWeights n s).getD c 0 := by
      intro c
      simp only [rowWeights, List.getD_eq_getElem?_getD, List.getElem?_ofFn]
      split_ifs <;> simp
    refine ⟨?_, ?_⟩
    · rw [e1, e1, app_add, hr.1, hs.1]
    · rw [e2, e2, hr.2, hs.2]
  zero_mem' := by
    have e1 : ∀ c, (rowPoints n 0).getD c 0 = 0 := by
      intro c
      simp only [rowPoints, List.getD_eq_getElem?_getD, List.getElem?_ofFn]
      split_ifs
      · apply V3.ext3 <;> simp
      · simp
    have e2 : ∀ c, (rowWeights n 0).getD c 0 = 0 := by
      intro c
      simp only [rowWeights, List.getD_eq_getElem?_getD, List.getElem?_ofFn]
      split_ifs <;> simp
    refine ⟨?_, ?_⟩
    · rw [e1, e1]; apply V3.ext3 <;> simp [app]
    · rw [e2, e2]
  smul_mem' := by
    intro a r hr
    have e1 : ∀ c, (rowPoints n (a • r)).getD c 0 = a • (rowPoints n r).getD c 0 := by
      intro c
      simp only [rowPoints, List.getD_eq_getElem?_getD, List.getElem?_ofFn]
      split_ifs
      · apply V3.ext3 <;> simp
      · simp
    have e2 : ∀ c, (rowWeights n (a • r)).getD c 0 = a • (rowWeights n r).getD c 0 := by
      intro c
      simp only [rowWeights, List.getD_eq_getElem?_getD, List.getElem?_ofFn]
      split_ifs <;> simp
    refine ⟨?_, ?_⟩
    · rw [e1, e1, app_smul, hr.1]
    · rw [e2, e2, hr.2]

/-- The inner control rows packed in `x` lie in `W`. -/
def RowsIn {q : ℕ} (m : ℕ) (W : Submodule ℝ (Fin q → ℝ)) (x : ℕ → ℝ) : Prop :=
  ∀ k < m - 2, (fun j : Fin q => x (k * q + j)) ∈ W

section
variable {q o : ℕ} {T : ℕ → Fin q → ℝ} {W : Submodule ℝ (Fin q → ℝ)}

theorem rowsIn_pack (P : ℕ → Fin q → ℝ) (t : ℕ → ℝ) (h : ∀ k, 1 ≤ k → k < m - 1 → P k ∈ W) (dp : ℕ → ℕ → ℝ)
    (hdp : ∀ k, k < m → ∀ j : Fin q, dp k j = P k j) :
    RowsIn m W (surfPack q m o dp t) := by
  intro k hk
  have e : (fun j : Fin q => surfPack q m o dp t (k * q + j)) = P (k + 1) := by
    funext j
    have hj := j.2
    have hb : k * q + (j : ℕ) < (m - 2) * q := by
      calc k * q + (j : ℕ) < k * q + q := by omega
        _ = (k + 1) * q := by ring
        _ ≤ (m - 2) * q := Nat.mul_le_mul_right _ (by omega)
    rw [surfPack, if_pos hb, Nat.mul_comm k q, Nat.mul_add_div (by omega), Nat.mul_add_mod, Nat.div_eq_of_lt hj,
      Nat.mod_eq_of_lt hj, add_zero, hdp _ (by omega)]
  rw [e]
  exact h _ (by omega) (by omega)

theorem surfPoints_mem (hT : ∀ i, T i ∈ W) {x : ℕ → ℝ} (hx : RowsIn m W x) (k : ℕ) : surfPoints q m o T x k ∈ W := by
  rw [surfPoints]
  split_ifs with h1
  · exact hx (k - 1) (by omega)
  · exact hT _
  · exact hT _

/-- Gradients stay in the space of the targets. -/
theorem gradient_in (hm : 2 ≤ m) (hT : ∀ i, T i ∈ W) (t : (ℕ → ℝ) → ℕ → ℝ) (dtf : (Fin (o - 2) →
      ((Fin q → ℝ) × (Fin m → ℝ) × (Fin q → ℝ))) → ℕ → ℝ) {x J : ℕ → ℝ} (hx : RowsIn m W x)
    (hJ : (optSeq fun i : Fin (o - 2) => surfRow q m o T x (t x) i).map (fun r =>
      surfPack q m o (fun k j => if h : k < m ∧ j < q then
        ∑ i : Fin (o - 2), (r i).2.1 ⟨k, h.1⟩ * (r i).1 ⟨j, h.2⟩ else 0) (dtf r)) = some J) : RowsIn m W J := by
  rw [optSeq_eq_some fun i : Fin (o - 2) => surfRow_eq (T := T) (q := q) (o := o) hm x (t x) i, Option.map_some] at hJ
  obtain rfl := Option.some.inj hJ
  refine rowsIn_pack (fun k => if h : k < m then ∑ i : Fin (o - 2), (-Spec.bern (m - 1) k (t x i)) •
    (T (i + 1) - ∑ l : Fin m, Spec.bern (m - 1) l (t x i) • surfPoints q m o T x l) else 0) _ ?_ _ ?_
  · intro k _ _
    split_ifs
    · exact W.sum_mem fun i _ => W.smul_mem _ (W.sub_mem (hT _) (W.sum_mem fun l _ => W.smul_mem _ (surfPoints_mem hT hx _)))
    · exact W.zero_mem
  · intro k hk j
    rw [dif_pos ⟨hk, j.2⟩, dif_pos hk]
    simp only [Finset.sum_apply, Pi.smul_apply, smul_eq_mul]

theorem descent_in (hm : 2 ≤ m) {cost : (ℕ → ℝ) → Option (ℝ × (ℕ → ℝ))}
    (hc : ∀ x c J, RowsIn m W x → cost x = some (c, J) → RowsIn m W J) {x0 x : ℕ → ℝ} (h0 : RowsIn m W x0)
    (h : Descent cost x0 x) : RowsIn m W x := by
  induction h with
  | start => exact h0
  | @step x y J c r _ _ hJ ihx ihy =>
    intro k hk
    exact W.add_mem (ihx k hk) (W.smul_mem r (hc y c J ihy hJ k hk))

/-- Everything the solvers can return stays in the space of the targets. -/
theorem solution_in (hm : 2 ≤ m) (ho : 2 ≤ o) (hT : ∀ i, T i ∈ W) {x : ℕ → ℝ} (h : SurfSolution q m o T x) :
    RowsIn m W x := by
  obtain ⟨y, h1, h2⟩ := h
  have hne : (List.ofFn fun i : Fin o => T i) ≠ [] := by
    intro e; have := congrArg List.length e; simp at this; omega
  have hy : RowsIn m W y := by
    refine descent_in hm ?_ ?_ h1
    · intro x c J hx hJ
      rw [surfCostFast] at hJ
      refine gradient_in (o := o) hm hT (fun _ => surfTFast o) (fun _ _ => 0) hx ?_
      have := congrArg (Option.map Prod.snd) hJ
      rwa [Option.map_map] at this
    · refine rowsIn_pack (fun k => (bezierdc (linspaceAt 0 1 m k) (List.ofFn fun i : Fin o => T i)).getD 0) _ ?_ _ ?_
      · intro k _ _
        rw [(c01_evaluators_correct _ _ hne).1, Option.getD_some, spec_bezier_ofFn]
        exact W.sum_mem fun i _ => W.smul_mem _ (hT _)
      · intro k _ j
        rw [dif_pos j.2]
  refine descent_in hm ?_ ?_ h2
  · intro x c J hx hJ
    rw [surfCost] at hJ
    refine gradient_in (o := o) hm hT (fun x => surfT q m x) (fun r i =>
      if h : i < o - 2 then ∑ j : Fin q, (r ⟨i, h⟩).1 j * (r ⟨i, h⟩).2.2 j else 0) hx ?_
    have := congrArg (Option.map Prod.snd) hJ
    rwa [Option.map_map] at this
  · refine rowsIn_pack (fun k => surfPoints q m o T y k) _ (fun k _ _ => surfPoints_mem hT hy k) _ ?_
    intro k _ j
    rw [dif_pos j.2]

end

/-- **C130, fitted sides.** With any number of vertical control points the faces close up, if the optimiser only moves along
the gradients it is given, wherever it stops. -/
theorem c130_fitted (hS : ∀ h, ShellSlice pitch cont (N h))
    (hK : ∀ h h', knots (N h).sideMembers = knots (N h').sideMembers) (hm : 2 ≤ m) (hr : 1 ≤ ratio)
    (trf : ℝ → GearTransform) (teeth sections : ℕ) (hk : pitch * teeth = 2 * π) (ring : Option ℝ)
    (hz : ∀ h, (trf h).center 2 = h)
    (hx : ∀ ii < sections, SurfSolution (4 * sideWidth N z ii) m (nZTweens m ratio).toNat
      (sideTargets (fun h => packRow (sideWidth N z ii) (N h).sideMembers) z m ratio ii) (x ii)) :
    ClosedShell (gearFaces N trf z m ratio x cont pitch teeth sections ring) := by
  refine c130_seams hS hK hm hr trf teeth sections hk ring hz ?_
  intro ii hii r hrow
  have key : ∀ h, packRow (sideWidth N z ii) (N h).sideMembers ∈ seamSpace (sideWidth N z ii) pitch
      ((knots (N (z 0)).sideMembers).getD ((N (z 0)).sideMembers.length - 3) 0) := by
    intro h
    have := slice_seam (n := sideWidth N z ii) (hS h) (same_shape (hS h) (hS (z ii)) (hK _ _)).1
    rwa [hK h (z 0), (same_shape (hS h) (hS (z 0)) (hK _ _)).2] at this
  have hT : ∀ i, sideTargets (fun h => packRow (sideWidth N z ii) (N h).sideMembers) z m ratio ii i ∈
      seamSpace (sideWidth N z ii) pitch
        ((knots (N (z 0)).sideMembers).getD ((N (z 0)).sideMembers.length - 3) 0) := fun i => key _
  obtain ⟨h1, h2, h3⟩ := c77_section_count m hm ratio hr
  have hin := solution_in hm (by omega) hT (hx ii hii)
  rw [sideData, sideRows] at hrow
  split_ifs at hrow
  · rw [List.mem_ofFn] at hrow
    obtain ⟨i, rfl⟩ := hrow
    exact hT _
  · rw [List.mem_ofFn] at hrow
    obtain ⟨i, rfl⟩ := hrow
    exact surfPoints_mem hT hin _

end

/-! ### Gears -/

section
variable {α : Type} {o : CurveOps α} {asEuler : M3 → ℝ × ℝ × ℝ} {tooth : α} {T : ℝ → V3}
  {pitch r θ z0 ρ φ z1 rA rD rO zO coneAngle zc sMid : ℝ} {members : α → List Curve}

/-- A transform along the axis of the gear, not so small that the pitch vanishes. -/
structure Coaxial (r pitch : ℝ) (trf : GearTransform) : Prop where
  orientation : trf.orientation = 1
  x : trf.center 0 = 0
  y : trf.center 1 = 0
  size : DELTA / 100 ≤ |trf.scale| * (2 * r * sin (pitch / 2))

/-- Every slice of a cylindrical gear is as the shell needs it. -/
theorem c130_slice (hE : EulerOk asEuler)
    (h : OutlineOk o tooth T pitch r θ z0 ρ φ z1 rA rO zO coneAngle zc) (rD sMid : ℝ)
    (hs : pitch * sMid = 2 * θ + pitch)
    (ht : Path curveOps (members tooth) (T 0) (T 1)) (hex : ∃ c ∈ members tooth, c.active = true)
    (opt : ℕ → ℝ → Curve → ℕ → ℝ) (n : ℕ) (hn : 2 ≤ n) (ratio : ℝ) (hr : 0 ≤ ratio) :
    ∃ P E, closeProfile o asEuler tooth rA rD rO ![0, 0, zO] pitch = some P ∧
      profileExtensions o asEuler P coneAngle ![0, 0, zc] sMid = some E ∧
      ∀ trf S cont, Coaxial r pitch trf → profileToNurbExt members opt n ratio trf E = some S →
        ShellSlice pitch cont S ∧ (coverEdges cont S.base).head?.bind (fun e => e.1.head?) =
          some (applyGearTransform (app (Rz (-pitch)) (flipY (T 0))) trf) := by
  obtain ⟨P, E, p⟩ := parts_exist hE h rD sMid hs
  refine ⟨P, E, p.made, p.ext, fun trf S cont ht' hN => ?_⟩
  obtain ⟨f, ds, d1, d2, d3⟩ := closed_pieces p ht hex hn hr hN
  obtain ⟨g1, g2⟩ := profile_pieces f p.ra p.rd
  have hab : norm3 (applyGearTransform (rootStart T pitch) trf - applyGearTransform (flipY (T 0)) trf) < DELTA / 100 →
      applyGearTransform (rootStart T pitch) trf = applyGearTransform (flipY (T 0)) trf := by
    intro hlt
    exfalso
    rw [place_chord _ (by rw [ht'.orientation]; exact IsRot.one)] at hlt
    rw [show rootStart T pitch = cyl r (-θ - pitch) z0 by rw [rootStart_polar h.tooth, h.root]; simp [cyl],
      show flipY (T 0) = cyl r (-θ) z0 by rw [h.root, flipY_cyl],
      chord_cyl h.tooth.rootPos _ _ h.tooth.pitchPos.le h.tooth.pitchLe] at hlt
    linarith [ht'.size]
  have hb : applyGearTransform (flipY (T 0)) trf =
      app (Rz pitch) (applyGearTransform (app (Rz (-pitch)) (flipY (T 0))) trf) := by
    rw [← coaxial_turn trf ht'.orientation ht'.x ht'.y, ← app_mul, ← Rz_add, add_neg_cancel, Rz_zero, app_one]
  have hrs : rootStart T pitch = app (Rz (-pitch)) (flipY (T 0)) := rfl
  have hc := cover_eq (cont := cont) g1 hab
  rw [hb, hrs] at g1 d3
  refine ⟨⟨_, _, ds, g2, d1, d2, g1, d3, hc⟩, ?_⟩
  obtain ⟨n', n1, n2, -⟩ := g1.first g2
  rw [hc, List.head?_map, n1]
  exact n2

/-- Slices that differ in their transform only have the same knots. -/
theorem knots_placed {opt : ℕ → ℝ → Curve → ℕ → ℝ} {n : ℕ} {ratio : ℝ} {E : ExtProfile α} {trf trf' : GearTransform}
    {S S' : NurbProfileExt} (h : profileToNurbExt members opt n ratio trf E = some S)
    (h' : profileToNurbExt members opt n ratio trf' E = some S') : knots S.sideMembers = knots S'.sideMembers := by
  simp only [profileToNurbExt, profileToNurb, Option.bind_eq_bind, Option.bind_eq_some_iff] at h h'
  obtain ⟨B, ⟨t, b1, mi, b2, ra, b3, rd, b4, ro, b5, b6⟩, c0, h2, c2, h3, h4⟩ := h
  obtain ⟨B', ⟨t', b1', mi', b2', ra', b3', rd', b4', ro', b5', b6'⟩, c0', h2', c2', h3', h4'⟩ := h'
  rw [b1] at b1'; obtain rfl := Option.some.inj b1'
  rw [b2] at b2'; obtain rfl := Option.some.inj b2'
  rw [b3] at b3'; obtain rfl := Option.some.inj b3'
  rw [b4] at b4'; obtain rfl := Option.some.inj b4'
  rw [b5] at b5'; obtain rfl := Option.some.inj b5'
  rw [h2] at h2'; obtain rfl := Option.some.inj h2'
  rw [h3] at h3'; obtain rfl := Option.some.inj h3'
  obtain rfl := Option.some.inj b6
  obtain rfl := Option.some.inj b6'
  obtain rfl := Option.some.inj h4
  obtain rfl := Option.some.inj h4'
  have key : ∀ f : V3 → V3, NurbProfileExt.profileClosed
      ⟨⟨ra.move f, rd.move f, ro.move f, t.map (NurbSeg.move f), mi.map (NurbSeg.move f)⟩, c0.move f, c2.move f⟩ =
      (rd :: t ++ ra :: mi ++ [c2.reverse, ro.reverse, c0]).map (NurbSeg.move f) := by
    intro f
    simp [NurbProfileExt.profileClosed, NurbProfile.profile, NurbSeg.move, NurbSeg.reverse, List.map_reverse]
  have len : ∀ (f : V3 → V3) (l : List NurbSeg), (((l.map (NurbSeg.move f)).filter NurbSeg.active).map NurbSeg.nurb).map
      (fun c => c.points.length) = ((l.filter NurbSeg.active).map NurbSeg.nurb).map (fun c => c.points.length) := by
    intro f l
    induction l with
    | nil => rfl
    | cons s l ih =>
      by_cases ha : s.active = true
      · have ha' : (s.move f).active = true := ha
        simp only [List.map_cons, List.filter_cons, ha, ha', if_true]
        rw [ih]
        simp [NurbSeg.move]
      · have ha' : ¬(s.move f).active = true := ha
        simp only [List.map_cons, List.filter_cons, if_neg ha, if_neg ha']
        exact ih
  rw [knots, knots, knotsFrom_eq, knotsFrom_eq, NurbProfileExt.sideMembers, NurbProfileExt.sideMembers, key, key, len, len]

/-- **C130.** The faces of every spur and helical gear without crowning close up. All slices are the same profile, moved
along the axis and turned; `N h` is the NURBS version of the slice at height `h`. -/
theorem c130_gear (hE : EulerOk asEuler)
    (h : OutlineOk o tooth T pitch r θ z0 ρ φ z1 rA rO zO coneAngle zc) (rD sMid : ℝ)
    (hs : pitch * sMid = 2 * θ + pitch)
    (ht : Path curveOps (members tooth) (T 0) (T 1)) (hex : ∃ c ∈ members tooth, c.active = true)
    (opt : ℕ → ℝ → Curve → ℕ → ℝ) (n : ℕ) (hn : 2 ≤ n) (ratio : ℝ) (hr : 1 ≤ ratio)
    (trf : ℝ → GearTransform) (htrf : ∀ h, Coaxial r pitch (trf h)) (hz : ∀ h, (trf h).center 2 = h)
    (teeth sections : ℕ) (hk : pitch * teeth = 2 * π) (z : ℕ → ℝ) (ring : Option ℝ) :
    ∃ P E, closeProfile o asEuler tooth rA rD rO ![0, 0, zO] pitch = some P ∧
      profileExtensions o asEuler P coneAngle ![0, 0, zc] sMid = some E ∧
      ∀ (N : ℝ → NurbProfileExt) (cont : List (Nurb V3) → Bool),
        (∀ h, profileToNurbExt members opt n ratio (trf h) E = some (N h)) →
        (∀ x, ClosedShell (gearFaces N trf z 2 ratio x cont pitch teeth sections ring)) ∧
        ∀ m x, 2 ≤ m → (∀ ii < sections, SurfSolution (4 * sideWidth N z ii) m (nZTweens m ratio).toNat
            (sideTargets (fun h => packRow (sideWidth N z ii) (N h).sideMembers) z m ratio ii) (x ii)) →
          ClosedShell (gearFaces N trf z m ratio x cont pitch teeth sections ring) := by
  obtain ⟨P, E, e1, e2, e3⟩ := c130_slice hE h rD sMid hs ht hex opt n hn ratio (by linarith)
  refine ⟨P, E, e1, e2, fun N cont hN => ?_⟩
  have hS : ∀ h, ShellSlice pitch cont (N h) := fun h => (e3 (trf h) (N h) cont (htrf h) (hN h)).1
  have hK : ∀ h h', knots (N h).sideMembers = knots (N h').sideMembers := fun h h' => knots_placed (hN h) (hN h')
  exact ⟨fun x => c130_ruled hS hK hr trf teeth sections hk ring hz,
    fun m x hm hx => c130_fitted hS hK hm hr trf teeth sections hk ring hz hx⟩

/-! ### Borders of a surface -/

/-- **C130, what a border is.** The four sides of a rational Bezier surface are the rational Bezier curves of the first and
the last row and of the first and the last column of its control points and weights; so faces that share this data share the
side as a curve, point by point. -/
theorem c130_border_curves {n m : ℕ} (w : Fin (n + 1) → Fin (m + 1) → ℝ) (p : Fin (n + 1) → Fin (m + 1) → V3) (t : ℝ) :
    Spec.rationalSurface (n + 1) (m + 1) w p 0 t = Spec.rationalCurve (List.ofFn fun j => (w 0 j, p 0 j)) t ∧
      Spec.rationalSurface (n + 1) (m + 1) w p 1 t =
        Spec.rationalCurve (List.ofFn fun j => (w (Fin.last n) j, p (Fin.last n) j)) t ∧
      Spec.rationalSurface (n + 1) (m + 1) w p t 0 = Spec.rationalCurve (List.ofFn fun i => (w i 0, p i 0)) t ∧
      Spec.rationalSurface (n + 1) (m + 1) w p t 1 =
        Spec.rationalCurve (List.ofFn fun i => (w i (Fin.last m), p i (Fin.last m))) t := by
  have b0 : ∀ (k : ℕ) (i : Fin (k + 1)), Spec.bern (k + 1 - 1) i 0 = if i = 0 then 1 else 0 := by
    intro k i
    rw [Spec.bern, bernsteinPolynomial.eval_at_0]
    by_cases h : i = 0
    · rw [if_pos h, if_pos (by rw [h]; rfl)]
    · rw [if_neg h]
      exact if_neg fun e => h (Fin.ext e)
  have b1 : ∀ (k : ℕ) (i : Fin (k + 1)), Spec.bern (k + 1 - 1) i 1 = if i = Fin.last k then 1 else 0 := by
    intro k i
    rw [Spec.bern, bernsteinPolynomial.eval_at_1]
    by_cases h : i = Fin.last k
    · rw [if_pos h, if_pos (by rw [h]; rfl)]
    · rw [if_neg h]
      exact if_neg fun e => h (Fin.ext e)
  have curve : ∀ (k : ℕ) (w : Fin (k + 1) → ℝ) (p : Fin (k + 1) → V3),
      Spec.rationalCurve (List.ofFn fun j => (w j, p j)) t =
        (∑ j : Fin (k + 1), Spec.bern (k + 1 - 1) j t * w j)⁻¹ •
          ∑ j : Fin (k + 1), (Spec.bern (k + 1 - 1) j t * w j) • p j := by
    intro k w p
    have e : ∀ {M : Type} [AddCommMonoid M] (f : ℕ → ℝ × V3 → M),
        ∑ i : Fin (List.ofFn fun j => (w j, p j)).length, f i (List.ofFn fun j => (w j, p j))[i] =
          ∑ j : Fin (k + 1), f j (w j, p j) := by
      intro M _ f
      rw [← Equiv.sum_comp (finCongr (List.length_ofFn (f := fun j => (w j, p j))).symm)]
      exact Finset.sum_congr rfl fun j _ => by
        simp only [finCongr_apply, Fin.getElem_fin, Fin.val_cast, List.getElem_ofFn]
    rw [Spec.rationalCurve, Spec.weight, e fun i c => Spec.bern ((List.ofFn fun j => (w j, p j)).length - 1) i t * c.1,
      e fun i c => (Spec.bern ((List.ofFn fun j => (w j, p j)).length - 1) i t * c.1) • c.2, List.length_ofFn]
  simp only [Spec.rationalSurface, curve, b0, b1]
  refine ⟨?_, ?_, ?_, ?_⟩ <;> simp

/-! ### Partial gears -/

theorem Spec.Wire.unique {l : List (ℝ → Option V3)} {a b a' b' : V3} (h : Spec.Wire l a b) (h' : Spec.Wire l a' b')
    (hne : l ≠ []) : a = a' ∧ b = b' := by
  have key : ∀ (l : List (ℝ → Option V3)) (a b c : V3), Spec.Wire l a b → Spec.Wire l a c → b = c := by
    intro l
    induction l with
    | nil => intro a b c h1 h2; cases h1; cases h2; rfl
    | cons f l ih =>
      intro a b c h1 h2
      cases h1 with
      | cons x0 x1 x2 =>
        cases h2 with
        | cons y0 y1 y2 =>
          rw [x1] at y1
          obtain rfl := Option.some.inj y1
          exact ih _ _ _ x2 y2
  have ha : a = a' := by
    cases h with
    | nil => exact absurd rfl hne
    | cons x0 _ _ =>
      cases h' with
      | cons y0 _ _ => rw [x0] at y0; exact Option.some.inj y0
  subst ha
  exact ⟨rfl, key _ _ _ _ h h'⟩

theorem turn_ne {a : V3} (ha : a 0 ^ 2 + a 1 ^ 2 ≠ 0) {ψ : ℝ} (h0 : 0 < ψ) (h1 : ψ < 2 * π) : app (Rz ψ) a ≠ a := by
  intro e
  have e0 := congrFun e 0
  have e1 := congrFun e 1
  rw [Rz_app] at e0 e1
  simp at e0 e1
  have : (cos ψ - 1) * (a 0 ^ 2 + a 1 ^ 2) = 0 := by linear_combination a 0 * e0 + a 1 * e1
  have hc : cos ψ = 1 := by
    rcases mul_eq_zero.1 this with h | h
    · linarith
    · exact absurd h ha
  rw [Real.cos_eq_one_iff] at hc
  obtain ⟨k, hk⟩ := hc
  have k0 : (0 : ℝ) < k := by
    by_contra hn
    have : (k : ℝ) * (2 * π) ≤ 0 := mul_nonpos_of_nonpos_of_nonneg (by linarith) (by linarith [pi_pos])
    linarith
  have k1 : (k : ℝ) < 1 := by
    by_contra hn
    have : 1 * (2 * π) ≤ (k : ℝ) * (2 * π) := mul_le_mul_of_nonneg_right (by linarith) (by linarith [pi_pos])
    linarith
  have : 0 < k := by exact_mod_cast k0
  have : k < 1 := by exact_mod_cast k1
  omega

/-- **C130 violated, partial gears.** If the teeth do not go all the way round, because some are cut out or because the
number of teeth is not whole, the edges of a cover do not form a closed wire: no face has them as its outline. -/
theorem c130_partial_gear_violated (hE : EulerOk asEuler)
    (h : OutlineOk o tooth T pitch r θ z0 ρ φ z1 rA rO zO coneAngle zc) (rD sMid : ℝ)
    (hs : pitch * sMid = 2 * θ + pitch)
    (ht : Path curveOps (members tooth) (T 0) (T 1)) (hex : ∃ c ∈ members tooth, c.active = true)
    (opt : ℕ → ℝ → Curve → ℕ → ℝ) (n : ℕ) (hn : 2 ≤ n) (ratio : ℝ) (hr : 0 ≤ ratio) (trf : GearTransform)
    (htrf : Coaxial r pitch trf) (teeth : ℕ) (h1 : 1 ≤ teeth) (h2 : pitch * teeth < 2 * π) :
    ∃ P E, closeProfile o asEuler tooth rA rD rO ![0, 0, zO] pitch = some P ∧
      profileExtensions o asEuler P coneAngle ![0, 0, zc] sMid = some E ∧
      ∀ S cont, profileToNurbExt members opt n ratio trf E = some S →
        ∀ p, ¬Spec.Wire ((List.range teeth).flatMap fun (j : ℕ) => ((coverEdges cont S.base).map pieceFn).map
          fun f t => (f t).map (app (Rz (pitch * j)))) p p := by
  obtain ⟨P, E, e1, e2, e3⟩ := c128_outline hE h rD sMid hs ht hex opt n hn ratio hr trf
    (by rw [htrf.orientation]; exact IsRot.one) htrf.size
  refine ⟨P, E, e1, e2, fun S cont hN p hp => ?_⟩
  obtain ⟨hne, g, -⟩ := e3 S cont hN
  obtain ⟨a, ha⟩ : ∃ a, a = applyGearTransform (app (Rz (-pitch)) (flipY (T 0))) trf := ⟨_, rfl⟩
  have hb : applyGearTransform (flipY (T 0)) trf = app (Rz pitch) a := by
    rw [ha, ← coaxial_turn trf htrf.orientation htrf.x htrf.y, ← app_mul, ← Rz_add, add_neg_cancel, Rz_zero, app_one]
  rw [← ha, hb] at g
  have hw : Spec.Wire ((List.range teeth).flatMap fun (j : ℕ) => ((coverEdges cont S.base).map pieceFn).map
      fun f t => (f t).map (app (Rz (pitch * j)))) a (app (Rz (pitch * teeth)) a) := by
    have := g.turn teeth
    simpa using this
  have hl : ((List.range teeth).flatMap fun (j : ℕ) => ((coverEdges cont S.base).map pieceFn).map
      fun f t => (f t).map (app (Rz (pitch * j)))) ≠ [] := by
    obtain ⟨k, rfl⟩ : ∃ k, teeth = k + 1 := ⟨teeth - 1, by omega⟩
    rw [List.range_succ_eq_map, List.flatMap_cons]
    intro e
    have := List.append_eq_nil_iff.1 e
    apply hne
    simpa using this.1
  obtain ⟨u1, u2⟩ := hw.unique hp hl
  have hsc : trf.scale ≠ 0 := by
    intro e
    have := htrf.size
    rw [e, abs_zero, zero_mul, DELTA] at this
    norm_num at this
  have hoff : a 0 ^ 2 + a 1 ^ 2 ≠ 0 := by
    have e : flipY (T 0) = cyl r (-θ) z0 := by rw [h.root, flipY_cyl]
    have : a 0 ^ 2 + a 1 ^ 2 = (trf.scale * r) ^ 2 := by
      rw [ha, applyGearTransform_eq, htrf.orientation, app_one, e, ← app_mul, ← Rz_add, Rz_app]
      simp only [cyl, Pi.add_apply, Pi.smul_apply, smul_eq_mul, htrf.x, htrf.y]
      simp
      generalize trf.angle + -pitch = β
      linear_combination (trf.scale * r) ^ 2 * (cos θ ^ 2 + sin θ ^ 2) * sin_sq_add_cos_sq β +
        (trf.scale * r) ^ 2 * sin_sq_add_cos_sq θ
    rw [this]
    exact pow_ne_zero _ (mul_ne_zero hsc h.tooth.rootPos.ne')
  have hpos : 0 < pitch * teeth := mul_pos h.tooth.pitchPos (by exact_mod_cast h1)
  exact turn_ne hoff hpos h2 (u2.trans u1.symm)

end

/-- Concrete case for C130: a helical gear with four straight-sided teeth in two sections. Its faces close up, with ruled
sides whatever the optimisers say, with fitted sides if the solvers stop where they start; with one tooth left out the
outline of a cover stays open. -/
theorem c130_case : ∃ (asEuler : M3 → ℝ × ℝ × ℝ) (P : RefProfile Curve) (E : ExtProfile Curve) (N : ℝ → NurbProfileExt)
    (trf : ℝ → GearTransform),
    closeProfile curveOps asEuler (lineC ![√3, -1, 0] ![3, -1 / 2, 0]) (√(37 / 4)) 2 1 ![0, 0, 0] (π / 2) = some P ∧
    profileExtensions curveOps asEuler P 0 ![0, 0, 0] (1 / 3) = some E ∧
    (∀ h, profileToNurbExt (fun c => [c]) (fun _ _ _ _ => 7) 4 3 (trf h) E = some (N h)) ∧
    (∀ x, ClosedShell (gearFaces N trf (fun i => i) 2 3 x (fun _ => true) (π / 2) 4 2 none)) ∧
    (∃ x, ClosedShell (gearFaces N trf (fun i => i) 4 3 x (fun _ => true) (π / 2) 4 2 none)) ∧
    ∀ p, ¬Spec.Wire ((List.range 3).flatMap fun (j : ℕ) => ((coverEdges (fun _ => true) (N 0).base).map pieceFn).map
      fun f t => (f t).map (app (Rz (π / 2 * j)))) p p := by
  obtain ⟨asEuler, hE⟩ := eulerOk_exists
  have hl : Plain (lineC ![√3, -1, 0] ![3, -1 / 2, 0]) (exampleFlank 0) (exampleFlank 1) := by
    have hne : (![√3, -1, 0] : V3) ≠ ![3, -1 / 2, 0] := by
      intro e
      have := congrFun e 1
      norm_num at this
    have := line_plain hne
    rw [show exampleFlank 0 = ![√3, -1, 0] by simp [exampleFlank], show exampleFlank 1 = ![3, -1 / 2, 0] by
      apply V3.ext3 <;> simp [exampleFlank] <;> norm_num]
    exact this
  have hp : Path curveOps [lineC ![√3, -1, 0] ![3, -1 / 2, 0]] (exampleFlank 0) (exampleFlank 1) := .cons hl.seg (.nil _)
  have hex : ∃ c ∈ [lineC ![√3, -1, 0] ![3, -1 / 2, 0]], c.active = true := ⟨_, by simp, hl.seg.active⟩
  obtain ⟨trf, htr⟩ : ∃ trf : ℝ → GearTransform, trf = fun h => ⟨⟨![0, 0, h], 1, 2⟩, h / 5⟩ := ⟨_, rfl⟩
  have hco : ∀ h, Coaxial 2 (π / 2) (trf h) := by
    intro h
    rw [htr]
    refine ⟨rfl, rfl, rfl, ?_⟩
    rw [show π / 2 / 2 = π / 4 by ring, sin_pi_div_four]
    have : (1 : ℝ) ≤ √2 := by rw [Real.one_le_sqrt]; norm_num
    rw [DELTA]; norm_num; linarith
  have hz : ∀ h, (trf h).center 2 = h := fun h => by rw [htr]; rfl
  have hcv := fun h => c128_converts (members := fun c => [c]) hE exampleOutline 2 (1 / 3) (by norm_num)
    (by linarith [pi_pos]) (by ring) hp hex
    (by
      intro c hc
      rw [List.mem_singleton] at hc
      rw [hc]
      exact Or.inl (Or.inl ⟨_, _, made_kind _ _ _⟩))
    (fun _ _ _ _ => 7) 4 (by norm_num) 3 (by norm_num) (trf h)
  obtain ⟨P, E, e1, e2, e3⟩ := c130_gear (members := fun c => [c]) hE exampleOutline 2 (1 / 3) (by ring) hp hex
    (fun _ _ _ _ => 7) 4 (by norm_num) 3 (by norm_num) trf hco hz 4 2 (by push_cast; ring) (fun i => i) none
  have hN : ∀ h, ∃ S, profileToNurbExt (fun c => [c]) (fun _ _ _ _ => 7) 4 3 (trf h) E = some S := by
    intro h
    obtain ⟨P', E', S, g1, g2, g3⟩ := hcv h
    rw [e1] at g1
    obtain rfl := Option.some.inj g1
    rw [e2] at g2
    obtain rfl := Option.some.inj g2
    exact ⟨S, g3⟩
  choose N hN using hN
  obtain ⟨s1, s2⟩ := e3 N (fun _ => true) hN
  refine ⟨asEuler, P, E, N, trf, e1, e2, hN, s1, ⟨_, s2 4 (fun ii => surfInit _ _ _ _ (surfInitFast _ _ _ _)) (by norm_num)
    fun ii _ => ⟨_, .start, .start⟩⟩, ?_⟩
  obtain ⟨P', E', g1, g2, g3⟩ := c130_partial_gear_violated (members := fun c => [c]) hE exampleOutline 2 (1 / 3) (by ring)
    hp hex (fun _ _ _ _ => 7) 4 (by norm_num) 3 (by norm_num) (trf 0) (hco 0) 3 (by norm_num)
    (by push_cast; linarith [pi_pos])
  rw [e1] at g1
  obtain rfl := Option.some.inj g1
  rw [e2] at g2
  obtain rfl := Option.some.inj g2
  exact g3 (N 0) _ (hN 0)

end Verif
