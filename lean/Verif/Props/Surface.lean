import Verif.Model.Surface
import Verif.Props.Fit2
import Verif.Props.Nurbs

/-! # Properties C88, C89: the side surfaces fit together -/

namespace Verif

theorem linspaceAt_first (a b : ℝ) (n : ℕ) : linspaceAt a b n 0 = a := by simp [linspaceAt]

theorem linspaceAt_last (a b : ℝ) (n : ℕ) (hn : 2 ≤ n) : linspaceAt a b n (n - 1) = b := by
  have h : (n : ℝ) - 1 ≠ 0 := by
    have : (2 : ℝ) ≤ n := by exact_mod_cast hn
    linarith
  rw [linspaceAt, Nat.cast_sub (by omega), Nat.cast_one, div_self h]
  ring

/-- **C88.** The surface of section `ii` begins, across its whole width, on the profile at its lower
height and ends on the profile at its upper height, whatever the optimiser returned. -/
theorem c88_section_ends {q : ℕ} (prof : ℝ → Fin q → ℝ) (z : ℕ → ℝ) (m : ℕ) (hm : 2 ≤ m) (ratio : ℝ)
    (hr : 1 ≤ ratio) (x : ℕ → ℕ → ℝ) (ii : ℕ) :
    bezierdc 0 (sideRows prof z m ratio x ii) = some (prof (z ii)) ∧
      bezierdc 1 (sideRows prof z m ratio x ii) = some (prof (z (ii + 1))) := by
  obtain ⟨h1, h2, h3⟩ := c77_section_count m hm ratio hr
  obtain ⟨o, ho⟩ : ∃ o, o = (nZTweens m ratio).toNat := ⟨_, rfl⟩
  have ho2 : 2 ≤ o := by omega
  have hl : sideTargets prof z m ratio ii (o - 1) = prof (z (ii + 1)) := by
    rw [sideTargets, ← ho, linspaceAt_last _ _ _ ho2]
  have hf : sideTargets prof z m ratio ii 0 = prof (z ii) := by
    rw [sideTargets, linspaceAt_first]
  have hend : ∀ (n : ℕ) (_ : 2 ≤ n) (P : Fin n → Fin q → ℝ) (p0 p1 : Fin q → ℝ),
      P ⟨0, by omega⟩ = p0 → P ⟨n - 1, by omega⟩ = p1 →
      bezierdc 0 (List.ofFn P) = some p0 ∧ bezierdc 1 (List.ofFn P) = some p1 := by
    intro n hn P p0 p1 h0 h1
    have hne : List.ofFn P ≠ [] := by
      intro e; have := congrArg List.length e; simp at this; omega
    have e0 : (List.ofFn P).head hne = p0 := by rw [List.head_ofFn]; exact h0
    have e1 : (List.ofFn P).getLast hne = p1 := by rw [List.getLast_ofFn]; exact h1
    exact ⟨e0 ▸ c02_start _ hne, e1 ▸ c02_end _ hne⟩
  rw [sideRows]
  simp only [← ho]
  split_ifs with h
  · subst h
    refine hend 2 le_rfl _ _ _ ?_ ?_
    · exact hf
    · exact hl
  · refine hend m hm _ _ _ ?_ ?_
    · simp only [surfPoints]
      rw [if_neg (by omega), if_neg (by omega), hf]
    · simp only [surfPoints]
      rw [if_neg (by omega), if_pos trivial, hl]

/-- **C88.** Neighbouring sections share their edge: the upper edge of one is the lower edge of the next. -/
theorem c88_shared_edge {q : ℕ} (prof : ℝ → Fin q → ℝ) (z : ℕ → ℝ) (m : ℕ) (hm : 2 ≤ m) (ratio : ℝ)
    (hr : 1 ≤ ratio) (x : ℕ → ℕ → ℝ) (ii : ℕ) :
    ∃ e, bezierdc 1 (sideRows prof z m ratio x ii) = some e ∧
      bezierdc 0 (sideRows prof z m ratio x (ii + 1)) = some e :=
  ⟨_, (c88_section_ends prof z m hm ratio hr x ii).2, (c88_section_ends prof z m hm ratio hr x (ii + 1)).1⟩

/-- Concrete case for C88: the default four control rows and ratio three; the middle rows are whatever
the optimiser said, the outer ones are not. -/
example : sideRows (fun z (_ : Fin 1) => z ^ 2) (fun i => (i : ℝ)) 3 3 (fun _ _ => 7) 1 =
    [fun _ => 1, fun _ => 7, fun _ => 4] := by
  have : nZTweens 3 3 = 5 := by norm_num [nZTweens]
  simp [sideRows, this, List.ofFn_succ, surfPoints, sideTargets, linspaceAt]
  funext; norm_num

/-- Patches are what `from_points` cuts out. -/
theorem patchesOf_eq {E : Type*} (row : List E) (w : List ℝ) (ks : List ℕ) :
    patchesOf row ks = (fromPointsLoop row w ks).map Nurb.points ∧
      patchesOf w ks = (fromPointsLoop row w ks).map Nurb.weights := by
  have key : ∀ {α : Type _} (row : List α) (k0 k1 : ℕ) (ks : List ℕ),
      patchesOf row (k0 :: k1 :: ks) = slice row k0 (k1 + 1) :: patchesOf row (k1 :: ks) := by
    intro α row k0 k1 ks
    simp [patchesOf, List.range_succ_eq_map]
  have key2 : ∀ {α : Type} (row : List α) (k0 k1 : ℕ) (ks : List ℕ),
      patchesOf row (k0 :: k1 :: ks) = slice row k0 (k1 + 1) :: patchesOf row (k1 :: ks) := by
    intro α row k0 k1 ks
    simp [patchesOf, List.range_succ_eq_map]
  induction ks with
  | nil => simp [patchesOf, fromPointsLoop]
  | cons k0 ks ih =>
    cases ks with
    | nil => simp [patchesOf, fromPointsLoop]
    | cons k1 ks =>
      rw [key, key2, fromPointsLoop]
      simp only [List.map_cons, ih.1, ih.2, and_self]

/-- **C89.** Cutting the row of a height whose profile is the continuous chain `cs` gives back the members
of `cs`: one patch per member, with all of its control points and weights. -/
theorem c89_patches_are_members {E : Type*} (cs : List (Nurb E)) (hp : ∀ c ∈ cs, 2 ≤ c.points.length)
    (hw : ∀ c ∈ cs, c.weights.length = c.points.length)
    (hjp : Joined (cs.map Nurb.points)) (hjw : Joined (cs.map Nurb.weights)) :
    patchesOf (flatPoints cs) (knots cs) = cs.map Nurb.points ∧
      patchesOf (flatWeights cs) (knots cs) = cs.map Nurb.weights := by
  have h := patchesOf_eq (flatPoints cs) (flatWeights cs) (knots cs)
  have h2 := c52_roundtrip cs hp hw hjp hjw
  rw [fromPoints] at h2
  simp only [Option.getD_some] at h2
  rw [h2] at h
  exact h

theorem getD_of_lt (l : List ℕ) (i : ℕ) (h : i < l.length) : l.getD i 0 = l[i] := by
  rw [List.getD_eq_getElem?_getD, List.getElem?_eq_getElem h]; rfl

/-- **C89.** For every row, also one invented by the optimiser, patch `ui` begins with the column of knot
`ui` and ends with the column of knot `ui + 1`; so neighbouring patches share their border column. -/
theorem c89_shared_columns {α : Type*} (row : List α) (ks : List ℕ) (hs : ks.Pairwise (· < ·))
    (hb : ∀ k ∈ ks, k < row.length) (ui : ℕ) (h : ui + 1 < ks.length) :
    ((patchesOf row ks)[ui]?.bind List.getLast?) = row[ks.getD (ui + 1) 0]? ∧
      ((patchesOf row ks)[ui]?.bind List.head?) = row[ks.getD ui 0]? := by
  have hlt : ks.getD ui 0 < ks.getD (ui + 1) 0 := by
    have := List.pairwise_iff_getElem.1 hs ui (ui + 1) (by omega) h (by omega)
    rwa [getD_of_lt _ _ (by omega), getD_of_lt _ _ h]
  have hlb : ks.getD (ui + 1) 0 < row.length := by
    rw [getD_of_lt _ _ h]
    exact hb _ (List.getElem_mem _)
  generalize hk0 : ks.getD ui 0 = k0 at hlt
  generalize hk1 : ks.getD (ui + 1) 0 = k1 at hlt hlb
  have hg : (patchesOf row ks)[ui]? = some (slice row k0 (k1 + 1)) := by
    rw [patchesOf, List.getElem?_map, List.getElem?_range (by omega)]
    simp only [Option.map_some, hk0, hk1]
  rw [hg]
  simp only [Option.bind_some]
  have hlen : (slice row k0 (k1 + 1)).length = k1 + 1 - k0 := by rw [slice_length]; omega
  constructor
  · rw [List.getLast?_eq_getElem?, hlen, slice, List.getElem?_take_of_lt (by omega), List.getElem?_drop]
    congr 1; omega
  · rw [List.head?_eq_getElem?, slice, List.getElem?_take_of_lt (by omega), List.getElem?_drop, add_zero]

/-- Concrete case for C89: a line and an arc, two patches that share the corner. -/
example : patchesOf [10, 20, 30, 40] [0, 1, 3] = [[10, 20], [20, 30, 40]] := by decide

end Verif
