import Verif.Model.Rows
import Verif.Props.Shell
import Verif.Props.HelicalGear
import Verif.Props.Transform

/-!
# C131: straight teeth are built exactly, twisted ones with enough control rows
-/

namespace Verif

open Real Spec Matrix

/-! ### Ruled faces -/

/-- A transform that moves every point along a straight line, at constant speed, when the height grows. -/
def StraightMotion (trf : ℝ → GearTransform) : Prop :=
  ∀ s a b p, applyGearTransform p (trf ((1 - s) * a + s * b)) =
    (1 - s) • applyGearTransform p (trf a) + s • applyGearTransform p (trf b)

/-- Bezier curves reproduce straight lines with evenly spaced control points. -/
theorem bern_linear {E : Type*} [AddCommGroup E] [Module ℝ E] {n : ℕ} (hn : 2 ≤ n) (A B : E) (t : ℝ) :
    ∑ k : Fin n, Spec.bern (n - 1) k t • (A + ((k : ℕ) / ((n : ℝ) - 1)) • (B - A)) = A + t • (B - A) := by
  have h1 : ∑ k : Fin n, Spec.bern (n - 1) k t = 1 := bern_sum n (by omega) t
  have h2 : ∑ k : Fin n, Spec.bern (n - 1) k t * ((k : ℕ) / ((n : ℝ) - 1)) = t := by
    have hn1 : ((n : ℝ) - 1) ≠ 0 := by
      have : (2 : ℝ) ≤ n := by exact_mod_cast hn
      linarith
    have h := congrArg (Polynomial.eval t) (bernsteinPolynomial.sum_smul ℝ (n - 1))
    rw [Polynomial.eval_finset_sum, show n - 1 + 1 = n by omega, Finset.sum_range] at h
    simp only [nsmul_eq_mul, Polynomial.eval_mul, Polynomial.eval_natCast, Polynomial.eval_X] at h
    have e : ∑ k : Fin n, Spec.bern (n - 1) k t * ((k : ℕ) / ((n : ℝ) - 1)) =
        (∑ k : Fin n, ((k : ℕ) : ℝ) * (bernsteinPolynomial ℝ (n - 1) k).eval t) / ((n : ℝ) - 1) := by
      rw [Finset.sum_div]
      exact Finset.sum_congr rfl fun k _ => by rw [Spec.bern]; ring
    rw [e, h, Nat.cast_sub (by omega), Nat.cast_one]
    field_simp
  simp only [smul_add, Finset.sum_add_distrib, ← Finset.sum_smul, smul_smul, h1, h2, one_smul]

/-- Rows with the same weights whose curves are evenly spaced on straight lines: the surface is the straight connection of
the outer curves. `c` is the point of the curve at `v`, before it is moved. -/
theorem straight_rows {m : ℕ} (hm : 2 ≤ m) (u v : ℝ) (pts : List V3) (W : List ℝ) {trf : ℝ → GearTransform}
    (ht : StraightMotion trf) (a b : ℝ) :
    nurbezierSurface u v (List.ofFn fun k : Fin m => pts.map fun p => applyGearTransform p (trf (linspaceAt a b m k)))
      (List.ofFn fun _ : Fin m => W) =
    nurbezier v (pts.map fun p => applyGearTransform p (trf ((1 - u) * a + u * b))) W := by
  rw [nurbezierSurface, zipWith_ofFn]
  simp only [c03_gear_transform]
  cases hq : nurbezier v pts W with
  | none =>
    obtain ⟨k, rfl⟩ : ∃ k, m = k + 1 := ⟨m - 1, by omega⟩
    simp [List.ofFn_succ]
  | some c =>
    have hb : bezier v W ≠ 0 := by
      intro h0
      rw [nurbezier] at hq
      split_ifs at hq with hl
      by_cases hW : W = []
      · subst hW
        simp [bezierdc_nil, weighted] at hq
      · rw [c01_evaluators_agree v W hW, h0] at hq
        cases hz : bezierdc v (weighted pts W) <;> simp [hz] at hq
    simp only [Option.map_some]
    have e1 : (List.ofFn fun k : Fin m => some (applyGearTransform c (trf (linspaceAt a b m k)))) =
        (List.ofFn fun k : Fin m => applyGearTransform c (trf (linspaceAt a b m k))).map some := by
      rw [List.map_ofFn]; rfl
    rw [e1, mapM_id_some]
    simp only
    rw [List.map_ofFn]
    have hw : ∑ k : Fin m, Spec.bern (m - 1) k u * bezier v W = bezier v W := by
      rw [← Finset.sum_mul, bern_sum m (by omega), one_mul]
    have e2 := nurbezier_ofFn (by omega : 0 < m) (fun k : Fin m => applyGearTransform c (trf (linspaceAt a b m k)))
      (fun _ => bezier v W) u (by rw [hw]; exact hb)
    rw [show ((fun w => bezier v w) ∘ fun _ : Fin m => W) = fun _ => bezier v W from rfl, e2, hw]
    congr 1
    have e3 : ∀ k : Fin m, applyGearTransform c (trf (linspaceAt a b m k)) = applyGearTransform c (trf a) +
        ((k : ℕ) / ((m : ℝ) - 1)) • (applyGearTransform c (trf b) - applyGearTransform c (trf a)) := by
      intro k
      rw [show linspaceAt a b m k = (1 - (k : ℕ) / ((m : ℝ) - 1)) * a + (k : ℕ) / ((m : ℝ) - 1) * b by
        rw [linspaceAt]; ring, ht]
      module
    have e4 : ∑ k : Fin m, (Spec.bern (m - 1) k u * bezier v W) • applyGearTransform c (trf (linspaceAt a b m k)) =
        bezier v W • (applyGearTransform c (trf a) +
          u • (applyGearTransform c (trf b) - applyGearTransform c (trf a))) := by
      rw [← bern_linear hm, Finset.smul_sum]
      refine Finset.sum_congr rfl fun k _ => ?_
      rw [e3, mul_comm, mul_smul]
    rw [e4, smul_smul, inv_mul_cancel₀ hb, one_smul, ht]
    module

/-- The members of a row are those of the untransformed profile, moved by the transform of the slice. -/
theorem sideMembers_placed {α : Type} {members : α → List Curve} {opt : ℕ → ℝ → Curve → ℕ → ℝ} {n : ℕ} {ratio : ℝ}
    {E : ExtProfile α} {trf : ℝ → GearTransform} {N : ℝ → NurbProfileExt}
    (h : ∀ h, profileToNurbExt members opt n ratio (trf h) E = some (N h)) :
    ∃ B : List (Nurb V3), ∀ h, (N h).sideMembers =
      B.map fun c => ⟨c.points.map fun p => applyGearTransform p (trf h), c.weights⟩ := by
  have key : ∀ (ra rd ro c0 c2 : NurbSeg) (t mi : List NurbSeg) (f : V3 → V3), NurbProfileExt.sideMembers
      ⟨⟨ra.move f, rd.move f, ro.move f, t.map (NurbSeg.move f), mi.map (NurbSeg.move f)⟩, c0.move f, c2.move f⟩ =
      (((rd :: t ++ ra :: mi ++ [c2.reverse, ro.reverse, c0]).filter NurbSeg.active).map NurbSeg.nurb).map
        fun c => ⟨c.points.map f, c.weights⟩ := by
    intro ra rd ro c0 c2 t mi f
    have e : NurbProfileExt.profileClosed
        ⟨⟨ra.move f, rd.move f, ro.move f, t.map (NurbSeg.move f), mi.map (NurbSeg.move f)⟩, c0.move f, c2.move f⟩ =
        (rd :: t ++ ra :: mi ++ [c2.reverse, ro.reverse, c0]).map (NurbSeg.move f) := by
      simp [NurbProfileExt.profileClosed, NurbProfile.profile, NurbSeg.move, NurbSeg.reverse, List.map_reverse]
    rw [NurbProfileExt.sideMembers, e]
    generalize rd :: t ++ ra :: mi ++ [c2.reverse, ro.reverse, c0] = l
    induction l with
    | nil => rfl
    | cons s l ih =>
      by_cases ha : s.active = true
      · have ha' : (s.move f).active = true := ha
        simp only [List.map_cons, List.filter_cons, ha, ha', if_true]
        rw [ih]
        rfl
      · have ha' : ¬(s.move f).active = true := ha
        simp only [List.map_cons, List.filter_cons, if_neg ha, if_neg ha']
        exact ih
  have h0 := h 0
  simp only [profileToNurbExt, profileToNurb, Option.bind_eq_bind, Option.bind_eq_some_iff] at h0
  obtain ⟨B, ⟨t, b1, mi, b2, ra, b3, rd, b4, ro, b5, b6⟩, c0, h2, c2, h3, h4⟩ := h0
  refine ⟨((rd :: t ++ ra :: mi ++ [c2.reverse, ro.reverse, c0]).filter NurbSeg.active).map NurbSeg.nurb, fun h' => ?_⟩
  rw [← key ra rd ro c0 c2 t mi (fun p => applyGearTransform p (trf h'))]
  have hh := h h'
  simp only [profileToNurbExt, profileToNurb, b1, b2, b3, b4, b5, h2, h3, Option.bind_eq_bind, Option.bind_some,
    Option.some.injEq] at hh
  rw [← hh]

/-! ### What the solvers do with targets on straight lines -/

section
variable {q m o : ℕ} {T : ℕ → Fin q → ℝ} {A B : Fin q → ℝ}

/-- Where the gradient vanishes at the start, the solvers stay. -/
theorem descent_stays {cost : (ℕ → ℝ) → Option (ℝ × (ℕ → ℝ))} {x0 x : ℕ → ℝ}
    (h0 : ∀ c J, cost x0 = some (c, J) → J = 0) (h : Descent cost x0 x) : x = x0 := by
  induction h with
  | start => rfl
  | @step x y J c r _ _ hJ ihx ihy =>
    rw [ihy] at hJ
    rw [h0 c J hJ, ihx, smul_zero, add_zero]

theorem surfPoints_pack (hm : 2 ≤ m) (P : ℕ → Fin q → ℝ) (t : ℕ → ℝ) (dp : ℕ → ℕ → ℝ)
    (hdp : ∀ k, k < m → ∀ j : Fin q, dp k j = P k j) {k : ℕ} (h1 : 1 ≤ k) (h2 : k < m - 1) :
    surfPoints q m o T (surfPack q m o dp t) k = P k := by
  rw [surfPoints, if_pos ⟨h1, h2⟩]
  funext j
  have hj := j.2
  have hb : (k - 1) * q + (j : ℕ) < (m - 2) * q := by
    calc (k - 1) * q + (j : ℕ) < (k - 1) * q + q := by omega
      _ = (k - 1 + 1) * q := by ring
      _ ≤ (m - 2) * q := Nat.mul_le_mul_right _ (by omega)
  rw [surfPack, if_pos hb, Nat.mul_comm (k - 1) q, Nat.mul_add_div (by omega), Nat.mul_add_mod, Nat.div_eq_of_lt hj,
    Nat.mod_eq_of_lt hj, add_zero, Nat.sub_add_cancel h1, hdp _ (by omega)]

theorem surfPack_zero {dp : ℕ → ℕ → ℝ} {t : ℕ → ℝ} (h1 : ∀ k j, dp k j = 0) (h2 : ∀ i, t i = 0) :
    surfPack q m o dp t = 0 := by
  funext i
  rw [surfPack]
  split_ifs <;> simp [h1, h2]

/-- Targets on straight lines are reproduced without error, whatever the number of rows. -/
theorem straight_solution (hm : 2 ≤ m) (ho : 2 ≤ o)
    (hT : ∀ i, T i = A + ((i : ℕ) / ((o : ℝ) - 1)) • (B - A)) {x : ℕ → ℝ} (h : SurfSolution q m o T x) :
    ∀ k < m, surfPoints q m o T x k = A + ((k : ℕ) / ((m : ℝ) - 1)) • (B - A) := by
  have ho1 : ((o : ℝ) - 1) ≠ 0 := by
    have : (2 : ℝ) ≤ o := by exact_mod_cast ho
    linarith
  have hm1 : ((m : ℝ) - 1) ≠ 0 := by
    have : (2 : ℝ) ≤ m := by exact_mod_cast hm
    linarith
  have hne : (List.ofFn fun i : Fin o => T i) ≠ [] := by
    intro e; have := congrArg List.length e; simp at this; omega
  have hends : ∀ (y : ℕ → ℝ) (k : ℕ), k < m → ¬(1 ≤ k ∧ k < m - 1) →
      surfPoints q m o T y k = A + ((k : ℕ) / ((m : ℝ) - 1)) • (B - A) := by
    intro y k hk hn
    rw [surfPoints, if_neg hn]
    split_ifs with hl
    · rw [hT, hl, Nat.cast_sub (by omega), Nat.cast_sub (by omega), Nat.cast_one, div_self ho1, div_self hm1]
    · have : k = 0 := by omega
      rw [hT, this]; simp
  have hres : ∀ (y : ℕ → ℝ), (∀ k < m, surfPoints q m o T y k = A + ((k : ℕ) / ((m : ℝ) - 1)) • (B - A)) →
      ∀ s : ℝ, ∑ k : Fin m, Spec.bern (m - 1) k s • surfPoints q m o T y k = A + s • (B - A) := by
    intro y hy s
    rw [← bern_linear hm]
    exact Finset.sum_congr rfl fun k _ => by rw [hy k k.2]
  obtain ⟨y, h1, h2⟩ := h
  have f0 : ∀ k < m, surfPoints q m o T (surfInitFast q m o T) k = A + ((k : ℕ) / ((m : ℝ) - 1)) • (B - A) := by
    intro k hk
    by_cases hin : 1 ≤ k ∧ k < m - 1
    · rw [surfInitFast, surfPoints_pack hm
        (fun k => (bezierdc (linspaceAt 0 1 m k) (List.ofFn fun i : Fin o => T i)).getD 0) _ _ ?_ hin.1 hin.2]
      · rw [(c01_evaluators_correct _ _ hne).1, Option.getD_some, spec_bezier_ofFn]
        simp only [hT]
        rw [bern_linear ho]
        simp [linspaceAt]
      · intro k _ j
        rw [dif_pos j.2]
    · exact hends _ k hk hin
  have hy : y = surfInitFast q m o T := by
    refine descent_stays (fun c J hJ => ?_) h1
    rw [surfCostFast, optSeq_eq_some fun i : Fin (o - 2) =>
      surfRow_eq (T := T) (q := q) (o := o) hm (surfInitFast q m o T) (surfTFast o) i, Option.map_some] at hJ
    rw [← (Prod.mk.inj (Option.some.inj hJ)).2]
    refine surfPack_zero (fun k j => ?_) fun _ => rfl
    split_ifs with hk
    · refine Finset.sum_eq_zero fun i _ => ?_
      simp only
      rw [hres _ f0, hT, surfTFast]
      push_cast
      rw [sub_self]
      simp
    · rfl
  rw [hy] at h2
  have g0 : ∀ k < m, surfPoints q m o T (surfInit q m o T (surfInitFast q m o T)) k =
      A + ((k : ℕ) / ((m : ℝ) - 1)) • (B - A) := by
    intro k hk
    by_cases hin : 1 ≤ k ∧ k < m - 1
    · rw [surfInit, surfPoints_pack hm (fun k => surfPoints q m o T (surfInitFast q m o T) k) _ _ ?_ hin.1 hin.2]
      · exact f0 k hk
      · intro k _ j
        rw [dif_pos j.2]
    · exact hends _ k hk hin
  have gt : ∀ i < o - 2, surfT q m (surfInit q m o T (surfInitFast q m o T)) i = surfTFast o i := by
    intro i hi
    rw [surfT, surfInit, surfPack, if_neg (by omega), if_pos (by omega)]
    congr 1
    omega
  have hx : x = surfInit q m o T (surfInitFast q m o T) := by
    refine descent_stays (fun c J hJ => ?_) h2
    rw [surfCost, optSeq_eq_some fun i : Fin (o - 2) => surfRow_eq (T := T) (q := q) (o := o) hm
      (surfInit q m o T (surfInitFast q m o T)) (surfT q m (surfInit q m o T (surfInitFast q m o T))) i,
      Option.map_some] at hJ
    rw [← (Prod.mk.inj (Option.some.inj hJ)).2]
    have hz : ∀ i : Fin (o - 2), T (i + 1) - ∑ k : Fin m, Spec.bern (m - 1) k
        (surfT q m (surfInit q m o T (surfInitFast q m o T)) i) •
          surfPoints q m o T (surfInit q m o T (surfInitFast q m o T)) k = 0 := by
      intro i
      rw [hres _ g0, gt i i.2, hT, surfTFast]
      push_cast
      rw [sub_self]
    refine surfPack_zero (fun k j => ?_) fun i => ?_
    · split_ifs with hk
      · refine Finset.sum_eq_zero fun i _ => ?_
        simp only [hz, Pi.zero_apply, mul_zero]
      · rfl
    · split_ifs with hi
      · refine Finset.sum_eq_zero fun j _ => ?_
        exact mul_eq_zero_of_left (congrFun (hz ⟨i, hi⟩) j) _
      · rfl
  rw [hx]
  exact g0

/-- The rows of a section whose slices lie on straight lines are slices themselves, evenly spaced. -/
theorem straight_sideRows {q : ℕ} (prof : ℝ → Fin q → ℝ) (z : ℕ → ℝ) (m : ℕ) (hm : 2 ≤ m) (ratio : ℝ)
    (hr : 1 ≤ ratio) (x : ℕ → ℕ → ℝ) (ii : ℕ)
    (hp : ∀ s a b, prof ((1 - s) * a + s * b) = (1 - s) • prof a + s • prof b)
    (hx : m ≠ 2 → SurfSolution q m (nZTweens m ratio).toNat (sideTargets prof z m ratio ii) (x ii)) :
    sideRows prof z m ratio x ii = List.ofFn fun k : Fin m => prof (linspaceAt (z ii) (z (ii + 1)) m k) := by
  have hlin : ∀ n k : ℕ, prof (linspaceAt (z ii) (z (ii + 1)) n k) =
      prof (z ii) + ((k : ℕ) / ((n : ℝ) - 1)) • (prof (z (ii + 1)) - prof (z ii)) := by
    intro n k
    rw [show linspaceAt (z ii) (z (ii + 1)) n k = (1 - (k : ℕ) / ((n : ℝ) - 1)) * z ii +
      (k : ℕ) / ((n : ℝ) - 1) * z (ii + 1) by rw [linspaceAt]; ring, hp]
    module
  obtain ⟨h1, h2, h3⟩ := c77_section_count m hm ratio hr
  by_cases h : m = 2
  · subst h
    obtain ⟨mid, e1, e2⟩ := sideRows_shape prof z 2 le_rfl ratio hr x ii
    rw [e1, e2 rfl]
    simp [List.ofFn_succ, linspaceAt_first, linspaceAt]
    norm_num
  · have ho : (nZTweens m ratio).toNat ≠ 2 := by
      intro e
      exact h (h3.1 (by omega))
    have hs := straight_solution (T := sideTargets prof z m ratio ii) (A := prof (z ii)) (B := prof (z (ii + 1))) hm (by omega) (fun i => hlin _ i) (hx h)
    rw [sideRows]
    simp only [if_neg ho]
    congr 1
    funext k
    rw [hs k k.2, hlin]

end

/-- The faces of a section whose rows are slices, piece by piece. -/
theorem row_faces {N : ℝ → NurbProfileExt} (hS : ∀ h, ∃ a, Pieces (N h).sideMembers a a)
    (hne : ∀ h, (N h).sideMembers ≠ []) (hK : ∀ h h', knots (N h).sideMembers = knots (N h').sideMembers)
    {ratio : ℝ} {m : ℕ} (z : ℕ → ℝ) (x : ℕ → ℕ → ℝ) (ii p : ℕ) (hp : p < (N (z ii)).sideMembers.length - 3)
    (hs : Fin m → ℝ) (hd : sideData N z m ratio x ii = List.ofFn fun k =>
      packRow (sideWidth N z ii) (N (hs k)).sideMembers) :
    (sideFaces N z m ratio x ii)[p]? = some
      ⟨List.ofFn fun k => ((N (hs k)).sideMembers.getD p ⟨[], []⟩).points,
        List.ofFn fun k => ((N (hs k)).sideMembers.getD p ⟨[], []⟩).weights⟩ := by
  have hlen : ∀ h, ∀ c ∈ (N h).sideMembers, 2 ≤ c.points.length := by
    intro h c hc
    obtain ⟨a, ha⟩ := hS h
    obtain ⟨p, q, k⟩ := ha.mem c hc
    exact k.len
  have hw : ∀ h, (flatPoints (N h).sideMembers).length = sideWidth N z ii := by
    intro h
    rw [sideWidth, knots_width (hlen _) (hne _), knots_width (hlen _) (hne _), hK (z ii) h]
  have hk1 := (c52_knots (N (z ii)).sideMembers).1
  have hll : ∀ h, (N h).sideMembers.length = (N (z ii)).sideMembers.length := by
    intro h
    have hk2 := (c52_knots (N h).sideMembers).1
    rw [hK h (z ii)] at hk2; omega
  rw [sideFaces]
  simp only [List.length_map, List.length_range, hk1, Nat.add_sub_cancel]
  rw [List.getElem?_take, if_pos hp, List.getElem?_map, List.getElem?_range (by omega), Option.map_some, hd]
  simp only [List.map_ofFn]
  congr 2
  all_goals
    congr 1
    funext k
    obtain ⟨a, ha⟩ := hS (hs k)
    have hp2 : p < (N (hs k)).sideMembers.length := by rw [hll]; omega
    obtain ⟨m1, m2⟩ := slice_member ha hp2
    rw [hK (hs k) (z ii)] at m1 m2
    have hg : (N (hs k)).sideMembers.getD p ⟨[], []⟩ = (N (hs k)).sideMembers[p] := by
      simp [List.getD_eq_getElem?_getD, List.getElem?_eq_getElem hp2]
    simp only [Function.comp]
    rw [hg]
  · rw [rowPoints_packRow _ _ (hw _), m1]
  · rw [rowWeights_packRow _ _ (by rw [flat_lengths ha, hw]), m2]

/-! ### Exactness -/

section
variable {α : Type} {o : CurveOps α} {asEuler : M3 → ℝ × ℝ × ℝ} {tooth : α} {T : ℝ → V3}
  {pitch r θ z0 ρ φ z1 rA rD rO zO coneAngle zc sMid : ℝ} {members : α → List Curve}

/-- Slices that only differ by a straight motion lie on straight lines, control point by control point. -/
theorem packRow_straight {N : ℝ → NurbProfileExt} {trf : ℝ → GearTransform} (ht : StraightMotion trf)
    {B : List (Nurb V3)} (hB : ∀ h, (N h).sideMembers =
      B.map fun c => ⟨c.points.map fun p => applyGearTransform p (trf h), c.weights⟩) (n : ℕ)
    (hn : (flatPoints B).length = n) (s a b : ℝ) :
    packRow n (N ((1 - s) * a + s * b)).sideMembers =
      (1 - s) • packRow n (N a).sideMembers + s • packRow n (N b).sideMembers := by
  have hp : ∀ h, flatPoints (N h).sideMembers = (flatPoints B).map fun p => applyGearTransform p (trf h) := by
    intro h
    rw [hB, flatPoints, flatPoints, ← flatRows_map, List.map_map, List.map_map]; rfl
  have hw : ∀ h, flatWeights (N h).sideMembers = flatWeights B := by
    intro h
    rw [hB, flatWeights, flatWeights, List.map_map]; rfl
  funext i
  simp only [packRow, hp, hw, Pi.add_apply, Pi.smul_apply, smul_eq_mul]
  split_ifs with hi
  · ring
  · have hlt : (i : ℕ) / 4 < (flatPoints B).length := by omega
    simp only [List.getD_eq_getElem?_getD, List.getElem?_map, List.getElem?_eq_getElem hlt, Option.map_some,
      Option.getD_some]
    rw [ht]
    rfl

/-- **C131, exactness.** If the slices of a gear only differ by a straight motion, the side faces of every section are
exact, with any number of control rows: the point of face `p` at `(u, v)` is the point at `v` of piece `p` of the slice at the
height a fraction `u` between the two ends of the section. -/
theorem c131_exact (hE : EulerOk asEuler)
    (h : OutlineOk o tooth T pitch r θ z0 ρ φ z1 rA rO zO coneAngle zc) (rD sMid : ℝ)
    (hs : pitch * sMid = 2 * θ + pitch)
    (ht : Path curveOps (members tooth) (T 0) (T 1)) (hex : ∃ c ∈ members tooth, c.active = true)
    (opt : ℕ → ℝ → Curve → ℕ → ℝ) (n : ℕ) (hn : 2 ≤ n) (ratio : ℝ) (hr : 1 ≤ ratio)
    (trf : ℝ → GearTransform) (htrf : StraightMotion trf) (m : ℕ) (hm : 2 ≤ m) (z : ℕ → ℝ) :
    ∃ P E, closeProfile o asEuler tooth rA rD rO ![0, 0, zO] pitch = some P ∧
      profileExtensions o asEuler P coneAngle ![0, 0, zc] sMid = some E ∧
      ∀ (N : ℝ → NurbProfileExt), (∀ h, profileToNurbExt members opt n ratio (trf h) E = some (N h)) →
        ∀ x ii, (m ≠ 2 → SurfSolution (4 * sideWidth N z ii) m (nZTweens m ratio).toNat
            (sideTargets (fun h => packRow (sideWidth N z ii) (N h).sideMembers) z m ratio ii) (x ii)) →
          sideFaces N z m ratio x ii ≠ [] ∧
          (sideFaces N z m ratio x ii).length = (N (z ii)).sideMembers.length - 3 ∧
          ∀ (p : ℕ) (F : BezierFace), (sideFaces N z m ratio x ii)[p]? = some F → ∀ u v,
            ∃ c : Nurb V3, (N ((1 - u) * z ii + u * z (ii + 1))).sideMembers[p]? = some c ∧
              nurbezierSurface u v F.points F.weights = nurbezier v c.points c.weights := by
  obtain ⟨P, E, p⟩ := parts_exist hE h rD sMid hs
  refine ⟨P, E, p.made, p.ext, fun N hN x ii hx => ?_⟩
  have hS : ∀ h, ∃ a, Pieces (N h).sideMembers a a := by
    intro h'
    obtain ⟨f, ds, d1, d2, d3⟩ := closed_pieces p ht hex hn (by linarith) (hN h')
    obtain ⟨g1, g2⟩ := profile_pieces f p.ra p.rd
    exact ⟨_, by rw [d2]; exact g1.append d3⟩
  have hne : ∀ h, (N h).sideMembers ≠ [] := by
    intro h'
    obtain ⟨f, ds, d1, d2, d3⟩ := closed_pieces p ht hex hn (by linarith) (hN h')
    rw [d2]
    intro e
    rw [List.append_eq_nil_iff] at e
    rw [e.2] at d1
    simp at d1
  have hK : ∀ h h', knots (N h).sideMembers = knots (N h').sideMembers := fun h h' => knots_placed (hN h) (hN h')
  obtain ⟨B, hB⟩ := sideMembers_placed hN
  have hBw : (flatPoints B).length = sideWidth N z ii := by
    have e : flatPoints (N (z ii)).sideMembers = (flatPoints B).map fun p => applyGearTransform p (trf (z ii)) := by
      rw [hB, flatPoints, flatPoints, ← flatRows_map, List.map_map, List.map_map]; rfl
    rw [sideWidth, e, List.length_map]
  have hd : sideData N z m ratio x ii = List.ofFn fun k : Fin m =>
      packRow (sideWidth N z ii) (N (linspaceAt (z ii) (z (ii + 1)) m k)).sideMembers :=
    straight_sideRows (fun h => packRow (sideWidth N z ii) (N h).sideMembers) z m hm ratio hr x ii
      (fun s a b => packRow_straight htrf hB _ hBw s a b) hx
  have hlen : (sideFaces N z m ratio x ii).length = (N (z ii)).sideMembers.length - 3 := by
    have hk1 := (c52_knots (N (z ii)).sideMembers).1
    rw [sideFaces]
    simp [hk1]
  have hBl : ∀ h, (N h).sideMembers.length = B.length := fun h => by rw [hB, List.length_map]
  refine ⟨?_, hlen, fun q F hF u v => ?_⟩
  · obtain ⟨f, ds, d1, d2, d3⟩ := closed_pieces p ht hex hn (by linarith) (hN (z ii))
    obtain ⟨g1, g2⟩ := profile_pieces f p.ra p.rd
    have := List.length_pos_iff.2 g2
    intro e
    rw [e, d2, List.length_append, d1] at hlen
    simp at hlen
    omega
  have hq : q < (N (z ii)).sideMembers.length - 3 := by
    rw [← hlen]
    by_contra hc
    rw [List.getElem?_eq_none (by omega)] at hF
    cases hF
  rw [row_faces hS hne hK z x ii q hq _ hd] at hF
  obtain rfl := Option.some.inj hF
  have hqB : q < B.length := by rw [hBl] at hq; omega
  refine ⟨⟨B[q].points.map fun p => applyGearTransform p (trf ((1 - u) * z ii + u * z (ii + 1))), B[q].weights⟩, ?_, ?_⟩
  · rw [hB, List.getElem?_map, List.getElem?_eq_getElem hqB]; rfl
  · have hg : ∀ h, (N h).sideMembers.getD q ⟨[], []⟩ =
        ⟨B[q].points.map fun p => applyGearTransform p (trf h), B[q].weights⟩ := by
      intro h'
      rw [hB, List.getD_eq_getElem?_getD, List.getElem?_map, List.getElem?_eq_getElem hqB]; rfl
    simp only [hg]
    exact straight_rows hm u v B[q].points B[q].weights htrf (z ii) (z (ii + 1))

end

/-! ### Gears without helix and crowning -/

theorem straight_of (c : GearCore) {e d a : ℝ} (hs : c.recipe.scale = fun z => 1 - z * 2 * e / d)
    {f : ℝ} (hc : c.recipe.center = fun z => (z * f) • OUT) (ha : ∀ z, c.recipe.angle z = a) :
    StraightMotion c.recipeTransform := by
  intro s x y p
  simp only [applyGearTransform_eq, GearCore.recipeTransform, hs, hc, ha, app_one]
  obtain ⟨w, hw⟩ : ∃ w, w = app (Rz a) p := ⟨_, rfl⟩
  rw [← hw]
  rcases eq_or_ne d 0 with rfl | hd
  · simp only [div_zero, sub_zero]
    module
  · rw [show 1 - ((1 - s) * x + s * y) * 2 * e / d = (1 - s) * (1 - x * 2 * e / d) + s * (1 - y * 2 * e / d) by
      field_simp; ring]
    module

theorem slice_const (r : ProfileRecipe) (h : ∀ z, r.gen.pitchIntersectAngle z = r.gen.pitchIntersectAngle 0) (z : ℝ) :
    r.slice z = r.slice 0 := by
  have : r.gen.freeze z = r.gen.freeze 0 := by
    cases hg : r.gen <;> simp only [hg, ToothGen.pitchIntersectAngle] at h <;> simp only [ToothGen.freeze, h z]
  rw [ProfileRecipe.slice, this]; rfl

theorem involuteGen_const (p : GearInput) (hcr : p.crowning = 0) (z : ℝ) :
    p.involuteGen.pitchIntersectAngle z = p.involuteGen.pitchIntersectAngle 0 := by
  rw [involuteGen_pia, involuteGen_pia, GearInput.crowningFunc, GearInput.crowningFunc, hcr]
  simp

theorem involute_straight (raw : GearInput) (hcr : raw.crowning = 0) (hβ : raw.helixAngle = 0) :
    (involuteGear raw).input.crowning = 0 ∧ (involuteGear raw).input.helixAngle = 0 ∧
      StraightMotion (involuteGear raw).core.recipeTransform ∧
      (∀ z, (involuteGear raw).core.recipe.angle z = 0) ∧
      ∀ h, (involuteGear raw).core.recipe.slice h = (involuteGear raw).core.recipe.slice 0 := by
  have h1 : raw.normalise.crowning = 0 := by rw [GearInput.normalise]; split_ifs <;> exact hcr
  have h2 : raw.normalise.helixAngle = 0 := by rw [GearInput.normalise]; split_ifs <;> exact hβ
  have ha : ∀ z, (involuteGear raw).core.recipe.angle z = 0 := by
    intro z
    simp [involuteGear, GearInput.calcParams, h2]
  exact ⟨h1, h2, straight_of _ rfl rfl ha, ha, slice_const _ fun z => involuteGen_const _ h1 z⟩

theorem setHO_pia (h : ℝ) (g : ToothGen) : (g.setHO h).pitchIntersectAngle = g.pitchIntersectAngle := by
  cases g <;> rfl

/-- **C131, straight gears.** Every gear of the involute family without helix and crowning gets two control rows per section
from `build_part()`, and its slices only differ by a straight motion: exactly what `c131_exact` asks for. -/
theorem c131_straight_gears (raw : GearInput) (hcr : raw.crowning = 0) (hβ : raw.helixAngle = 0) (w : ℝ) (hb : Bool)
    (g : WGear) (hg : g = involuteGear raw ∨ g = spurGear raw ∨ g = spurRingGear raw w ∨ g = bevelGear raw ∨
      g = helicalGear hb raw) :
    g.nVert = 2 ∧ StraightMotion g.core.recipeTransform ∧ ∀ h, g.core.recipe.slice h = g.core.recipe.slice 0 := by
  rcases hg with rfl | rfl | rfl | rfl | rfl
  · obtain ⟨h1, h2, h3, -, h4⟩ := involute_straight raw hcr hβ
    exact ⟨by rw [WGear.nVert, if_pos ⟨h1, h2⟩], h3, h4⟩
  · obtain ⟨h1, h2, h3, -, h4⟩ := involute_straight
      { raw with helixAngle := 0, coneAngle := 0, insideTeeth := false } hcr rfl
    exact ⟨by rw [WGear.nVert, spurGear, if_pos ⟨h1, h2⟩], h3, h4⟩
  · obtain ⟨h1, h2, h3, -, h4⟩ := involute_straight
      { raw with helixAngle := 0, coneAngle := 0, insideTeeth := true } hcr rfl
    refine ⟨by rw [WGear.nVert, spurRingGear, if_pos ⟨h1, h2⟩], h3, slice_const _ fun z => ?_⟩
    simp only [spurRingGear, setHO_pia]
    exact involuteGen_const _ (by exact h1) z
  · obtain ⟨h1, h2, h3, -, h4⟩ := involute_straight { raw with insideTeeth := false } hcr hβ
    exact ⟨by rw [WGear.nVert, bevelGear, if_pos ⟨h1, h2⟩], h3, h4⟩
  · obtain ⟨h1, h2, h3, h5, h4⟩ := involute_straight raw.transverse hcr hβ
    obtain ⟨r1, -⟩ := refine_recipe
      (if hb then (involuteGear raw.transverse).core.herringbone else (involuteGear raw.transverse).core)
    refine ⟨by rw [WGear.nVert, helicalGear, if_pos ⟨h1, h2⟩], ?_, ?_⟩
    · refine straight_of _ (e := sin (raw.transverse.normalise.coneAngle / 2))
        (d := (GearToothParam.make raw.transverse.normalise.numTeeth 0 raw.transverse.normalise.insideTeeth).numTeeth)
        (f := cos (raw.transverse.normalise.coneAngle / 2)) (a := 0) ?_ ?_ ?_
      · simp only [helicalGear]
        rw [r1]
        cases hb <;> rfl
      · simp only [helicalGear]
        rw [r1]
        cases hb <;> rfl
      · intro z
        simp only [helicalGear]
        rw [r1]
        cases hb
        · exact h5 z
        · exact h5 _
    · intro h
      simp only [helicalGear]
      rw [r1]
      cases hb
      · exact h4 h
      · have := h4 h
        simp only [ProfileRecipe.slice] at this ⊢
        exact this

/-- **C131, straight gears of the other classes.** Ring gears of the helical class and cycloid gears without helix and
crowning also only move along straight lines; cylindrical cycloid gears get two rows, the others more, and `c131_exact`
covers these too. -/
theorem c131_straight_others (raw : GearInput) (hcr : raw.crowning = 0) (hβ : raw.helixAngle = 0) (hb : Bool) (g : WGear)
    (hg : g = helicalRingGear hb raw ∨ g = cycloidGear raw) :
    2 ≤ g.nVertRing ∧ 2 ≤ g.nVertCycloid ∧ ((g = cycloidGear raw ∧ raw.coneAngle = 0) → g.nVertCycloid = 2) ∧
      StraightMotion g.core.recipeTransform ∧ ∀ h, g.core.recipe.slice h = g.core.recipe.slice 0 := by
  refine ⟨by rw [WGear.nVertRing]; split_ifs <;> omega, by rw [WGear.nVertCycloid]; split_ifs <;> omega, ?_, ?_⟩
  · rintro ⟨rfl, hc⟩
    rw [WGear.nVertCycloid, cycloidGear, if_pos ⟨hβ, hc, hcr⟩]
  · rcases hg with rfl | rfl
    · have h1 : ({ raw.transverse with insideTeeth := true } : GearInput).normalise.crowning = 0 := by
        rw [GearInput.normalise]; split_ifs <;> exact hcr
      have h2 : ({ raw.transverse with insideTeeth := true } : GearInput).normalise.helixAngle = 0 := by
        rw [GearInput.normalise]; split_ifs <;> exact hβ
      obtain ⟨p, hp⟩ : ∃ p, p = ({ raw.transverse with insideTeeth := true } : GearInput).normalise := ⟨_, rfl⟩
      rw [← hp] at h1 h2
      have ha : ∀ z, (p.calcParams (GearToothParam.make p.numTeeth 0 true)).recipe.angle z = 0 := by
        intro z
        simp [GearInput.calcParams, h2]
      have hgen : ∀ z, (p.calcParams (GearToothParam.make p.numTeeth 0 true)).recipe.gen.pitchIntersectAngle z =
          (p.calcParams (GearToothParam.make p.numTeeth 0 true)).recipe.gen.pitchIntersectAngle 0 :=
        fun z => involuteGen_const p h1 z
      simp only [helicalRingGear, ← hp]
      cases hb
      · exact ⟨straight_of _ rfl rfl ha, slice_const _ hgen⟩
      · exact ⟨straight_of _ rfl rfl fun z => ha _, slice_const _ hgen⟩
    · refine ⟨straight_of (a := 0) _ rfl rfl fun z => ?_, slice_const _ fun z => ?_⟩
      · simp [cycloidGear, GearInput.calcCycloid, hβ]
      · simp [cycloidGear, GearInput.calcCycloid, ToothGen.pitchIntersectAngle, GearInput.crowningFunc, hcr]

/-! ### Twisted gears -/

/-- The rows are enough for the twist: at least one inner row, and no section twists by more than `step` per inner row. -/
def EnoughRows (f : ℝ → ℝ) (step : ℝ) (rows : ℕ) (zs : List ℝ) : Prop :=
  3 ≤ rows ∧ TwistAtMost f (((rows : ℝ) - 2) * step) zs

/-- The sampled twist of a first section on which the angle is linear. -/
theorem twist_first (c : GearCore) {z0 z1 k e : ℝ} (h0 : c.zVals.getD 0 0 = z0) (h1 : c.zVals.getD 1 0 = z1) (hle : z0 ≤ z1)
    (ha : ∀ z, z0 ≤ z → z ≤ z1 → c.recipe.angle z = z * k + e) : c.twistAngle = |k| * (z1 - z0) := by
  have hval : ∀ i : Fin 20, c.recipe.angle (linspaceAt z0 z1 20 i) = (z0 + (z1 - z0) * ((i : ℕ) / 19 : ℝ)) * k + e := by
    intro i
    have hi1 : ((i : ℕ) / 19 : ℝ) ≤ 1 := by
      rw [div_le_one (by norm_num)]
      exact_mod_cast Nat.le_of_lt_succ i.2
    have hi0 : 0 ≤ ((i : ℕ) / 19 : ℝ) := by positivity
    have e : linspaceAt z0 z1 20 i = z0 + (z1 - z0) * ((i : ℕ) / 19 : ℝ) := by
      rw [linspaceAt]; norm_num
    rw [e, ha _ (by nlinarith) (by nlinarith)]
  have hmono : Monotone (fun i : Fin 20 => c.recipe.angle (linspaceAt z0 z1 20 i)) ∨
      Antitone (fun i : Fin 20 => c.recipe.angle (linspaceAt z0 z1 20 i)) := by
    have key : ∀ i j : Fin 20, i ≤ j → z0 + (z1 - z0) * ((i : ℕ) / 19 : ℝ) ≤ z0 + (z1 - z0) * ((j : ℕ) / 19 : ℝ) := by
      intro i j hij
      have : ((i : ℕ) : ℝ) ≤ ((j : ℕ) : ℝ) := by exact_mod_cast hij
      have : ((i : ℕ) / 19 : ℝ) ≤ ((j : ℕ) / 19 : ℝ) := by gcongr
      nlinarith
    rcases le_total 0 k with hk | hk
    · left; intro i j hij; simp only [hval]; have := mul_le_mul_of_nonneg_right (key i j hij) hk; linarith
    · right; intro i j hij; simp only [hval]; have := mul_le_mul_of_nonpos_right (key i j hij) hk; linarith
  rw [GearCore.twistAngle]
  simp only [h0, h1]
  rw [range20_of_monotone hmono, hval, hval]
  have : (z0 + (z1 - z0) * (((19 : Fin 20) : ℕ) / 19 : ℝ)) * k + e - ((z0 + (z1 - z0) * (((0 : Fin 20) : ℕ) / 19 : ℝ)) * k + e) =
      k * (z1 - z0) := by simp; ring
  rw [this, abs_mul, abs_of_nonneg (sub_nonneg.2 hle)]

/-- Sections of equal length `d` (at most), the first of which is sampled. -/
theorem short_sections {f : ℝ → ℝ} {k d t : ℝ} {zs : List ℝ} (hf : ∀ x y, |f x - f y| ≤ |k| * |x - y|)
    (hz : zs.IsChain fun z w => w - z ≤ d) (hd : |k| * d ≤ t) : TwistAtMost f t zs := by
  refine hz.imp fun z w hzw x hx y hy => (hf x y).trans (le_trans ?_ hd)
  refine mul_le_mul_of_nonneg_left ?_ (abs_nonneg k)
  rw [abs_le]
  constructor <;> linarith [hx.1, hx.2, hy.1, hy.2]

theorem rows_bound {t s : ℝ} (hs : 0 < s) {n : ℕ} (h : t > s → n = 3 + ⌊t / s⌋₊) (h' : 3 ≤ n) :
    t ≤ ((n : ℝ) - 2) * s := by
  by_cases ht : t > s
  · have := Nat.lt_floor_add_one (t / s)
    rw [div_lt_iff₀ hs] at this
    rw [h ht]
    push_cast
    nlinarith
  · push Not at ht
    have : (3 : ℝ) ≤ n := by exact_mod_cast h'
    nlinarith

theorem nVert_bound (g : WGear) (h : g.input.crowning ≠ 0 ∨ g.input.helixAngle ≠ 0) :
    3 ≤ g.nVert ∧ g.core.twistAngle ≤ ((g.nVert : ℝ) - 2) * (π / 6) := by
  have hn : ¬(g.input.crowning = 0 ∧ g.input.helixAngle = 0) := by tauto
  have h3 : 3 ≤ g.nVert := by
    rw [WGear.nVert, if_neg hn]; split_ifs <;> omega
  refine ⟨h3, rows_bound (by positivity) (fun ht => ?_) h3⟩
  rw [WGear.nVert, if_neg hn, if_pos ht]

/-- **C131, twisted gears.** `build_part()` of a spiral or crowned `InvoluteGear` or `BevelGear` uses at least three rows, and
no section twists by more than 30 degrees per inner row. -/
theorem c131_rows_involute (raw : GearInput) (hh : 0 < raw.height) (hm : 0 < raw.module_)
    (ht : raw.crowning ≠ 0 ∨ raw.helixAngle ≠ 0) (g : WGear) (hg : g = involuteGear raw ∨ g = bevelGear raw) :
    EnoughRows g.core.recipe.angle (π / 6) g.nVert g.core.zVals := by
  have key : ∀ raw : GearInput, 0 < raw.height → 0 < raw.module_ → (raw.crowning ≠ 0 ∨ raw.helixAngle ≠ 0) →
      EnoughRows (involuteGear raw).core.recipe.angle (π / 6) (involuteGear raw).nVert (involuteGear raw).core.zVals := by
    intro raw hh hm ht
    obtain ⟨p, hp⟩ : ∃ p, p = raw.normalise := ⟨_, rfl⟩
    have e1 : p.height = raw.height := by rw [hp, GearInput.normalise]; split_ifs <;> rfl
    have e2 : p.module_ = raw.module_ := by rw [hp, GearInput.normalise]; split_ifs <;> rfl
    have e3 : p.crowning = raw.crowning := by rw [hp, GearInput.normalise]; split_ifs <;> rfl
    have e4 : p.helixAngle = raw.helixAngle := by rw [hp, GearInput.normalise]; split_ifs <;> rfl
    have hz : (involuteGear raw).core.zVals = [-(p.height / p.module_) * p.zAnchor, p.height / p.module_ * (1 - p.zAnchor)] := by
      rw [hp]; rfl
    have ha : ∀ z, (involuteGear raw).core.recipe.angle z = z * (tan p.helixAngle / (p.numTeeth / 2)) := by
      intro z; rw [hp]; rfl
    have hpos : 0 < p.height / p.module_ := by rw [e1, e2]; positivity
    obtain ⟨b1, b2⟩ := nVert_bound (involuteGear raw) (by
      have : (involuteGear raw).input = p := hp ▸ rfl
      rwa [this, e3, e4])
    rw [twist_first (involuteGear raw).core (z0 := -(p.height / p.module_) * p.zAnchor) (z1 := p.height / p.module_ * (1 - p.zAnchor))
      (k := tan p.helixAngle / (p.numTeeth / 2)) (e := 0) (by rw [hz]; rfl)
      (by rw [hz]; rfl) (by linarith) (fun z _ _ => by rw [ha, add_zero])] at b2
    refine ⟨b1, short_sections (k := tan p.helixAngle / (p.numTeeth / 2)) (d := p.height / p.module_) ?_ ?_ ?_⟩
    · intro x y
      rw [ha, ha, ← sub_mul, abs_mul, mul_comm]
    · rw [hz]
      simp
      linarith
    · refine le_trans (le_of_eq ?_) b2
      ring
  rcases hg with rfl | rfl
  · exact key raw hh hm ht
  · exact key { raw with insideTeeth := false } hh hm ht

/-- Sections of a refined helical gear: all of the length of the first one, or shorter. -/
theorem refined_first (hb : Bool) (c : GearCore) {lo hi k : ℝ} (hlt : lo < hi) (hz : c.zVals = startSections hb lo hi)
    (ha : c.recipe.angle = twistFun hb k lo hi) :
    ∃ d, c.refine.twistAngle = |k| * d ∧ c.refine.zVals.IsChain fun z w => w - z ≤ d := by
  have htw := twist_eq hb c hlt hz ha
  obtain ⟨s1, s2, s3, s4, s5, s6, s7⟩ := startSections_mem hb hlt
  have hhalf : (0 : ℝ) < halves hb := by cases hb <;> simp [halves]
  by_cases ht : c.twistAngle > 2 * π
  swap
  · have hc : c.refine = c := by rw [GearCore.refine, if_neg ht]
    refine ⟨(hi - lo) / halves hb, ?_, ?_⟩
    · rw [hc, htw, mul_div_assoc]
    · rw [hc, hz]
      cases hb <;> simp [startSections, halves] <;> try constructor
      all_goals linarith
  obtain ⟨K, hK⟩ : ∃ K : ℕ, (⌊c.twistAngle / (2 * π)⌋ : ℤ) = K :=
    Int.eq_ofNat_of_zero_le (Int.floor_nonneg.2 (div_nonneg (by linarith [pi_pos]) (by linarith [pi_pos])))
  have hadd : ⌊(⌊c.twistAngle / (2 * π)⌋ : ℝ) * ((c.zVals.length : ℝ) - 1)⌋₊ = K * halves hb := by
    rw [hK, hz, s7]
    have : (((K : ℕ) : ℤ) : ℝ) * (((halves hb + 1 : ℕ) : ℝ) - 1) = ((K * halves hb : ℕ) : ℝ) := by push_cast; ring
    rw [this, Nat.floor_natCast]
  have hzs : c.refine.zVals = (((List.range ((K + 1) * halves hb + 1)).map
      (fun j => linspaceAt lo hi ((K + 1) * halves hb + 1) j)) ++ c.zVals).toFinset.sort (· ≤ ·) := by
    rw [GearCore.refine, if_pos ht]
    simp only [hadd]
    have e1 : c.zVals.headD 0 = lo := by rw [hz]; cases hb <;> rfl
    have e2 : c.zVals.getLastD 0 = hi := by rw [hz]; cases hb <;> rfl
    have e3 : K * halves hb + c.zVals.length = (K + 1) * halves hb + 1 := by rw [hz, s7]; ring
    rw [e1, e2, e3]
  obtain ⟨n, hn⟩ : ∃ n, n = (K + 1) * halves hb := ⟨_, rfl⟩
  rw [← hn] at hzs
  have hnpos : (0 : ℝ) < n := by
    rw [hn]; push_cast; positivity
  obtain ⟨d, hd⟩ : ∃ d, d = (hi - lo) / n := ⟨_, rfl⟩
  have hdpos : 0 < d := by rw [hd]; exact div_pos (by linarith) hnpos
  have hgoal : lo + d * n = hi := by rw [hd]; field_simp; ring
  have hgrid : ∀ j : ℕ, linspaceAt lo hi (n + 1) j = lo + d * j := by
    intro j; rw [linspaceAt, hd]; push_cast; rw [add_sub_cancel_right]; ring
  have hstart : ∀ z ∈ startSections hb lo hi, ∃ j ≤ n, lo + d * j = z := by
    intro z hz'
    have hmid : hb = true → ∃ j ≤ n, lo + d * j = (hi + lo) / 2 := by
      rintro rfl
      refine ⟨K + 1, by rw [hn]; simp [halves], ?_⟩
      have : (n : ℝ) = 2 * (K + 1) := by rw [hn]; simp [halves]; ring
      rw [this] at hgoal
      push_cast
      linarith
    have hlo : ∃ j ≤ n, lo + d * j = lo := ⟨0, by omega, by simp⟩
    have hhi : ∃ j ≤ n, lo + d * j = hi := ⟨n, le_rfl, hgoal⟩
    cases hb
    · simp only [startSections, Bool.false_eq_true, if_false, List.mem_cons, List.not_mem_nil, or_false] at hz'
      rcases hz' with rfl | rfl
      · exact hlo
      · exact hhi
    · simp only [startSections, if_true, List.mem_cons, List.not_mem_nil, or_false] at hz'
      rcases hz' with rfl | rfl | rfl
      · exact hlo
      · exact hmid rfl
      · exact hhi
  have hmem : ∀ z, z ∈ c.refine.zVals ↔ ∃ j ≤ n, lo + d * j = z := by
    intro z
    rw [hzs, Finset.mem_sort, List.mem_toFinset, List.mem_append, hz]
    simp only [List.mem_map, List.mem_range, hgrid, Nat.lt_succ_iff]
    exact ⟨fun h => h.elim id (hstart z), Or.inl⟩
  have hsorted : c.refine.zVals.Pairwise (· < ·) := by
    rw [hzs]; exact Finset.sortedLT_sort _ |>.pairwise
  have hin : ∀ z ∈ c.refine.zVals, lo ≤ z ∧ z ≤ lo + d * n := by
    intro z hz'
    obtain ⟨j, hj, rfl⟩ := (hmem z).1 hz'
    have hj' : (j : ℝ) ≤ n := by exact_mod_cast hj
    constructor
    · have := mul_nonneg hdpos.le (Nat.cast_nonneg (α := ℝ) j); linarith
    · have := mul_le_mul_of_nonneg_left hj' hdpos.le; linarith
  have hclose := neighbours_close hsorted hdpos (fun j hj => (hmem _).2 ⟨j, hj, rfl⟩) hin
  refine ⟨d, ?_, hclose⟩
  have hhead := head_of_sorted hsorted ((hmem lo).2 ⟨0, by omega, by simp⟩) fun z h => (hin z h).1
  have hhi := (hmem hi).2 ⟨n, le_rfl, hgoal⟩
  have hr := (refine_recipe c).1
  rcases hl : c.refine.zVals with _ | ⟨a, _ | ⟨b, l⟩⟩
  · rw [hl] at hhi; simp at hhi
  · rw [hl] at hhead hhi
    simp at hhead hhi
    linarith
  · rw [hl] at hhead hsorted hclose
    have ha0 : a = lo := by simpa using hhead
    have hab : a < b := (List.pairwise_cons.1 hsorted).1 b (by simp)
    have hb1 : b - a ≤ d := by
      rw [List.isChain_cons_cons] at hclose; exact hclose.1
    obtain ⟨j, hj, hjb⟩ := (hmem b).1 (by rw [hl]; simp)
    have hj1 : 1 ≤ j := by
      by_contra hc
      have : j = 0 := by omega
      rw [this] at hjb
      simp at hjb
      linarith
    have hj1' : (1 : ℝ) ≤ j := by exact_mod_cast hj1
    have hbd : b - lo = d := by
      rw [ha0] at hb1
      nlinarith
    have hbmid : hb = true → b ≤ (hi + lo) / 2 := by
      rintro rfl
      have : (n : ℝ) = 2 * (K + 1) := by rw [hn]; simp [halves]; ring
      rw [this] at hgoal
      have hK0 : (0 : ℝ) ≤ K := Nat.cast_nonneg K
      nlinarith
    rw [twist_first c.refine (k := k) (e := 0) (z0 := lo) (z1 := b) (by rw [hl, ← ha0]; rfl) (by rw [hl]; rfl)
      (by linarith) ?_, hbd]
    intro z hz0 hz1
    rw [hr, ha]
    cases hb
    · simp [twistFun]
    · simp only [twistFun, if_true]
      rw [abs_of_nonneg (by linarith [hbmid rfl])]
      ring

/-- **C131, helical gears.** `build_part()` of a helical or herringbone gear uses at least three rows per section, and no
section twists by more than 30 degrees per inner row. -/
theorem c131_rows_helical (hb : Bool) (p : GearInput) (hn : 0 < p.numTeeth) (hh : 0 < p.height) (hm : 0 < p.module_)
    (hβ : 0 < cos p.helixAngle) (ht : p.crowning ≠ 0 ∨ p.helixAngle ≠ 0) :
    EnoughRows (helicalGear hb p).core.recipe.angle (π / 6) (helicalGear hb p).nVert (helicalGear hb p).core.zVals := by
  have hlt : lowEnd p < highEnd p := by
    rw [← sub_pos, ends_sub]; positivity
  obtain ⟨c, h1, h2, h3⟩ := helical_start hb p hn hlt
  obtain ⟨d, d1, d2⟩ := refined_first hb c hlt h1 h2
  have hi : (helicalGear hb p).input = p.transverse := by
    rw [helicalGear]; exact normalise_pos (p := p.transverse) hn
  obtain ⟨b1, b2⟩ := nVert_bound (helicalGear hb p) (by rw [hi]; exact ht)
  refine ⟨b1, ?_⟩
  rw [h3] at b2 ⊢
  rw [d1] at b2
  rw [(refine_recipe c).1, h2]
  exact short_sections (fun x y => twistFun_lipschitz hb _ _ _ x y) d2 b2

/-- **C131, cycloid gears.** At least three rows unless the gear is a plain cylinder, and no more than 45 degrees per inner
row. -/
theorem c131_rows_cycloid (p : GearInput) (hh : 0 < p.height) (hm : 0 < p.module_)
    (ht : p.helixAngle ≠ 0 ∨ p.coneAngle ≠ 0 ∨ p.crowning ≠ 0) :
    EnoughRows (cycloidGear p).core.recipe.angle (π / 4) (cycloidGear p).nVertCycloid (cycloidGear p).core.zVals := by
  have hn : ¬((cycloidGear p).input.helixAngle = 0 ∧ (cycloidGear p).input.coneAngle = 0 ∧
      (cycloidGear p).input.crowning = 0) := by
    change ¬(p.helixAngle = 0 ∧ p.coneAngle = 0 ∧ p.crowning = 0); tauto
  have h3 : 3 ≤ (cycloidGear p).nVertCycloid := by
    rw [WGear.nVertCycloid, if_neg hn]; split_ifs <;> omega
  have hpos : 0 < p.height / p.module_ := by positivity
  have hz : (cycloidGear p).core.zVals = [-(p.height / p.module_) * p.zAnchor, p.height / p.module_ * (1 - p.zAnchor)] := rfl
  have ha : ∀ z, (cycloidGear p).core.recipe.angle z = z * (tan p.helixAngle / (p.numTeeth / 2)) := fun z => rfl
  have b2 := rows_bound (t := (cycloidGear p).core.twistAngle) (s := π / 4) (by positivity)
    (n := (cycloidGear p).nVertCycloid) (fun ht => by rw [WGear.nVertCycloid, if_neg hn, if_pos ht]) h3
  rw [twist_first (cycloidGear p).core (z0 := -(p.height / p.module_) * p.zAnchor) (z1 := p.height / p.module_ * (1 - p.zAnchor))
      (k := tan p.helixAngle / (p.numTeeth / 2)) (e := 0) (by rw [hz]; rfl)
    (by rw [hz]; rfl) (by linarith) (fun z _ _ => by rw [ha, add_zero])] at b2
  refine ⟨h3, short_sections (k := tan p.helixAngle / (p.numTeeth / 2)) (d := p.height / p.module_) ?_ ?_ ?_⟩
  · intro x y
    rw [ha, ha, ← sub_mul, abs_mul, mul_comm]
  · rw [hz]
    simp
    linarith
  · refine le_trans (le_of_eq ?_) b2
    ring

/-- **C131 is violated by helical ring gears.** They never get more than five rows, so that every ring gear whose twist is
above 135 degrees twists by more than 45 degrees per inner row. -/
theorem c131_ring_violated (p : GearInput) (hn : 0 < p.numTeeth) (hh : 0 < p.height) (hm : 0 < p.module_)
    (hβ : 0 < cos p.helixAngle)
    (htw : 3 * (π / 4) < |tan p.helixAngle| * (p.height * cos p.helixAngle / p.module_) / (p.numTeeth / 2)) :
    ¬EnoughRows (helicalRingGear false p).core.recipe.angle (π / 4) (helicalRingGear false p).nVertRing
      (helicalRingGear false p).core.zVals := by
  have hlt : lowEnd p < highEnd p := by
    rw [← sub_pos, ends_sub]; positivity
  obtain ⟨h1, h2⟩ := helical_ring_start false p hn hlt
  rintro ⟨-, h⟩
  rw [h1, h2] at h
  simp only [TwistAtMost, startSections, Bool.false_eq_true, if_false, List.isChain_cons_cons,
    List.isChain_singleton, and_true] at h
  have := h (highEnd p) ⟨hlt.le, le_rfl⟩ (lowEnd p) ⟨le_rfl, hlt.le⟩
  simp only [twistFun, Bool.false_eq_true, if_false] at this
  rw [← sub_mul, ends_sub, abs_mul, abs_of_pos (by positivity : 0 < p.height / (p.module_ / cos p.helixAngle)),
    abs_div, abs_of_pos (by positivity : 0 < p.numTeeth / 2)] at this
  have e : p.height / (p.module_ / cos p.helixAngle) * (|tan p.helixAngle| / (p.numTeeth / 2)) =
      |tan p.helixAngle| * (p.height * cos p.helixAngle / p.module_) / (p.numTeeth / 2) := by field_simp
  rw [e] at this
  have h5 : ((helicalRingGear false p).nVertRing : ℝ) ≤ 5 := by
    have : (helicalRingGear false p).nVertRing ≤ 5 := by rw [WGear.nVertRing]; split_ifs <;> omega
    exact_mod_cast this
  nlinarith [pi_pos]

/-- **C131, why two rows are not enough for a crowning.** The slice at any height other than the two ends is not the one at
height 0: the tooth is wider in the middle. -/
theorem c131_crowned (p : GearInput) (hn : 0 < p.numTeeth) (hh : 0 < p.height) (hc : 0 < p.crowning) {z : ℝ}
    (h0 : 0 < z) (h1 : z < p.height) :
    ((involuteGear p).core.recipe.slice 0).gen.pitchIntersectAngle 7 <
      ((involuteGear p).core.recipe.slice z).gen.pitchIntersectAngle 7 := by
  have hf : ∀ (g : ToothGen) (z w : ℝ), (g.freeze z).pitchIntersectAngle w = g.pitchIntersectAngle z := by
    intro g z w; cases g <;> rfl
  have hg : (involuteGear p).core.recipe.gen = p.involuteGen := by
    rw [involuteGear, normalise_pos hn]; rfl
  simp only [ProfileRecipe.slice, hf, hg, involuteGen_pia, GearInput.crowningFunc]
  have h2 : (z * 2 / p.height - 1) ^ 2 < 1 := by
    rw [sq_lt_one_iff_abs_lt_one, abs_lt]
    constructor
    · have : 0 < z * 2 / p.height := by positivity
      linarith
    · have : z * 2 / p.height < 2 := by rw [div_lt_iff₀ hh]; linarith
      linarith
  have h3 : 0 < p.crowning / (p.numTeeth / 2) * (1 / 1000) := by positivity
  have e : ∀ a : ℝ, a * p.crowning / (p.numTeeth / 2) * (1 / 1000) = a * (p.crowning / (p.numTeeth / 2) * (1 / 1000)) := by
    intro a; ring
  rw [e, e]
  have : (0 * 2 / p.height - 1) ^ 2 = (1 : ℝ) := by norm_num
  rw [this]
  nlinarith

/-- **C131, why two rows are not enough for a twist.** Half way up a section with two rows whose ends are turned against each
other by `β - α`, the face is too close to the axis, by the factor `cos ((β - α) / 2)`. -/
theorem c131_two_rows_twisted (α β : ℝ) (za zb v : ℝ) (pts : List V3) (W : List ℝ) {c : V3}
    (hc : nurbezier v pts W = some c) :
    ∃ p, nurbezierSurface (1 / 2) v [pts.map fun p => applyGearTransform p ⟨⟨![0, 0, za], 1, 1⟩, α⟩,
        pts.map fun p => applyGearTransform p ⟨⟨![0, 0, zb], 1, 1⟩, β⟩] [W, W] = some p ∧
      p 0 ^ 2 + p 1 ^ 2 = cos ((β - α) / 2) ^ 2 * (c 0 ^ 2 + c 1 ^ 2) := by
  have hb : bezier v W ≠ 0 := by
    intro h0
    rw [nurbezier] at hc
    split_ifs at hc with hl
    by_cases hW : W = []
    · subst hW
      simp [bezierdc_nil, weighted] at hc
    · rw [c01_evaluators_agree v W hW, h0] at hc
      cases hz : bezierdc v (weighted pts W) <;> simp [hz] at hc
  rw [nurbezierSurface]
  simp only [List.zipWith_cons_cons, List.zipWith_nil_left, c03_gear_transform, hc, Option.map_some, List.mapM_cons,
    List.mapM_nil, id, Option.bind_eq_bind, Option.bind_some, Option.pure_def, List.map_cons, List.map_nil]
  obtain ⟨b, hbe⟩ : ∃ b, b = bezier v W := ⟨_, rfl⟩
  rw [← hbe] at hb ⊢
  obtain ⟨P, hP⟩ : ∃ P, P = applyGearTransform c ⟨⟨![0, 0, za], 1, 1⟩, α⟩ := ⟨_, rfl⟩
  obtain ⟨Q, hQ⟩ : ∃ Q, Q = applyGearTransform c ⟨⟨![0, 0, zb], 1, 1⟩, β⟩ := ⟨_, rfl⟩
  rw [← hP, ← hQ, nurbezier, if_pos (by simp)]
  have h1 : bezierdc (1 / 2) (weighted [P, Q] [b, b]) = some ((1 - 1 / 2 : ℝ) • (b • P) + (1 / 2 : ℝ) • (b • Q)) := by
    simp [bezierdc, weighted, dcStep]
  have h2 : bezierdc (1 / 2) [b, b] = some b := by
    simp [bezierdc, dcStep]; ring
  rw [h1, h2]
  simp only [if_neg hb, Option.some.injEq, exists_eq_left']
  have e : b⁻¹ • ((1 - 1 / 2 : ℝ) • (b • P) + (1 / 2 : ℝ) • (b • Q)) = (1 / 2 : ℝ) • (P + Q) := by
    rw [smul_add, smul_smul, smul_smul, smul_smul, smul_smul, smul_add]
    congr 2
    · field_simp; norm_num
    · field_simp
  rw [e, hP, hQ]
  simp only [applyGearTransform_eq, app_one, one_smul, Rz_app, Pi.smul_apply, Pi.add_apply, smul_eq_mul]
  simp
  have hh : cos ((β - α) / 2) ^ 2 = (1 + cos (β - α)) / 2 := by
    rw [cos_sq]; ring_nf
  rw [hh, cos_sub]
  have s1 := sin_sq_add_cos_sq α
  have s2 := sin_sq_add_cos_sq β
  linear_combination (c 0 ^ 2 + c 1 ^ 2) / 4 * s1 + (c 0 ^ 2 + c 1 ^ 2) / 4 * s2

/-! ### Concrete cases -/

/-- Concrete case for C131: a gear with four straight-sided teeth that shrinks towards the top like a bevel gear, built with
four control rows and solvers that stop where they start. -/
theorem c131_case : ∃ (asEuler : M3 → ℝ × ℝ × ℝ) (P : RefProfile Curve) (E : ExtProfile Curve) (N : ℝ → NurbProfileExt)
    (trf : ℝ → GearTransform) (x : ℕ → ℕ → ℝ),
    closeProfile curveOps asEuler (lineC ![√3, -1, 0] ![3, -1 / 2, 0]) (√(37 / 4)) 2 1 ![0, 0, 0] (π / 2) = some P ∧
    profileExtensions curveOps asEuler P 0 ![0, 0, 0] (1 / 3) = some E ∧
    (∀ h, profileToNurbExt (fun c => [c]) (fun _ _ _ _ => 7) 4 3 (trf h) E = some (N h)) ∧
    (trf 5).scale = 1 / 2 ∧ sideFaces N (fun i => i) 4 3 x 0 ≠ [] ∧
    ∀ (p : ℕ) (F : BezierFace), (sideFaces N (fun i => i) 4 3 x 0)[p]? = some F → ∀ u v,
      ∃ c : Nurb V3, (N u).sideMembers[p]? = some c ∧
        nurbezierSurface u v F.points F.weights = nurbezier v c.points c.weights := by
  obtain ⟨asEuler, hE⟩ := eulerOk_exists
  have hl : Plain (lineC ![√3, -1, 0] ![3, -1 / 2, 0]) (exampleFlank 0) (exampleFlank 1) := by
    have hne : (![√3, -1, 0] : V3) ≠ ![3, -1 / 2, 0] := by
      intro e
      have := congrFun e 1
      norm_num at this
    have := line_plain hne
    rw [show exampleFlank 0 = ![√3, -1, 0] by simp [exampleFlank], show exampleFlank 1 = ![3, -1 / 2, 0] by
      apply V3.ext3 <;> simp [exampleFlank] <;> norm_num]
    exact this
  have hp : Path curveOps [lineC ![√3, -1, 0] ![3, -1 / 2, 0]] (exampleFlank 0) (exampleFlank 1) := .cons hl.seg (.nil _)
  have hex : ∃ c ∈ [lineC ![√3, -1, 0] ![3, -1 / 2, 0]], c.active = true := ⟨_, by simp, hl.seg.active⟩
  obtain ⟨trf, htr⟩ : ∃ trf : ℝ → GearTransform, trf = fun h => ⟨⟨h • OUT, 1, 1 - h / 10⟩, 0⟩ := ⟨_, rfl⟩
  have hst : StraightMotion trf := by
    intro s a b p
    simp only [htr, applyGearTransform_eq, app_one]
    module
  have hcv := fun h => c128_converts (members := fun c => [c]) hE exampleOutline 2 (1 / 3) (by norm_num)
    (by linarith [pi_pos]) (by ring) hp hex
    (by
      intro c hc
      rw [List.mem_singleton] at hc
      rw [hc]
      exact Or.inl (Or.inl ⟨_, _, made_kind _ _ _⟩))
    (fun _ _ _ _ => 7) 4 (by norm_num) 3 (by norm_num) (trf h)
  obtain ⟨P, E, e1, e2, e3⟩ := c131_exact (members := fun c => [c]) hE exampleOutline 2 (1 / 3) (by ring) hp hex
    (fun _ _ _ _ => 7) 4 (by norm_num) 3 (by norm_num) trf hst 4 (by norm_num) (fun i => i)
  have hN : ∀ h, ∃ S, profileToNurbExt (fun c => [c]) (fun _ _ _ _ => 7) 4 3 (trf h) E = some S := by
    intro h
    obtain ⟨P', E', S, g1, g2, g3⟩ := hcv h
    rw [e1] at g1
    obtain rfl := Option.some.inj g1
    rw [e2] at g2
    obtain rfl := Option.some.inj g2
    exact ⟨S, g3⟩
  choose N hN using hN
  have hsol : ∀ (q m o : ℕ) (T : ℕ → Fin q → ℝ), ∃ x, SurfSolution q m o T x := fun q m o T => ⟨_, _, .start, .start⟩
  choose X hX using fun ii => hsol (4 * sideWidth N (fun i => (i : ℝ)) ii) 4 (nZTweens 4 3).toNat
    (sideTargets (fun h => packRow (sideWidth N (fun i => (i : ℝ)) ii) (N h).sideMembers) (fun i => (i : ℝ)) 4 3 ii)
  obtain ⟨hne, -, hx⟩ := e3 N hN X 0 fun _ => hX 0
  refine ⟨asEuler, P, E, N, trf, X, e1, e2, hN, by rw [htr]; norm_num, hne, fun p F hF u v => ?_⟩
  obtain ⟨c, c1, c2⟩ := hx p F hF u v
  refine ⟨c, ?_, c2⟩
  rw [← c1]
  norm_num

/-- Concrete cases for the choice of the rows: a straight gear gets two; the example gear, with a helix angle of 30 degrees,
gets more; and a ring gear of height 300 does not get enough. -/
example : (involuteGear { exampleInput with helixAngle := 0, crowning := 0 }).nVert = 2 :=
  (c131_straight_gears { exampleInput with helixAngle := 0, crowning := 0 } rfl rfl 0 false _ (Or.inl rfl)).1

example : EnoughRows (helicalGear true exampleInput).core.recipe.angle (π / 6) (helicalGear true exampleInput).nVert
    (helicalGear true exampleInput).core.zVals :=
  c131_rows_helical true exampleInput exampleInput_ok.1 exampleInput_ok.2.1 exampleInput_ok.2.2.1 exampleInput_ok.2.2.2
    (Or.inr (by change π / 6 ≠ 0; positivity))

example : ¬EnoughRows (helicalRingGear false { exampleInput with height := 300 }).core.recipe.angle (π / 4)
    (helicalRingGear false { exampleInput with height := 300 }).nVertRing
    (helicalRingGear false { exampleInput with height := 300 }).core.zVals := by
  refine c131_ring_violated _ exampleInput_ok.1 (by norm_num) exampleInput_ok.2.2.1 exampleInput_ok.2.2.2 ?_
  have e : ({ exampleInput with height := 300 } : GearInput).helixAngle = π / 6 := rfl
  have e1 : ({ exampleInput with height := 300 } : GearInput).module_ = 2 := rfl
  have e2 : ({ exampleInput with height := 300 } : GearInput).numTeeth = 24 := rfl
  rw [e, e1, e2, tan_eq_sin_div_cos, sin_pi_div_six]
  have hc : 0 < cos (π / 6) := by rw [cos_pi_div_six]; positivity
  rw [abs_of_pos (by positivity)]
  have : 1 / 2 / cos (π / 6) * (300 * cos (π / 6) / 2) / (24 / 2) = 75 / 12 := by field_simp; norm_num
  simp only
  rw [this]
  linarith [pi_le_four]

end Verif
