import Verif.Props.TrimEx
import Verif.Props.Flank3

/-! # Concrete cases for C104 and C105, violations of C103 and C105 -/

namespace Verif

open Real

/-! ### C104 -/

/-- The table of a curve with equal chords is the diagonal. -/
theorem uniform_lookup (f : ℝ → V3) (n : ℕ) (hn : 1 ≤ n) (l : ℝ)
    (hl : ∀ i, i < n → norm3 (f (linspace 0 1 n (i + 1)) - f (linspace 0 1 n i)) = l) (i : ℕ) (hi : i ≤ n) :
    (Curve.make (.generic f n) true 0 1).lookup.s i = i / n := by
  have hn' : (0 : ℝ) < n := by exact_mod_cast hn
  have hc : ∀ i, i ≤ n → chordLen f (linspace 0 1 n) i = i * l := by
    intro i
    induction i with
    | zero => intro _; simp [chordLen]
    | succ i ih => intro h; rw [chordLen, ih (by omega), hl i (by omega)]; push_cast; ring
  have : (Curve.make (.generic f n) true 0 1).lookup.s = if chordLen f (linspace 0 1 n) n = 0 then linspace 0 1 n else
    fun i => chordLen f (linspace 0 1 n) i / chordLen f (linspace 0 1 n) n := by
      rw [Curve.make, if_pos rfl]; rfl
  rw [this]
  split_ifs with h
  · simp [linspace]
  · simp only
    rw [hc i hi, hc n (le_refl n)] at *
    have hl0 : l ≠ 0 := by rintro rfl; simp at h
    field_simp

theorem mirrorFunc_affine (N p q : V3) (x : ℝ) : mirrorFunc N 0 ((1 - x) • p + x • q) =
    (1 - x) • mirrorFunc N 0 p + x • mirrorFunc N 0 q := by
  simp only [mirrorFunc, sub_zero, add_zero, dot_add_left, dot_smul_left]
  module

/-- The mirrored and reversed copy of a straight tooth. -/
theorem mirrorTooth_seg {p q N : V3} (hpq : q - p ≠ 0) (hN : dot N N = 1) {s : ℝ} (h0 : 0 ≤ s) (h1 : s ≤ 1) :
    (mirrorTooth [lineC p q] N).eval s = some (s • mirrorFunc N 0 p + (1 - s) • mirrorFunc N 0 q) := by
  obtain ⟨g, hg⟩ : ∃ g : ℝ → V3, g = fun t => mirrorFunc N 0 ((chainEval curveOps [lineC p q] t).getD 0) := ⟨_, rfl⟩
  have hgv : ∀ x, 0 ≤ x → x ≤ 1 → g x = (1 - x) • mirrorFunc N 0 p + x • mirrorFunc N 0 q := by
    intro x x0 x1
    rw [hg]
    dsimp only
    rw [seg_eval hpq x0 x1, Option.getD_some, mirrorFunc_affine]
  have hact : ([lineC p q] : List Curve).any Curve.active = true := by simp [lineC_active p q]
  have hls : ∀ i : ℕ, linspace 0 1 20 i = i / 20 := by intro i; simp [linspace]
  have hstep : ∀ i, i < 20 → g (linspace 0 1 20 (i + 1)) - g (linspace 0 1 20 i) =
      (1 / 20 : ℝ) • (mirrorFunc N 0 q - mirrorFunc N 0 p) := by
    intro i hi
    have hi' : ((i + 1 : ℕ) : ℝ) ≤ 20 := by exact_mod_cast hi
    push_cast at hi'
    rw [hls, hls, hgv _ (by positivity) (by push_cast; linarith), hgv _ (by positivity) (by linarith)]
    push_cast
    module
  have hne : mirrorFunc N 0 q - mirrorFunc N 0 p ≠ 0 := by
    intro e
    have := congrArg (mirrorFunc N 0) (sub_eq_zero.1 e)
    rw [c51_involution _ _ _ hN, c51_involution _ _ _ hN] at this
    exact hpq (by rw [this, sub_self])
  have hl : ∀ i, i < 20 → norm3 (g (linspace 0 1 20 (i + 1)) - g (linspace 0 1 20 i)) =
      norm3 ((1 / 20 : ℝ) • (mirrorFunc N 0 q - mirrorFunc N 0 p)) := fun i hi => by rw [hstep i hi]
  have hm : mirrorTooth [lineC p q] N = (Curve.make (.generic g 20) true 0 1).reverse := by
    rw [mirrorTooth, transformedCurve, hact, ← hg]
  have hst : (Curve.make (.generic g 20) true 0 1).Strict := by
    rw [Curve.make, if_pos rfl]
    refine c39_strict _ (by change 1 ≤ 20; norm_num) zero_lt_one ?_
    intro f n hk i hi
    cases hk
    intro e
    have := hstep i hi
    rw [← e, sub_self] at this
    rcases smul_eq_zero.1 this.symm with h | h
    · norm_num at h
    · exact hne h
  have hn : (Curve.make (.generic g 20) true 0 1).lookup.n = 20 := by rw [Curve.make, if_pos rfl]; rfl
  rw [hm, c40_symmetric_partial _ hst _ s h0 h1, uniform_eval g 20 (by norm_num) _ hl true _ (by linarith)
    (by linarith), hgv _ (by linarith) (by linarith)]
  · congr 1; module
  · intro i hi
    rw [hn] at hi ⊢
    rw [uniform_lookup g 20 (by norm_num) _ hl _ (by omega), uniform_lookup g 20 (by norm_num) _ hl _ hi,
      Nat.cast_sub hi]
    push_cast
    field_simp

theorem mirrorTooth_tangent {p q N : V3} (hpq : q - p ≠ 0) (hN : dot N N = 1) {v : V3}
    (hv : v = mirrorFunc N 0 p - mirrorFunc N 0 q) (hv0 : v ≠ 0) {s : ℝ} (h0 : DELTA ≤ s) (h1 : s + DELTA ≤ 1) :
    unitTangent (mirrorTooth [lineC p q] N).eval s = some ((norm3 v)⁻¹ • v) := by
  apply c100_tangent_line hv0 (q := mirrorFunc N 0 q)
  intro x hx0 hx1
  rw [mirrorTooth_seg hpq hN (by linarith) (by linarith), hv]
  congr 1; module

/-- A straight tooth that rises from the middle of the gap to the middle of the tooth (pitch angle `π`). -/
noncomputable def ramp : List Curve := [lineC ![0, -4, 0] ![4, 0, 0]]

theorem ramp_dir : (![4, 0, 0] : V3) - ![0, -4, 0] = ![4, 4, 0] := by apply V3.ext3 <;> simp

theorem ramp_ne : (![4, 0, 0] : V3) - ![0, -4, 0] ≠ 0 := by
  rw [ramp_dir]
  intro e
  have := congrFun e 0
  norm_num at this

theorem sqrt2 : √2 * √2 = (2 : ℝ) := mul_self_sqrt (by norm_num)

theorem norm_diag {a b : ℝ} (ha : a ^ 2 = 16) (hb : b ^ 2 = 16) : norm3 (![a, b, 0] : V3) = 4 * √2 :=
  norm3_eq_of_dot (by positivity) (by simp [dot]; nlinarith [sqrt2])

theorem ramp_len : chainLen curveOps ramp = 4 * √2 := by
  rw [ramp, seg_len, ramp_dir, norm_diag (by norm_num) (by norm_num)]

theorem sqrt2_ratio : √2 / (4 * √2) = 1 / 4 := by
  have : 0 < √2 := by positivity
  field_simp

theorem ramp_eval {s : ℝ} (h0 : 0 ≤ s) (h1 : s ≤ 1) : chainEval curveOps ramp s = some ![4 * s, 4 * s - 4, 0] := by
  rw [ramp, seg_eval ramp_ne h0 h1]
  congr 1
  apply V3.ext3 <;> simp <;> ring

theorem DELTA_small : DELTA < 1 / 6 := by rw [DELTA]; norm_num

theorem ramp_tangent {s : ℝ} (h0 : 1 / 4 ≤ s) (h1 : s ≤ 3 / 4) :
    unitTangent (chainEval curveOps ramp) s = some ((4 * √2)⁻¹ • ![4, 4, 0]) := by
  have := DELTA_small
  rw [ramp, seg_tangent ramp_ne (by linarith) (by linarith), ramp_dir, norm_diag (by norm_num) (by norm_num)]

theorem diag_cross : cross ((4 * √2)⁻¹ • (![4, -4, 0] : V3)) ((4 * √2)⁻¹ • ![4, 4, 0]) = ![0, 0, 1] ∧
    cross ((4 * √2)⁻¹ • (![4, 4, 0] : V3)) ((4 * √2)⁻¹ • ![-4, 4, 0]) = ![0, 0, 1] ∧
    norm3 (![0, 0, 1] : V3) = 1 ∧ (![0, 0, 1] : V3) ≠ 0 := by
  have h : √2 ^ 2 = 2 := sq_sqrt (by norm_num)
  refine ⟨?_, ?_, norm3_eq_of_dot (by norm_num) (by simp [dot]), ?_⟩
  · apply V3.ext3 <;> simp
    field_simp
    rw [h]; norm_num
  · apply V3.ext3 <;> simp
    field_simp
    rw [h]; norm_num
  · intro e
    have := congrFun e 2
    simp at this

theorem knowing_fail {xI xF : V3} {f1 f2 : ℝ → Option V3} {a b : ℝ} (ha : a ≠ 0)
    (h : curveDiff f1 f2 (xI 0) (xI 1) ≠ some 0) :
    findCurveIntersect (knowing xI xF).toSolvers f1 f2 (a, b) .equality = ⟨false, (0, 0)⟩ := by
  simp [findCurveIntersect, knowing, h, guess_ne ha]

/-- The tooth does not meet the circle of radius 1 at the parameters (0, 0). -/
theorem ramp_miss : curveDiff (chainEval curveOps ramp) (circ 1).eval ((0 : V3) 0) ((0 : V3) 1) ≠ some 0 := by
  change curveDiff (chainEval curveOps ramp) (circ 1).eval 0 0 ≠ some 0
  rw [curveDiff_intro (p := ![4 * (0 : ℝ), 4 * 0 - 4, 0]) (q := ![1 * cos (2 * π * 0), 1 * sin (2 * π * 0), 0])
    (ramp_eval le_rfl zero_le_one) (circ_eval 1 0)]
  intro e
  have := congrFun (Option.some.inj e) 0
  simp at this

theorem gap_normal : app (Rz (-π / 2)) UP = ![1, 0, 0] := by
  apply V3.ext3 <;> simp [app_0, app_1, app_2, Rz, UP, neg_div]

/-- C104 at the root: the tooth from `(0, -4)` to `(4, 0)` with a fillet of radius `√2` starts at
`(0, -2 - √2)`, perpendicular to the middle plane of the gap. -/
theorem c104_root_case {asEuler : M3 → ℝ × ℝ × ℝ} (hE : EulerOk asEuler) : ∃ (S : ScalarSolvers) (arc : Curve)
    (after : List Curve) (p0 : V3) (v : ℝ), Honest S ∧
    applyFillet asEuler S.toSolvers ramp π (circ 1) √2 true = some (arc :: after) ∧
    arc.eval 0 = some p0 ∧ p0 0 = 0 ∧ v ≠ 0 ∧ arc.eval 1 = some ![1, -3, 0] ∧
    HasDerivAt (fun s => (arc.eval s).getD 0) (v • ![1, 0, 0]) 0 ∧ Meets curveOps (arc :: after) := by
  obtain ⟨N, hN⟩ : ∃ N, N = app (Rz (-π / 2)) UP := ⟨_, rfl⟩
  have hN' : N = ![1, 0, 0] := hN.trans gap_normal
  have hNN : dot N N = 1 := by rw [hN]; exact planeNormal_unit _
  obtain ⟨a1, a2, a3, a4⟩ := seg_facts ramp_ne
  obtain ⟨c1, -, c2, c3⟩ := diag_cross
  have hD := DELTA_small
  have hm1 : (mirrorTooth ramp N).eval (3 / 4) = some ![-1, -3, 0] := by
    rw [ramp, mirrorTooth_seg ramp_ne hNN (by norm_num) (by norm_num), hN']
    congr 1
    apply V3.ext3 <;> simp [mirrorFunc, dot] <;> norm_num
  have hv : (![4, -4, 0] : V3) = mirrorFunc N 0 ![0, -4, 0] - mirrorFunc N 0 ![4, 0, 0] := by
    rw [hN']
    apply V3.ext3 <;> simp [mirrorFunc, dot] <;> norm_num
  have hd1 : unitTangent (mirrorTooth ramp N).eval (3 / 4) = some ((4 * √2)⁻¹ • ![4, -4, 0]) := by
    rw [ramp, mirrorTooth_tangent ramp_ne hNN hv (by
      intro e
      have := congrFun e 0
      norm_num at this) (by linarith) (by linarith), norm_diag (by norm_num) (by norm_num)]
  have hp2 : chainEval curveOps ramp (1 / 4) = some ![1, -3, 0] := by
    rw [ramp_eval (by norm_num) (by norm_num)]; norm_num
  have hd2 := ramp_tangent (s := 1 / 4) (by norm_num) (by norm_num)
  have hs : 0 < √2 := by positivity
  have hcost : tangentCost (mirrorTooth ramp N).eval (chainEval curveOps ramp) √2 (3 / 4, 1 / 4) 0 = some 0 := by
    rw [tangentCost]
    simp only [Pi.zero_apply, sub_zero, add_zero]
    rw [calcCenters_intro hm1 hp2 hd1 hd2 (by rw [c1]; exact c3), c1, c2, Option.map_some]
    congr 1
    apply V3.ext3 <;> simp [cross] <;> field_simp <;> norm_num
  have hroot := knowing_root (xI := 0) hcost
  have hst : ((3 / 4, 1 / 4) : ℝ × ℝ) = (1 - √2 / chainLen curveOps ramp, √2 / chainLen curveOps ramp) := by
    rw [ramp_len, sqrt2_ratio]; norm_num
  have ht : ((3 / 4, 1 / 4) : ℝ × ℝ) = contactParams (knowing 0 0).toSolvers (mirrorTooth ramp N).eval
      (chainEval curveOps ramp) √2 (3 / 4, 1 / 4) := by
    rw [contactParams, hroot]; simp
  obtain ⟨arc, after, x, a, a', p0, p2, d2, center, v, k, r1, -, -, -, -, -, r2, -, r3, r4, r5, -, -, r6, -, r7, -, r8, -⟩ :=
    c104_root_partial hE (knowing 0 0) (knowing_honest _ _) ramp a1 a2 a3 a4 π (circ 1) √2 hs _ rfl
      (Or.inl (by rw [knowing_fail (by norm_num) ramp_miss])) N hN _ hst (by rw [hroot]) _ ht
      (by norm_num) (by
        change (mirrorTooth ramp N).eval (3 / 4) = (chainEval curveOps ramp (1 / 4)).map _
        rw [hm1, hp2, hN', Option.map_some]
        congr 1
        apply V3.ext3 <;> simp [mirrorFunc, dot]
        norm_num)
  refine ⟨_, arc, after, p0, v, knowing_honest _ _, r1, r3, ?_, r6, ?_, hN' ▸ r7, r8⟩
  · rw [hN'] at r4
    simpa [dot] using r4
  · rw [r5, ← r2]; exact hp2

/-- C104 at the tip: the same tooth with a tip fillet of radius `√2` ends at `(2 + √2, 0)`, perpendicular to
the middle plane of the tooth. -/
theorem c104_tip_case {asEuler : M3 → ℝ × ℝ × ℝ} (hE : EulerOk asEuler) : ∃ (S : ScalarSolvers) (arc : Curve)
    (before : List Curve) (p0 : V3) (v : ℝ), Honest S ∧
    applyFillet asEuler S.toSolvers ramp π (circ 1) √2 false = some (before ++ [arc]) ∧
    arc.eval 0 = some ![3, -1, 0] ∧ arc.eval 1 = some p0 ∧ p0 1 = 0 ∧ v ≠ 0 ∧
    HasDerivAt (fun s => (arc.eval s).getD 0) (v • UP) 1 ∧ Meets curveOps (before ++ [arc]) := by
  have hNN : dot UP UP = 1 := by simp [dot, UP]
  obtain ⟨a1, a2, a3, a4⟩ := seg_facts ramp_ne
  obtain ⟨-, c1, c2, c3⟩ := diag_cross
  have hD := DELTA_small
  have hm1 : (mirrorTooth ramp UP).eval (1 / 4) = some ![3, 1, 0] := by
    rw [ramp, mirrorTooth_seg ramp_ne hNN (by norm_num) (by norm_num)]
    congr 1
    apply V3.ext3 <;> simp [mirrorFunc, dot, UP] <;> norm_num
  have hv : (![-4, 4, 0] : V3) = mirrorFunc UP 0 ![0, -4, 0] - mirrorFunc UP 0 ![4, 0, 0] := by
    apply V3.ext3 <;> simp [mirrorFunc, dot, UP] <;> norm_num
  have hd1 : unitTangent (mirrorTooth ramp UP).eval (1 / 4) = some ((4 * √2)⁻¹ • ![-4, 4, 0]) := by
    rw [ramp, mirrorTooth_tangent ramp_ne hNN hv (by
      intro e
      have := congrFun e 0
      norm_num at this) (by linarith) (by linarith), norm_diag (by norm_num) (by norm_num)]
  have hp2 : chainEval curveOps ramp (3 / 4) = some ![3, -1, 0] := by
    rw [ramp_eval (by norm_num) (by norm_num)]; norm_num
  have hd2 := ramp_tangent (s := 3 / 4) (by norm_num) (by norm_num)
  have hs : 0 < √2 := by positivity
  have hcost : tangentCost (chainEval curveOps ramp) (mirrorTooth ramp UP).eval √2 (3 / 4, 1 / 4) 0 = some 0 := by
    rw [tangentCost]
    simp only [Pi.zero_apply, sub_zero, add_zero]
    rw [calcCenters_intro hp2 hm1 hd2 hd1 (by rw [c1]; exact c3), c1, c2, Option.map_some]
    congr 1
    apply V3.ext3 <;> simp [cross] <;> field_simp <;> norm_num
  have hroot := knowing_root (xI := 0) hcost
  have hst : ((3 / 4, 1 / 4) : ℝ × ℝ) = (1 - √2 / chainLen curveOps ramp, √2 / chainLen curveOps ramp) := by
    rw [ramp_len, sqrt2_ratio]; norm_num
  have ht : ((3 / 4, 1 / 4) : ℝ × ℝ) = contactParams (knowing 0 0).toSolvers (chainEval curveOps ramp)
      (mirrorTooth ramp UP).eval √2 (3 / 4, 1 / 4) := by
    rw [contactParams, hroot]; simp
  obtain ⟨arc, before, y, a, a', p0, p1, d1, center, v, k, r1, -, -, -, -, -, r2, -, r3, r4, r5, -, -, r6, -, -, r7, r8, -⟩ :=
    c104_tip_partial hE (knowing 0 0) (knowing_honest _ _) ramp a1 a2 a3 a4 π (circ 1) √2 hs _ rfl
      (Or.inl (by rw [knowing_fail (by norm_num) ramp_miss])) _ hst (by rw [hroot]) _ ht
      (by norm_num) (by
        change (mirrorTooth ramp UP).eval (1 / 4) = (chainEval curveOps ramp (3 / 4)).map _
        rw [hm1, hp2, Option.map_some]
        congr 1
        apply V3.ext3 <;> simp [mirrorFunc, dot, UP]
        norm_num)
  refine ⟨_, arc, before, p0, v, knowing_honest _ _, r1, ?_, r4, r5, r6, r7, r8⟩
  rw [r3, ← r2]; exact hp2

/-! ### C105 -/

/-- The straight tooth `y = -3` as a single curve. -/
noncomputable def bar : Curve := lineC ![0, -3, 0] ![6, -3, 0]

theorem bar_eval (s : ℝ) : bar.eval s = some ![6 * s, -3, 0] := by
  rw [bar, lineC_eval]
  congr 1
  apply V3.ext3 <;> simp <;> ring

/-- The bar meets the circle of radius 4 at `(√7, -3)`. -/
theorem bar_meets : ∃ u, curveDiff bar.eval (circ 4).eval (√7 / 6) u = some 0 ∧
    (circ 4).eval u = some ![√7, -3, 0] := by
  have h7p : 0 < √7 := sqrt_pos.2 (by norm_num)
  have h7 : √7 < 3 := by rw [sqrt_lt' (by norm_num)]; norm_num
  obtain ⟨-, m2⟩ := flat_meets (R := 4) rfl (y := 3) (x := √7) (by norm_num) h7p (by norm_num) (by linarith)
    (by rw [sq_sqrt (by norm_num)]; norm_num)
  refine ⟨_, ?_, m2⟩
  rw [curveDiff_intro (bar_eval _) m2]
  congr 1
  apply V3.ext3 <;> simp
  ring

/-- C105 at the tip: the bar is cut where it meets the circle of radius 4. -/
theorem c105_tip_case : ∃ (S : ScalarSolvers) (t : Curve), Honest S ∧
    trimTip curveOps S bar (circ 4) 0 π = some t ∧ t.eval 0 = some ![0, -3, 0] ∧ t.eval 1 = some ![√7, -3, 0] := by
  obtain ⟨u, m1, m2⟩ := bar_meets
  have hint := knowing_intersect (xI := ![√7 / 6, u, 0]) (xF := 0) (f1 := bar.eval)
    (f2 := (circ 4).eval) (a := 9 / 10) (b := -π / 8 / (circ 4).length) (by norm_num) m1
  have hmid : ∀ p, (circ 4).eval u = some p → p 1 < 0 := by
    intro p hp
    rw [m2] at hp
    rw [← Option.some.inj hp]
    norm_num
  obtain ⟨t, p, σ, r1, r2, r3, r4, r5, r6, r7⟩ := c105_tip_partial curve_lawful (knowing ![√7 / 6, u, 0] 0)
    (knowing_honest _ _) bar (lineC_fresh _ _) (circ 4) π _ hint.symm rfl (Or.inl hmid)
  refine ⟨_, t, knowing_honest _ _, r1, ?_, ?_⟩
  · rw [show t.eval 0 = bar.eval 0 from r4, bar_eval]; simp
  · rcases r7 with ⟨h, -⟩ | ⟨-, h⟩
    · rw [show t.eval 1 = some p from r5, ← h]; exact m2
    · have := h _ m2
      norm_num at this

/-- C105 at the root: the bar is cut where it meets the circle of radius 4. -/
theorem c105_root_case : ∃ (S : ScalarSolvers) (t : Curve), Honest S ∧
    trimRoot curveOps S bar (circ 4) 0 π = some t ∧ t.eval 0 = some ![√7, -3, 0] ∧ t.eval 1 = some ![6, -3, 0] := by
  obtain ⟨u, m1, m2⟩ := bar_meets
  have h7p : 0 < √7 := sqrt_pos.2 (by norm_num)
  have hint := knowing_intersect (xI := ![√7 / 6, u, 0]) (xF := 0) (f1 := bar.eval)
    (f2 := (circ 4).eval) (a := 3 / 10) (b := -π / 2 / (circ 4).length) (by norm_num) m1
  have hmid : ∀ p, (circ 4).eval u = some p → -π / 2 < arctan2 (p 1) (p 0) := by
    intro p hp
    rw [m2] at hp
    rw [← Option.some.inj hp]
    have := (angleCheck_pi (p := ![√7, -3, 0]) (by simpa using h7p) (by norm_num)).2
    linarith
  obtain ⟨t, p, σ, r1, r2, r3, r4, r5, r6, r7⟩ := c105_root_partial curve_lawful (knowing ![√7 / 6, u, 0] 0)
    (knowing_honest _ _) bar (lineC_fresh _ _) (circ 4) π _ hint.symm rfl (Or.inl hmid)
    (fun s => ⟨_, bar_eval s⟩)
  refine ⟨_, t, knowing_honest _ _, r1, ?_, ?_⟩
  · rcases r7 with ⟨h, -⟩ | ⟨h, -⟩
    · rw [show t.eval 0 = some p from r5, ← h]; exact m2
    · have h1 := h _ m2
      have h2 := hmid _ m2
      linarith
  · rw [show t.eval 1 = bar.eval 1 from r4, bar_eval]; simp

/-- What a minimiser's `success` flag can be taken to mean at best: a global minimum. -/
def HonestMin (S : ScalarSolvers) : Prop :=
  ∀ cost guess, (S.minimize cost guess).success = true →
    ∃ v, cost (S.minimize cost guess).x = some v ∧ ∀ y w, cost y = some w → v ≤ w

/-- A tooth far inside the tip circle: an arc of radius 1/2 about `(1, -1)`. -/
noncomputable def pebble : Curve := arcInit (1 / 2) (2 * π) ![1, -1, 0] 0 0 0 true

theorem pebble_eval (s : ℝ) : pebble.eval s =
    some ![1 + 1 / 2 * cos (2 * π * s), -1 + 1 / 2 * sin (2 * π * s), 0] := by
  rw [pebble, arcInit, make_eval _ (by intro f n h; cases h)]
  congr 1
  simp only [CurveKind.fn, eulerZYX]
  rw [app_mul, app_mul, app_mul]
  apply V3.ext3 <;> simp [app_0, app_1, app_2, Rx, Ry, Rz, RIGHT] <;> ring

/-- The distance from the pebble to the circle of radius 3. -/
theorem pebble_far (s u : ℝ) {p q : V3} (hp : pebble.eval s = some p) (hq : (circ 3).eval u = some q) :
    norm3 (p - q) ≥ 5 / 2 - √2 := by
  rw [pebble_eval] at hp
  rw [circ_eval] at hq
  obtain ⟨m, hm⟩ : ∃ m : V3, m = ![1, -1, 0] := ⟨_, rfl⟩
  obtain ⟨e, he⟩ : ∃ e : V3, e = ![1 / 2 * cos (2 * π * s), 1 / 2 * sin (2 * π * s), 0] := ⟨_, rfl⟩
  have hpe : p = m + e := by
    rw [← Option.some.inj hp, hm, he]; apply V3.ext3 <;> simp
  have hm' : norm3 m = √2 := by
    refine norm3_eq_of_dot (by positivity) ?_
    rw [sq_sqrt (by norm_num), hm]; simp [dot]; norm_num
  have he' : norm3 e = 1 / 2 := by
    refine norm3_eq_of_dot (by norm_num) ?_
    rw [he]; simp [dot]
    linear_combination 1 / 4 * sin_sq_add_cos_sq (2 * π * s)
  have hq' : norm3 q = 3 := by
    refine norm3_eq_of_dot (by norm_num) ?_
    rw [← Option.some.inj hq]; simp [dot]
    linear_combination 9 * sin_sq_add_cos_sq (2 * π * u)
  have h1 := norm3_add_le m e
  have h2 := norm3_add_le p (q - p)
  rw [add_sub_cancel, ← neg_sub, norm3_neg] at h2
  rw [← hpe] at h1
  linarith

theorem sqrt2_lt : √2 < 3 / 2 := by rw [sqrt_lt' (by norm_num)]; norm_num

open scoped Classical in
/-- Solvers that fail on every equation and know one answer for minimisation. -/
noncomputable def settling (x : ℝ × ℝ) : ScalarSolvers where
  root _ _ := ⟨false, 0⟩
  minimize cost _ := if ∃ v, cost x = some v ∧ ∀ y w, cost y = some w → v ≤ w then ⟨true, x⟩ else ⟨false, x⟩
  root1 _ _ := ⟨false, 0⟩
  minimize1 _ _ := ⟨false, 0⟩

theorem settling_honest (x : ℝ × ℝ) : Honest (settling x) ∧ HonestMin (settling x) := by
  refine ⟨⟨fun _ _ h => (by cases h), fun _ _ h => (by cases h)⟩, ?_⟩
  intro cost guess h
  simp only [settling] at h ⊢
  split_ifs at h ⊢ with hx
  exact hx

/-- **C105, tip, violated.** A tooth that does not reach the tip circle: there is no intersection, the fallback
minimises the distance, its success is accepted without looking at the distance, and the tooth is cut at a
point that is neither on the tip circle nor in the middle plane of the tooth. This holds for exact solvers
too: `S` reports success only for exact roots and global minima. -/
theorem c105_violated_tip : ∃ (S : ScalarSolvers) (t : Curve) (p : V3), Honest S ∧ HonestMin S ∧
    trimTip curveOps S pebble (circ 3) 0 π = some t ∧ t.eval 1 = some p ∧ p 1 < 0 ∧
    ∀ u q, (circ 3).eval u = some q → 1 ≤ norm3 (p - q) := by
  obtain ⟨x, hx⟩ : ∃ x : ℝ × ℝ, x = (-1 / 8, -1 / 8) := ⟨_, rfl⟩
  have hc : cos (2 * π * (-1 / 8)) = √2 / 2 ∧ sin (2 * π * (-1 / 8)) = -(√2 / 2) := by
    rw [show 2 * π * (-1 / 8) = -(π / 4) by ring, cos_neg, sin_neg, cos_pi_div_four, sin_pi_div_four]
    exact ⟨rfl, rfl⟩
  have h2 := sqrt2_lt
  have hs := sqrt2
  have hsp : 0 < √2 := by positivity
  have hD := DELTA_pos
  obtain ⟨p, hp⟩ : ∃ p : V3, p = ![1 + 1 / 2 * (√2 / 2), -1 + 1 / 2 * (-(√2 / 2)), 0] := ⟨_, rfl⟩
  have hpe : pebble.eval (-1 / 8) = some p := by rw [pebble_eval, hc.1, hc.2, hp]
  have hqe : (circ 3).eval (-1 / 8) = some ![3 * (√2 / 2), 3 * -(√2 / 2), 0] := by rw [circ_eval, hc.1, hc.2]
  have hpq : norm3 (p - ![3 * (√2 / 2), 3 * -(√2 / 2), 0]) = 5 / 2 - √2 := by
    refine norm3_eq_of_dot (by linarith) ?_
    rw [hp]; simp [dot]
    nlinarith
  have hmin : findCurveIntersect (settling x).toSolvers pebble.eval (circ 3).eval
      (9 / 10, -π / 8 / (circ 3).length) .minDistance = ⟨true, x⟩ := by
    rw [findCurveIntersect]
    simp only [settling]
    rw [if_pos]
    rw [hx]
    refine ⟨_, by rw [curveDiff_intro hpe hqe, Option.map_some], ?_⟩
    intro y w hw
    rw [Option.map_eq_some_iff] at hw
    obtain ⟨d, hd, rfl⟩ := hw
    rw [curveDiff_intro (pebble_eval y.1) (circ_eval 3 y.2)] at hd
    have hf := pebble_far y.1 y.2 (pebble_eval y.1) (circ_eval 3 y.2)
    rw [Option.some.inj hd] at hf
    rw [← norm3_sq, ← norm3_sq, norm3_smul, norm3_smul, hpq]
    have : 0 < |DELTA⁻¹| := by positivity
    have h0 : 0 ≤ 5 / 2 - √2 := by linarith
    gcongr
  have hfail : findCurveIntersect (settling x).toSolvers pebble.eval (circ 3).eval
      (9 / 10, -π / 8 / (circ 3).length) .equality = ⟨false, (0, 0)⟩ := rfl
  have hpy : p 1 < 0 := by
    have : p 1 = -1 + 1 / 2 * (-(√2 / 2)) := by rw [hp]; rfl
    rw [this]; linarith
  obtain ⟨t, q1, q2, q3, q4, q5⟩ := curve_lawful.fin pebble (-1 / 8) p ⟨trivial, rfl⟩ hpe
  refine ⟨settling x, t, p, (settling_honest x).1, (settling_honest x).2, ?_, q4, hpy, ?_⟩
  · rw [trimTip, if_neg (lt_irrefl _)]
    dsimp only
    rw [show (curveOps.eval pebble) = pebble.eval from rfl, hfail,
      if_neg (show ¬ (⟨false, (0, 0)⟩ : Solved (ℝ × ℝ)).success = true by simp), hmin,
      if_pos ⟨Or.inl rfl, p, (by rw [hx]; exact hpe), hpy⟩, hx]
    exact q1
  · intro u q hq
    have := pebble_far _ u hpe hq
    linarith

/-- Solvers that report no success but have found the intersection with the circle, while the minimiser has
stopped at `y`. -/
noncomputable def hesitant (x : V3) (y : ℝ × ℝ) : ScalarSolvers where
  root _ _ := ⟨false, x⟩
  minimize _ _ := ⟨false, y⟩
  root1 _ _ := ⟨false, 0⟩
  minimize1 _ _ := ⟨false, 0⟩

/-- **C105, root, violated.** The second check of the fallback looks at the first solution again: if the root
finder has found the intersection without reporting success, the unchecked answer of the minimiser is used.
The tooth then starts at a point that is neither on the root circle nor in the middle plane of the gap,
although the intersection had been found. -/
theorem c105_violated_root : ∃ (S : ScalarSolvers) (t : Curve) (p : V3), Honest S ∧ HonestMin S ∧
    (∃ σ u q, (findCurveIntersect S.toSolvers bar.eval (circ 4).eval (3 / 10, -π / 2 / (circ 4).length)
      .equality).x = (σ, u) ∧ bar.eval σ = some q ∧ (circ 4).eval u = some q) ∧
    trimRoot curveOps S bar (circ 4) 0 π = some t ∧ t.eval 0 = some p ∧
    dot p (app (Rz (-π / 2)) UP) ≠ 0 ∧ ∀ u q, (circ 4).eval u = some q → 1 ≤ norm3 (p - q) := by
  obtain ⟨u, m1, m2⟩ := bar_meets
  obtain ⟨S, hS⟩ : ∃ S, S = hesitant ![√7 / 6, u, 0] (9 / 10, 0) := ⟨_, rfl⟩
  have hi : findCurveIntersect S.toSolvers bar.eval (circ 4).eval (3 / 10, -π / 2 / (circ 4).length)
      .equality = ⟨false, (√7 / 6, u)⟩ := by rw [hS]; rfl
  have hi2 : findCurveIntersect S.toSolvers bar.eval (circ 4).eval (0, -π / 2 / (circ 4).length)
      .minDistance = ⟨false, (9 / 10, 0)⟩ := by rw [hS]; rfl
  have hb := bar_eval (9 / 10)
  obtain ⟨t, q1, q2, q3, q4, q5⟩ := curve_lawful.start bar (9 / 10) _ (lineC_fresh _ _) hb
  have hcl : isClose bar.eval (circ 4).eval (√7 / 6, u) := by
    refine ⟨0, m1, ?_⟩
    rw [norm3_eq_zero.2 rfl]; norm_num
  refine ⟨S, t, ![6 * (9 / 10), -3, 0], ?_, ?_, ?_, ?_, q4, ?_, ?_⟩
  · rw [hS]; exact ⟨fun _ _ h => (by cases h), fun _ _ h => (by cases h)⟩
  · rw [hS]; intro _ _ h; cases h
  · refine ⟨_, _, _, by rw [hi], ?_, m2⟩
    rw [bar_eval]
    congr 1
    apply V3.ext3 <;> simp
    ring
  · rw [trimRoot, if_neg (lt_irrefl _)]
    dsimp only
    rw [show (curveOps.eval bar) = bar.eval from rfl, hi, hi2,
      if_neg (show ¬ (⟨false, (√7 / 6, u)⟩ : Solved (ℝ × ℝ)).success = true by simp), if_pos (Or.inr hcl),
      if_pos ⟨Or.inr hcl, _, hb, by
        have := (angleCheck_pi (p := ![6 * (9 / 10), -3, 0]) (by norm_num) (by norm_num)).2
        linarith⟩]
    exact q1
  · rw [gap_normal]; simp [dot]
  · intro w q hq
    have hq' : norm3 q = 4 := by
      rw [circ_eval] at hq
      refine norm3_eq_of_dot (by norm_num) ?_
      rw [← Option.some.inj hq]; simp [dot]
      linear_combination 16 * sin_sq_add_cos_sq (2 * π * w)
    obtain ⟨p, hp⟩ : ∃ p : V3, p = ![6 * (9 / 10), -3, 0] := ⟨_, rfl⟩
    rw [← hp]
    have h5 : 5 ≤ norm3 p := by
      apply le_of_sq_le' (norm3_nonneg _)
      rw [norm3_sq, hp]; simp [dot]; norm_num
    have h2 := norm3_add_le q (p - q)
    rw [add_sub_cancel] at h2
    linarith

/-! ### C103 violated -/

theorem angleBetween_smul {a b : V3} {k : ℝ} (hk : 0 < k) : angleBetween a (k • b) = angleBetween a b := by
  rw [angleBetween, angleBetween, cross_smul_right, norm3_smul, abs_of_pos hk, dot_smul_right, arctan2, arctan2]
  have := Complex.arg_real_mul (⟨dot a b, norm3 (cross a b)⟩ : ℂ) hk
  rw [← this]
  congr 1
  apply Complex.ext <;> simp

/-- `from_2_point_center` with different distances from the centre: the arc ends on the ray through the second
point, at the first point's distance. -/
theorem arc_uneven {asEuler : M3 → ℝ × ℝ × ℝ} (hE : EulerOk asEuler) {p0 p1 c : V3} {k : ℝ} (hk : 0 < k)
    (hkn : k * norm3 (p1 - c) = norm3 (p0 - c)) (hw : cross (p0 - c) (p1 - c) ≠ 0) :
    ∃ arc, arcFrom2PointCenter asEuler p0 p1 c 0 true = some arc ∧ arc.active = true ∧
      arc.eval 0 = some p0 ∧ arc.eval 1 = some (c + k • (p1 - c)) := by
  have e1 : c + k • (p1 - c) - c = k • (p1 - c) := add_sub_cancel_left _ _
  obtain ⟨arc, h1, h2, h3, h4, -⟩ := c49_two_points hE p0 (c + k • (p1 - c)) c 0 true
    (by rw [e1, norm3_smul, abs_of_pos hk, hkn])
    (by
      rw [e1, cross_smul_right]
      exact smul_ne_zero hk.ne' hw)
  refine ⟨arc, ?_, h2, h3, h4⟩
  rw [← h1, arcFrom2PointCenter, arcFrom2PointCenter, e1, angleBetween_smul hk, cross_smul_right]
  have : normalizeVector (k • cross (p0 - c) (p1 - c)) = normalizeVector (cross (p0 - c) (p1 - c)) := by
    rw [normalizeVector_some hw, normalizeVector_some (smul_ne_zero hk.ne' hw), norm3_smul, abs_of_pos hk,
      smul_smul, mul_inv, mul_comm k⁻¹, mul_assoc, inv_mul_cancel₀ hk.ne', mul_one]
  rw [this]

open scoped Classical in
/-- Solvers that know the intersection but stop early on the tangent arc (first guess zero). -/
noncomputable def giveUp (xI xF : V3) : ScalarSolvers where
  root cost guess := if guess = 0 then ⟨false, xF⟩ else if cost xI = some 0 then ⟨true, xI⟩ else ⟨false, 0⟩
  minimize _ _ := ⟨false, (0, 0)⟩
  root1 _ _ := ⟨false, 0⟩
  minimize1 _ _ := ⟨false, 0⟩

theorem giveUp_honest (xI xF : V3) : Honest (giveUp xI xF) := by
  constructor
  · intro cost guess h
    simp only [giveUp] at h ⊢
    split_ifs at h ⊢ with h1 h2
    exact h2
  · intro cost guess h
    cases h

theorem firstSuccess_last {attempt : ℝ → Option (Curve × ℝ × ℝ × Bool)} {a b c : ℝ}
    (h : ∀ g q, attempt g = some q → q.2.2.2 = false) : firstSuccess attempt [a, b, c] = attempt c := by
  have step : ∀ g gs, gs ≠ [] → firstSuccess attempt (g :: gs) = firstSuccess attempt gs := by
    intro g gs hgs
    obtain ⟨x, xs, rfl⟩ := List.exists_cons_of_ne_nil hgs
    rw [firstSuccess]
    · split
      · rename_i h1
        have := h _ _ h1
        simp at this
      · rfl
    · simp
  rw [step _ _ (by simp), step _ _ (by simp), firstSuccess]

/-- **C103 violated.** The result of the tangent arc solver is not checked: if all three attempts fail, the arc
of the last attempt is used as long as its ends are in the sector. Here it ends away from the point where the
tooth was cut, so that the tooth is not connected. -/
theorem c103_violated {asEuler : M3 → ℝ × ℝ × ℝ} (hE : EulerOk asEuler) : ∃ (S : ScalarSolvers) (arc : Curve)
    (after : List Curve), Honest S ∧
    applyFillet asEuler S.toSolvers (flat (-3)) π (circ 4) 1 true = some (arc :: after) ∧
    arc.active = true ∧ ¬ Meets curveOps (arc :: after) := by
  have h7 : √7 < 3 := by rw [sqrt_lt' (by norm_num)]; norm_num
  have h7p : 0 < √7 := sqrt_pos.2 (by norm_num)
  obtain ⟨u, hu⟩ : ∃ u, u = -arcsin (3 / 4) / (2 * π) := ⟨_, rfl⟩
  obtain ⟨w, hw⟩ : ∃ w, w = -arcsin (4 / 5) / (2 * π) := ⟨_, rfl⟩
  obtain ⟨m1, m2⟩ := flat_meets hu (x := √7) (by norm_num) h7p (by norm_num) (by linarith)
    (by rw [sq_sqrt (by norm_num)]; norm_num)
  obtain ⟨L, hL⟩ : ∃ L, L = (circ 4).length := ⟨_, rfl⟩
  obtain ⟨xI, hxI⟩ : ∃ xI : V3, xI = ![√7 / 6, u, 0] := ⟨_, rfl⟩
  obtain ⟨xF, hxF⟩ : ∃ xF : V3, xF = ![u - 3 / 2 * 1 / L - w, 5 / 6 - (√7 / 6 + 3 / 2 * 1 / 6), 0] := ⟨_, rfl⟩
  have I0 : xI 0 = √7 / 6 := by rw [hxI]; rfl
  have I1 : xI 1 = u := by rw [hxI]; rfl
  have F0 : xF 0 = u - 3 / 2 * 1 / L - w := by rw [hxF]; rfl
  have F1 : xF 1 = 5 / 6 - (√7 / 6 + 3 / 2 * 1 / 6) := by rw [hxF]; rfl
  obtain ⟨S, hS⟩ : ∃ S, S = giveUp xI xF := ⟨_, rfl⟩
  have hroot : ∀ cost, S.root cost 0 = ⟨false, xF⟩ := by intro cost; rw [hS]; simp [giveUp]
  have hint : findCurveIntersect S.toSolvers (chainEval curveOps (flat (-3))) (circ 4).eval
      (1 / 2, -π / (2 * π) / 4 * (101 / 100)) .equality = ⟨true, (√7 / 6, u)⟩ := by
    rw [hS]
    simp only [findCurveIntersect, giveUp]
    rw [if_neg (guess_ne (by norm_num)), if_pos (by rw [I0, I1]; exact m1)]
    simp only [I0, I1]
  have p2 : chainEval curveOps (flat (-3)) (5 / 6) = some ![5, -3, 0] := by
    rw [flat_eval _ (by norm_num) (by norm_num)]; norm_num
  obtain ⟨p1, d1⟩ := circ_at hw (R := 4) (by norm_num)
  obtain ⟨q1, hq1⟩ : ∃ q1 : V3, q1 = ![4 * (3 / 5), -4 * (4 / 5), 0] := ⟨_, rfl⟩
  obtain ⟨q2, hq2⟩ : ∃ q2 : V3, q2 = ![5, -3, 0] := ⟨_, rfl⟩
  obtain ⟨c, hc⟩ : ∃ c : V3, c = ![4, -4, 0] := ⟨_, rfl⟩
  rw [← hq1] at p1
  rw [← hq2] at p2
  have e1 : q1 - c = ![-8 / 5, 4 / 5, 0] := by rw [hq1, hc]; apply V3.ext3 <;> simp <;> norm_num
  have e2 : q2 - c = ![1, 1, 0] := by rw [hq2, hc]; apply V3.ext3 <;> simp <;> norm_num
  obtain ⟨k, hk⟩ : ∃ k, k = √(8 / 5) := ⟨_, rfl⟩
  have hk0 : 0 < k := by rw [hk]; positivity
  have hk2 : k * k = 8 / 5 := by rw [hk]; exact mul_self_sqrt (by norm_num)
  obtain ⟨arc, b1, b2, b3, b4⟩ := arc_uneven hE (p0 := q1) (p1 := q2) (c := c) hk0
    (by
      symm
      refine norm3_eq_of_dot (mul_nonneg hk0.le (norm3_nonneg _)) ?_
      rw [mul_pow, norm3_sq, e1, e2]
      simp [dot]
      nlinarith)
    (by
      rw [e1, e2]
      intro e
      have := congrFun e 2
      simp at this
      norm_num at this)
  have hbet : arcBetween asEuler (circ 4).eval (chainEval curveOps (flat (-3))) 1 w (5 / 6) = some arc := by
    rw [arcBetween, root_centers hw (by norm_num) le_rfl, p1, p2]
    dsimp only
    rw [← b1, hc]
    congr 1
    apply V3.ext3 <;> simp <;> norm_num
  have hlast : firstSuccess (fun g => calcTangentArc asEuler S.toSolvers (circ 4).eval
      (chainEval curveOps (flat (-3))) 1 (u - g / (circ 4).length, √7 / 6 + g / chainLen curveOps (flat (-3)))
      .equality) [1 / 2 * 1, 1 * 1, 3 / 2 * 1] = some (arc, w, 5 / 6, false) := by
    rw [firstSuccess_last]
    · rw [calcTangentArc]
      dsimp only
      rw [hroot]
      dsimp only
      rw [flat_len, ← hL, F0, F1, show u - 3 / 2 * 1 / L - (u - 3 / 2 * 1 / L - w) = w by ring,
        show √7 / 6 + 3 / 2 * 1 / 6 + (5 / 6 - (√7 / 6 + 3 / 2 * 1 / 6)) = 5 / 6 by ring, hbet, Option.map_some]
    · intro g q hq
      rw [calcTangentArc] at hq
      dsimp only at hq
      rw [hroot, Option.map_eq_some_iff] at hq
      obtain ⟨_, -, rfl⟩ := hq
      rfl
  obtain ⟨a1, a2, a3, a4⟩ := flat_facts (-3)
  obtain ⟨x, a, y, a', s1, s2, s3, s4, s5, s6, s7, -⟩ :=
    setStart_shape curve_lawful a1 a3 a4 (s := 5 / 6) (by norm_num) (by norm_num) p2
  have hk4 : k < 4 := by nlinarith
  have he1 : c + k • (q2 - c) = ![4 + k, -4 + k, 0] := by
    rw [e2, hc]; apply V3.ext3 <;> simp
  have hy : ∀ b ∈ y, curveOps.active b = true → b.kind.Sampled ∧ b.updateLengths = b :=
    fun b hb => a4 b (by rw [s1]; simp [hb])
  have hins : chainInsert curveOps (a' :: y) 0 arc = arc :: a' :: y := by
    rw [chainInsert]
    apply chainUpdate_eq curve_lawful
    intro m hm hact
    simp only [List.take_zero, List.drop_zero, List.nil_append, List.mem_cons] at hm
    rcases hm with rfl | rfl | hm
    · exact arcFrom2PointCenter_fresh b1
    · exact s5
    · exact hy m hm hact
  refine ⟨S, arc, a' :: y, hS ▸ giveUp_honest _ _, ?_, b2, ?_⟩
  · rw [applyFillet]
    dsimp only
    rw [hint]
    dsimp only
    rw [if_pos ⟨rfl, _, m2, angleCheck_pi (by simpa using h7p) (by norm_num)⟩, if_pos rfl, hlast]
    dsimp only
    rw [if_pos, s2, Option.map_some, hins]
    refine ⟨⟨_, b3, angleCheck_pi ?_ ?_⟩, _, b4, angleCheck_pi ?_ ?_⟩
    · rw [hq1]; norm_num
    · rw [hq1]; norm_num
    · rw [he1]
      change 0 < 4 + k
      linarith
    · rw [he1]
      change -4 + k < 0
      linarith
  · rw [meets_cons]
    rintro ⟨h, -⟩
    have := h b2 a' (by simp [List.filter_cons_of_pos s4])
    change arc.eval 1 = curveOps.eval a' 0 at this
    rw [b4, s7, he1, hq2] at this
    have := congrFun (Option.some.inj this) 0
    simp at this
    have : k = 1 := by linarith
    rw [this] at hk2
    norm_num at hk2

end Verif
