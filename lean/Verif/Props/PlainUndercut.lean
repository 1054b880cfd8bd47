import Verif.Props.UndercutOutline
import Verif.Props.SpurOutlineEx

/-!
# The undercut generator without undercut: C142

`InvoluteUndercutTooth` returns the plain tooth if its base circle lies inside the root circle. Its members are curves in a list
that could also hold chains; the trimming does the same to them as in a list of curves.
-/

namespace Verif

open Real Set

section
variable {α β : Type} (o : CurveOps α) (o' : CurveOps β)

/-- The same chain among members of two sorts. -/
def inlChain (c : Chain α) : Chain (α ⊕ β) := ⟨c.curves.map .inl, c.flag⟩

theorem inl_len (l : List α) : (l.map Sum.inl).map (sumOps o o').len = l.map o.len := by
  rw [List.map_map]; rfl

theorem inl_chainLen (l : List α) : chainLen (sumOps o o') (l.map .inl) = chainLen o l := by
  rw [chainLen, inl_len, chainLen]

theorem inl_portion (l : List α) : portion (sumOps o o') (l.map .inl) = portion o l := by
  funext k
  rw [portion, portion, inl_chainLen, preLen, preLen, ← List.map_take, inl_len]

theorem inl_findIdx (l : List α) : (l.map Sum.inl).findIdx (sumOps o o').active = l.findIdx o.active := by
  rw [List.findIdx_map]; rfl

theorem inl_getSIndex (l : List α) (s : ℝ) : getSIndex (sumOps o o') (l.map .inl) s = getSIndex o l s := by
  have h1 : activeMin (sumOps o o') (l.map .inl) = activeMin o l := inl_findIdx o o' l
  have h2 : activeMaxSucc (sumOps o o') (l.map .inl) = activeMaxSucc o l := by
    rw [activeMaxSucc, activeMaxSucc, ← List.map_reverse, inl_findIdx, List.length_map]
  rw [getSIndex, getSIndex, inl_chainLen, inl_portion, h1, h2, List.length_map]

theorem inl_chainEval (l : List α) : chainEval (sumOps o o') (l.map .inl) = chainEval o l := by
  funext s
  rw [chainEval, chainEval, inl_getSIndex]
  congr 1
  funext p
  rw [List.getElem?_map]
  cases l[p.1]? <;> rfl

theorem inl_chainUpdate (l : List α) : chainUpdate (sumOps o o') (l.map .inl) = (chainUpdate o l).map .inl := by
  rw [chainUpdate, chainUpdate, List.map_map, List.map_map]
  apply List.map_congr_left
  intro a _
  show (if o.active a then Sum.inl (o.updateLengths a) else Sum.inl a) = Sum.inl (if o.active a then o.updateLengths a else a)
  split_ifs <;> rfl

theorem inl_setStart (l : List α) (s : ℝ) :
    chainSetStart (sumOps o o') (l.map .inl) s false = (chainSetStart o l s false).map (·.map .inl) := by
  rw [chainSetStart, chainSetStart, startRaw, startRaw, inl_getSIndex]
  cases getSIndex o l s with
  | none => rfl
  | some p =>
    simp only [Option.bind_some, List.getElem?_map]
    cases l[p.1]? with
    | none => rfl
    | some a =>
      show Option.map _ (Option.map _ ((o.setStart a p.2).map Sum.inl)) = _
      simp only [Option.bind_some]
      cases o.setStart a p.2 with
      | none => rfl
      | some a' =>
        simp only [Option.map_some, Bool.false_eq_true, if_false, List.nil_append, ← List.map_drop]
        rw [← List.map_cons, inl_chainUpdate]

theorem inl_setEnd (l : List α) (s : ℝ) :
    chainSetEnd (sumOps o o') (l.map .inl) s false = (chainSetEnd o l s false).map (·.map .inl) := by
  rw [chainSetEnd, chainSetEnd, endRaw, endRaw, inl_getSIndex]
  cases getSIndex o l s with
  | none => rfl
  | some p =>
    simp only [Option.bind_some, List.getElem?_map]
    cases l[p.1]? with
    | none => rfl
    | some a =>
      show Option.map _ (Option.map _ ((o.setEnd a p.2).map Sum.inl)) = _
      simp only [Option.bind_some]
      cases o.setEnd a p.2 with
      | none => rfl
      | some a' =>
        simp only [Option.map_some, Bool.false_eq_true, if_false, ← List.map_take]
        rw [← List.map_singleton, ← List.map_append, inl_chainUpdate]

theorem inl_ops_eval (c : Chain α) : (chainOps (sumOps o o')).eval (inlChain c) = (chainOps o).eval c := by
  funext s
  show chainEval (sumOps o o') (c.curves.map .inl) s = _
  rw [inl_chainEval]; rfl

theorem inl_ops_setEnd (c : Chain α) (s : ℝ) :
    (chainOps (sumOps o o')).setEnd (inlChain c) s = ((chainOps o).setEnd c s).map inlChain := by
  show (chainSetEnd (sumOps o o') (c.curves.map .inl) s false).map _ = ((chainSetEnd o c.curves s false).map _).map _
  rw [inl_setEnd, Option.map_map, Option.map_map]; rfl

theorem inl_ops_setStart (c : Chain α) (s : ℝ) :
    (chainOps (sumOps o o')).setStart (inlChain c) s = ((chainOps o).setStart c s).map inlChain := by
  show (chainSetStart (sumOps o o') (c.curves.map .inl) s false).map _ = ((chainSetStart o c.curves s false).map _).map _
  rw [inl_setStart, Option.map_map, Option.map_map]; rfl

theorem inl_trimTip (S : ScalarSolvers) (c : Chain α) (rA : Curve) {tipFillet : ℝ} (pitch : ℝ) (ht : tipFillet ≤ 0) :
    trimTip (chainOps (sumOps o o')) S (inlChain c) rA tipFillet pitch =
      (trimTip (chainOps o) S c rA tipFillet pitch).map inlChain := by
  rw [trimTip_cut _ _ _ _ _ ht, trimTip_cut _ _ _ _ _ ht, inl_ops_eval, inl_ops_setEnd]

theorem inl_trimRoot (S : ScalarSolvers) (c : Chain α) (rD : Curve) {rootFillet : ℝ} (pitch : ℝ) (hr : rootFillet ≤ 0) :
    trimRoot (chainOps (sumOps o o')) S (inlChain c) rD rootFillet pitch =
      (trimRoot (chainOps o) S c rD rootFillet pitch).map inlChain := by
  rw [trimRoot_cut _ _ _ _ _ hr, trimRoot_cut _ _ _ _ _ hr, inl_ops_eval, inl_ops_setStart]

end

/-- **C142, no undercut needed.** The generator with undercut returns the plain tooth if the base circle lies inside the root
circle of the rack. The gear then has the flank and the simple outline of C140: under the conditions of that property on the
solvers and searches, for all parameters. -/
theorem c142_plain_outline {asEuler : M3 → ℝ × ℝ × ℝ} (hE : EulerOk asEuler) {S : ScalarSolvers} (hS : Honest S) (hD : Descends S)
    {pia rp alpha pitch : ℝ} {limits : ToothLimitParam} (hrp : 0 < rp) (ha0 : 0 < alpha) (ha1 : alpha < π / 2) (h0 : 0 < pia)
    (hbase : rp * cos alpha < rp - limits.hD)
    (h1 : pia + (tan alpha - alpha) ≤ π / 2) (hs : ToothSearches S pia rp alpha) (n : ℕ) (h2 : 2 ≤ n) (hn : n * pitch = 2 * π)
    (hne : pia + (tan alpha - alpha) ≠ pitch / 2) (rA rD : Curve) {tipFillet rootFillet : ℝ} (ht : tipFillet ≤ 0)
    (hr : rootFillet ≤ 0) (htrim : ∀ l, involuteToothCurve S pia rp alpha = some l →
      TrimSearches S l rA rD tipFillet pitch (-(pia + (tan alpha - alpha)))) (radA radD radO : ℝ) (centerO : V3) :
    ∃ l m t t' T, involuteToothCurve S pia rp alpha = some l ∧
      undercutToothCurve S l (rp * cos alpha) rp pia pitch alpha limits = some m ∧
      trimTip (chainOps undercutOps) S ⟨m, true⟩ rA tipFillet pitch = some t ∧
      trimRoot (chainOps undercutOps) S t rD rootFillet pitch = some t' ∧
      (∀ s, 0 ≤ s → s ≤ 1 → (chainOps undercutOps).eval t' s = some (T s)) ∧ Spec.OutwardFlank T pitch ∧
      (∃ a, 0 ≤ a ∧ a < tipCut S (chainEval curveOps l) rA pitch ∧ chainEval curveOps l a = some (T 0)) ∧
      tipCut S (chainEval curveOps l) rA pitch ≤ 1 ∧ chainEval curveOps l (tipCut S (chainEval curveOps l) rA pitch) = some (T 1) ∧
      chainEval undercutOps t.curves (rootCut S (chainEval undercutOps t.curves) rD pitch) = some (T 0) ∧
      (ExactGaps T pitch → ∃ P, trimReferenceProfile (chainOps undercutOps) asEuler S ⟨m, true⟩ rA rD radA radD radO centerO
        tipFillet rootFillet pitch = some P ∧
        Spec.SimpleOutline (chainEval (sumOps (chainOps undercutOps) curveOps) (P.chain (chainOps undercutOps))) pitch n) := by
  have hlt : alpha < tan alpha := Real.lt_tan ha0 ha1
  have hn2 : (2 : ℝ) ≤ n := by exact_mod_cast h2
  have hp : 0 < pitch := by
    by_contra hneg
    have := mul_nonpos_of_nonneg_of_nonpos (by linarith : (0 : ℝ) ≤ n) (not_lt.1 hneg)
    linarith [pi_pos]
  have hpi : pitch ≤ π := by nlinarith
  obtain ⟨l, G, R, θ, hl, hpath, F, -, hG, -, -, -, hk⟩ := tooth_generated hS hrp ha0 ha1 h0 h1 hs
  obtain ⟨t, t', T, e1, e2, hT, a1, a2, a3, hout, hcont, hstart, a, i1, i2, i3, i4⟩ := trim_outward hS hD hpath hk F hG (by linarith)
    (by linarith) hp hpi (fun e => hne (by linarith)) ht hr (htrim l hl)
  have hm : undercutToothCurve S l (rp * cos alpha) rp pia pitch alpha limits = some (l.map .inl) := by
    rw [undercutToothCurve, if_pos hbase]
  have f1 : trimTip (chainOps undercutOps) S ⟨l.map .inl, true⟩ rA tipFillet pitch = some (inlChain t) := by
    have := inl_trimTip curveOps (chainOps curveOps) S ⟨l, true⟩ rA pitch ht
    rw [e1] at this
    exact this
  have f2 : trimRoot (chainOps undercutOps) S (inlChain t) rD rootFillet pitch = some (inlChain t') := by
    have := inl_trimRoot curveOps (chainOps curveOps) S t rD pitch hr
    rw [e2] at this
    exact this
  have fT : ∀ s, 0 ≤ s → s ≤ 1 → (chainOps undercutOps).eval (inlChain t') s = some (T s) := by
    intro s s0 s1
    rw [← hT s s0 s1, undercutOps, inl_ops_eval]
  refine ⟨l, _, _, _, T, hl, hm, f1, f2, fT, hout, ⟨a, i1, i2, i3⟩, (htrim l hl).tip1, i4, ?_, fun hx => ?_⟩
  · show chainEval undercutOps (t.curves.map .inl) (rootCut S (chainEval undercutOps (t.curves.map .inl)) rD pitch) = _
    rw [undercutOps, inl_chainEval]
    exact hstart
  have b1 : (chainOps undercutOps).active (inlChain t') = true := by
    rw [← a1]
    show (t'.flag && (t'.curves.map Sum.inl).any (sumOps curveOps (chainOps curveOps)).active) = _
    rw [List.any_map]; rfl
  have b2 : (chainOps undercutOps).updateLengths (inlChain t') = inlChain t' := by
    show (⟨chainUpdate (sumOps curveOps (chainOps curveOps)) (t'.curves.map .inl), t'.flag⟩ : Chain (Curve ⊕ Chain Curve)) = _
    rw [inl_chainUpdate]
    have h := congrArg Chain.curves a2
    change chainUpdate curveOps t'.curves = t'.curves at h
    rw [h]; rfl
  have b3 : 0 < (chainOps undercutOps).length (inlChain t') := by
    show 0 < chainLen (sumOps curveOps (chainOps curveOps)) (t'.curves.map .inl)
    rw [inl_chainLen]; exact a3
  obtain ⟨P, hP, hsimple⟩ := c139_simple hE b1 b2 b3 fT hcont hout n h2 hn hx radA radD radO centerO
  refine ⟨P, ?_, hsimple⟩
  rw [trimReferenceProfile, f1, Option.bind_some, f2, Option.bind_some, hP]

/-- A gear with a hundred teeth, base circle 3, pressure angle 45°, pitch circle 3·√2 and root circle 3·√2 − 1: the base circle
lies inside the root circle, and the generator with undercut gives the plain tooth. The trimmed flank runs outwards. -/
theorem c142_plain_case {asEuler : M3 → ℝ × ℝ × ℝ} (hE : EulerOk asEuler) : ∃ l m t t' T,
    involuteToothCurve exactSolvers (π / 200) (3 * √2) (π / 4) = some l ∧
      undercutToothCurve exactSolvers l (3 * √2 * cos (π / 4)) (3 * √2) (π / 200) (π / 50) (π / 4) { hD := 1 } = some m ∧
      trimTip (chainOps undercutOps) exactSolvers ⟨m, true⟩ (circ (3 * √(1 + 1 ^ 2))) 0 (π / 50) = some t ∧
      trimRoot (chainOps undercutOps) exactSolvers t (circ (3 * √2 - 1)) 0 (π / 50) = some t' ∧
      (∀ s, 0 ≤ s → s ≤ 1 → (chainOps undercutOps).eval t' s = some (T s)) ∧ Spec.OutwardFlank T (π / 50) := by
  have p3 := pi_gt_d2
  have p4 := pi_lt_d2
  have ha0 : (0 : ℝ) < π / 4 := by linarith
  have ha1 : π / 4 < π / 2 := by linarith
  have hrp : (0 : ℝ) < 3 * √2 := by positivity
  have hr : 3 * √2 * cos (π / 4) = 3 := by
    rw [cos_pi_div_four]
    have := mul_self_sqrt (show (0 : ℝ) ≤ 2 by norm_num)
    linarith
  have hinv : π / 200 + (tan (π / 4) - π / 4) = 1 - 49 * π / 200 := by rw [tan_pi_div_four]; ring
  have h2 := arctan_two_le
  have hs := exact_tooth hrp ha0 ha1 (by rw [tan_pi_div_four]; norm_num) (show (0 : ℝ) < π / 200 by linarith)
    (by rw [hinv, invAngle]; linarith)
  obtain ⟨l, G, R, θ, hl, hpath, F, R0, hG, ⟨tb, b0, -, b2, b3⟩, hsh, -, -⟩ := tooth_generated exact_honest hrp ha0 ha1
    (show (0 : ℝ) < π / 200 by linarith) (by rw [hinv]; linarith) hs
  rw [hr] at R0 b3 hsh
  rw [hinv] at F b2 hsh
  have h11 : invAngle 1 = 1 - π / 4 := by rw [invAngle, arctan_one]
  have hb : 1 < tb := by
    by_contra hc
    have := invAngle_strict.monotoneOn b0.le (show (0 : ℝ) ≤ 1 by norm_num) (not_lt.1 hc)
    linarith
  have s1 : 1 < √(1 + (1 : ℝ) ^ 2) := by
    rw [lt_sqrt (by norm_num)]; norm_num
  have hB : 3 < 3 * √(1 + (1 : ℝ) ^ 2) := by
    have := mul_lt_mul_of_pos_left s1 (show (0 : ℝ) < 3 by norm_num)
    rwa [mul_one] at this
  have hA' : 3 * √(1 + (1 : ℝ) ^ 2) < R 1 := by
    rw [b3]
    exact mul_lt_mul_of_pos_left (sqrt_lt_sqrt (by positivity) (by nlinarith)) (by norm_num)
  have htrim := finds_trim exact_finds (pitch := π / 50) hpath F hG (by linarith) (by linarith) (by linarith) (by linarith)
    (by rw [R0]; exact lt_trans (by norm_num) hB) hA' (fun s hs' e => by
      rcases hsh s hs' with h | ⟨t, t0, h3, h4⟩
      · exact absurd (e ▸ h.1) (not_le.2 hB)
      · rw [h4, tooth_involute_unique (by norm_num : (0 : ℝ) < 3) t0 zero_le_one (h3.symm.trans e), h11]
        linarith) (circ (3 * √2 - 1)) (le_refl (0 : ℝ))
  have hb1 : 3 * √2 * cos (π / 4) < 3 * √2 - (1 : ℝ) := by
    rw [hr]
    have : (4 / 3 : ℝ) < √2 := by rw [lt_sqrt (by norm_num)]; norm_num
    linarith
  obtain ⟨l', m, t, t', T, e1, e2, e3, e4, e5, e6, -⟩ := c142_plain_outline hE exact_honest exact_descends hrp ha0 ha1
    (show (0 : ℝ) < π / 200 by linarith) (limits := { hD := 1 }) hb1 (by rw [hinv]; linarith) hs 100 (by norm_num)
    (by push_cast; ring : ((100 : ℕ) : ℝ) * (π / 50) = 2 * π)
    (by rw [hinv]; intro e; linarith) (circ (3 * √(1 + 1 ^ 2))) (circ (3 * √2 - 1)) (le_refl (0 : ℝ)) (le_refl (0 : ℝ))
    (by
      intro l' h
      rw [hl] at h
      rw [← Option.some.inj h, hinv]
      exact htrim) 0 0 0 0
  exact ⟨l', m, t, t', T, e1, e2, e3, e4, e5, e6⟩

end Verif
