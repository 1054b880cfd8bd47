import Verif.Props.Chain2

/-! # Property C94: cutting a chain -/

namespace Verif

/-- Reading a member inside a chain. -/
theorem chainEval_inside {x y : List Curve} {a : Curve} (h : AllPos curveOps (x ++ a :: y))
    (ha : a.active = true) {τ s : ℝ} (h0 : 0 < τ) (h1 : τ ≤ 1)
    (hs : s * chainLen curveOps (x ++ a :: y) = chainLen curveOps x + τ * curveOps.len a) :
    chainEval curveOps (x ++ a :: y) s = a.eval τ := by
  have hn := h.nonNeg
  have hlen : 0 < curveOps.len a := by rw [len_of_active ha]; exact h a (by simp) ha
  have hg : (x ++ a :: y)[x.length]? = some a := by simp
  have hx : 0 ≤ chainLen curveOps x := chainLen_nonneg fun b hb => hn b (by simp [hb])
  have hy : 0 ≤ chainLen curveOps y := chainLen_nonneg fun b hb => hn b (by simp [hb])
  have hL : 0 < chainLen curveOps (x ++ a :: y) := by rw [chainLen_append, chainLen_cons]; linarith
  have hp := mul_pos h0 hlen
  have hp' : τ * curveOps.len a ≤ curveOps.len a := by nlinarith
  rw [chainEval, getSIndex_eq hn hL hg (by rw [preLen_split, hs]; linarith)
    (by rw [preLen_split, hs]; linarith), preLen_split, hs, add_sub_cancel_left,
    mul_div_cancel_right₀ _ hlen.ne']
  simp only [Option.bind_some, hg]
  rfl

/-- **C94 (partial: polylines).** Cutting a chain of straight segments at `s` strictly between 0 and 1 gives
the part before `s` and the part after `s`: the first piece at `u` is the chain at `s·u`, the second one is
the chain at `s + (1 - s)·u`, and their lengths are `s` and `1 - s` times the length of the chain. -/
theorem c94_cut_partial (l : List Curve) (hseg : ∀ c ∈ l, c.active = true → IsSegment c)
    (hex : ∃ c ∈ l, c.active = true) (s : ℝ) (h0 : 0 < s) (h1 : s < 1) (preserve : Bool) :
    ∃ a b, chainCut curveOps l s preserve = some (a, b) ∧
      chainLen curveOps a = s * chainLen curveOps l ∧ chainLen curveOps b = (1 - s) * chainLen curveOps l ∧
      ∀ u, 0 ≤ u → u ≤ 1 → chainEval curveOps a u = chainEval curveOps l (s * u) ∧
        chainEval curveOps b u = chainEval curveOps l (s + (1 - s) * u) := by
  obtain ⟨p, d, f, hp, hd, hf, q1, q2, q3, q4⟩ := c45_polyline_partial l hseg hex s h0 h1 preserve
  have hall : AllPos curveOps l := fun c hc hact => (hseg c hc hact).pos
  have hn := hall.nonNeg
  have hL : 0 < chainLen curveOps l := by
    obtain ⟨c, hc, hact⟩ := hex
    obtain ⟨x, y, rfl⟩ := List.append_of_mem hc
    rw [chainLen_append, chainLen_cons]
    have hx : 0 ≤ chainLen curveOps x := chainLen_nonneg fun b hb => hn b (by simp [hb])
    have hy : 0 ≤ chainLen curveOps y := chainLen_nonneg fun b hb => hn b (by simp [hb])
    have hcl : 0 < curveOps.len c := by rw [len_of_active hact]; exact hall c hc hact
    linarith
  obtain ⟨k, σ, c, e, hk, hact, -, s1, hs, hpos, -⟩ := c43_lookup l hn hL s h0.le h1.le
  have s0 := (hpos h0).1
  have hsp := split_at hk
  have hcm := List.mem_of_getElem? hk
  obtain ⟨P, Q, T0, T1, hc, hPQ, hT⟩ := hseg c hcm hact
  obtain ⟨x, hx⟩ : ∃ x, x = l.take k := ⟨_, rfl⟩
  obtain ⟨y, hy⟩ : ∃ y, y = l.drop (k + 1) := ⟨_, rfl⟩
  rw [← hx, ← hy] at hsp
  have hsx : chainLen curveOps x + σ * curveOps.len c = s * chainLen curveOps l := by rw [hx]; exact hs
  have hLl : chainLen curveOps l = chainLen curveOps x + (curveOps.len c + chainLen curveOps y) := by
    conv_lhs => rw [hsp]
    rw [chainLen_append, chainLen_cons]
  have hlc : 0 < curveOps.len c := by rw [len_of_active hact]; exact hall c hcm hact
  -- the two trimmed members
  obtain ⟨B, hB⟩ : ∃ B, B = Curve.make (.line P Q) true (T0 + (T1 - T0) * σ) T1 := ⟨_, rfl⟩
  obtain ⟨A, hA⟩ : ∃ A, A = Curve.make (.line P Q) true T0 (T0 + (T1 - T0) * σ) := ⟨_, rfl⟩
  have hAact : A.active = true := by rw [hA]; exact line_act _ _ _ _
  have hBact : B.active = true := by rw [hB]; exact line_act _ _ _ _
  have hclen : curveOps.len c = norm3 (Q - P) * |T1 - T0| := by
    rw [len_of_active hact, hc]; exact line_trim P Q T0 T1
  have hAlen : curveOps.len A = σ * curveOps.len c := by
    rw [hclen, len_of_active hAact, hA]
    refine (line_trim P Q _ _).trans ?_
    rw [show T0 + (T1 - T0) * σ - T0 = σ * (T1 - T0) by ring, abs_mul, abs_of_pos s0]; ring
  have hBlen : curveOps.len B = (1 - σ) * curveOps.len c := by
    rw [hclen, len_of_active hBact, hB]
    refine (line_trim P Q _ _).trans ?_
    rw [show T1 - (T0 + (T1 - T0) * σ) = (1 - σ) * (T1 - T0) by ring, abs_mul,
      abs_of_nonneg (by linarith : 0 ≤ 1 - σ)]; ring
  have hcfix : ∀ m ∈ l, (if curveOps.active m then curveOps.updateLengths m else m) = m := by
    intro m hm
    split_ifs with hmact
    · exact (hseg m hm hmact).good.2
    · rfl
  have hfix : ∀ m ∈ l, curveOps.active m = true → curveOps.updateLengths m = m := fun m hm hmact =>
    (hseg m hm hmact).good.2
  have hupd : ∀ z : List Curve, (∀ m ∈ z, m ∈ l) → chainUpdate curveOps z = z := by
    intro z hz
    rw [chainUpdate]
    conv_rhs => rw [← List.map_id z]
    exact List.map_congr_left fun m hm => hcfix m (hz m hm)
  obtain ⟨w, hw⟩ : ∃ w, w = (if preserve then x.map (curveOps.setActive false) else []) := ⟨_, rfl⟩
  obtain ⟨v, hv⟩ : ∃ v, v = (if preserve then y.map (curveOps.setActive false) else []) := ⟨_, rfl⟩
  have hwin : ∀ m ∈ w, m.active = false := by
    rw [hw]
    intro m hm
    split_ifs at hm
    · obtain ⟨m', -, rfl⟩ := List.mem_map.1 hm; rfl
    · cases hm
  have hvin : ∀ m ∈ v, m.active = false := by
    rw [hv]
    intro m hm
    split_ifs at hm
    · obtain ⟨m', -, rfl⟩ := List.mem_map.1 hm; rfl
    · cases hm
  have hidle : ∀ z : List Curve, (∀ m ∈ z, m.active = false) → chainUpdate curveOps z = z := by
    intro z hz
    rw [chainUpdate]
    conv_rhs => rw [← List.map_id z]
    refine List.map_congr_left fun m hm => ?_
    rw [if_neg (by rw [show curveOps.active m = m.active from rfl, hz m hm]; simp)]
    rfl
  have hAupd : A.updateLengths = A := by rw [hA]; exact line_upd _ _ _ _
  have hBupd : B.updateLengths = B := by rw [hB]; exact line_upd _ _ _ _
  have hone : ∀ (m : Curve) (z : List Curve), m.active = true → m.updateLengths = m →
      chainUpdate curveOps (m :: z) = m :: chainUpdate curveOps z := by
    intro m z hm hu
    rw [chainUpdate, List.map_cons, if_pos (show curveOps.active m = true from hm)]
    change m.updateLengths :: _ = _
    rw [hu]; rfl
  have happ : ∀ z z' : List Curve, chainUpdate curveOps (z ++ z') =
      chainUpdate curveOps z ++ chainUpdate curveOps z' := fun z z' => List.map_append
  have hxl : ∀ m ∈ x, m ∈ l := fun m hm => by rw [hx] at hm; exact List.mem_of_mem_take hm
  have hyl : ∀ m ∈ y, m ∈ l := fun m hm => by rw [hy] at hm; exact List.mem_of_mem_drop hm
  have hdeq : d = w ++ B :: y := by
    rw [chainSetStart, startRaw, e] at hd
    have hss : curveOps.setStart c σ = some B := by
      rw [hc, hB]; exact line_setStart P Q T0 T1 σ
    simp only [Option.bind_some, hk, hss, Option.map_some, ← hx, ← hy, ← hw] at hd
    rw [← Option.some.inj hd, happ, hidle w hwin, hone B y hBact hBupd, hupd y hyl]
  have hfeq : f = x ++ A :: v := by
    rw [chainSetEnd, endRaw, e] at hf
    have hss : curveOps.setEnd c σ = some A := by
      rw [hc, hA]; exact line_setEnd P Q T0 T1 σ
    simp only [Option.bind_some, hk, hss, Option.map_some, ← hx, ← hy, ← hv] at hf
    rw [← Option.some.inj hf, happ, hupd x hxl, hone A v hAact hAupd, hidle v hvin]
  have hcut : chainCut curveOps l s preserve = some (f, d) := by
    rw [chainCut, hd, hf]
    simp only [Option.bind_some, Option.map_some]
    have i1 : chainUpdate curveOps f = f := by
      rw [hfeq, happ, hupd x hxl, hone A v hAact hAupd, hidle v hvin]
    have i2 : chainUpdate curveOps d = d := by
      rw [hdeq, happ, hidle w hwin, hone B y hBact hBupd, hupd y hyl]
    rw [i1, i2]
  have hfL : chainLen curveOps f = s * chainLen curveOps l := by
    rw [hfeq, chainLen_append, chainLen_cons, chainLen_inactive (o := curveOps) hvin, hAlen, add_zero, hsx]
  have hdL : chainLen curveOps d = (1 - s) * chainLen curveOps l := by
    rw [hdeq, chainLen_append, chainLen_cons, chainLen_inactive (o := curveOps) hwin, hBlen]
    linarith
  refine ⟨f, d, hcut, hfL, hdL, fun u hu0 hu1 => ⟨?_, ?_⟩⟩
  · rcases hu0.lt_or_eq with hu | hu
    · have hfn : NonNeg curveOps f := by
        intro m hm hmact
        rw [hfeq] at hm
        rcases List.mem_append.1 hm with hm | hm
        · exact hn m (hxl m hm) hmact
        · rcases List.mem_cons.1 hm with rfl | hm
          · rw [← len_of_active hmact, hAlen]; positivity
          · rw [show curveOps.active m = m.active from rfl, hvin m hm] at hmact; cases hmact
      obtain ⟨j, τ, m, ej, hj, jact, -, j1, js, jpos, -⟩ := c43_lookup f hfn (by rw [hfL]; positivity) u hu0 hu1
      have j0 := (jpos hu).1
      have hev : chainEval curveOps f u = m.eval τ := by
        rw [chainEval, ej]; simp only [Option.bind_some, hj]; rfl
      have js' : chainLen curveOps (f.take j) + τ * curveOps.len m = u * (s * chainLen curveOps l) := by
        rw [← hfL]; exact js
      rw [hev]
      have hfj := split_at hj
      rcases lt_trichotomy j x.length with hlt | heq | hgt
      · -- before the trimmed member
        have hxj : x[j]? = some m := by rw [hfeq, List.getElem?_append_left hlt] at hj; exact hj
        have hxs := split_at hxj
        have htk : f.take j = x.take j := by
          rw [hfeq, List.take_append_of_le_length hlt.le]
        have hll : l = x.take j ++ m :: (x.drop (j + 1) ++ c :: y) := by
          conv_lhs => rw [hsp, hxs]
          simp
        rw [htk] at js'
        rw [hll] at hall ⊢
        refine (chainEval_inside hall jact j0 j1 ?_).symm
        rw [← hll, js']; ring
      · have hm : m = A := by
          rw [hfeq, heq] at hj; simpa using hj.symm
        have htk : f.take j = x := by rw [hfeq, heq]; simp
        rw [htk, hm, hAlen] at js'
        rw [hm]
        have hAe : A.eval τ = c.eval (σ * τ) := by
          rw [hA, hc, line_eval, line_eval]; congr 2 <;> ring_nf
        rw [hAe]
        rw [hsp] at hall ⊢
        refine (chainEval_inside hall hact (mul_pos s0 j0) (by nlinarith) ?_).symm
        rw [← hsp]; linarith
      · exfalso
        have : m ∈ v := by
          rw [hfeq, List.getElem?_append_right hgt.le] at hj
          obtain ⟨i, hi⟩ : ∃ i, j - x.length = i + 1 := ⟨j - x.length - 1, by omega⟩
          rw [hi, List.getElem?_cons_succ] at hj
          exact List.mem_of_getElem? hj
        rw [show curveOps.active m = m.active from rfl, hvin m this] at jact; cases jact
    · rw [← hu, mul_zero]; exact q4
  · rcases hu0.lt_or_eq with hu | hu
    · have hdn : NonNeg curveOps d := by
        intro m hm hmact
        rw [hdeq] at hm
        rcases List.mem_append.1 hm with hm | hm
        · rw [show curveOps.active m = m.active from rfl, hwin m hm] at hmact; cases hmact
        · rcases List.mem_cons.1 hm with rfl | hm
          · rw [← len_of_active hmact, hBlen]; exact mul_nonneg (by linarith) hlc.le
          · exact hn m (hyl m hm) hmact
      obtain ⟨j, τ, m, ej, hj, jact, -, j1, js, jpos, -⟩ := c43_lookup d hdn
        (by rw [hdL]; exact mul_pos (by linarith) hL) u hu0 hu1
      have j0 := (jpos hu).1
      have hev : chainEval curveOps d u = m.eval τ := by
        rw [chainEval, ej]; simp only [Option.bind_some, hj]; rfl
      have js' : chainLen curveOps (d.take j) + τ * curveOps.len m = u * ((1 - s) * chainLen curveOps l) := by
        rw [← hdL]; exact js
      rw [hev]
      rcases lt_trichotomy j w.length with hlt | heq | hgt
      · exfalso
        have : m ∈ w := by
          rw [hdeq, List.getElem?_append_left hlt] at hj
          exact List.mem_of_getElem? hj
        rw [show curveOps.active m = m.active from rfl, hwin m this] at jact; cases jact
      · have hm : m = B := by
          rw [hdeq, heq] at hj; simpa using hj.symm
        have htk : d.take j = w := by rw [hdeq, heq]; simp
        rw [htk, hm, hBlen, chainLen_inactive (o := curveOps) hwin] at js'
        rw [hm]
        have hBe : B.eval τ = c.eval (σ + (1 - σ) * τ) := by
          rw [hB, hc, line_eval, line_eval]; congr 2 <;> ring_nf
        rw [hBe]
        rw [hsp] at hall ⊢
        refine (chainEval_inside hall hact (by nlinarith) (by nlinarith) ?_).symm
        rw [← hsp]; linarith
      · obtain ⟨i, hi⟩ : ∃ i, j - w.length = i + 1 := ⟨j - w.length - 1, by omega⟩
        have hyi : y[i]? = some m := by
          rw [hdeq, List.getElem?_append_right hgt.le, hi, List.getElem?_cons_succ] at hj
          exact hj
        have hys := split_at hyi
        have htk : d.take j = w ++ B :: y.take i := by
          rw [hdeq, List.take_append, List.take_of_length_le hgt.le, hi, List.take_succ_cons]
        rw [htk, chainLen_append, chainLen_cons, chainLen_inactive (o := curveOps) hwin, hBlen] at js'
        have hll : l = (x ++ c :: y.take i) ++ m :: y.drop (i + 1) := by
          conv_lhs => rw [hsp, hys]
          simp
        have hlx : chainLen curveOps (x ++ c :: y.take i) =
            chainLen curveOps x + (curveOps.len c + chainLen curveOps (y.take i)) := by
          rw [chainLen_append, chainLen_cons]
        rw [hll] at hall ⊢
        refine (chainEval_inside hall jact j0 j1 ?_).symm
        rw [← hll, hlx]; linarith
    · rw [← hu, mul_zero, add_zero, q1, hp]

/-- Concrete case: the L-shaped chain cut at one third. -/
example : ∃ a b, chainCut curveOps ellChain (1 / 3) true = some (a, b) ∧
    chainLen curveOps a = 1 / 3 * chainLen curveOps ellChain := by
  obtain ⟨a, b, h, h', -⟩ := c94_cut_partial ellChain (by
    intro a ha hact
    simp only [ellChain, List.mem_cons, List.not_mem_nil, or_false] at ha
    rcases ha with rfl | rfl | rfl
    · exact ⟨_, _, 0, 1, rfl, by intro h; have := congrFun h 0; simp at this, by norm_num⟩
    · cases hact
    · exact ⟨_, _, 0, 1, rfl, by intro h; have := congrFun h 1; simp at this, by norm_num⟩)
    ⟨lineC 0 ![1, 0, 0], by simp [ellChain], lineC_active 0 ![1, 0, 0]⟩ (1 / 3) (by norm_num) (by norm_num) true
  exact ⟨a, b, h, h'⟩

/-- **C94, violated for curved members.** Every chain of an arc and a line that continues it, cut anywhere inside the
arc: the second piece reports the length of the whole chain, and somewhere it is not where the chain is. -/
theorem c94_violated (r ang : ℝ) (ctr : V3) (M : M3) (Q : V3) (hr : 0 < r) (ha : 0 < ang) (s : ℝ) (h0 : 0 < s)
    (preserve : Bool)
    (hQ : Q ≠ (CurveKind.arc r ang ctr M).fn 1) :
    let l := [Curve.make (.arc r ang ctr M) true 0 1, Curve.make (.line ((CurveKind.arc r ang ctr M).fn 1) Q) true 0 1]
    s * chainLen curveOps l < r * ang →
    ∃ a b, chainCut curveOps l s preserve = some (a, b) ∧ chainLen curveOps b = chainLen curveOps l ∧
      ∃ u, 0 ≤ u ∧ u ≤ 1 ∧ chainEval curveOps b u ≠ chainEval curveOps l (s + (1 - s) * u) := by
  intro l hs
  obtain ⟨P, hP⟩ : ∃ P, P = (CurveKind.arc r ang ctr M).fn 1 := ⟨_, rfl⟩
  obtain ⟨A, hA⟩ : ∃ A, A = Curve.make (.arc r ang ctr M) true 0 1 := ⟨_, rfl⟩
  obtain ⟨B, hB⟩ : ∃ B, B = Curve.make (.line P Q) true 0 1 := ⟨_, rfl⟩
  have hl : l = [A, B] := by rw [hA, hB, hP]
  clear_value l
  subst hl
  rw [← hP] at hQ
  have hra : 0 < r * ang := by positivity
  have hAact : A.active = true := by rw [hA]; rfl
  have hBact : B.active = true := by rw [hB]; exact line_act _ _ _ _
  have hAl : curveOps.len A = r * ang := by rw [len_of_active hAact, hA]; rfl
  have hBl : curveOps.len B = norm3 (Q - P) := by
    rw [len_of_active hBact, hB]; refine (line_trim P Q 0 1).trans ?_; simp
  have hN : 0 < norm3 (Q - P) := norm3_pos (sub_ne_zero.2 hQ)
  have hL : chainLen curveOps [A, B] = r * ang + norm3 (Q - P) := by
    rw [chainLen_cons, chainLen_cons, hAl, hBl]; simp [chainLen]
  have hpos : ∀ m ∈ [A, B], curveOps.active m = true → 0 < curveOps.length m := by
    intro m hm hact
    simp only [List.mem_cons, List.not_mem_nil, or_false] at hm
    rw [← len_of_active hact]
    rcases hm with rfl | rfl
    · rw [hAl]; exact hra
    · rw [hBl]; exact hN
  have hnn : NonNeg curveOps [A, B] := AllPos.nonNeg hpos
  rw [hL] at hs
  have hidx : getSIndex curveOps [A, B] s = some (0, s * (r * ang + norm3 (Q - P)) / (r * ang)) := by
    rw [getSIndex_eq (k := 0) (a := A) hnn (by rw [hL]; linarith) rfl (by simp [preLen, hL]; positivity)
      (by simp only [preLen, hL, hAl]; simp; exact hs.le)]
    simp [preLen, hL, hAl]
  obtain ⟨σ, hσ⟩ : ∃ σ, σ = s * (r * ang + norm3 (Q - P)) / (r * ang) := ⟨_, rfl⟩
  rw [← hσ] at hidx
  obtain ⟨A1, hA1⟩ : ∃ A1, A1 = Curve.make (.arc r ang ctr M) true σ 1 := ⟨_, rfl⟩
  obtain ⟨A2, hA2⟩ : ∃ A2, A2 = Curve.make (.arc r ang ctr M) true 0 σ := ⟨_, rfl⟩
  have hst : curveOps.setStart A σ = some A1 := by
    change A.setStartOn σ = _
    rw [hA, Curve.make, if_pos rfl, Curve.setStartOn, s2t_line_arc _ (by intro f n h; cases h), hA1]
    simp [Curve.make, Curve.updateLengths]
  have hen : curveOps.setEnd A σ = some A2 := by
    change A.setEndOn σ = _
    rw [hA, Curve.make, if_pos rfl, Curve.setEndOn, s2t_line_arc _ (by intro f n h; cases h), hA2]
    simp [Curve.make, Curve.updateLengths]
  have hA1act : A1.active = true := by rw [hA1]; rfl
  have hA2act : A2.active = true := by rw [hA2]; rfl
  have hA1upd : A1.updateLengths = A1 := by rw [hA1]; rfl
  have hBupd : B.updateLengths = B := by rw [hB]; exact line_upd _ _ _ _
  have hA1l : curveOps.len A1 = r * ang := by rw [len_of_active hA1act, hA1]; rfl
  have hupd1 : chainUpdate curveOps [A1, B] = [A1, B] := by
    simp only [chainUpdate, List.map_cons, List.map_nil]
    rw [if_pos (show curveOps.active A1 = true from hA1act), if_pos (show curveOps.active B = true from hBact)]
    change [A1.updateLengths, B.updateLengths] = _
    rw [hA1upd, hBupd]
  have hcut : ∃ a, chainCut curveOps [A, B] s preserve = some (a, [A1, B]) := by
    rw [chainCut, chainSetStart, startRaw, chainSetEnd, endRaw, hidx]
    simp only [Option.bind_some, List.getElem?_cons_zero, hst, hen, Option.map_some, List.take_zero, List.map_nil, ite_self,
      List.nil_append, List.drop_succ_cons, List.drop_zero]
    rw [hupd1, hupd1]
    exact ⟨_, rfl⟩
  obtain ⟨a, hcut⟩ := hcut
  have hL1 : chainLen curveOps [A1, B] = r * ang + norm3 (Q - P) := by
    rw [chainLen_cons, chainLen_cons, hA1l, hBl]; simp [chainLen]
  have hpos1 : AllPos curveOps ([] ++ A1 :: [B]) := by
    intro m hm hact
    simp only [List.nil_append, List.mem_cons, List.not_mem_nil, or_false] at hm
    rw [← len_of_active hact]
    rcases hm with rfl | rfl
    · rw [hA1l]; exact hra
    · rw [hBl]; exact hN
  obtain ⟨T, hT⟩ : ∃ T, T = r * ang + norm3 (Q - P) := ⟨_, rfl⟩
  have hTpos : 0 < T := by rw [hT]; linarith
  have hs1 : s < 1 := by
    by_contra h
    push Not at h
    nlinarith
  refine ⟨a, [A1, B], hcut, by rw [hL, hL1], r * ang / T, by positivity, ?_, ?_⟩
  · rw [div_le_one hTpos, hT]; linarith
  · have e1 : chainEval curveOps [A1, B] (r * ang / T) = A1.eval 1 := by
      have := chainEval_inside (x := []) (a := A1) (y := [B]) hpos1 hA1act (τ := 1) (s := r * ang / T) one_pos le_rfl
        (by rw [List.nil_append, hL1, hA1l, ← hT]; simp [chainLen]; field_simp)
      simpa using this
    obtain ⟨τ, hτ⟩ : ∃ τ, τ = ((s + (1 - s) * (r * ang / T)) * T - r * ang) / norm3 (Q - P) := ⟨_, rfl⟩
    have hτ' : τ * norm3 (Q - P) = s * norm3 (Q - P) := by
      rw [hτ]; field_simp; rw [hT]; ring
    have hτs : τ = s := mul_right_cancel₀ hN.ne' hτ'
    have e2 : chainEval curveOps [A, B] (s + (1 - s) * (r * ang / T)) = B.eval s := by
      have := chainEval_inside (x := [A]) (a := B) (y := []) (by intro m hm; exact hpos m hm) hBact (τ := s)
        (s := s + (1 - s) * (r * ang / T)) h0 hs1.le
        (by
          rw [show [A] ++ [B] = [A, B] from rfl, hL, hBl, ← hT]
          rw [chainLen_cons, hAl]; simp [chainLen]; field_simp; rw [hT]; ring)
      simpa using this
    rw [e1, e2]
    have e3 : A1.eval 1 = some P := by
      rw [hA1, Curve.eval, Curve.make, if_pos rfl, s2t_line_arc _ (by intro f n h; cases h), hP]
      simp only [Option.map_some]
      congr 1
      rw [show (σ + (1 - σ) * 1 : ℝ) = 1 by ring]; rfl
    rw [e3, hB, line_eval]
    intro h
    have h' := Option.some.inj h
    have : s • (Q - P) = 0 := by
      have e : (1 - (0 + (1 - 0) * s)) • P + (0 + (1 - 0) * s) • Q = P + s • (Q - P) := by module
      rw [e] at h'
      exact (left_eq_add.1 h')
    rcases smul_eq_zero.1 this with h2 | h2
    · exact h0.ne' h2
    · exact hQ (sub_eq_zero.1 h2)

/-- Concrete case: an arc of length 1 and a line of length 1, cut at a quarter. -/
example : let P := (CurveKind.arc 1 1 0 1).fn 1
    let l := [Curve.make (.arc 1 1 0 1) true 0 1, Curve.make (.line P (P + RIGHT)) true 0 1]
    P + RIGHT ≠ P ∧ 1 / 4 * chainLen curveOps l < 1 * 1 := by
  intro P l
  have h1 : norm3 RIGHT = 1 := by simp [norm3, dot, RIGHT]
  have hl : chainLen curveOps l = 1 + 1 := by
    simp only [l, chainLen_cons]
    rw [len_of_active (o := curveOps) (a := Curve.make (.arc 1 1 0 1) true 0 1) rfl,
      len_of_active (o := curveOps) (a := Curve.make (.line P (P + RIGHT)) true 0 1)
        (line_act P (P + RIGHT) 0 1)]
    change (1 : ℝ) * 1 + ((Curve.make (.line P (P + RIGHT)) true 0 1).length + chainLen curveOps []) = _
    rw [show (Curve.make (.line P (P + RIGHT)) true 0 1).length = norm3 (P + RIGHT - P) * |1 - 0| from line_trim _ _ 0 1]
    simp [chainLen, h1]
  refine ⟨?_, by rw [hl]; norm_num⟩
  intro h
  have := congrFun h 0
  simp [RIGHT] at this

end Verif
