import Verif.Props.UndercutMeet
import Verif.Props.SpurOutlineEx

/-!
# Case of property C142

Solvers that find a solution whenever there is one on both curves, and a gear with undercut generated with them.
-/

namespace Verif

open Real Set

/-- A solution on the first curve and on the second curve or beyond its end. -/
def OnBoth (cost : V3 → Option V3) (x : V3) : Prop := cost x = some 0 ∧ (0 < x 0 ∧ x 0 < 1) ∧ 0 < x 1

open scoped Classical in
/-- Solvers that report success exactly when there is a solution on the first curve and on the second or beyond its end, and return
one of them, the last one on the first curve if there is a last one. For one unknown they return a solution on the curve if there is one,
else one beyond its end, else one in front of it. -/
noncomputable def boxSolvers : ScalarSolvers where
  root cost _ := if h : ∃ x, OnBoth cost x ∧ ∀ y, OnBoth cost y → y 0 ≤ x 0 then ⟨true, h.choose⟩ else
    if h : ∃ x, OnBoth cost x then ⟨true, h.choose⟩ else ⟨false, ![1 / 2, 1 / 2, 0]⟩
  minimize _ _ := ⟨false, (1 / 2, 1 / 2)⟩
  root1 cost _ := if h : ∃ x, cost x = some 0 ∧ 0 ≤ x ∧ x ≤ 1 then ⟨true, h.choose⟩ else
    if h : ∃ x, cost x = some 0 ∧ 1 < x then ⟨true, h.choose⟩ else
    if h : ∃ x, cost x = some 0 ∧ x ≤ 0 then ⟨true, h.choose⟩ else ⟨false, 0⟩
  minimize1 _ guess := ⟨true, guess⟩

theorem box_honest : Honest boxSolvers := by
  constructor
  · intro cost guess
    simp only [boxSolvers]
    split_ifs with h h'
    · exact fun _ => h.choose_spec.1.1
    · exact fun _ => h'.choose_spec.1
    · intro h; cases h
  · intro cost guess
    simp only [boxSolvers]
    split_ifs with h h' h''
    · exact fun _ => h.choose_spec.1
    · exact fun _ => h'.choose_spec.1
    · exact fun _ => h''.choose_spec.1
    · intro h; cases h

theorem box_mem (f1 f2 : ℝ → Option V3) (guess : ℝ × ℝ) (m : IntersectMethod) :
    (0 < (findCurveIntersect boxSolvers.toSolvers f1 f2 guess m).x.1 ∧ (findCurveIntersect boxSolvers.toSolvers f1 f2 guess m).x.1 < 1) ∧
      0 < (findCurveIntersect boxSolvers.toSolvers f1 f2 guess m).x.2 := by
  cases m
  · simp only [findCurveIntersect, boxSolvers]
    split_ifs with h h'
    · exact h.choose_spec.1.2
    · exact h'.choose_spec.2
    · norm_num
  · simp only [findCurveIntersect, boxSolvers]
    norm_num

theorem box_on {f1 f2 : ℝ → Option V3} {s u : ℝ} {p : V3} (h1 : f1 s = some p) (h2 : f2 u = some p)
    (s0 : 0 < s) (s1 : s < 1) (u0 : 0 < u) : OnBoth (fun x => curveDiff f1 f2 (x 0) (x 1)) ![s, u, 0] :=
  ⟨by simp [curveDiff, h1, h2], ⟨s0, s1⟩, u0⟩

theorem box_found {f1 f2 : ℝ → Option V3} (guess : ℝ × ℝ) {s u : ℝ} {p : V3} (h1 : f1 s = some p) (h2 : f2 u = some p)
    (s0 : 0 < s) (s1 : s < 1) (u0 : 0 < u) :
    (findCurveIntersect boxSolvers.toSolvers f1 f2 guess .equality).success = true := by
  have h : ∃ x, OnBoth (fun x => curveDiff f1 f2 (x 0) (x 1)) x := ⟨_, box_on h1 h2 s0 s1 u0⟩
  simp only [findCurveIntersect, boxSolvers]
  split_ifs
  all_goals rfl

/-- The last common point on the first curve is found. -/
theorem box_last {f1 f2 : ℝ → Option V3} (guess : ℝ × ℝ) {s u : ℝ} {p : V3} (h1 : f1 s = some p) (h2 : f2 u = some p)
    (s0 : 0 < s) (s1 : s < 1) (u0 : 0 < u)
    (hmax : ∀ s' u' q, f1 s' = some q → f2 u' = some q → 0 < s' → s' < 1 → 0 < u' → s' ≤ s) :
    (findCurveIntersect boxSolvers.toSolvers f1 f2 guess .equality).x.1 = s := by
  have hall : ∀ y, OnBoth (fun x => curveDiff f1 f2 (x 0) (x 1)) y → y 0 ≤ s := by
    intro y ⟨h, h0, h3⟩
    obtain ⟨q, q1, q2⟩ := curveDiff_zero h
    exact hmax _ _ q q1 q2 h0.1 h0.2 h3
  have h : ∃ x, OnBoth (fun x => curveDiff f1 f2 (x 0) (x 1)) x ∧ ∀ y, OnBoth (fun x => curveDiff f1 f2 (x 0) (x 1)) y → y 0 ≤ x 0 :=
    ⟨_, box_on h1 h2 s0 s1 u0, hall⟩
  simp only [findCurveIntersect, boxSolvers]
  rw [dif_pos h]
  exact le_antisymm (hall _ h.choose_spec.1) (h.choose_spec.2 _ (box_on h1 h2 s0 s1 u0))

theorem box_root1_success {cost : ℝ → Option ℝ} (guess : ℝ) {x : ℝ} (h : cost x = some 0) :
    (boxSolvers.root1 cost guess).success = true := by
  simp only [boxSolvers]
  split_ifs with h' h'' h3
  · rfl
  · rfl
  · rfl
  · exfalso
    rcases le_total x 0 with h0 | h0
    · exact h3 ⟨x, h, h0⟩
    · rcases le_or_gt x 1 with h1 | h1
      · exact h' ⟨x, h, h0, h1⟩
      · exact h'' ⟨x, h, h1⟩

theorem box_root1_on {cost : ℝ → Option ℝ} (guess : ℝ) {x : ℝ} (h : cost x = some 0) (h0 : 0 ≤ x) (h1 : x ≤ 1) :
    0 ≤ (boxSolvers.root1 cost guess).x ∧ (boxSolvers.root1 cost guess).x ≤ 1 := by
  have h' : ∃ x, cost x = some 0 ∧ 0 ≤ x ∧ x ≤ 1 := ⟨x, h, h0, h1⟩
  simp only [boxSolvers]
  rw [dif_pos h']
  exact h'.choose_spec.2

theorem box_root1_pos {cost : ℝ → Option ℝ} (guess : ℝ) (h : 0 < (boxSolvers.root1 cost guess).x) :
    cost (boxSolvers.root1 cost guess).x = some 0 := by
  simp only [boxSolvers] at h ⊢
  split_ifs at h ⊢ with h1 h2 h3
  · exact h1.choose_spec.1
  · exact h2.choose_spec.1
  · exact h3.choose_spec.1
  · exact absurd h (lt_irrefl _)

/-- The searches of the generator succeed with these solvers, when the tooth is not too thick. -/
theorem box_tooth {pia rp alpha : ℝ} (hrp : 0 < rp) (ha0 : 0 < alpha) (ha1 : alpha < π / 2) (ht : tan alpha < 2) (h0 : 0 < pia)
    (h1 : pia + (tan alpha - alpha) ≤ invAngle 2) : ToothSearches boxSolvers pia rp alpha := by
  have hc : 0 < cos alpha := cos_pos_of_mem_Ioo ⟨by linarith, ha1⟩
  have hlt : alpha < tan alpha := Real.lt_tan ha0 ha1
  obtain ⟨r, er⟩ : ∃ r, r = rp * cos alpha := ⟨_, rfl⟩
  have hr : 0 < r := by rw [er]; exact mul_pos hrp hc
  obtain ⟨ang, eang⟩ : ∃ ang, ang = -(pia + (tan alpha - alpha)) := ⟨_, rfl⟩
  obtain ⟨τ, t1, t2, t3, t4, t5, -⟩ := involute_run (ang := 0) (z := 0) hr (le_refl 0) zero_lt_two 20 (by norm_num)
  obtain ⟨υ, u1, u2, u3, u4, u5, -⟩ := involute_run (ang := ang) (z := 0) hr (le_refl 0) zero_lt_two 20 (by norm_num)
  have hmid : ∃ s, ((turnedInvolute r ang).eval s).map (fun p => dot (p - ORIGIN) UP) = some 0 ∧ 0 ≤ s ∧ s ≤ 1 := by
    rw [turned_eq]
    obtain ⟨s, hs, es⟩ : -ang ∈ (fun s => invAngle (υ s)) '' Icc 0 1 := intermediate_value_Icc zero_le_one
      (invAngle_continuous.comp_continuousOn u2) ⟨by
        show invAngle (υ 0) ≤ _
        rw [u3, invAngle_zero]; linarith, by
        show _ ≤ invAngle (υ 1)
        rw [u4]; linarith⟩
    refine ⟨s, ?_, hs⟩
    simp only at es
    rw [u5 s hs.1 hs.2, involute_polar, es]
    simp [dot, UP, ORIGIN]
  obtain ⟨s, hs, s0, s1⟩ := hmid
  refine ⟨?_, (box_mem _ _ _ _).1.1.le, (box_mem _ _ _ _).1.2.le, ?_, ?_, ?_⟩
  · rw [← er, show baseInvolute r = Curve.make (.generic (fun t => involuteCircle t r 0 0 0) 20) true 0 2 by
      rw [baseInvolute, ORIGIN_eq], ORIGIN_eq, show arcInit rp (2 * π) 0 0 0 0 true = circ rp from rfl]
    obtain ⟨s, hs, es⟩ : tan alpha ∈ τ '' Icc 0 1 := intermediate_value_Icc zero_le_one t2 ⟨by rw [t3]; linarith, by rw [t4]; linarith⟩
    have s0 : 0 < s := lt_of_le_of_ne hs.1 fun e => by rw [← e, t3] at es; linarith
    have s1 : s < 1 := lt_of_le_of_ne hs.2 fun e => by rw [e, t4] at es; linarith
    have hpi := pi_gt_three
    have hia : invAngle (tan alpha) = tan alpha - alpha := by rw [invAngle, arctan_tan (by linarith) ha1]
    refine box_found _ (u := invAngle (tan alpha) / (2 * π)) (t5 s hs.1 hs.2) ?_ s0 s1 (div_pos (by rw [hia]; linarith) (by positivity))
    rw [circ_eval, es, involute_polar, mul_div_cancel₀ _ (by positivity), add_zero]
    have : r * √(1 + tan alpha ^ 2) = rp := by
      rw [er, ← inv_sqrt_one_add_tan_sq hc, mul_assoc, inv_mul_cancel₀ (sqrt_pos.2 (by positivity)).ne', mul_one]
    rw [this]
  · rw [← er, ← eang]
    exact box_root1_success _ hs
  · rw [← er, ← eang]
    exact (box_root1_on _ hs s0 s1).1
  · rw [← er, ← eang]
    exact (box_root1_on _ hs s0 s1).2

/-- On the connector line the tooth curve runs at the angle it starts with. -/
theorem connector_angle {q : V3} {J : Curve} (h : ChainPath [lineC ((1 / 2 : ℝ) • q) q, J]) {G : ℝ → V3} {ang : ℝ} {R θ : ℝ → ℝ}
    (F : Fan G ang R θ) (hang : -π < ang) (hneg : ang ≤ 0)
    (hG : ∀ s ∈ Icc (0 : ℝ) 1, chainEval curveOps [lineC ((1 / 2 : ℝ) • q) q, J] s = some (G s)) {s : ℝ} (h0 : 0 ≤ s) (h1 : s < 1)
    (hs : s ≤ portion curveOps [lineC ((1 / 2 : ℝ) • q) q, J] 1) : θ s = ang := by
  obtain ⟨C, eC⟩ : ∃ C, C = lineC ((1 / 2 : ℝ) • q) q := ⟨_, rfl⟩
  rw [← eC] at h hG hs
  have hL := h.pos
  have hact : curveOps.active C = true := by rw [eC]; rfl
  have hlen : 0 < curveOps.len C := by rw [len_of_active hact]; exact h.allPos C (by simp) hact
  rw [portion, le_div_iff₀ hL] at hs
  have hs : s * chainLen curveOps [C, J] ≤ curveOps.len C := by simpa [preLen] using hs
  have ev : ∀ s, 0 ≤ s → s * chainLen curveOps [C, J] ≤ curveOps.len C →
      chainEval curveOps [C, J] s = some ((1 / 2 + s * chainLen curveOps [C, J] / curveOps.len C / 2) • q) := by
    intro s h0 hs
    have e := chainEval_at h.allPos h.2.1 (x := []) (y := [J]) (a := C) rfl hact (X := s * chainLen curveOps [C, J])
      (by rw [show chainLen curveOps ([] : List Curve) = 0 from rfl]; exact mul_nonneg h0 hL.le)
      (by rw [show chainLen curveOps ([] : List Curve) = 0 from rfl, zero_add]; exact hs)
    rw [mul_div_cancel_right₀ s hL.ne'] at e
    rw [e]
    show C.eval _ = _
    conv_lhs => rw [eC, lineC_eval]
    have h3 : chainLen curveOps ([] : List Curve) = 0 := rfl
    rw [h3, sub_zero, ← eC, smul_smul, ← add_smul]
    congr 2
    ring
  have m0 : (0 : ℝ) ∈ Icc (0 : ℝ) 1 := ⟨le_refl _, zero_le_one⟩
  have ms : s ∈ Icc (0 : ℝ) 1 := ⟨h0, h1.le⟩
  obtain ⟨k, ek⟩ : ∃ k, k = s * chainLen curveOps [C, J] / curveOps.len C := ⟨_, rfl⟩
  have hk : 0 ≤ k := by rw [ek]; exact div_nonneg (mul_nonneg h0 hL.le) hlen.le
  have e1 := ev s h0 hs
  have e2 := ev 0 (le_refl _) (by rw [zero_mul]; exact hlen.le)
  rw [hG _ ms, F.polar s ms, ← ek] at e1
  rw [hG _ m0, F.polar 0 m0, F.start] at e2
  have e1 := Option.some.inj e1
  have e2 := Option.some.inj e2
  have a0 := congrFun e1 0
  have a1 := congrFun e1 1
  have b0 := congrFun e2 0
  have b1 := congrFun e2 1
  simp at a0 a1 b0 b1
  have r1 := F.range ms
  refine (polar_unique (R := R s) (R' := (1 + k) * R 0) (F.radius ms) (mul_pos (by linarith) F.pos) ?_ ?_ ?_ ?_).2
  · linear_combination a0 - (1 + k) * b0
  · linear_combination a1 - (1 + k) * b1
  · linarith [pi_pos]
  · linarith [pi_pos]

theorem arctan_below {x : ℝ} (h : 0 ≤ x) : arctan x ≤ x := by
  have := invAngle_strict.monotoneOn (le_refl (0 : ℝ)) h h
  rw [invAngle_zero, invAngle] at this
  linarith

theorem arctan_line {y : ℝ} (h : 1 ≤ y) : arctan y ≤ π / 4 + (y - 1) / 2 := by
  rw [← arctan_one]
  rcases h.lt_or_eq with h | h
  · have h0 : (0 : ℝ) < y := by linarith
    have e : arctan y - arctan 1 = arctan ((y - 1) / (1 + y)) := by
      have := arctan_add (x := (y - 1) / (1 + y)) (y := 1) (by
        rw [mul_one, div_lt_one (by linarith)]; linarith)
      rw [show ((y - 1) / (1 + y) + 1) / (1 - (y - 1) / (1 + y) * 1) = y by field_simp; ring] at this
      linarith
    have h1 : arctan ((y - 1) / (1 + y)) ≤ (y - 1) / (1 + y) := arctan_below (div_nonneg (by linarith) (by linarith))
    have h2 : (y - 1) / (1 + y) ≤ (y - 1) / 2 := by
      apply div_le_div_of_nonneg_left <;> linarith
    linarith
  · rw [← h]; simp

/-- Depth and thickness of a tooth with undercut, such that the path of the corner of the rack meets the involute before the place `t2`
of the involute. -/
structure CornerMeets (rp pia alpha pitch t2 : ℝ) (limits : ToothLimitParam) : Prop where
  rp_pos : 0 < rp
  a0 : 0 < alpha
  a1 : alpha < π / 2
  pia_pos : 0 < pia
  hA : 0 < limits.hA
  hD0 : 0 < limits.hD
  hD1 : limits.hD < rp
  base : rp - limits.hD ≤ rp * cos alpha
  room : limits.hD * tan alpha < rp * (pitch / 2 - pia)
  pitch_le : pitch ≤ π
  circle : (rp * pia + limits.hD * tan alpha) ^ 2 ≤ limits.hD * (2 * rp - limits.hD)
  neck : ∀ v, 0 ≤ v → arctan (v / (rp - limits.hD)) < (rp * pia + limits.hD * tan alpha + v) / rp
  ne : rp - limits.hD ≠ rp * cos alpha ^ 2
  t2_pos : 0 ≤ t2
  falls : (rp - limits.hD) * rp ≤ (rp * cos alpha) ^ 2 * (1 + t2 ^ 2)
  gap : meetGap rp alpha (rp - limits.hD) t2 < 0
  twice : (rp * cos alpha) ^ 2 * (1 + t2 ^ 2) ≤ (2 * rp) ^ 2

theorem CornerMeets.turn {rp pia alpha pitch t2 : ℝ} {limits : ToothLimitParam} (H : CornerMeets rp pia alpha pitch t2 limits) :
    (rp * pia + limits.hD * tan alpha) / rp < arctan ((rp * pia + limits.hD * tan alpha) / (rp - limits.hD)) := by
  have := H.rp_pos
  have := H.pia_pos
  have := H.hD0
  have := tan_pos_of_pos_of_lt_pi_div_two H.a0 H.a1
  exact corner_turn (by positivity) H.hD0 H.hD1 H.circle

/-- The involute starts on the tooth's side of the deepest point of the path. -/
theorem CornerMeets.side {rp pia alpha pitch t2 : ℝ} {limits : ToothLimitParam} (H : CornerMeets rp pia alpha pitch t2 limits) :
    tan alpha - alpha < limits.hD * tan alpha / rp := by
  have hrp := H.rp_pos
  have htp := tan_pos_of_pos_of_lt_pi_div_two H.a0 H.a1
  have hcos : 0 < cos alpha := cos_pos_of_mem_Ioo ⟨by linarith [H.a0, pi_pos], H.a1⟩
  have h1 : rp * (1 - cos alpha) ≤ limits.hD := by linarith [H.base]
  have h2 := mul_le_mul_of_nonneg_right h1 htp.le
  have h3 : (1 - cos alpha) * tan alpha = tan alpha - sin alpha := by
    rw [sub_mul, one_mul, tan_eq_sin_div_cos]; field_simp
  have h4 := Real.sin_lt H.a0
  rw [lt_div_iff₀ hrp]
  nlinarith

set_option maxHeartbeats 1000000 in
/-- The searches of the undercut succeed with these solvers. -/
theorem box_undercut {rp pia alpha pitch t2 tb : ℝ} {limits : ToothLimitParam} (H : CornerMeets rp pia alpha pitch t2 limits) (ht2 : t2 ≤ tb)
    (htb : tb ≤ 2) {l : List Curve} {G : ℝ → V3} {R θ : ℝ → ℝ} (hl : involuteToothCurve boxSolvers pia rp alpha = some l)
    (hpath : ChainPath l) (F : Fan G (-(pia + (tan alpha - alpha))) R θ) (R0 : R 0 = rp * cos alpha / 2)
    (hG : ∀ s ∈ Icc (0 : ℝ) 1, chainEval curveOps l s = some (G s)) (b3 : R 1 = rp * cos alpha * √(1 + tb ^ 2))
    (hsh : InvoluteShape (rp * cos alpha) (-(pia + (tan alpha - alpha))) R θ) :
    UndercutSearches boxSolvers rp pia pitch alpha limits l := by
  have hK := H.turn
  have hside := H.side
  obtain ⟨hrp, ha0, ha1, hpia, hA, hD0, hD1, hbase, hroom, hpi, hcircle, hneck, hne, h20, hfall, hgap, htwice⟩ := H
  have p3 := pi_gt_three
  have hT := tan_pos_of_pos_of_lt_pi_div_two ha0 ha1
  have hlt : alpha < tan alpha := Real.lt_tan ha0 ha1
  have hc : 0 < cos alpha := cos_pos_of_mem_Ioo ⟨by linarith, ha1⟩
  obtain ⟨h, eh⟩ : ∃ h, h = limits.hD := ⟨_, rfl⟩
  rw [← eh] at hK hside hD0 hD1 hbase hroom hcircle hneck hne hfall hgap
  obtain ⟨a, ea⟩ : ∃ a, a = rp - h := ⟨_, rfl⟩
  obtain ⟨b, eb⟩ : ∃ b, b = rp * pia + h * tan alpha := ⟨_, rfl⟩
  obtain ⟨ang, eang⟩ : ∃ ang, ang = -(pia + (tan alpha - alpha)) := ⟨_, rfl⟩
  obtain ⟨r, er⟩ : ∃ r, r = rp * cos alpha := ⟨_, rfl⟩
  have ebr : b / rp = pia + h * tan alpha / rp := by rw [eb]; field_simp
  have ha : 0 < a := by linarith
  have hb : 0 < b := by rw [eb]; positivity
  have hr : 0 < r := by rw [er]; positivity
  have hrr : r ≤ rp := by rw [er]; exact mul_le_of_le_one_right hrp.le (cos_le_one _)
  rw [← eb] at hcircle hK
  rw [← ea] at hbase hne hfall hgap hK
  rw [← eang] at F hsh
  rw [← er] at R0 b3 hsh
  have hbr : b ≤ rp := by
    refine le_of_sq_le_sq ?_ hrp.le
    nlinarith [sq_nonneg (rp - h)]
  have hang : -(π / 2) ≤ ang := by
    have : pia + h * tan alpha / rp < pitch / 2 := by
      rw [← ebr, div_lt_iff₀ hrp, eb]; linarith
    rw [eang]; linarith
  have hba : -(b / rp) < ang := by rw [ebr, eang]; linarith
  have hneg : ang < 0 := by rw [eang]; linarith
  have hR1 : R 1 ≤ 5 / 2 * rp := by
    have h5 : √(1 + tb ^ 2) ≤ 5 / 2 := by
      rw [sqrt_le_left (by norm_num)]
      have := pow_le_pow_left₀ (h20.trans ht2) htb 2
      linarith
    rw [b3, mul_comm]
    exact mul_le_mul h5 hrr hr.le (by norm_num)
  have hsq : ∀ t : ℝ, (r * √(1 + t ^ 2)) ^ 2 = r ^ 2 * (1 + t ^ 2) := by
    intro t
    rw [mul_pow, sq_sqrt (by positivity)]
  have m1 : (1 : ℝ) ∈ Icc (0 : ℝ) 1 := ⟨zero_le_one, le_refl _⟩
  -- the corner of the rack
  have hgapS : (boxSolvers.root1 (gapMiddleResidual (rackFlankCurve rp pia limits alpha).eval (-rp * pitch / 2)) 1).success = true := by
    refine box_root1_success (x := (rp * pia + h * tan alpha - rp * pitch / 2) / ((limits.hA + h) * tan alpha)) _ ?_
    have hne' : (limits.hA + h) * tan alpha ≠ 0 := by positivity
    rw [gapMiddleResidual, rackFlankCurve_eval _ _ _ _ _ (by linarith) ha1, ← eh, div_mul_cancel₀ _ hne']
    simp [dot, UP]
    ring
  have href : ∀ p, undercutRefPoint boxSolvers rp pia pitch limits alpha = some p → p = ![a, -b, 0] := by
    intro p hp
    obtain ⟨q, hq, q1, q2, -, -, -, q3, -⟩ := c118_ref boxSolvers rp pia pitch limits alpha hrp ha0 ha1 hA (by rw [← eh]; exact hD0)
      (by nlinarith [mul_pos hD0 hT]) (box_honest.root1 _ _ hgapS)
    rw [hp] at hq
    obtain rfl := Option.some.inj hq
    rw [← eh] at q3
    have q4 := q3 hroom.le
    rw [q4] at q1
    apply V3.ext3
    · simp [q4, ea]
    · simp [eb]; linarith
    · simp [q2]
  -- the end of its path
  have hstop : 0 < (boxSolvers.root1 (fun t => ((cornerPath rp a b (-1)).eval t).map fun p => dot p p - (rp * 1) ^ 2) 1).x →
      ∃ t, -3 ≤ t ∧ t < 0 ∧ (cornerPath rp a b (-1)).s2t
        (boxSolvers.root1 (fun t => ((cornerPath rp a b (-1)).eval t).map fun p => dot p p - (rp * 1) ^ 2) 1).x = some t := by
    intro hx
    have hz := box_root1_pos _ hx
    obtain ⟨x, ex⟩ : ∃ x, x = (boxSolvers.root1 (fun t => ((cornerPath rp a b (-1)).eval t).map fun p => dot p p - (rp * 1) ^ 2) 1).x :=
      ⟨_, rfl⟩
    rw [← ex] at hx hz ⊢
    obtain ⟨τ, t1, t3, -, t4⟩ := back_far (cornerPath_ok (t := -1) hrp ha hK (by norm_num) (by norm_num))
    rw [cornerPath_t0, neg_zero] at t3
    have hτ : 0 < τ x := by rw [← t3]; exact t1 (mem_Ici.2 (le_refl 0)) hx.le hx
    refine ⟨-τ x, ?_, by linarith, t4 x hx.le⟩
    rw [Curve.eval, t4 x hx.le, Option.map_some, Option.map_some, cornerPath_kind] at hz
    have hz : dot (undercutCurve rp ![a, -b, 0] (-τ x)) (undercutCurve rp ![a, -b, 0] (-τ x)) - (rp * 1) ^ 2 = 0 := Option.some.inj hz
    obtain ⟨v, ev⟩ : ∃ v, v = -b - rp * -τ x := ⟨_, rfl⟩
    rw [undercut_polar ha, ← ev] at hz
    simp [dot] at hz
    have hq := sq_sqrt (show (0 : ℝ) ≤ a ^ 2 + v ^ 2 by positivity)
    have hcs := sin_sq_add_cos_sq (-τ x + arctan (v / a))
    have hv : a ^ 2 + v ^ 2 = rp ^ 2 := by
      linear_combination hz - hq * (cos (-τ x + arctan (v / a)) ^ 2 + sin (-τ x + arctan (v / a)) ^ 2) - (a ^ 2 + v ^ 2) * hcs
    have hv1 : v ≤ rp := by
      refine le_of_sq_le_sq ?_ hrp.le
      linarith [sq_nonneg a]
    have h5 : rp * τ x ≤ rp * 2 := by rw [ev] at hv1; linarith
    linarith [le_of_mul_le_mul_left h5 hrp]
  have hgen : ∀ p c, undercutRefPoint boxSolvers rp pia pitch limits alpha = some p → generateUndercutCurve boxSolvers rp p = some c →
      ∃ tc, -3 ≤ tc ∧ tc < 0 ∧ c = cornerPath rp a b tc := by
    intro p c hp hc'
    obtain ⟨tc, k1, k2, k3⟩ := under_path hstop
    rw [href p hp, k3] at hc'
    exact ⟨tc, k1, k2, (Option.some.inj hc').symm⟩
  -- the meeting point
  have har : a < rp := by linarith
  obtain ⟨t, ht0, htz⟩ := meet_exists hrp ha0 ha1 ha har (by rw [← er]; rw [er]; exact hbase) hne
  have htt := meet_before hrp ha hbase h20 hfall hgap htz
  have hVsq := meetAt_sq (base_le (t := t) ha hbase)
  rw [← er] at hVsq
  obtain ⟨V, eV⟩ : ∃ V, V = meetAt r a t := ⟨_, rfl⟩
  rw [← eV] at hVsq
  have hV0 : 0 ≤ V := by rw [eV]; exact sqrt_nonneg _
  obtain ⟨s, ms, es⟩ : r * √(1 + t ^ 2) ∈ R '' Icc 0 1 := by
    refine intermediate_value_Icc zero_le_one F.radius_continuous ⟨?_, ?_⟩
    · rw [R0]
      have : 1 ≤ √(1 + t ^ 2) := one_le_sqrt.2 (by linarith [sq_nonneg t])
      linarith [le_mul_of_one_le_right hr.le this]
    · rw [b3]
      exact mul_le_mul_of_nonneg_left (sqrt_le_sqrt (by linarith [pow_le_pow_left₀ ht0.le (htt.le.trans ht2) 2])) hr.le
  have h1t : 1 < √(1 + t ^ 2) := by rw [lt_sqrt (by norm_num)]; linarith [pow_pos ht0 2]
  have hrs : r < R s := by rw [es]; exact lt_mul_of_one_lt_right hr h1t
  have eθ : θ s = invAngle t + ang := by
    rcases hsh s ms with h5 | ⟨t', t0, h3, h4⟩
    · linarith [h5.1]
    · rw [h4, tooth_involute_unique hr t0 ht0.le (h3.symm.trans es)]
  have s0 : 0 < s := lt_of_le_of_ne ms.1 fun e => by
    rw [← e, R0] at hrs
    linarith
  have s1 : s < 1 := lt_of_le_of_ne ms.2 fun e => by
    rw [e, b3] at es
    have h5 : t ^ 2 < tb ^ 2 := pow_lt_pow_left₀ (htt.trans_le ht2) ht0.le two_ne_zero
    have h6 := sqrt_lt_sqrt (show 0 ≤ 1 + t ^ 2 by positivity) (show 1 + t ^ 2 < 1 + tb ^ 2 by linarith)
    have := mul_lt_mul_of_pos_left h6 hr
    linarith
  have hinv0 : 0 < invAngle t := by
    have := invAngle_strict (le_refl (0 : ℝ)) ht0.le ht0
    rwa [invAngle_zero] at this
  have hport : portion curveOps l 1 < s := by
    by_contra hcon
    obtain ⟨q, J, rfl⟩ := tooth_two hl
    have := connector_angle hpath F (by linarith) hneg.le hG s0.le s1 (not_lt.1 hcon)
    linarith
  have hmeet : ∀ tc, -3 ≤ tc → tc < 0 → ∃ x, 0 < x ∧ (cornerPath rp a b tc).eval x = some (G s) := by
    intro tc k1 k2
    obtain ⟨τ, t1, t3, t5, t4⟩ := back_far (cornerPath_ok (t := tc) hrp ha hK k1 k2)
    rw [cornerPath_t0, neg_zero] at t3 t5
    have hpos : 0 < (b + V) / rp := by positivity
    obtain ⟨x, hx, ex⟩ : (b + V) / rp ∈ τ '' Ici 0 := by rw [t5]; exact hpos.le
    have hx0 : 0 < x := lt_of_le_of_ne hx fun e => by rw [← e, t3] at ex; linarith
    refine ⟨x, hx0, ?_⟩
    rw [Curve.eval, t4 x hx, ex, Option.map_some, cornerPath_kind]
    show some (undercutCurve rp ![a, -b, 0] (-((b + V) / rp))) = _
    rw [undercut_polar ha, F.polar s ms, es, eθ]
    have k3 : -b - rp * -((b + V) / rp) = V := by field_simp; ring
    have k4 : √(a ^ 2 + V ^ 2) = r * √(1 + t ^ 2) := by
      rw [sqrt_eq_iff_mul_self_eq (by positivity) (by positivity), ← sq, hsq, hVsq]
    have k5 : -((b + V) / rp) + arctan (V / a) = invAngle t + ang := by
      rw [meetGap, ← er, ← eV, lift] at htz
      have k6 : a * tan alpha / rp = tan alpha - h * tan alpha / rp := by rw [ea]; field_simp
      rw [add_div, ebr, eang]
      rw [k6] at htz
      linarith
    rw [k3, k4, k5]
  -- all common points
  have hcommon : ∀ tc, -3 ≤ tc → tc < 0 → ∀ s' x q, chainEval curveOps l s' = some q → (cornerPath rp a b tc).eval x = some q →
      0 < s' → s' < 1 → 0 < x → (∃ w, -3 ≤ w ∧ w < 0 ∧ (cornerPath rp a b tc).s2t x = some w) ∧
        ((rp * cos alpha ^ 2 < a → portion curveOps l 1 < s') ∧ (a < rp * cos alpha ^ 2 → s' ≤ s)) := by
    intro tc k1 k2 s' x q hq1 hq2 s'0 s'1 hx
    have ms' : s' ∈ Icc (0 : ℝ) 1 := ⟨s'0.le, s'1.le⟩
    rw [hG s' ms'] at hq1
    rw [← Option.some.inj hq1] at hq2
    obtain ⟨v, v0, v1, v2, v3⟩ := corner_common hrp ha hbr hK F hang hba hR1 k1 k2 ms' hx hq2
    have hshape : R s' ≤ r ∧ θ s' = ang ∨ ∃ t', 0 < t' ∧ R s' = r * √(1 + t' ^ 2) ∧ meetGap rp alpha a t' = 0 := by
      rcases hsh s' ms' with h5 | ⟨t', t'0, h5, h6⟩
      · exact .inl h5
      · rcases t'0.lt_or_eq with h7 | h7
        · refine .inr ⟨t', h7, h5, ?_⟩
          rw [ea]
          refine meet_zero (pia := pia) (v := v) hrp v0.le ?_ ?_
          · rw [← ea, ← er, v2, h5]
          · rw [← ea, ← eb, ← eang, v3, h6]
        · refine .inl ⟨?_, ?_⟩
          · rw [h5, ← h7]; simp
          · rw [h6, ← h7, invAngle_zero, zero_add]
    have hR2 : R s' ≤ 2 * rp := by
      rcases hshape with h5 | ⟨t', t'0, h5, h6⟩
      · linarith [h5.1]
      · have h7 := meet_before hrp ha hbase h20 hfall hgap h6
        refine le_of_sq_le_sq ?_ (by linarith)
        rw [h5, hsq]
        rw [← er] at htwice
        refine le_trans (mul_le_mul_of_nonneg_left ?_ (sq_nonneg r)) htwice
        linarith [pow_le_pow_left₀ t'0.le h7.le 2]
    refine ⟨⟨_, ?_, ?_, v1⟩, fun hfree => ?_, fun hcross => ?_⟩
    · have h5 : v ≤ 2 * rp := by
        rw [← v2] at hR2
        exact (le_sqrt_of_sq_le (by linarith [sq_nonneg a])).trans hR2
      have : (b + v) / rp ≤ 3 := by rw [div_le_iff₀ hrp]; linarith
      linarith
    · have : 0 < (b + v) / rp := by positivity
      linarith
    · by_contra hcon
      obtain ⟨q, J, rfl⟩ := tooth_two hl
      have hang' := connector_angle hpath F (by linarith) hneg.le hG s'0.le s'1 (not_lt.1 hcon)
      have hle : R s' ≤ r := by
        rcases hsh s' ms' with h5 | ⟨t', t'0, h5, h6⟩
        · exact h5.1
        · rw [hang'] at h6
          have : t' = 0 := invAngle_strict.injOn t'0 (le_refl (0 : ℝ)) (by rw [invAngle_zero]; linarith)
          rw [h5, this]; simp
      have h7 : a ^ 2 + v ^ 2 ≤ r ^ 2 := by
        rw [← sq_sqrt (show (0 : ℝ) ≤ a ^ 2 + v ^ 2 by positivity), v2]
        exact pow_le_pow_left₀ (F.radius ms').le hle 2
      have h8 := meet_free hrp ha0 ha1 ha hbase hfree v0.le (by rw [← er]; exact h7)
      rw [hang', add_div, ebr, eang] at v3
      have k6 : a * tan alpha / rp = tan alpha - h * tan alpha / rp := by rw [ea]; field_simp
      rw [lift, k6] at h8
      linarith
    · have hmono := F.grows
      have hle : R s' ≤ R s := by
        rcases hshape with h5 | ⟨t', t'0, h5, h6⟩
        · linarith [h5.1]
        · have h7 : t' ≤ t := by
            by_contra hcon
            have h8 : a * rp ≤ (rp * cos alpha) ^ 2 * (1 + t ^ 2) := by
              have := mul_lt_mul_of_pos_right hcross hrp
              linarith [mul_nonneg (sq_nonneg (rp * cos alpha)) (sq_nonneg t),
                show (rp * cos alpha) ^ 2 * (1 + t ^ 2) = rp * cos alpha ^ 2 * rp + (rp * cos alpha) ^ 2 * t ^ 2 by ring]
            have := meet_falls hrp ha hbase ht0.le (not_le.1 hcon) h8
            linarith
          rw [h5, es]
          exact mul_le_mul_of_nonneg_left (sqrt_le_sqrt (by linarith [pow_le_pow_left₀ t'0.le h7 2])) hr.le
      exact (hmono.le_iff_le ms' ms).1 hle
  have hok : ∀ tc, -3 ≤ tc → tc < 0 → ∀ g,
      (findCurveIntersect boxSolvers.toSolvers (chainEval curveOps l) (cornerPath rp a b tc).eval g .equality).success = true := by
    intro tc k1 k2 g
    obtain ⟨x, x0, ex⟩ := hmeet tc k1 k2
    exact box_found g (hG s ms) ex s0 s1 x0
  have hans : ∀ tc, -3 ≤ tc → tc < 0 → ∃ q w,
      chainEval curveOps l (undercutAnswer boxSolvers.toSolvers l (cornerPath rp a b tc) (1, 1)).1 = some q ∧
      (cornerPath rp a b tc).eval (undercutAnswer boxSolvers.toSolvers l (cornerPath rp a b tc) (1, 1)).2 = some q ∧
      portion curveOps l 1 < (undercutAnswer boxSolvers.toSolvers l (cornerPath rp a b tc) (1, 1)).1 ∧
      (undercutAnswer boxSolvers.toSolvers l (cornerPath rp a b tc) (1, 1)).1 < 1 ∧
      -3 ≤ w ∧ w < 0 ∧ (cornerPath rp a b tc).s2t (undercutAnswer boxSolvers.toSolvers l (cornerPath rp a b tc) (1, 1)).2 = some w := by
    intro tc k1 k2
    obtain ⟨⟨a1, a2⟩, a3⟩ := box_mem (chainEval curveOps l) (cornerPath rp a b tc).eval (1, 1) .equality
    obtain ⟨q, q1, q2⟩ := intersect_success box_honest (hok tc k1 k2 (1, 1))
    obtain ⟨⟨w, w1, w2, w3⟩, c1, c2⟩ := hcommon tc k1 k2 _ _ q q1 q2 a1 a2 a3
    have hp : portion curveOps l 1 < (findCurveIntersect boxSolvers.toSolvers (chainEval curveOps l) (cornerPath rp a b tc).eval (1, 1)
        .equality).x.1 := by
      rcases hne.lt_or_gt with h5 | h5
      · obtain ⟨x, x0, ex⟩ := hmeet tc k1 k2
        rw [box_last (1, 1) (hG s ms) ex s0 s1 x0 fun s' u' q' g1 g2 g3 g4 g5 => (hcommon tc k1 k2 s' u' q' g1 g2 g3 g4 g5).2.2 h5]
        exact hport
      · exact c1 h5
    rw [undercutAnswer]
    simp only [hok tc k1 k2, if_true]
    rw [if_neg (not_lt.2 hp.le)]
    exact ⟨q, w, q1, q2, hp, a2, w1, w2, w3⟩
  refine ⟨hgapS, fun p hp => ?_, fun p c hp hc' => ?_, fun p c hp hc' => ?_, fun p c hp hc' => ?_⟩
  · rw [href p hp]
    exact hstop
  · obtain ⟨tc, k1, k2, rfl⟩ := hgen p c hp hc'
    obtain ⟨q, w, g1, g2, -⟩ := hans tc k1 k2
    exact ⟨q, g1, g2⟩
  · obtain ⟨tc, k1, k2, rfl⟩ := hgen p c hp hc'
    obtain ⟨q, w, -, -, g3, g4, -⟩ := hans tc k1 k2
    exact ⟨g3, g4⟩
  · obtain ⟨tc, k1, k2, rfl⟩ := hgen p c hp hc'
    obtain ⟨q, w, -, -, -, -, g5, g6, g7⟩ := hans tc k1 k2
    exact ⟨w, g5, g6, g7⟩

theorem Dip.radius_continuous {G : ℝ → V3} {a c s0 : ℝ} {R θ : ℝ → ℝ} (D : Dip G a c s0 R θ) : ContinuousOn R (Icc 0 1) := by
  have h : ContinuousOn (fun s => √(G s 0 ^ 2 + G s 1 ^ 2)) (Icc 0 1) :=
    continuous_sqrt.comp_continuousOn (((continuousOn_pi.1 D.cont 0).pow 2).add ((continuousOn_pi.1 D.cont 1).pow 2))
  refine h.congr fun s hs => ?_
  simp only
  rw [D.dist hs, sqrt_sq (D.pos s hs).le]

/-- The point of a circle at an angle between `-π` and 0. -/
theorem circ_below {R θ : ℝ} (h0 : -π < θ) (h1 : θ < 0) :
    (circ R).eval (1 + θ / (2 * π)) = some ![R * cos θ, R * sin θ, 0] ∧ 0 < 1 + θ / (2 * π) ∧ 1 + θ / (2 * π) ≤ 1 := by
  have hp := pi_pos
  have e : 2 * π * (1 + θ / (2 * π)) = θ + 2 * π := by field_simp; ring
  have hd : -1 < θ / (2 * π) := by rw [lt_div_iff₀ (by positivity)]; linarith
  have hn : θ / (2 * π) ≤ 0 := div_nonpos_of_nonpos_of_nonneg h1.le (by positivity)
  refine ⟨?_, by linarith, by linarith⟩
  rw [circ_eval, e, cos_add_two_pi, sin_add_two_pi]

/-- The searches of the trimming, with these solvers: the tip is cut on the tip circle. -/
theorem box_trim {u : Curve} {d : Chain Curve} {G : ℝ → V3} {a c s0 pitch RA : ℝ} {R θ : ℝ → ℝ}
    (hsys : SysPath undercutOps (Sum.elim Curve.AnyOk (OneActive curveOps Curve.AnyOk)) [.inl u, .inr d]) (D : Dip G a c s0 R θ)
    (hG : ∀ s ∈ Icc (0 : ℝ) 1, chainEval undercutOps [.inl u, .inr d] s = some (G s)) (hc0 : 0 < c) (hc : c < π) (hA : a < RA)
    (hA' : RA < R 1) {rA rD : Curve} (hrA : rA.eval = (circ RA).eval) (hrD : rD.eval = (circ a).eval) (htip : ∀ s ∈ Icc (0 : ℝ) 1, R s = RA → s0 < s) :
    DipSearches boxSolvers [.inl u, .inr d] rA rD 0 pitch ∧
      tipCut boxSolvers (chainEval undercutOps [.inl u, .inr d]) rA pitch ∈ Ioo s0 1 ∧
      R (tipCut boxSolvers (chainEval undercutOps [.inl u, .inr d]) rA pitch) = RA := by
  obtain ⟨f, ef⟩ : ∃ f, f = chainEval undercutOps [.inl u, .inr d] := ⟨_, rfl⟩
  rw [← ef] at hG ⊢
  have ms0 : s0 ∈ Icc (0 : ℝ) 1 := ⟨D.s0_pos.le, D.s0_lt.le⟩
  have m1 : (1 : ℝ) ∈ Icc (0 : ℝ) 1 := ⟨zero_le_one, le_refl _⟩
  have ha : 0 < a := D.deep ▸ D.pos s0 ms0
  have side : ∀ s ∈ Icc (0 : ℝ) 1, R s = RA → s0 < s ∧ s < 1 ∧ -π < θ s ∧ θ s < 0 := by
    intro s ms e
    have h0 := htip s ms e
    have h1 : s < 1 := lt_of_le_of_ne ms.2 fun h => by rw [h] at e; linarith
    exact ⟨h0, h1, by linarith [D.above s h0 h1.le], D.below s h0.le h1⟩
  have hok : ∀ g, (findCurveIntersect boxSolvers.toSolvers f rA.eval g .equality).success = true := by
    intro g
    obtain ⟨s, hs, es⟩ : RA ∈ R '' Icc s0 1 := intermediate_value_Icc D.s0_lt.le
      (D.radius_continuous.mono (Icc_subset_Icc_left D.s0_pos.le)) ⟨by rw [D.deep]; exact hA.le, hA'.le⟩
    have ms : s ∈ Icc (0 : ℝ) 1 := ⟨D.s0_pos.le.trans hs.1, hs.2⟩
    obtain ⟨w0, w1, w2, w3⟩ := side s ms es
    obtain ⟨c1, c2, c3⟩ := circ_below (R := RA) w2 w3
    exact box_found g (hG s ms) (by rw [hrA, c1, D.polar s ms, es]) (D.s0_pos.trans w0) w1 c2
  have hcut : tipCut boxSolvers f rA pitch ∈ Ioo s0 1 ∧ R (tipCut boxSolvers f rA pitch) = RA := by
    obtain ⟨⟨a1, a2⟩, -⟩ := box_mem f rA.eval (9 / 10, -pitch / 8 / rA.length) .equality
    obtain ⟨q, q1, q2⟩ := intersect_success box_honest (hok (9 / 10, -pitch / 8 / rA.length))
    obtain ⟨x, ex⟩ : ∃ x, x = (findCurveIntersect boxSolvers.toSolvers f rA.eval (9 / 10, -pitch / 8 / rA.length) .equality).x :=
      ⟨_, rfl⟩
    rw [← ex] at a1 a2 q1 q2
    have mx : x.1 ∈ Icc (0 : ℝ) 1 := ⟨a1.le, a2.le⟩
    have hR : R x.1 = RA := by
      rw [hG _ mx] at q1
      rw [hrA, circ_eval] at q2
      have e := D.dist mx
      rw [Option.some.inj q1, ← Option.some.inj q2] at e
      simp at e
      have e2 : RA ^ 2 = R x.1 ^ 2 := by
        rw [← e]
        linear_combination -RA ^ 2 * sin_sq_add_cos_sq (2 * π * x.2)
      exact ((sq_eq_sq₀ (ha.le.trans hA.le) (D.pos _ mx).le).1 e2).symm
    obtain ⟨w0, w1, w2, w3⟩ := side _ mx hR
    have e : tipCut boxSolvers f rA pitch = x.1 := by
      rw [tipCut]
      simp only [hok, if_true, true_or, true_and, ← ex]
      refine if_pos ⟨_, hG _ mx, ?_⟩
      rw [D.polar _ mx]
      exact mul_neg_of_pos_of_neg (D.pos _ mx) (sin_neg_of_neg_of_neg_pi_lt w3 w2)
    rw [e]
    exact ⟨⟨w0, w1⟩, hR⟩
  obtain ⟨⟨c1, c2⟩, c3⟩ := hcut
  have t0 := D.s0_pos.trans c1
  have key : ∀ t, trimTip (chainOps undercutOps) boxSolvers ⟨[.inl u, .inr d], true⟩ rA 0 pitch = some t → ∀ g,
      (findCurveIntersect boxSolvers.toSolvers (chainEval undercutOps t.curves) rD.eval g .equality).success = true := by
    intro t he g
    obtain ⟨l, hset, -, ⟨ψ, f1, f2, f3⟩, -⟩ := c45_sys_end nest_sys _ hsys _ t0 c2.le false
    have he' : trimTip (chainOps undercutOps) boxSolvers ⟨[.inl u, .inr d], true⟩ rA 0 pitch = some ⟨l, true⟩ := by
      rw [trimTip_cut _ _ _ _ _ (le_refl _)]
      show (chainSetEnd undercutOps [.inl u, .inr d] (tipCut boxSolvers (chainEval undercutOps [.inl u, .inr d]) rA pitch) false).map _ = _
      rw [← ef, hset]; rfl
    rw [he'] at he
    obtain rfl := Option.some.inj he
    obtain ⟨f4, f5⟩ := mono_ends f1 f2
    obtain ⟨x, mx, ex⟩ : s0 ∈ ψ '' Icc 0 1 := by rw [f2]; exact ⟨D.s0_pos.le, c1.le⟩
    have x0 : 0 < x := lt_of_le_of_ne mx.1 fun e => by rw [← e, f4] at ex; linarith [D.s0_pos]
    have x1 : x < 1 := lt_of_le_of_ne mx.2 fun e => by rw [e, f5] at ex; linarith
    obtain ⟨d1, d2, d3⟩ := circ_below (R := a) (θ := -c) (by linarith) (by linarith)
    refine box_found g (p := G s0) ?_ ?_ x0 x1 d2
    · show chainEval undercutOps l x = _
      rw [f3 x mx, ex, ← ef, hG s0 ms0]
    · rw [hrD, d1, D.polar s0 ms0, D.deep, D.start]
  exact ⟨⟨by rw [← ef]; exact t0, by rw [← ef]; exact c2.le, fun t h => key t h _, fun t h => (box_mem _ _ _ _).1.1.le,
    fun t h => (box_mem _ _ _ _).1.2⟩, ⟨c1, c2⟩, c3⟩

/-- Where a tooth with undercut meets a circle outside the place where the undercut ends. -/
theorem dip_tip {rp pia alpha pitch t2 x V RA s0 : ℝ} {limits : ToothLimitParam} (H : CornerMeets rp pia alpha pitch t2 limits)
    {R θ Q φ : ℝ → ℝ} (hsh : InvoluteShape (rp * cos alpha) (-(pia + (tan alpha - alpha))) R θ)
    (hdip : DipShape rp (rp - limits.hD) (rp * pia + limits.hD * tan alpha) V s0 R θ Q φ) (mx : x ∈ Icc (0 : ℝ) 1) (hV : 0 < V)
    (eV : √((rp - limits.hD) ^ 2 + V ^ 2) = R x)
    (eθ : arctan (V / (rp - limits.hD)) - (rp * pia + limits.hD * tan alpha + V) / rp = θ x) (hA : rp < RA)
    (hA2 : rp * cos alpha * √(1 + t2 ^ 2) ≤ RA) : ∀ s ∈ Icc (0 : ℝ) 1, Q s = RA →
      s0 < s ∧ ∃ t, 0 ≤ t ∧ RA = rp * cos alpha * √(1 + t ^ 2) ∧ φ s = invAngle t + -(pia + (tan alpha - alpha)) := by
  have hrp := H.rp_pos
  have hT := tan_pos_of_pos_of_lt_pi_div_two H.a0 H.a1
  have hr : rp * cos alpha ≤ rp := mul_le_of_le_one_right hrp.le (cos_le_one _)
  have hr0 : 0 < rp * cos alpha := mul_pos hrp (cos_pos_of_mem_Ioo ⟨by linarith [H.a0, pi_pos], H.a1⟩)
  have hb : 0 < rp * pia + limits.hD * tan alpha := add_pos (mul_pos hrp H.pia_pos) (mul_pos H.hD0 hT)
  have hRx : R x < RA := by
    rcases hsh x mx with h | ⟨t, t0, h3, h4⟩
    · linarith [h.1]
    · have hz := meet_zero hrp hV.le (by rw [eV, h3]) (by rw [eθ, h4])
      have hlt := meet_before hrp (by linarith [H.hD1]) H.base H.t2_pos H.falls H.gap hz
      rw [h3]
      refine lt_of_lt_of_le (mul_lt_mul_of_pos_left (sqrt_lt_sqrt (by positivity) ?_) hr0) hA2
      linarith [pow_lt_pow_left₀ hlt t0 two_ne_zero]
  intro s ms e
  rcases hdip s ms with ⟨y, my, h0, h3, h4⟩ | ⟨v, v0, v1, -, -, h3, -⟩
  · refine ⟨h0, ?_⟩
    rw [e] at h3
    rcases hsh y my with h | ⟨t, t0, h5, h6⟩
    · linarith [h.1]
    · exact ⟨t, t0, by rw [h3, h5], by rw [h4, h6]⟩
  · exfalso
    rw [e] at h3
    rcases le_total 0 v with hv | hv
    · have : √((rp - limits.hD) ^ 2 + v ^ 2) ≤ √((rp - limits.hD) ^ 2 + V ^ 2) :=
        sqrt_le_sqrt (by linarith [pow_le_pow_left₀ hv v1 2])
      linarith
    · have h5 : √((rp - limits.hD) ^ 2 + v ^ 2) ≤ rp := by
        rw [sqrt_le_left hrp.le]
        have h6 : v ^ 2 ≤ (rp * pia + limits.hD * tan alpha) ^ 2 := by
          rw [← neg_sq v]
          exact pow_le_pow_left₀ (by linarith) (by linarith) 2
        have := H.circle
        linarith [show (rp - limits.hD) ^ 2 = rp ^ 2 - limits.hD * (2 * rp - limits.hD) by ring]
      linarith

/-- The generator with these solvers: its searches succeed, and the tooth has its lowest point on the root circle and meets circles
beyond the undercut on the involute. -/
theorem box_dip {rp pia alpha pitch t2 : ℝ} {limits : ToothLimitParam} (H : CornerMeets rp pia alpha pitch t2 limits)
    (htan : tan alpha < 2) (h1 : pia + (tan alpha - alpha) ≤ invAngle 2) (h2 : invAngle t2 ≤ pia + (tan alpha - alpha)) :
    ToothSearches boxSolvers pia rp alpha ∧ ∃ l u d G Q φ s0 tb, involuteToothCurve boxSolvers pia rp alpha = some l ∧
      undercutToothCurve boxSolvers l (rp * cos alpha) rp pia pitch alpha limits = some [.inl u, .inr d] ∧
      UndercutSearches boxSolvers rp pia pitch alpha limits l ∧
      SysPath undercutOps (Sum.elim Curve.AnyOk (OneActive curveOps Curve.AnyOk)) [.inl u, .inr d] ∧
      Dip G (rp - limits.hD) (pia + limits.hD * tan alpha / rp) s0 Q φ ∧
      (∀ s ∈ Icc (0 : ℝ) 1, chainEval undercutOps [.inl u, .inr d] s = some (G s)) ∧
      0 < tb ∧ tb ≤ 2 ∧ invAngle tb = pia + (tan alpha - alpha) ∧ Q 1 = rp * cos alpha * √(1 + tb ^ 2) ∧
      (∀ s ∈ Icc (0 : ℝ) 1, s < 1 → -π < φ s ∧ φ s < 0) ∧
      (∀ RA, rp < RA → rp * cos alpha * √(1 + t2 ^ 2) ≤ RA → ∀ s ∈ Icc (0 : ℝ) 1, Q s = RA →
        s0 < s ∧ ∃ t, 0 ≤ t ∧ RA = rp * cos alpha * √(1 + t ^ 2) ∧ φ s = invAngle t + -(pia + (tan alpha - alpha))) := by
  have hs := box_tooth H.rp_pos H.a0 H.a1 htan H.pia_pos h1
  refine ⟨hs, ?_⟩
  have h3 := arctan_two_le
  have p4 := pi_gt_three
  have hpi : pia + (tan alpha - alpha) ≤ π / 2 := by
    have h5 := H.room
    have h6 := H.side
    rw [lt_div_iff₀ H.rp_pos] at h6
    have h7 : rp * (tan alpha - alpha) < rp * (pitch / 2 - pia) := by linarith
    have h8 := lt_of_mul_lt_mul_left h7 H.rp_pos.le
    linarith [H.pitch_le]
  obtain ⟨l, G0, R0, θ0, hl, hpath, F, hR0, hG0, ⟨tb, b0, b1, b2, b3⟩, hsh, -, -⟩ := tooth_generated box_honest H.rp_pos H.a0 H.a1 H.pia_pos
    hpi hs
  have hle : t2 ≤ tb := by
    by_contra hc
    have := invAngle_strict b0.le H.t2_pos (not_le.1 hc)
    linarith
  have hu := box_undercut H hle b1 hl hpath F hR0 hG0 b3 hsh
  obtain ⟨l', u, d, hl', hm, hsys, -, G', R', θ', G, Q, φ, s0, V, x, F', hG', hsh', D, hG, hdip, hQ1, -, -, mx, hV, eV, eθ, tb', c0, c1, c2,
    c3⟩ := undercut_generated box_honest H.rp_pos H.a0 H.a1 H.pia_pos H.hA H.hD0 H.hD1 H.base H.room H.pitch_le H.turn H.neck hs (by
      intro l' h
      rw [hl] at h
      rw [← Option.some.inj h]
      exact hu)
  rw [hl] at hl'
  obtain rfl := Option.some.inj hl'
  refine ⟨l, u, d, G, Q, φ, s0, tb', hl, hm, hu, hsys, D, hG, c0, c1, c2, by rw [hQ1, c3], fun s ms h4 => ?_, fun RA g1 g2 =>
    dip_tip H hsh' hdip mx hV eV eθ g1 g2⟩
  have hc : pia + limits.hD * tan alpha / rp < π / 2 := by
    have : limits.hD * tan alpha / rp < pitch / 2 - pia := by rw [div_lt_iff₀ H.rp_pos]; linarith [H.room]
    linarith [H.pitch_le]
  rcases lt_trichotomy s s0 with h5 | h5 | h5
  · rcases hdip s ms with ⟨y, -, h6, -⟩ | ⟨v, v0, -, -, v1, -, h7⟩
    · linarith
    · have hv := v1 h5
      have e : (rp * pia + limits.hD * tan alpha + v) / rp = pia + limits.hD * tan alpha / rp + v / rp := by
        have := H.rp_pos.ne'
        field_simp
      have g0 : 0 ≤ (rp * pia + limits.hD * tan alpha + v) / rp := div_nonneg (by linarith) H.rp_pos.le
      have g1 : v / rp ≤ 0 := div_nonpos_of_nonpos_of_nonneg hv.le H.rp_pos.le
      have g2 := neg_pi_div_two_lt_arctan (v / (rp - limits.hD))
      have g3 : arctan (v / (rp - limits.hD)) < 0 := arctan_lt_zero.2 (div_neg_of_neg_of_pos hv (by linarith [H.hD1]))
      rw [h7]
      constructor <;> linarith
  · exact ⟨by rw [h5, D.start]; linarith, D.below s h5.ge h4⟩
  · exact ⟨by linarith [D.above s h5 ms.2], D.below s h5.le h4⟩

/-- **C142, the searches succeed.** With solvers that find the last solution on the curve whenever there is one, no condition on
the searches is left: the tooth with undercut exists, it is trimmed on the tip and the root circle, and the outline is simple, whenever
the path of the corner meets the involute below the tip circle (`CornerMeets`), the tip circle lies between the pitch circle and
the pointed tip, and the lands of tip and root are wider than the tolerance of the code. -/
theorem c142_found {asEuler : M3 → ℝ × ℝ × ℝ} (hE : EulerOk asEuler) {rp pia alpha pitch t2 tA : ℝ} {limits : ToothLimitParam}
    (H : CornerMeets rp pia alpha pitch t2 limits) (htan : tan alpha < 2) (h1 : pia + (tan alpha - alpha) ≤ invAngle 2) (h2A : t2 ≤ tA)
    (htA : tan alpha < tA) (htip : invAngle tA < pia + (tan alpha - alpha)) (n : ℕ) (h2 : 2 ≤ n) (hn : n * pitch = 2 * π) {rA rD : Curve}
    (hrA : rA.eval = (circ (rp * cos alpha * √(1 + tA ^ 2))).eval) (hrD : rD.eval = (circ (rp - limits.hD)).eval)
    (hroot : 1 / 10 ^ 10 < 2 * (rp - limits.hD) * sin (pitch / 2 - (pia + limits.hD * tan alpha / rp)))
    (hland : 1 / 10 ^ 10 < 2 * (rp * cos alpha * √(1 + tA ^ 2)) * sin (pia + (tan alpha - alpha) - invAngle tA))
    (radA radD radO : ℝ) (centerO : V3) : ∃ l m P, involuteToothCurve boxSolvers pia rp alpha = some l ∧
      undercutToothCurve boxSolvers l (rp * cos alpha) rp pia pitch alpha limits = some m ∧
      trimReferenceProfile (chainOps undercutOps) asEuler boxSolvers ⟨m, true⟩ rA rD radA radD radO centerO 0 0 pitch = some P ∧
      Spec.SimpleOutline (chainEval (sumOps (chainOps undercutOps) curveOps) (P.chain (chainOps undercutOps))) pitch n := by
  have hrp := H.rp_pos
  have hc : 0 < cos alpha := cos_pos_of_mem_Ioo ⟨by linarith [H.a0, pi_pos], H.a1⟩
  have hT := tan_pos_of_pos_of_lt_pi_div_two H.a0 H.a1
  have hr0 : 0 < rp * cos alpha := mul_pos hrp hc
  have hA0 : 0 ≤ tA := by linarith
  obtain ⟨hs, l, u, d, G, Q, φ, s0, tb, hl, hm, hu, hsys, D, hG, b0, b1, b2, b3, -, htips⟩ := box_dip H htan h1
    ((invAngle_strict.monotoneOn H.t2_pos hA0 h2A).trans htip.le)
  have hc0 : 0 < pia + limits.hD * tan alpha / rp := add_pos H.pia_pos (div_pos (mul_pos H.hD0 hT) hrp)
  have hcp : pia + limits.hD * tan alpha / rp < pitch / 2 := by
    have : limits.hD * tan alpha / rp < pitch / 2 - pia := by rw [div_lt_iff₀ hrp]; linarith [H.room]
    linarith
  have hRA0 : rp < rp * cos alpha * √(1 + tA ^ 2) := by
    have e : rp = rp * cos alpha * √(1 + tan alpha ^ 2) := by
      rw [← inv_sqrt_one_add_tan_sq hc, mul_assoc, inv_mul_cancel₀ (sqrt_pos.2 (by positivity)).ne', mul_one]
    conv_lhs => rw [e]
    exact mul_lt_mul_of_pos_left (sqrt_lt_sqrt (by positivity) (by linarith [pow_lt_pow_left₀ htA hT.le two_ne_zero])) hr0
  have hRA1 : rp * cos alpha * √(1 + tA ^ 2) < Q 1 := by
    have : tA < tb := by
      by_contra hcon
      have := invAngle_strict.monotoneOn b0.le hA0 (not_lt.1 hcon)
      linarith
    rw [b3]
    exact mul_lt_mul_of_pos_left (sqrt_lt_sqrt (by positivity) (by linarith [pow_lt_pow_left₀ this hA0 two_ne_zero])) hr0
  have ht := htips _ hRA0 (mul_le_mul_of_nonneg_left (sqrt_le_sqrt (by linarith [pow_le_pow_left₀ H.t2_pos h2A 2])) hr0.le)
  obtain ⟨hds, hcut, hRA⟩ := box_trim (pitch := pitch) hsys D hG hc0 (by linarith [H.pitch_le, pi_pos]) (by linarith [H.hD0]) hRA1 hrA hrD
    fun s ms e => (ht s ms e).1
  obtain ⟨l', m', t, t', T, w1, w2, -, -, -, -, w3, w4, -, hall⟩ := c142_undercut_outline hE box_honest hrp H.a0 H.a1
    H.pia_pos H.hA H.hD0 H.hD1 H.base H.room H.turn H.neck hs (by
      intro l' h
      rw [hl] at h
      rw [← Option.some.inj h]
      exact hu) n h2 hn rA rD (by
      intro s p h
      rw [hrD, circ_eval] at h
      rw [← Option.some.inj h]
      simp
      linear_combination (rp - limits.hD) ^ 2 * sin_sq_add_cos_sq (2 * π * s)) (le_refl (0 : ℝ)) (le_refl (0 : ℝ)) (by
      intro l' m' g1 g2
      rw [hl] at g1
      obtain rfl := Option.some.inj g1
      rw [hm] at g2
      obtain rfl := Option.some.inj g2
      exact hds) radA radD radO centerO
  rw [hl] at w1
  obtain rfl := Option.some.inj w1
  rw [hm] at w2
  obtain rfl := Option.some.inj w2
  have mζ : tipCut boxSolvers (chainEval undercutOps [.inl u, .inr d]) rA pitch ∈ Icc (0 : ℝ) 1 :=
    ⟨D.s0_pos.le.trans hcut.1.le, hcut.2.le⟩
  obtain ⟨-, t3, g0, g1, g2⟩ := ht _ mζ hRA
  have g3 := tooth_involute_unique hr0 g0 hA0 g1.symm
  rw [hG _ mζ] at w4
  obtain ⟨P, hP, hsimple⟩ := hall (exactGaps_polar (R := rp - limits.hD) (θ := -(pia + limits.hD * tan alpha / rp))
    (by rw [w3, cos_neg, sin_neg, mul_neg]) (by rw [← Option.some.inj w4, D.polar _ mζ]) (Or.inr (by rw [← sub_eq_add_neg]; exact hroot))
    (Or.inr (by
      rw [hRA, g2, g3, show -(invAngle tA + -(pia + (tan alpha - alpha))) = pia + (tan alpha - alpha) - invAngle tA by ring]
      exact hland)))
  exact ⟨l, _, P, hl, hm, hP, hsimple⟩

/-! ### A gear with four teeth -/

/-- Depths of the gear of the case. -/
noncomputable def caseLimits : ToothLimitParam := ⟨1 / 10, 3 / 10, 2⟩

theorem case_neck {b : ℝ} (h0 : 69 / 100 < b) (hb : π / 4 < 79 / 100) (hb1 : b < 7 / 10) : ∀ v, 0 ≤ v → arctan (v / (7 / 10)) < (b + v) / 1 := by
  intro v hv
  have e : v / (7 / 10) = v * (10 / 7) := by field_simp
  rw [div_one]
  rcases le_total (v / (7 / 10)) 1 with h | h
  · have := arctan_below (x := v / (7 / 10)) (by positivity)
    rw [e] at h this ⊢
    linarith
  · have := arctan_line h
    rw [e] at h this ⊢
    linarith

theorem case_meets : CornerMeets 1 (π / 8) (π / 4) (π / 2) 1 caseLimits := by
  have p3 := pi_gt_d2
  have p4 := pi_lt_d2
  have hD : caseLimits.hD = 3 / 10 := rfl
  have hr2 : cos (π / 4) ^ 2 = 1 / 2 := by
    rw [cos_pi_div_four, div_pow, sq_sqrt (by norm_num)]; norm_num
  have hr : 0 < cos (π / 4) := by rw [cos_pi_div_four]; positivity
  have ha : (1 : ℝ) - 3 / 10 = 7 / 10 := by norm_num
  refine ⟨one_pos, by linarith, by linarith, by linarith, by norm_num [caseLimits], by norm_num [caseLimits], by norm_num [caseLimits],
    ?_, ?_, by linarith, ?_, ?_, ?_, zero_le_one, ?_, ?_, ?_⟩
  · rw [hD]; nlinarith
  · rw [hD, tan_pi_div_four]; linarith
  · rw [hD, tan_pi_div_four]; nlinarith
  · rw [hD, tan_pi_div_four, ha]
    exact case_neck (by linarith) (by linarith) (by linarith)
  · rw [hD, hr2]; norm_num
  · rw [hD, mul_pow, hr2]; norm_num
  · have hV : meetAt (1 * cos (π / 4)) (7 / 10) 1 ^ 2 = 51 / 100 := by
      rw [meetAt, mul_pow, hr2, sq_sqrt (by norm_num)]; norm_num
    have hV0 : 0 ≤ meetAt (1 * cos (π / 4)) (7 / 10) 1 := sqrt_nonneg _
    rw [hD, ha, meetGap, tan_pi_div_four, invAngle, arctan_one, lift]
    obtain ⟨V, eV⟩ : ∃ V, V = meetAt (1 * cos (π / 4)) (7 / 10) 1 := ⟨_, rfl⟩
    rw [← eV] at hV hV0 ⊢
    have h1 : 714 / 1000 < V := by nlinarith
    have h2 : V < 715 / 1000 := by nlinarith
    have h3 := arctan_line (y := V / (7 / 10)) (by rw [le_div_iff₀ (by norm_num)]; linarith)
    have e : V / (7 / 10) = V * (10 / 7) := by field_simp
    rw [e] at h3 ⊢
    linarith
  · rw [mul_pow, hr2]; norm_num

/-- A gear with four teeth of standard thickness: pitch circle 1, pressure angle 45°, tip circle 1.1, root circle 0.7. The corner
of the rack has its deepest point on the root circle, within the gap, and reaches the involute where it touches it. The outline is
simple. -/
theorem c142_case {asEuler : M3 → ℝ × ℝ × ℝ} (hE : EulerOk asEuler) (radA radD radO : ℝ) (centerO : V3) : ∃ l m P,
    involuteToothCurve boxSolvers (π / 8) 1 (π / 4) = some l ∧
      undercutToothCurve boxSolvers l (1 * cos (π / 4)) 1 (π / 8) (π / 2) (π / 4) caseLimits = some m ∧
      trimReferenceProfile (chainOps undercutOps) asEuler boxSolvers ⟨m, true⟩ (circ (11 / 10)) (circ (7 / 10)) radA radD radO centerO 0 0
        (π / 2) = some P ∧
      Spec.SimpleOutline (chainEval (sumOps (chainOps undercutOps) curveOps) (P.chain (chainOps undercutOps))) (π / 2) 4 := by
  have p3 := pi_gt_d2
  have p4 := pi_lt_d2
  have hD : caseLimits.hD = 3 / 10 := rfl
  have hinv : π / 8 + (tan (π / 4) - π / 4) = 1 - π / 8 := by rw [tan_pi_div_four]; ring
  have h2 := arctan_two_le
  obtain ⟨r, er⟩ : ∃ r, r = 1 * cos (π / 4) := ⟨_, rfl⟩
  have hr2 : r ^ 2 = 1 / 2 := by
    rw [er, one_mul, cos_pi_div_four, div_pow, sq_sqrt (by norm_num)]; norm_num
  have hr : 0 < r := by rw [er, one_mul, cos_pi_div_four]; positivity
  obtain ⟨tA, etA⟩ : ∃ tA, tA = √(71 / 50 : ℝ) := ⟨_, rfl⟩
  have hA2 : tA ^ 2 = 71 / 50 := by rw [etA]; exact sq_sqrt (by norm_num)
  have hA0 : 0 ≤ tA := by rw [etA]; exact sqrt_nonneg _
  have hA1 : 1 < tA := by nlinarith
  have hA3 : tA < 6 / 5 := by nlinarith
  have hRA : r * √(1 + tA ^ 2) = 11 / 10 := by
    rw [hA2, ← sqrt_sq hr.le, hr2, ← sqrt_mul (by norm_num), sqrt_eq_iff_mul_self_eq (by norm_num) (by norm_num)]
    norm_num
  have hend : invAngle tA < 6 / 5 - π / 4 := by
    have := arctan_strictMono hA1
    rw [arctan_one] at this
    rw [invAngle]; linarith
  have hpos : 0 < invAngle tA := by
    have := invAngle_strict (le_refl (0 : ℝ)) hA0 (by linarith)
    rwa [invAngle_zero] at this
  refine c142_found hE case_meets (by rw [tan_pi_div_four]; norm_num) (by rw [hinv, invAngle]; linarith) hA1.le
    (by rw [tan_pi_div_four]; exact hA1) (by rw [hinv]; linarith) 4 (by norm_num) (by push_cast; ring) (by rw [← er, hRA])
    (by rw [hD]; norm_num) ?_ ?_ radA radD radO centerO
  · rw [hD, tan_pi_div_four]
    have h5 := mul_le_sin (x := π / 2 / 2 - (π / 8 + 3 / 10 * 1 / 1)) (by linarith) (by linarith)
    have h6 : 1 / 100 ≤ 2 / π * (π / 2 / 2 - (π / 8 + 3 / 10 * 1 / 1)) := by
      rw [div_mul_eq_mul_div, le_div_iff₀ (by linarith)]
      linarith
    linarith
  · rw [← er, hRA, hinv]
    have h5 := mul_le_sin (x := 1 - π / 8 - invAngle tA) (by linarith) (by linarith)
    have h6 : 1 / 100 ≤ 2 / π * (1 - π / 8 - invAngle tA) := by
      rw [div_mul_eq_mul_div, le_div_iff₀ (by linarith)]
      linarith
    linarith

end Verif
