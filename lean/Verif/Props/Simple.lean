import Verif.Props.Radii
import Verif.Spec.Outline

/-!
# Property C139: the outline of a gear does not cross itself
-/

namespace Verif

open Real Set

/-! ### Angles -/

theorem small_multiple {p : ℝ} (hp : 0 < p) {M : ℤ} (h : |(M : ℝ) * p| < p) : M = 0 := by
  rw [abs_mul, abs_of_pos hp] at h
  have : |(M : ℝ)| < 1 := by
    by_contra hc
    have := mul_le_mul_of_nonneg_right (not_lt.1 hc) hp.le
    linarith
  have h2 : |M| < 1 := by exact_mod_cast this
  exact Int.abs_lt_one_iff.1 h2

/-- Equal points have equal distances from the axis and angles that differ by full turns. -/
theorem polar_inj {R R' a a' : ℝ} (hR : 0 < R) (hR' : 0 < R') (hx : R * cos a = R' * cos a')
    (hy : R * sin a = R' * sin a') : R = R' ∧ ∃ l : ℤ, a = a' + l * (2 * π) := by
  have e : R = R' := by
    have : R ^ 2 = R' ^ 2 := by
      have h1 := sin_sq_add_cos_sq a
      have h2 := sin_sq_add_cos_sq a'
      calc R ^ 2 = (R * cos a) ^ 2 + (R * sin a) ^ 2 := by linear_combination -R ^ 2 * h1
        _ = (R' * cos a') ^ 2 + (R' * sin a') ^ 2 := by rw [hx, hy]
        _ = R' ^ 2 := by linear_combination R' ^ 2 * h2
    exact (pow_left_inj₀ hR.le hR'.le (by norm_num)).1 this
  refine ⟨e, ?_⟩
  subst e
  have := Real.Angle.cos_sin_inj (mul_left_cancel₀ hR.ne' hx) (mul_left_cancel₀ hR.ne' hy)
  obtain ⟨k, hk⟩ := Real.Angle.angle_eq_iff_two_pi_dvd_sub.1 this
  exact ⟨k, by linarith⟩

/-! ### The closing arcs -/

/-- The arc between two points at the same distance from the axis, in terms of the polar angle. -/
theorem closingArc_polar {asEuler : M3 → ℝ × ℝ × ℝ} (hE : EulerOk asEuler) {p q y : V3} {R0 R a b z : ℝ} {c : Curve}
    (h : closingArc asEuler p q y R0 = some c) (hfar : 1 / 10 ^ 10 < norm3 (p - q)) (hR : 0 < R) (hab : a < b)
    (hpi : b - a < π) (hp : p = ![R * cos a, R * sin a, z]) (hq : q = ![R * cos b, R * sin b, z]) (s : ℝ) :
    c.eval s = some ![R * cos (a + s * (b - a)), R * sin (a + s * (b - a)), z] := by
  rw [closingArc, if_pos hfar, midOnAxis_eq (by rw [hp, hq]; rfl)] at h
  have hpz : p 2 = z := by rw [hp]; rfl
  rw [hpz] at h
  have e1 : p - ![0, 0, z] = ![R * cos a, R * sin a, 0] := by rw [hp]; apply V3.ext3 <;> simp
  have e2 : q - ![0, 0, z] = ![R * cos b, R * sin b, 0] := by rw [hq]; apply V3.ext3 <;> simp
  have hs : 0 < sin (b - a) := sin_pos_of_pos_of_lt_pi (by linarith) hpi
  have hcr : cross (p - ![0, 0, z]) (q - ![0, 0, z]) = (R ^ 2 * sin (b - a)) • OUT := by
    rw [e1, e2, sin_sub]
    apply V3.ext3 <;> simp [OUT]
    ring
  have hpos : 0 < R ^ 2 * sin (b - a) := by positivity
  obtain ⟨c', h1, -, -, h4, -, n, θ, -, hn, t0, t1, h6⟩ := c49_two_points hE p q ![0, 0, z] 0 true (by
    rw [e1, e2]
    refine norm3_eq_of_dot (norm3_nonneg _) ?_
    rw [norm3_sq]
    simp [dot]
    linear_combination R ^ 2 * (sin_sq_add_cos_sq a - sin_sq_add_cos_sq b)) (by
    rw [hcr]
    intro e
    have := congrFun e 2
    simp [OUT] at this
    rcases this with h | h
    · exact hR.ne' h
    · exact hs.ne' h)
  rw [h] at h1
  cases Option.some.inj h1
  have hn' : n = OUT := by
    rw [hcr, norm3_smul, norm3_OUT, mul_one, abs_of_pos hpos] at hn
    exact smul_right_injective _ hpos.ne' hn
  have hev : ∀ s, c.eval s = some ![R * cos (a + θ * s), R * sin (a + θ * s), z] := by
    intro s
    rw [h6 s, hn', rodrigues_OUT, e1, Rz_app]
    congr 1
    simp only [Int.cast_zero, zero_mul, add_zero, cos_add, sin_add]
    apply V3.ext3 <;> simp <;> ring
  have hθ : θ = b - a := by
    have := hev 1
    rw [h4, hq] at this
    have g := Option.some.inj this
    have g0 := congrFun g 0
    have g1 := congrFun g 1
    simp only [Matrix.cons_val_zero, Matrix.cons_val_one, mul_one] at g0 g1
    obtain ⟨-, l, hl⟩ := polar_inj hR hR g0 g1
    have hp2 := two_pi_pos
    have : l = 0 := by
      apply small_multiple hp2
      rw [abs_lt]
      constructor <;> linarith [pi_pos]
    rw [this] at hl
    push_cast at hl
    linarith
  rw [hev s, hθ, mul_comm s]

/-! ### Places on the profile -/

section
variable {α : Type} {o : CurveOps α} {asEuler : M3 → ℝ × ℝ × ℝ} {tooth : α} {T : ℝ → V3} {pitch r θ : ℝ}

/-- Polar angle of the points of the flank. -/
noncomputable def flankAngle (T : ℝ → V3) (s : ℝ) : ℝ := arctan2 (T s 1) (T s 0)

theorem flank_polar (T : ℝ → V3) (s : ℝ) : T s 0 = axisDist (T s) * cos (flankAngle T s) ∧
    T s 1 = axisDist (T s) * sin (flankAngle T s) :=
  ⟨(polar_cos _ _).symm, (polar_sin _ _).symm⟩

/-- A place on the profile: distance `R` from the axis, polar angle `a` and path length `x` from the start. It is on the
root circle, on the tip circle, or inside a flank. -/
inductive Place (T : ℝ → V3) (pitch θ d0 d1 kd ka : ℝ) (X : Bool → ℝ → ℝ) : ℝ → ℝ → ℝ → Prop
  | root (a : ℝ) (h0 : -θ - pitch ≤ a) (h1 : a ≤ θ) :
    Place T pitch θ d0 d1 kd ka X (axisDist (T 0)) a (d0 + kd * (a - θ))
  | tip (a : ℝ) (h0 : flankAngle T 1 ≤ a) (h1 : a ≤ -flankAngle T 1) :
    Place T pitch θ d0 d1 kd ka X (axisDist (T 1)) a (d1 + ka * (a - flankAngle T 1))
  | left (u : ℝ) (h0 : 0 < u) (h1 : u < 1) :
    Place T pitch θ d0 d1 kd ka X (axisDist (T u)) (flankAngle T u) (X false u)
  | right (u : ℝ) (h0 : 0 < u) (h1 : u < 1) :
    Place T pitch θ d0 d1 kd ka X (axisDist (T u)) (-flankAngle T u) (X true u)

/-- Places at the same distance whose angles differ by a multiple of the pitch are the same. -/
theorem Place.unique (hf : Spec.OutwardFlank T pitch) (hp : 0 < pitch) (hθ : θ < 0) {d0 d1 kd ka : ℝ} {X : Bool → ℝ → ℝ}
    {R a x R' a' x' : ℝ} (h : Place T pitch θ d0 d1 kd ka X R a x) (h' : Place T pitch θ d0 d1 kd ka X R' a' x')
    (hR : R = R') (M : ℤ) (hM : a - a' = M * pitch) : M = 0 ∧ x = x' := by
  have mono : ∀ u v, 0 ≤ u → u < v → v ≤ 1 → axisDist (T u) < axisDist (T v) := fun u v h0 h1 h2 =>
    sqrt_lt_sqrt (by positivity) (hf.grows ⟨h0, by linarith⟩ ⟨by linarith, h2⟩ h1)
  have inj : ∀ u v, 0 ≤ u → u ≤ 1 → 0 ≤ v → v ≤ 1 → axisDist (T u) = axisDist (T v) → u = v := by
    intro u v u0 u1 v0 v1 e
    rcases lt_trichotomy u v with h | h | h
    · have := mono u v u0 h v1; linarith
    · exact h
    · have := mono v u v0 h u1; linarith
  have g1 := hf.gap 1 zero_lt_one le_rfl
  have t1 := hf.tip
  change -(pitch / 2) < flankAngle T 1 at g1
  change flankAngle T 1 ≤ 0 at t1
  have near : ∀ {M : ℤ} {d : ℝ}, d = M * pitch → |d| < pitch → M = 0 := by
    intro M d e hd
    rw [e] at hd
    exact small_multiple hp hd
  have side : ∀ u, 0 < u → u < 1 → -(pitch / 2) < flankAngle T u ∧ flankAngle T u < 0 := fun u h0 h1 =>
    ⟨hf.gap u h0 h1.le, hf.tooth u h0.le h1⟩
  cases h <;> cases h'
  · have m : M = 0 := near hM (by rw [abs_lt]; constructor <;> linarith)
    rw [m, Int.cast_zero, zero_mul] at hM
    exact ⟨m, by rw [sub_eq_zero.1 hM]⟩
  · have := inj 0 1 le_rfl zero_le_one zero_le_one le_rfl hR; linarith
  · rename_i v v0 v1; have := inj 0 v le_rfl zero_le_one v0.le v1.le hR; linarith
  · rename_i v v0 v1; have := inj 0 v le_rfl zero_le_one v0.le v1.le hR; linarith
  · have := inj 1 0 zero_le_one le_rfl le_rfl zero_le_one hR; linarith
  · have m : M = 0 := near hM (by rw [abs_lt]; constructor <;> linarith)
    rw [m, Int.cast_zero, zero_mul] at hM
    exact ⟨m, by rw [sub_eq_zero.1 hM]⟩
  · rename_i v v0 v1; have := inj 1 v zero_le_one le_rfl v0.le v1.le hR; linarith
  · rename_i v v0 v1; have := inj 1 v zero_le_one le_rfl v0.le v1.le hR; linarith
  · rename_i v v0 v1 _ _; have := inj v 0 v0.le v1.le le_rfl zero_le_one hR; linarith
  · rename_i v v0 v1 _ _; have := inj v 1 v0.le v1.le zero_le_one le_rfl hR; linarith
  · rename_i u u0 u1 v v0 v1
    have e := inj u v u0.le u1.le v0.le v1.le hR
    subst e
    rw [sub_self] at hM
    exact ⟨near hM (by rw [abs_zero]; exact hp), rfl⟩
  · rename_i u u0 u1 v v0 v1
    have e := inj u v u0.le u1.le v0.le v1.le hR
    subst e
    obtain ⟨s1, s2⟩ := side u u0 u1
    have m := near hM (by rw [abs_lt]; constructor <;> linarith)
    rw [m, Int.cast_zero, zero_mul] at hM
    linarith
  · rename_i v v0 v1 _ _; have := inj v 0 v0.le v1.le le_rfl zero_le_one hR; linarith
  · rename_i v v0 v1 _ _; have := inj v 1 v0.le v1.le zero_le_one le_rfl hR; linarith
  · rename_i u u0 u1 v v0 v1
    have e := inj u v u0.le u1.le v0.le v1.le hR
    subst e
    obtain ⟨s1, s2⟩ := side u u0 u1
    have m := near hM (by rw [abs_lt]; constructor <;> linarith)
    rw [m, Int.cast_zero, zero_mul] at hM
    linarith
  · rename_i u u0 u1 v v0 v1
    have e := inj u v u0.le u1.le v0.le v1.le hR
    subst e
    rw [sub_self] at hM
    exact ⟨near hM (by rw [abs_zero]; exact hp), rfl⟩

theorem flankAngle_zero (h : ToothOk o tooth T pitch r θ) : flankAngle T 0 = θ := by
  rw [flankAngle, h.rootX, h.rootY]
  exact arctan2_polar h.rootPos (by linarith [h.angleGe, h.pitchLe, h.pitchPos, pi_pos]) (by linarith [h.angleLt, pi_pos])

theorem axisDist_root (h : ToothOk o tooth T pitch r θ) : axisDist (T 0) = r := by
  rw [axisDist, h.rootX, h.rootY, show (r * cos θ) ^ 2 + (r * sin θ) ^ 2 = r ^ 2 by
    linear_combination r ^ 2 * sin_sq_add_cos_sq θ, sqrt_sq h.rootPos.le]

/-- Every point of the profile before its end is at a place. -/
theorem profile_place (hE : EulerOk asEuler) (h : ToothOk o tooth T pitch r θ) (hf : Spec.OutwardFlank T pitch)
    {P : RefProfile α} (f : ProfileFacts o tooth T pitch P) {rA rD : ℝ}
    (ha : closingArc asEuler (T 1) (flipY (T 1)) (T 1) rA = some P.ra)
    (hd : closingArc asEuler (rootStart T pitch) (T 0) (T 0) rD = some P.rd) :
    ∃ (d0 d1 kd ka L : ℝ) (X : Bool → ℝ → ℝ), 0 < L ∧ ∀ s, 0 ≤ s → s < 1 → ∃ R a z, 0 < R ∧
      chainEval (sumOps o curveOps) (P.chain o) s = some ![R * cos a, R * sin a, z] ∧
      Place T pitch θ d0 d1 kd ka X R a (s * L) := by
  obtain ⟨u, u1, u2, u3, u4⟩ := f.mirrorRun
  have g1 := hf.gap 1 zero_lt_one le_rfl
  have t1 := hf.tip
  change -(pitch / 2) < flankAngle T 1 at g1
  change flankAngle T 1 ≤ 0 at t1
  have hθ0 := flankAngle_zero h
  have hr0 := axisDist_root h
  have hp := h.pitchPos
  have hge := h.angleGe
  have hlt := h.angleLt
  have hpl := h.pitchLe
  have pos : ∀ w, 0 ≤ w → w ≤ 1 → 0 < axisDist (T w) := by
    intro w w0 w1
    have : axisDist (T 0) ≤ axisDist (T w) :=
      sqrt_le_sqrt (hf.grows.monotoneOn ⟨le_rfl, zero_le_one⟩ ⟨w0, w1⟩ w0)
    rw [hr0] at this
    linarith [h.rootPos]
  have polar : ∀ w, T w = ![axisDist (T w) * cos (flankAngle T w), axisDist (T w) * sin (flankAngle T w), T w 2] := by
    intro w
    apply V3.ext3
    · exact (flank_polar T w).1
    · exact (flank_polar T w).2
    · rfl
  have polar' : ∀ w, flipY (T w) =
      ![axisDist (T w) * cos (-flankAngle T w), axisDist (T w) * sin (-flankAngle T w), T w 2] := by
    intro w
    rw [flipY, cos_neg, sin_neg, mul_neg, ← (flank_polar T w).1, ← (flank_polar T w).2]
  obtain ⟨O, hO⟩ : ∃ O, O = sumOps o curveOps := ⟨_, rfl⟩
  obtain ⟨ld, hld⟩ : ∃ x, x = O.len (.inr P.rd) := ⟨_, rfl⟩
  obtain ⟨lt, hlt'⟩ : ∃ x, x = O.len (.inl tooth) := ⟨_, rfl⟩
  obtain ⟨la, hla⟩ : ∃ x, x = O.len (.inr P.ra) := ⟨_, rfl⟩
  obtain ⟨lm, hlm⟩ : ∃ x, x = O.len (.inr P.mirror) := ⟨_, rfl⟩
  have hall := f.allPos h
  have hL : 0 < chainLen (sumOps o curveOps) (P.chain o) := by
    rw [f.chain_eq] at hall ⊢
    exact chainLen_pos (x := [Sum.inr P.rd]) (a := .inl tooth) (y := [.inr P.ra, .inr P.mirror]) hall h.active
  have hsum : ((P.chain o).map O.len).sum = ld + lt + la + lm := by
    rw [f.chain_eq]
    simp only [List.map_cons, List.map_nil, List.sum_cons, List.sum_nil, ← hld, ← hlt', ← hla, ← hlm]
    ring
  have hLs : 0 < ld + lt + la + lm := by
    rw [← hsum, hO]
    exact hL
  have hlm0 : 0 < lm := by
    rw [hlm, hO, len_of_active (show (sumOps o curveOps).active (.inr P.mirror) = true from f.mirrorActive)]
    exact f.mirrorLen
  have hla0 : P.ra.active = false → la = 0 := by
    intro hi
    rw [hla, hO, CurveOps.len]
    simp [sumOps, curveOps, hi]
  refine ⟨ld, ld + lt, if P.rd.active then ld / (2 * θ + pitch) else 0,
    if P.ra.active then la / (-2 * flankAngle T 1) else 0, ld + lt + la + lm,
    fun b w => if b then ld + lt + la + Function.invFunOn u (Icc 0 1) w * lm else ld + w * lt, hLs, ?_⟩
  intro s h0 h1
  obtain ⟨k, σ, m, e, hk, hact, s0, s1, hx, -⟩ := c43_lookup _ hall.nonNeg hL s h0 h1.le
  have hev : chainEval (sumOps o curveOps) (P.chain o) s = (sumOps o curveOps).eval m σ := by
    rw [chainEval, e]
    simp [hk]
  rw [hev]
  rw [← hO] at hx
  rw [hsum] at hx
  rw [f.chain_eq] at hx hk
  rcases k with _ | _ | _ | _ | k
  · -- the root arc
    simp only [List.getElem?_cons_zero, Option.some.injEq] at hk
    subst hk
    simp only [List.take_zero, List.map_nil, List.sum_nil, zero_add, ← hld] at hx
    rcases f.rd with ⟨hg, -⟩ | ⟨-, hi⟩
    swap
    · change P.rd.active = true at hact; rw [hi] at hact; cases hact
    change P.rd.active = true at hact
    have hw : 0 < 2 * θ + pitch := by
      by_contra hc
      have : -θ - pitch = θ := by linarith
      have : rootStart T pitch - T 0 = 0 := by
        rw [rootStart_polar h, this]
        apply V3.ext3 <;> simp [h.rootX, h.rootY]
      rw [this, norm3_eq_zero.2 rfl] at hg
      norm_num at hg
    have := closingArc_polar hE hd hg h.rootPos (a := -θ - pitch) (b := θ) (z := T 0 2) (by linarith) (by linarith)
      (rootStart_polar h) (by
        apply V3.ext3
        · exact h.rootX
        · exact h.rootY
        · rfl) σ
    refine ⟨r, _, _, h.rootPos, this, ?_⟩
    have pl := Place.root (T := T) (d0 := ld) (d1 := ld + lt) (kd := if P.rd.active then ld / (2 * θ + pitch) else 0)
      (ka := if P.ra.active then la / (-2 * flankAngle T 1) else 0)
      (X := fun b w => if b then ld + lt + la + Function.invFunOn u (Icc 0 1) w * lm else ld + w * lt)
      (pitch := pitch) (θ := θ) (-θ - pitch + σ * (θ - (-θ - pitch))) (by nlinarith) (by nlinarith)
    rw [hr0, if_pos hact] at pl
    rw [if_pos hact, ← hx]
    convert pl using 1
    field_simp
    ring
  · -- the flank
    simp only [zero_add, List.getElem?_cons_succ, List.getElem?_cons_zero, Option.some.injEq] at hk
    subst hk
    simp only [zero_add, List.take_succ_cons, List.take_zero, List.map_cons, List.map_nil, List.sum_cons, List.sum_nil,
      add_zero, ← hld, ← hlt'] at hx
    refine ⟨axisDist (T σ), flankAngle T σ, T σ 2, pos σ s0 s1, (h.eval σ s0 s1).trans (congrArg some (polar σ)), ?_⟩
    rw [← hx]
    rcases s0.eq_or_lt with rfl | s0'
    · have pl := Place.root (T := T) (d0 := ld) (d1 := ld + lt) (kd := if P.rd.active then ld / (2 * θ + pitch) else 0)
        (ka := if P.ra.active then la / (-2 * flankAngle T 1) else 0)
        (X := fun b w => if b then ld + lt + la + Function.invFunOn u (Icc 0 1) w * lm else ld + w * lt)
        (pitch := pitch) (θ := θ) θ (by linarith) le_rfl
      rw [hθ0]
      convert pl using 1
      ring
    rcases s1.eq_or_lt with rfl | s1'
    · have pl := Place.tip (T := T) (d0 := ld) (d1 := ld + lt) (kd := if P.rd.active then ld / (2 * θ + pitch) else 0)
        (ka := if P.ra.active then la / (-2 * flankAngle T 1) else 0)
        (X := fun b w => if b then ld + lt + la + Function.invFunOn u (Icc 0 1) w * lm else ld + w * lt)
        (pitch := pitch) (θ := θ) (flankAngle T 1) le_rfl (by linarith)
      convert pl using 1
      ring
    · exact Place.left (X := fun b w => if b then ld + lt + la + Function.invFunOn u (Icc 0 1) w * lm else ld + w * lt)
        σ s0' s1'
  · -- the tip arc
    simp only [zero_add, List.getElem?_cons_succ, List.getElem?_cons_zero, Option.some.injEq] at hk
    subst hk
    simp only [zero_add, List.take_succ_cons, List.take_zero, List.map_cons, List.map_nil, List.sum_cons, List.sum_nil,
      add_zero, ← hld, ← hlt', ← hla] at hx
    rcases f.ra with ⟨hg, -⟩ | ⟨-, hi⟩
    swap
    · change P.ra.active = true at hact; rw [hi] at hact; cases hact
    change P.ra.active = true at hact
    have hw : flankAngle T 1 < 0 := by
      refine lt_of_le_of_ne t1 fun e => ?_
      have : T 1 - flipY (T 1) = 0 := by
        rw [polar', e, neg_zero, ← e, ← polar, sub_self]
      rw [this, norm3_eq_zero.2 rfl] at hg
      norm_num at hg
    have := closingArc_polar hE ha hg (pos 1 zero_le_one le_rfl) (a := flankAngle T 1) (b := -flankAngle T 1)
      (z := T 1 2) (by linarith) (by linarith) (polar 1) (polar' 1) σ
    refine ⟨_, _, _, pos 1 zero_le_one le_rfl, this, ?_⟩
    have pl := Place.tip (T := T) (d0 := ld) (d1 := ld + lt) (kd := if P.rd.active then ld / (2 * θ + pitch) else 0)
      (ka := if P.ra.active then la / (-2 * flankAngle T 1) else 0)
      (X := fun b w => if b then ld + lt + la + Function.invFunOn u (Icc 0 1) w * lm else ld + w * lt)
      (pitch := pitch) (θ := θ) (flankAngle T 1 + σ * (-flankAngle T 1 - flankAngle T 1)) (by nlinarith) (by nlinarith)
    rw [if_pos hact] at pl
    rw [if_pos hact, ← hx]
    convert pl using 1
    have := hw.ne
    field_simp
    ring
  · -- the mirrored flank
    simp only [zero_add, List.getElem?_cons_succ, List.getElem?_cons_zero, Option.some.injEq] at hk
    subst hk
    simp only [zero_add, List.take_succ_cons, List.take_zero, List.map_cons, List.map_nil, List.sum_cons, List.sum_nil,
      add_zero, ← hld, ← hlt', ← hla, ← hlm] at hx
    obtain ⟨w0, w1, w2⟩ := u4 σ s0 s1
    refine ⟨axisDist (T (u σ)), -flankAngle T (u σ), T (u σ) 2, pos _ w0 w1, w2.trans (congrArg some (polar' _)), ?_⟩
    have hσ : σ < 1 := by
      refine lt_of_le_of_ne s1 fun e => ?_
      rw [e] at hx
      nlinarith
    rw [← hx]
    rcases s0.eq_or_lt with rfl | s0'
    · rw [u2]
      have pl := Place.tip (T := T) (d0 := ld) (d1 := ld + lt) (kd := if P.rd.active then ld / (2 * θ + pitch) else 0)
        (ka := if P.ra.active then la / (-2 * flankAngle T 1) else 0)
        (X := fun b w => if b then ld + lt + la + Function.invFunOn u (Icc 0 1) w * lm else ld + w * lt)
        (pitch := pitch) (θ := θ) (-flankAngle T 1) (by linarith) le_rfl
      convert pl using 1
      rcases hra : P.ra.active with _ | _
      · rw [hla0 hra]; simp
      · rcases f.ra with ⟨hg, -⟩ | ⟨-, hi⟩
        · have hw : flankAngle T 1 ≠ 0 := by
            intro e
            have : T 1 - flipY (T 1) = 0 := by
              rw [polar', e, neg_zero, ← e, ← polar, sub_self]
            rw [this, norm3_eq_zero.2 rfl] at hg
            norm_num at hg
          rw [if_pos rfl]
          field_simp
          ring
        · rw [hra] at hi; cases hi
    · have i0 : u σ ≠ 0 := fun e => hσ.ne (u1 ⟨s0, s1⟩ ⟨zero_le_one, le_rfl⟩ (e.trans u3.symm))
      have i1 : u σ ≠ 1 := fun e => s0'.ne' (u1 ⟨s0, s1⟩ ⟨le_rfl, zero_le_one⟩ (e.trans u2.symm))
      have pl := Place.right (T := T) (d0 := ld) (d1 := ld + lt) (kd := if P.rd.active then ld / (2 * θ + pitch) else 0)
        (ka := if P.ra.active then la / (-2 * flankAngle T 1) else 0)
        (X := fun b w => if b then ld + lt + la + Function.invFunOn u (Icc 0 1) w * lm else ld + w * lt)
        (pitch := pitch) (θ := θ) (u σ) (lt_of_le_of_ne w0 i0.symm) (lt_of_le_of_ne w1 i1)
      convert pl using 1
      have := u1.leftInvOn_invFunOn (x := σ) ⟨s0, s1⟩
      rw [if_pos rfl, this]
      ring
  · simp at hk

/-- The same for teeth as the closing of the profile needs them. -/
theorem outline_simple (hE : EulerOk asEuler) (h : ToothOk o tooth T pitch r θ) (hf : Spec.OutwardFlank T pitch) (n : ℕ)
    (hn : n * pitch = 2 * π) (hx : ExactGaps T pitch) (rA rD rO : ℝ) (centerO : V3) :
    ∃ P, closeProfile o asEuler tooth rA rD rO centerO pitch = some P ∧
      Spec.SimpleOutline (chainEval (sumOps o curveOps) (P.chain o)) pitch n := by
  obtain ⟨P, hP, f, -, -, -, -, -, ha, hd⟩ := close_facts hE h rA rD rO centerO
  obtain ⟨P', a, b, q1, q2, q3, q4, -, -, q7, q8⟩ := c55_profile hE h hx rA rD rO centerO
  rw [hP] at q1
  cases Option.some.inj q1
  obtain ⟨d0, d1, kd, ka, L, X, hL, hpl⟩ := profile_place hE h hf f ha hd
  refine ⟨P, hP, q2, ⟨a, b, q3, q4, q7, q8 n hn⟩, ?_⟩
  intro j k hj hk s t s0 s1 t0 t1 p q hp hq e
  obtain ⟨R, α', z, R0, e1, p1⟩ := hpl s s0 s1
  obtain ⟨R', β, z', R0', e2, p2⟩ := hpl t t0 t1
  rw [hp] at e1
  rw [hq] at e2
  rw [Option.some.inj e1, Option.some.inj e2, Rz_app, Rz_app] at e
  have c0 := congrFun e 0
  have c1 := congrFun e 1
  simp only [Matrix.cons_val_zero, Matrix.cons_val_one] at c0 c1
  obtain ⟨eR, l, hl⟩ := polar_inj (a := α' + j * pitch) (a' := β + k * pitch) R0 R0'
    (by rw [cos_add, cos_add]; linarith) (by rw [sin_add, sin_add]; linarith)
  obtain ⟨m1, m2⟩ := p1.unique hf h.pitchPos h.angleLt p2 eR (k - j + l * n) (by
    push_cast
    rw [← hn] at hl
    linear_combination hl)
  have hl0 : l = 0 := by
    by_contra hne
    rcases lt_or_gt_of_ne hne with hneg | hpos
    · have : l * (n : ℤ) ≤ -1 * n := mul_le_mul_of_nonneg_right (by omega) (by omega)
      omega
    · have : 1 * (n : ℤ) ≤ l * n := mul_le_mul_of_nonneg_right (by omega) (by omega)
      omega
  rw [hl0] at m1
  refine ⟨by omega, mul_right_cancel₀ hL.ne' m2⟩

/-- A flank that runs outwards is as the closing of the profile needs it. -/
theorem outward_tooth (hact : o.active tooth = true) (hfix : o.updateLengths tooth = tooth) (hlen : 0 < o.length tooth)
    (hev : ∀ s, 0 ≤ s → s ≤ 1 → o.eval tooth s = some (T s)) (hc : ContinuousOn T (Icc 0 1))
    (hf : Spec.OutwardFlank T pitch) (hp : 0 < pitch) (hpi : pitch ≤ π) :
    ToothOk o tooth T pitch (axisDist (T 0)) (flankAngle T 0) := by
  have m0 : (0 : ℝ) ∈ Icc (0 : ℝ) 1 := ⟨le_refl _, zero_le_one⟩
  have m1 : (1 : ℝ) ∈ Icc (0 : ℝ) 1 := ⟨zero_le_one, le_refl _⟩
  refine ⟨hact, hfix, hlen, hev, hc, ?_, hp, hpi, ?_, (flank_polar T 0).1, (flank_polar T 0).2, hf.root,
    hf.tooth 0 (le_refl _) zero_lt_one, ?_⟩
  · intro i hi e
    have l1 : linspace 0 1 20 i = i / 20 := by simp [linspace]
    have l2 : linspace 0 1 20 (i + 1) = (i + 1 : ℕ) / 20 := by simp [linspace]
    have hi' : (i : ℝ) + 1 ≤ 20 := by exact_mod_cast hi
    have i0 : (0 : ℝ) ≤ i := Nat.cast_nonneg i
    rw [l1, l2] at e
    have := hf.grows (a := (i : ℝ) / 20) (b := ((i + 1 : ℕ) : ℝ) / 20) ⟨by positivity, by linarith⟩
      ⟨by positivity, by push_cast; linarith⟩ (by push_cast; linarith)
    simp only [e] at this
    exact lt_irrefl _ this
  · exact sqrt_pos.2 hf.off
  · have h1 : 0 < axisDist (T 1) := sqrt_pos.2 (hf.off.trans (hf.grows m0 m1 zero_lt_one))
    rw [(flank_polar T 1).1]
    refine mul_pos h1 (cos_pos_of_mem_Ioo ⟨?_, ?_⟩)
    · have := hf.gap 1 zero_lt_one (le_refl _)
      rw [flankAngle]; linarith
    · have := hf.tip
      rw [flankAngle]; linarith [pi_pos]

/-- **C139.** If the flank of the tooth is a continuous curve that runs outwards between the middle of the gap and the
middle of the tooth, then the profiles of the `n` teeth form a closed outline that does not cross or touch itself. The gaps
at the root and at the tip are wider than 1e-10 or zero. -/
theorem c139_simple (hE : EulerOk asEuler) (hact : o.active tooth = true) (hfix : o.updateLengths tooth = tooth)
    (hlen : 0 < o.length tooth) (hev : ∀ s, 0 ≤ s → s ≤ 1 → o.eval tooth s = some (T s)) (hc : ContinuousOn T (Icc 0 1))
    (hf : Spec.OutwardFlank T pitch) (n : ℕ) (h2 : 2 ≤ n) (hn : n * pitch = 2 * π) (hx : ExactGaps T pitch)
    (rA rD rO : ℝ) (centerO : V3) :
    ∃ P, closeProfile o asEuler tooth rA rD rO centerO pitch = some P ∧
      Spec.SimpleOutline (chainEval (sumOps o curveOps) (P.chain o)) pitch n := by
  have hn2 : (2 : ℝ) ≤ n := by exact_mod_cast h2
  have hp : 0 < pitch := by
    by_contra hneg
    have := mul_nonpos_of_nonneg_of_nonpos (by linarith : (0 : ℝ) ≤ n) (not_lt.1 hneg)
    linarith [pi_pos]
  have hpi : pitch ≤ π := by nlinarith
  exact outline_simple hE (outward_tooth hact hfix hlen hev hc hf hp hpi) hf n hn hx rA rD rO centerO

end

end Verif
