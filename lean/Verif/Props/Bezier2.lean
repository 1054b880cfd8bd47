import Verif.Props.Bezier1
import Verif.Base.Angle

/-! # Properties C08–C10: surfaces, circular arcs, quadratic interpolation -/

namespace Verif

section
variable {E : Type*} [AddCommGroup E] [Module ℝ E]

theorem spec_bezier_ofFn {n : ℕ} (f : Fin n → E) (t : ℝ) :
    Spec.bezierCurve (List.ofFn f) t = ∑ k : Fin n, Spec.bern (n - 1) k t • f k := by
  rw [Spec.bezierCurve, ← Equiv.sum_comp (finCongr (List.length_ofFn (f := f)).symm)]
  refine Finset.sum_congr rfl fun k _ => ?_
  simp

theorem mapM_id_some {X : Type*} (l : List X) : (l.map some).mapM id = some l := by
  induction l with
  | nil => rfl
  | cons a l ih => simp [ih]

theorem zipWith_ofFn {A B C : Type*} {n : ℕ} (g : A → B → C) (a : Fin n → A) (b : Fin n → B) :
    List.zipWith g (List.ofFn a) (List.ofFn b) = List.ofFn fun i => g (a i) (b i) := by
  apply List.ext_getElem <;> simp

theorem weighted_ofFn {n : ℕ} (p : Fin n → E) (w : Fin n → ℝ) :
    weighted (List.ofFn p) (List.ofFn w) = List.ofFn fun i => w i • p i := zipWith_ofFn ..

theorem nurbezier_ofFn {n : ℕ} (hn : 0 < n) (p : Fin n → E) (w : Fin n → ℝ) (t : ℝ)
    (hw : ∑ k : Fin n, Spec.bern (n - 1) k t * w k ≠ 0) :
    nurbezier t (List.ofFn p) (List.ofFn w) =
      some ((∑ k : Fin n, Spec.bern (n - 1) k t * w k)⁻¹ •
        ∑ k : Fin n, (Spec.bern (n - 1) k t * w k) • p k) := by
  have hne : ∀ {X : Type _} (f : Fin n → X), List.ofFn f ≠ [] := by
    intro X f e; have := congrArg List.length e; simp at this; omega
  have hne' : (List.ofFn w) ≠ [] := by
    intro e; have := congrArg List.length e; simp at this; omega
  rw [nurbezier, if_pos (by simp), weighted_ofFn, (c01_evaluators_correct t _ (hne _)).1,
    (c01_evaluators_correct t _ hne').1, spec_bezier_ofFn, spec_bezier_ofFn]
  simp only [smul_eq_mul]
  rw [if_neg hw]
  simp only [mul_smul]

theorem bezierCoeff_eq (t : ℝ) (n : ℕ) :
    bezierCoeff t n = List.ofFn fun k : Fin n => Spec.bern (n - 1) k t := by
  apply List.ext_getElem
  · simp [bezierCoeff]
  · intro i h1 h2; simp [bezierCoeff, bern_eq]

/-- **C08.** Both surface evaluators return the rational tensor product surface, hence agree,
wherever no row weight and no total weight vanishes. -/
theorem c08_surfaces_agree {n m : ℕ} (hn : 0 < n) (hm : 0 < m) (w : Fin n → Fin m → ℝ)
    (p : Fin n → Fin m → E) (u v : ℝ)
    (hrow : ∀ i, ∑ j : Fin m, Spec.bern (m - 1) j v * w i j ≠ 0)
    (htot : ∑ i : Fin n, ∑ j : Fin m, Spec.bern (n - 1) i u * Spec.bern (m - 1) j v * w i j ≠ 0) :
    nurbezierSurface u v (List.ofFn fun i => List.ofFn (p i)) (List.ofFn fun i => List.ofFn (w i))
        = some (Spec.rationalSurface n m w p u v) ∧
      nurbezierSurface2 u v (List.ofFn fun i => List.ofFn (p i)) (List.ofFn fun i => List.ofFn (w i))
        = some (Spec.rationalSurface n m w p u v) := by
  have etot : ∑ i : Fin n, Spec.bern (n - 1) i u * ∑ j : Fin m, Spec.bern (m - 1) j v * w i j =
      ∑ i : Fin n, ∑ j : Fin m, Spec.bern (n - 1) i u * Spec.bern (m - 1) j v * w i j := by
    refine Finset.sum_congr rfl fun i _ => ?_
    rw [Finset.mul_sum]
    exact Finset.sum_congr rfl fun j _ => by ring
  constructor
  · rw [nurbezierSurface, zipWith_ofFn]
    have : (List.ofFn fun i => nurbezier v (List.ofFn (p i)) (List.ofFn (w i))) =
        (List.ofFn fun i => (∑ j : Fin m, Spec.bern (m - 1) j v * w i j)⁻¹ •
          ∑ j : Fin m, (Spec.bern (m - 1) j v * w i j) • p i j).map some := by
      rw [List.map_ofFn]
      congr 1
      funext i
      rw [nurbezier_ofFn hm _ _ _ (hrow i)]; rfl
    rw [this, mapM_id_some]
    simp only
    have ew : (List.ofFn fun i => List.ofFn (w i)).map (fun w => bezier v w) =
        List.ofFn fun i => ∑ j : Fin m, Spec.bern (m - 1) j v * w i j := by
      rw [List.map_ofFn]
      congr 1
      funext i
      simp only [Function.comp]
      rw [bezier_eq_spec, spec_bezier_ofFn]; rfl
    rw [ew, nurbezier_ofFn hn _ _ _ (by rw [etot]; exact htot), etot, Spec.rationalSurface]
    congr 2
    refine Finset.sum_congr rfl fun i _ => ?_
    rw [smul_smul, mul_assoc, mul_inv_cancel₀ (hrow i), mul_one, Finset.smul_sum]
    refine Finset.sum_congr rfl fun j _ => ?_
    rw [smul_smul, mul_assoc]
  · rw [nurbezierSurface2]
    simp only [bezierCoeff_eq, zipWith_ofFn, List.length_ofFn, List.sum_ofFn, Fin.val_cast]
    have e2 : ∑ i : Fin n, ∑ j : Fin m, w i j * Spec.bern (n - 1) i u * Spec.bern (m - 1) j v =
        ∑ i : Fin n, ∑ j : Fin m, Spec.bern (n - 1) i u * Spec.bern (m - 1) j v * w i j :=
      Finset.sum_congr rfl fun i _ => Finset.sum_congr rfl fun j _ => by ring
    have e3 : ∑ i : Fin n, ∑ j : Fin m, (w i j * Spec.bern (n - 1) i u * Spec.bern (m - 1) j v) • p i j =
        ∑ i : Fin n, ∑ j : Fin m, (Spec.bern (n - 1) i u * Spec.bern (m - 1) j v * w i j) • p i j :=
      Finset.sum_congr rfl fun i _ => Finset.sum_congr rfl fun j _ => by congr 1; ring
    rw [e2, e3, if_neg htot, Spec.rationalSurface]

theorem bern_nonneg (n k : ℕ) (t : ℝ) (h0 : 0 ≤ t) (h1 : t ≤ 1) : 0 ≤ Spec.bern n k t := by
  rw [bern_eq]
  have : 0 ≤ 1 - t := by linarith
  positivity

theorem bern_sum (n : ℕ) (hn : 0 < n) (t : ℝ) : ∑ k : Fin n, Spec.bern (n - 1) k t = 1 := by
  have h := dc_const t (n - 1) (1 : ℝ) 0
  rw [dc_eq_sum, show n - 1 + 1 = n by omega] at h
  rw [← h, Finset.sum_range]
  exact Finset.sum_congr rfl fun k _ => by rw [bern_eq]; simp

theorem weight_pos {n : ℕ} (hn : 0 < n) (w : Fin n → ℝ) (hw : ∀ k, 0 < w k) (t : ℝ) (h0 : 0 ≤ t)
    (h1 : t ≤ 1) : 0 < ∑ k : Fin n, Spec.bern (n - 1) k t * w k := by
  have hs := bern_sum n hn t
  by_contra hc
  have hz : ∑ k : Fin n, Spec.bern (n - 1) k t * w k = 0 :=
    le_antisymm (not_lt.1 hc) (Finset.sum_nonneg fun k _ =>
      mul_nonneg (bern_nonneg _ _ _ h0 h1) (hw k).le)
  have hk := (Finset.sum_eq_zero_iff_of_nonneg fun (k : Fin n) _ =>
    mul_nonneg (bern_nonneg (n - 1) k t h0 h1) (hw k).le).1 hz
  have : ∑ k : Fin n, Spec.bern (n - 1) k t = 0 := Finset.sum_eq_zero fun k hk' => by
    have := hk k hk'
    rcases mul_eq_zero.1 this with h | h
    · exact h
    · exact absurd h (hw k).ne'
  rw [this] at hs; exact zero_ne_one hs

/-- **C08, guard met.** With positive weights and `u, v` in `[0,1]` (every surface the builder
makes) both evaluators are defined and agree. -/
theorem c08_surfaces_agree_positive {n m : ℕ} (hn : 0 < n) (hm : 0 < m) (w : Fin n → Fin m → ℝ)
    (hw : ∀ i j, 0 < w i j) (p : Fin n → Fin m → E) (u v : ℝ) (hu0 : 0 ≤ u) (hu1 : u ≤ 1)
    (hv0 : 0 ≤ v) (hv1 : v ≤ 1) :
    nurbezierSurface u v (List.ofFn fun i => List.ofFn (p i)) (List.ofFn fun i => List.ofFn (w i))
        = some (Spec.rationalSurface n m w p u v) ∧
      nurbezierSurface2 u v (List.ofFn fun i => List.ofFn (p i)) (List.ofFn fun i => List.ofFn (w i))
        = some (Spec.rationalSurface n m w p u v) := by
  have hrow : ∀ i, 0 < ∑ j : Fin m, Spec.bern (m - 1) j v * w i j := fun i =>
    weight_pos hm _ (hw i) v hv0 hv1
  refine c08_surfaces_agree hn hm w p u v (fun i => (hrow i).ne') ?_
  have := weight_pos hn _ hrow u hu0 hu1
  refine ne_of_gt (lt_of_lt_of_eq this ?_)
  refine Finset.sum_congr rfl fun i _ => ?_
  rw [Finset.mul_sum]
  exact Finset.sum_congr rfl fun j _ => by ring

/-- Concrete case for C08: a 2×2 net with unequal weights. -/
example : (∀ i j : Fin 2, 0 < (fun (i j : Fin 2) => (1 : ℝ) + i + 2 * j) i j) := by
  intro i j; positivity

end

/-! ### C09 -/

open Real

/-- **C09.** The rational quadratic built by `calc_nurbezier_arc` lies exactly on the circle
and joins the two given points. -/
theorem c09_arc_exact (p0 p2 c : V3) (r : ℝ) (hr : 0 < r) (h0 : norm3 (p0 - c) = r)
    (h2 : norm3 (p2 - c) = r) (hopp : p0 - c ≠ -(p2 - c)) :
    ∃ pts ws, calcNurbezierArc p0 p2 c = some (pts, ws) ∧
      nurbezier 0 pts ws = some p0 ∧ nurbezier 1 pts ws = some p2 ∧
      ∀ t, 0 ≤ t → t ≤ 1 → ∃ q, nurbezier t pts ws = some q ∧ norm3 (q - c) = r := by
  set a := p0 - c with ha
  set b := p2 - c with hb
  have daa : dot a a = r ^ 2 := by rw [← norm3_sq, h0]
  have dbb : dot b b = r ^ 2 := by rw [← norm3_sq, h2]
  have hs : a + b ≠ 0 := fun e => hopp (eq_neg_of_add_eq_zero_left e)
  set g := dot a b with hg
  have dss : dot (a + b) (a + b) = 2 * (r ^ 2 + g) := by
    rw [dot_add_left, dot_add_right, dot_add_right, daa, dbb, dot_comm b a, ← hg]; ring
  have gpos : 0 < r ^ 2 + g := by
    have h1 := dot_self_nonneg (a + b)
    have h2 : dot (a + b) (a + b) ≠ 0 := fun e => hs (dot_self_eq_zero.1 e)
    have : 0 < dot (a + b) (a + b) := lt_of_le_of_ne h1 h2.symm
    linarith
  -- the angle
  set θ := angleBetween a b with hθ
  have hsq : g ^ 2 + norm3 (cross a b) ^ 2 = (r ^ 2) ^ 2 := by
    rw [norm3_sq, dot_cross_self, daa, dbb]; ring
  have hr2 : (0 : ℝ) < r ^ 2 := by positivity
  have hcos : cos θ = g / r ^ 2 := by
    rw [hθ, angleBetween, cos_arctan2 (by rw [hsq]; positivity), hsq, Real.sqrt_sq hr2.le]
  have hθ0 : 0 ≤ θ := arctan2_nonneg (norm3_nonneg _)
  have hθ1 : θ ≤ π := (arctan2_mem _ _).2
  set k := cos (θ / 2) with hk
  have hk2 : k ^ 2 = (r ^ 2 + g) / (2 * r ^ 2) := by
    have := Real.cos_sq (θ / 2)
    rw [mul_div_cancel₀ _ (two_ne_zero' ℝ), hcos] at this
    rw [hk, this]; field_simp
  have hk0 : 0 ≤ k := Real.cos_nonneg_of_mem_Icc ⟨by linarith, by linarith⟩
  have hkpos : 0 < k := by
    rcases hk0.lt_or_eq with h | h
    · exact h
    · exfalso; rw [← h] at hk2
      have : 0 < (r ^ 2 + g) / (2 * r ^ 2) := by positivity
      rw [← hk2] at this; simp at this
  have hnorm : norm3 (a + b) = 2 * r * k := by
    apply norm3_eq_of_dot (by positivity)
    rw [dss]
    have : (2 * r * k) ^ 2 = 4 * r ^ 2 * k ^ 2 := by ring
    rw [this, hk2]; field_simp; norm_num
  have hg' : g = (2 * k ^ 2 - 1) * r ^ 2 := by rw [hk2]; field_simp; ring
  have hsin : sin (θ / 2) ^ 2 / k + k = 1 / k := by
    have := sin_sq_add_cos_sq (θ / 2)
    rw [← hk] at this
    field_simp; linarith
  have hmid : (1 / 2 : ℝ) • (p0 + p2) - c = (1 / 2 : ℝ) • (a + b) := by
    rw [ha, hb]; module
  have hmn : norm3 ((1 / 2 : ℝ) • (a + b)) = r * k := by
    rw [norm3_smul, hnorm, abs_of_pos (by norm_num)]; ring
  set p1 := (1 / (2 * k ^ 2)) • (a + b) + c with hp1
  have harc : calcNurbezierArc p0 p2 c = some ([p0, p1, p2], [1, k, 1]) := by
    rw [calcNurbezierArc]
    simp only [← ha, ← hb]
    rw [hmid, normalizeVector, hmn, if_neg (by positivity)]
    simp only [← hθ, ← hk]
    rw [if_neg hkpos.ne', h0, h2, hsin, smul_smul, smul_smul]
    congr 6
    field_simp; ring
  refine ⟨[p0, p1, p2], [1, k, 1], harc, ?_, ?_, ?_⟩
  · simp [nurbezier, weighted, bezierdc, dcStep]
  · simp [nurbezier, weighted, bezierdc, dcStep]
  · intro t ht0 ht1
    set D := (1 - t) ^ 2 + 2 * t * (1 - t) * k + t ^ 2 with hD
    have hDpos : 0 < D := by
      have h1 : 0 ≤ 2 * t * (1 - t) * k :=
        mul_nonneg (mul_nonneg (by linarith) (by linarith)) hk0
      nlinarith [sq_nonneg (1 - 2 * t)]
    have hW : bezierdc t [1, k, 1] = some D := by
      simp [bezierdc, dcStep]; rw [hD]; ring
    have hP : bezierdc t (weighted [p0, p1, p2] [1, k, 1]) = some
        (D • c + ((1 - t) ^ 2 + t * (1 - t) / k) • a + (t ^ 2 + t * (1 - t) / k) • b) := by
      have e0 : p0 = a + c := by rw [ha]; module
      have e2 : p2 = b + c := by rw [hb]; module
      rw [e0, e2, hp1]
      have : t * (1 - t) / k = 2 * t * (1 - t) * k * (1 / (2 * k ^ 2)) := by field_simp
      rw [this]
      simp [bezierdc, dcStep, weighted]; rw [hD]; module
    rw [nurbezier, if_pos (by simp), hP, hW]
    simp only
    rw [if_neg hDpos.ne']
    refine ⟨_, rfl, ?_⟩
    set α := (1 - t) ^ 2 + t * (1 - t) / k with hα
    set β := t ^ 2 + t * (1 - t) / k with hβ
    have e : D⁻¹ • (D • c + α • a + β • b) - c = D⁻¹ • (α • a + β • b) := by
      rw [smul_add, smul_add, smul_smul, inv_mul_cancel₀ hDpos.ne', smul_add]; module
    rw [e]
    apply norm3_eq_of_dot hr.le
    rw [dot_smul_left, dot_smul_right]
    have en : dot (α • a + β • b) (α • a + β • b) = r ^ 2 * D ^ 2 := by
      simp only [dot_add_left, dot_add_right, dot_smul_left, dot_smul_right, daa, dbb,
        dot_comm b a, ← hg]
      rw [hg', hα, hβ, hD]; field_simp; ring
    rw [en]; field_simp

/-- Concrete case for C09: a quarter circle of radius 1 about the origin. -/
example : norm3 (RIGHT - 0) = 1 ∧ norm3 (UP - 0) = 1 ∧ RIGHT - 0 ≠ -(UP - (0 : V3)) := by
  refine ⟨by simp [norm3, dot, RIGHT], by simp [norm3, dot, UP], fun h => ?_⟩
  have := congrFun h 0
  simp [RIGHT, UP] at this

/-! ### C10 -/

/-- **C10 is violated.** The curve of `calc_quadratic_bezier_interp` does not pass through the
middle point: at `t = 1/2` it is at `2 p1 − (p0 + p2)/4`. -/
theorem c10_value {E : Type*} [AddCommGroup E] [Module ℝ E] (p0 p1 p2 : E) :
    bezierdc (1 / 2) (calcQuadraticBezierInterp p0 p1 p2) =
      some ((2 : ℝ) • p1 - (1 / 4 : ℝ) • (p0 + p2)) := by
  simp [bezierdc, dcStep, calcQuadraticBezierInterp]
  module

/-- **C10, what holds.** The ends are interpolated, and the middle point is met exactly when
it is a quarter of the sum of the ends. -/
theorem c10_interp_partial {E : Type*} [AddCommGroup E] [Module ℝ E] (p0 p1 p2 : E) :
    bezierdc 0 (calcQuadraticBezierInterp p0 p1 p2) = some p0 ∧
      bezierdc 1 (calcQuadraticBezierInterp p0 p1 p2) = some p2 ∧
      (bezierdc (1 / 2) (calcQuadraticBezierInterp p0 p1 p2) = some p1 ↔
        p1 = (1 / 4 : ℝ) • (p0 + p2)) := by
  refine ⟨by simp [bezierdc, dcStep, calcQuadraticBezierInterp],
    by simp [bezierdc, dcStep, calcQuadraticBezierInterp], ?_⟩
  rw [c10_value, Option.some_inj]
  constructor
  · intro h
    have : p1 - (1 / 4 : ℝ) • (p0 + p2) = 0 := by
      calc p1 - (1 / 4 : ℝ) • (p0 + p2) = ((2 : ℝ) • p1 - (1 / 4 : ℝ) • (p0 + p2)) - p1 := by module
        _ = 0 := by rw [h, sub_self]
    exact sub_eq_zero.1 this
  · intro h
    calc (2 : ℝ) • p1 - (1 / 4 : ℝ) • (p0 + p2) = p1 + (p1 - (1 / 4 : ℝ) • (p0 + p2)) := by module
      _ = p1 := by rw [← h, sub_self, add_zero]

theorem c10_violated : ¬ ∀ p0 p1 p2 : ℝ,
    bezierdc (1 / 2) (calcQuadraticBezierInterp p0 p1 p2) = some p1 := by
  intro h
  have := (c10_interp_partial (0 : ℝ) 1 0).2.2.1 (h 0 1 0)
  norm_num at this

end Verif
