import Verif.Props.HelicalMesh2
import Verif.Props.Helical

/-!
# C126, C127: meshed helical gears on crossed axes
-/

namespace Verif

open Real

/-- `n` is normal to the surface `S` at the parameters `z`, `t`. -/
def NormalAt2 (S : ℝ → ℝ → V3) (z t : ℝ) (n : V3) : Prop := NormalAt (fun y => S y t) z n ∧ NormalAt (S z) t n

theorem NormalAt.smul {F : ℝ → V3} {t : ℝ} {n : V3} (h : NormalAt F t n) (c : ℝ) : NormalAt F t (c • n) := by
  obtain ⟨v, hv, hn⟩ := h
  exact ⟨v, hv, by rw [dot_smul_right, hn, mul_zero]⟩

theorem NormalAt2.smul {S : ℝ → ℝ → V3} {z t : ℝ} {n : V3} (h : NormalAt2 S z t n) (c : ℝ) : NormalAt2 S z t (c • n) :=
  ⟨h.1.smul c, h.2.smul c⟩

theorem hasDerivAt_polar' (x : ℝ) : HasDerivAt polarVec (polarVec (x + π / 2)) x := by
  apply hasDerivAt_v3
  · simpa [polarVec, cos_add_pi_div_two] using hasDerivAt_cos x
  · simpa [polarVec, sin_add_pi_div_two] using hasDerivAt_sin x
  · simpa [polarVec] using hasDerivAt_const x (0 : ℝ)

theorem polar_expand (ψ : ℝ) (u : V3) :
    u = dot u (polarVec ψ) • polarVec ψ + dot u (polarVec (ψ + π / 2)) • polarVec (ψ + π / 2) + dot u OUT • OUT := by
  have h := sin_sq_add_cos_sq ψ
  apply V3.ext3
  · simp [dot, polarVec, OUT, cos_add_pi_div_two, sin_add_pi_div_two]
    linear_combination -(u 0) * h
  · simp [dot, polarVec, OUT, cos_add_pi_div_two, sin_add_pi_div_two]
    linear_combination -(u 1) * h
  · simp [dot, polarVec, OUT, cos_add_pi_div_two, sin_add_pi_div_two]

theorem frame_expand {M : M3} (hM : IsRot M) (ψ : ℝ) (v : V3) :
    v = dot v (app M (polarVec ψ)) • app M (polarVec ψ) +
      dot v (app M (polarVec (ψ + π / 2))) • app M (polarVec (ψ + π / 2)) + dot v (app M OUT) • app M OUT := by
  have e : ∀ w, dot v (app M w) = dot (app M.transpose v) w := by
    intro w; rw [dot_app_left, Matrix.transpose_transpose]
  rw [e, e, e, ← app_smul, ← app_smul, ← app_smul, ← app_add, ← app_add, ← polar_expand, hM.app_app_T]

/-- The twist of a helical gear per unit of height. -/
theorem helixTwist_linear (p : GearInput) (z : ℝ) :
    helixTwist p false z = z * (tan p.helixAngle / (p.numTeeth / 2)) := by simp [helixTwist]

theorem crownAngle_zero {p : GearInput} (h : p.crowning = 0) (z : ℝ) : crownAngle p z = 0 := by
  simp [crownAngle, GearInput.crowningFunc, h]

/-- The lower flank of a helical gear contains every point that has the distance of the base radius from the axis in the
direction `ψ` and lies in the plane given by `hn`, and this plane is the tangent plane there. -/
theorem screw_lower {g : WGear} {p : GearInput} {ring : Bool} (H : Cylinder g p (helixTwist p false) ring)
    (hn0 : 0 < p.numTeeth) (hm : 0 < p.module_) (hcr : p.crowning = 0) (hO : IsRot g.core.transform.orientation)
    (tSol turn : ℝ) (k : ℤ) (ψ : ℝ) (X : V3) :
    let o := g.involuteObj tSol
    let M := g.core.transform.orientation
    let n := app M (polarVec (ψ + π / 2)) - (tan p.helixAngle * cos p.pressureAngle) • app M OUT
    dot (X - g.core.transform.center) (app M (polarVec ψ)) = o.rBase →
    dot (X - g.core.transform.center) n =
      -(o.rBase * (ψ - (g.core.transform.angle + turn + k * o.pitchAngle + o.baseAngle))) →
    ∃ z t, g.involuteFlank tSol false z turn k t = X ∧
      NormalAt2 (fun z t => g.involuteFlank tSol false z turn k t) z t n := by
  intro o M n h1 h2
  obtain ⟨τ, hτ⟩ : ∃ τ, τ = tan p.helixAngle / (p.numTeeth / 2) := ⟨_, rfl⟩
  have hs : ∀ z, helixTwist p false z = z * τ := by intro z; rw [helixTwist_linear, hτ]
  have hrb : o.rBase * τ = p.module_ * (tan p.helixAngle * cos p.pressureAngle) := by
    rw [H.rBase, hτ]; field_simp
  obtain ⟨z, hz⟩ : ∃ z, z = dot (X - g.core.transform.center) (app M OUT) / p.module_ := ⟨_, rfl⟩
  have hz' : dot (X - g.core.transform.center) (app M OUT) = p.module_ * z := by rw [hz]; field_simp
  obtain ⟨t, ht⟩ : ∃ t, t = ψ - (g.core.transform.angle + turn + k * o.pitchAngle + o.baseAngle) - τ * z := ⟨_, rfl⟩
  have hF : ∀ z t, g.involuteFlank tSol false z turn k t = o.lowerFlank (turn + z * τ) k t + (p.module_ * z) • app M OUT := by
    intro z t
    rw [sliceFlank_lower H, crownAngle_zero hcr, add_zero, hs]
  have hψ : ψ = o.transform.angle + (turn + z * τ) + k * o.pitchAngle + (t + o.baseAngle) := by
    change ψ = g.core.transform.angle + _ + _ + _; rw [ht]; ring
  have hoM : o.transform.orientation = M := rfl
  have hoC : o.transform.center = g.core.transform.center := rfl
  have hcoef : dot (X - g.core.transform.center) (app M (polarVec (ψ + π / 2))) = -(o.rBase * t) := by
    rw [dot_sub_right, dot_smul_right, hz'] at h2
    rw [ht]
    linear_combination h2 - z * hrb
  have hX := frame_expand hO ψ (X - g.core.transform.center)
  rw [h1, hz', hcoef] at hX
  refine ⟨z, t, ?_, ?_, ?_⟩
  · rw [hF, lowerFlank_eq o _ k t ψ hψ, hoM, hoC]
    rw [sub_eq_iff_eq_add] at hX
    rw [hX]
    module
  · -- derivative with respect to the height
    have hfun : (fun y => g.involuteFlank tSol false y turn k t) = fun y =>
        o.transform.center + o.rBase • app M (polarVec (ψ + (y - z) * τ)) -
          (o.rBase * t) • app M (polarVec (ψ + (y - z) * τ + π / 2)) + (p.module_ * y) • app M OUT := by
      funext y
      rw [hF, lowerFlank_eq o _ k t (ψ + (y - z) * τ) (by rw [hψ]; ring), hoM]
    have hin : HasDerivAt (fun y => ψ + (y - z) * τ) τ z := by
      have := (((hasDerivAt_id z).sub_const z).mul_const τ).const_add ψ
      simpa using this
    have e0 : ψ + (z - z) * τ = ψ := by ring
    have d1 : HasDerivAt (fun y => polarVec (ψ + (y - z) * τ)) (τ • polarVec (ψ + π / 2)) z := by
      have := (e0.symm ▸ hasDerivAt_polar' ψ : HasDerivAt polarVec (polarVec (ψ + π / 2)) (ψ + (z - z) * τ))
      exact this.scomp z hin
    have d2 : HasDerivAt (fun y => polarVec (ψ + (y - z) * τ + π / 2)) (τ • polarVec (ψ + π / 2 + π / 2)) z := by
      have hin' := hin.add_const (π / 2)
      have := (show HasDerivAt polarVec (polarVec (ψ + π / 2 + π / 2)) (ψ + (z - z) * τ + π / 2) by
        rw [e0]; exact hasDerivAt_polar' _)
      exact this.scomp z hin'
    have d3 : HasDerivAt (fun y : ℝ => (p.module_ * y) • app M OUT) (p.module_ • app M OUT) z := by
      have := ((hasDerivAt_id z).const_mul p.module_).smul_const (app M OUT)
      simpa using this
    have D := (((hasDerivAt_app M d1).const_smul o.rBase).const_add o.transform.center).sub
      ((hasDerivAt_app M d2).const_smul (o.rBase * t)) |>.add d3
    refine ⟨_, by rw [hfun]; exact D, ?_⟩
    simp only [app_smul, n]
    rw [show ψ + π / 2 + π / 2 = ψ + π by ring, polarVec_add_pi, app_neg]
    simp only [dot_add_left, dot_sub_left, dot_sub_right, dot_smul_left, dot_smul_right, dot_neg_left, hO.dot_app, M]
    have q1 : dot (polarVec (ψ + π / 2)) (polarVec (ψ + π / 2)) = 1 := by
      have := sin_sq_add_cos_sq ψ
      simp [dot, polarVec, cos_add_pi_div_two, sin_add_pi_div_two]; linear_combination this
    have q2 : dot (polarVec ψ) (polarVec (ψ + π / 2)) = 0 := by
      simp [dot, polarVec, cos_add_pi_div_two, sin_add_pi_div_two]; ring
    have q3 : dot (polarVec (ψ + π / 2)) OUT = 0 := by simp [dot, polarVec, OUT]
    have q4 : dot (polarVec ψ) OUT = 0 := by simp [dot, polarVec, OUT]
    have q5 : dot OUT (polarVec (ψ + π / 2)) = 0 := by simp [dot, polarVec, OUT]
    have q6 : dot OUT OUT = (1 : ℝ) := by simp [dot, OUT]
    rw [q1, q2, q3, q4, q5, q6]
    linear_combination hrb
  · -- derivative along the involute
    have hfun : (fun s => g.involuteFlank tSol false z turn k s) = fun s => o.lowerFlank (turn + z * τ) k s +
        (p.module_ * z) • app M OUT := by funext s; exact hF z s
    change NormalAt (fun s => g.involuteFlank tSol false z turn k s) t n
    rw [hfun]
    refine normalAt_translate ⟨_, lowerFlank_deriv o _ k t ψ hψ, ?_⟩
    rw [hoM]
    simp only [n, dot_sub_right, dot_smul_right, dot_smul_left, hO.dot_app, M]
    have q2 : dot (polarVec ψ) (polarVec (ψ + π / 2)) = 0 := by
      simp [dot, polarVec, cos_add_pi_div_two, sin_add_pi_div_two]; ring
    have q4 : dot (polarVec ψ) OUT = 0 := by simp [dot, polarVec, OUT]
    rw [q2, q4]; ring

/-- The upper flank of a helical gear contains every point that has the distance of the base radius from the axis in the
direction `ψ` and lies in the plane given by `hn`, and this plane is the tangent plane there. -/
theorem screw_upper {g : WGear} {p : GearInput} {ring : Bool} (H : Cylinder g p (helixTwist p false) ring)
    (hn0 : 0 < p.numTeeth) (hm : 0 < p.module_) (hcr : p.crowning = 0) (hO : IsRot g.core.transform.orientation)
    (tSol turn : ℝ) (k : ℤ) (ψ : ℝ) (X : V3) :
    let o := g.involuteObj tSol
    let M := g.core.transform.orientation
    let n := app M (polarVec (ψ + π / 2)) - (tan p.helixAngle * cos p.pressureAngle) • app M OUT
    dot (X - g.core.transform.center) (app M (polarVec ψ)) = o.rBase →
    dot (X - g.core.transform.center) n =
      -(o.rBase * (ψ - (g.core.transform.angle + turn + k * o.pitchAngle - o.baseAngle))) →
    ∃ z t, g.involuteFlank tSol true z turn k t = X ∧
      NormalAt2 (fun z t => g.involuteFlank tSol true z turn k t) z t n := by
  intro o M n h1 h2
  obtain ⟨τ, hτ⟩ : ∃ τ, τ = tan p.helixAngle / (p.numTeeth / 2) := ⟨_, rfl⟩
  have hs : ∀ z, helixTwist p false z = z * τ := by intro z; rw [helixTwist_linear, hτ]
  have hrb : o.rBase * τ = p.module_ * (tan p.helixAngle * cos p.pressureAngle) := by
    rw [H.rBase, hτ]; field_simp
  obtain ⟨z, hz⟩ : ∃ z, z = dot (X - g.core.transform.center) (app M OUT) / p.module_ := ⟨_, rfl⟩
  have hz' : dot (X - g.core.transform.center) (app M OUT) = p.module_ * z := by rw [hz]; field_simp
  obtain ⟨t, ht⟩ : ∃ t, t = g.core.transform.angle + turn + k * o.pitchAngle - o.baseAngle + τ * z - ψ := ⟨_, rfl⟩
  have hF : ∀ z t, g.involuteFlank tSol true z turn k t = o.upperFlank (turn + z * τ) k t + (p.module_ * z) • app M OUT := by
    intro z t
    rw [sliceFlank_upper H, crownAngle_zero hcr, sub_zero, hs]
  have hψ : ψ = o.transform.angle + (turn + z * τ) + k * o.pitchAngle - (t + o.baseAngle) := by
    change ψ = g.core.transform.angle + _ + _ + _; rw [ht]; ring
  have hoM : o.transform.orientation = M := rfl
  have hoC : o.transform.center = g.core.transform.center := rfl
  have hcoef : dot (X - g.core.transform.center) (app M (polarVec (ψ + π / 2))) = o.rBase * t := by
    rw [dot_sub_right, dot_smul_right, hz'] at h2
    rw [ht]
    linear_combination h2 - z * hrb
  have hX := frame_expand hO ψ (X - g.core.transform.center)
  rw [h1, hz', hcoef] at hX
  refine ⟨z, t, ?_, ?_, ?_⟩
  · rw [hF, upperFlank_eq o _ k t ψ hψ, hoM, hoC]
    rw [sub_eq_iff_eq_add] at hX
    rw [hX]
    module
  · -- derivative with respect to the height
    have hfun : (fun y => g.involuteFlank tSol true y turn k t) = fun y =>
        o.transform.center + o.rBase • app M (polarVec (ψ + (y - z) * τ)) +
          (o.rBase * t) • app M (polarVec (ψ + (y - z) * τ + π / 2)) + (p.module_ * y) • app M OUT := by
      funext y
      rw [hF, upperFlank_eq o _ k t (ψ + (y - z) * τ) (by rw [hψ]; ring), hoM]
    have hin : HasDerivAt (fun y => ψ + (y - z) * τ) τ z := by
      have := (((hasDerivAt_id z).sub_const z).mul_const τ).const_add ψ
      simpa using this
    have e0 : ψ + (z - z) * τ = ψ := by ring
    have d1 : HasDerivAt (fun y => polarVec (ψ + (y - z) * τ)) (τ • polarVec (ψ + π / 2)) z := by
      have := (e0.symm ▸ hasDerivAt_polar' ψ : HasDerivAt polarVec (polarVec (ψ + π / 2)) (ψ + (z - z) * τ))
      exact this.scomp z hin
    have d2 : HasDerivAt (fun y => polarVec (ψ + (y - z) * τ + π / 2)) (τ • polarVec (ψ + π / 2 + π / 2)) z := by
      have hin' := hin.add_const (π / 2)
      have := (show HasDerivAt polarVec (polarVec (ψ + π / 2 + π / 2)) (ψ + (z - z) * τ + π / 2) by
        rw [e0]; exact hasDerivAt_polar' _)
      exact this.scomp z hin'
    have d3 : HasDerivAt (fun y : ℝ => (p.module_ * y) • app M OUT) (p.module_ • app M OUT) z := by
      have := ((hasDerivAt_id z).const_mul p.module_).smul_const (app M OUT)
      simpa using this
    have D := (((hasDerivAt_app M d1).const_smul o.rBase).const_add o.transform.center).add
      ((hasDerivAt_app M d2).const_smul (o.rBase * t)) |>.add d3
    refine ⟨_, by rw [hfun]; exact D, ?_⟩
    simp only [app_smul, n]
    rw [show ψ + π / 2 + π / 2 = ψ + π by ring, polarVec_add_pi, app_neg]
    simp only [dot_add_left, dot_sub_left, dot_sub_right, dot_smul_left, dot_smul_right, dot_neg_left, hO.dot_app, M]
    have q1 : dot (polarVec (ψ + π / 2)) (polarVec (ψ + π / 2)) = 1 := by
      have := sin_sq_add_cos_sq ψ
      simp [dot, polarVec, cos_add_pi_div_two, sin_add_pi_div_two]; linear_combination this
    have q2 : dot (polarVec ψ) (polarVec (ψ + π / 2)) = 0 := by
      simp [dot, polarVec, cos_add_pi_div_two, sin_add_pi_div_two]; ring
    have q3 : dot (polarVec (ψ + π / 2)) OUT = 0 := by simp [dot, polarVec, OUT]
    have q4 : dot (polarVec ψ) OUT = 0 := by simp [dot, polarVec, OUT]
    have q5 : dot OUT (polarVec (ψ + π / 2)) = 0 := by simp [dot, polarVec, OUT]
    have q6 : dot OUT OUT = (1 : ℝ) := by simp [dot, OUT]
    rw [q1, q2, q3, q4, q5, q6]
    linear_combination hrb
  · -- derivative along the involute
    have hfun : (fun s => g.involuteFlank tSol true z turn k s) = fun s => o.upperFlank (turn + z * τ) k s +
        (p.module_ * z) • app M OUT := by funext s; exact hF z s
    change NormalAt (fun s => g.involuteFlank tSol true z turn k s) t n
    rw [hfun]
    refine normalAt_translate ⟨_, upperFlank_deriv o _ k t ψ hψ, ?_⟩
    rw [hoM]
    simp only [n, dot_sub_right, dot_smul_right, dot_smul_left, hO.dot_app, M]
    have q2 : dot (polarVec ψ) (polarVec (ψ + π / 2)) = 0 := by
      simp [dot, polarVec, cos_add_pi_div_two, sin_add_pi_div_two]; ring
    have q4 : dot (polarVec ψ) OUT = 0 := by simp [dot, polarVec, OUT]
    rw [q2, q4]; ring

/-- Three independent linear equations have a solution. -/
theorem solve_three {a b c : V3} (h : dot a (cross b c) ≠ 0) (x y z : ℝ) :
    ∃ Y : V3, dot Y a = x ∧ dot Y b = y ∧ dot Y c = z := by
  refine ⟨(dot a (cross b c))⁻¹ • (x • cross b c + y • cross c a + z • cross a b), ?_, ?_, ?_⟩
  · rw [dot_smul_left, dot_add_left, dot_add_left, dot_smul_left, dot_smul_left, dot_smul_left]
    rw [dot_comm _ a, dot_comm (cross c a) a, dot_cross_right, dot_comm (cross a b) a, dot_cross_left]
    field_simp; ring
  · rw [dot_smul_left, dot_add_left, dot_add_left, dot_smul_left, dot_smul_left, dot_smul_left]
    rw [dot_comm (cross b c) b, dot_cross_left, dot_comm (cross a b) b, dot_cross_right]
    have e : dot (cross c a) b = dot a (cross b c) := by simp [dot, cross]; ring
    rw [e]; field_simp; ring
  · rw [dot_smul_left, dot_add_left, dot_add_left, dot_smul_left, dot_smul_left, dot_smul_left]
    rw [dot_comm (cross b c) c, dot_cross_right, dot_comm (cross c a) c, dot_cross_left]
    have e : dot (cross a b) c = dot a (cross b c) := by simp [dot, cross]; ring
    rw [e]; field_simp; ring

/-- The rotation about the line of centres, in coordinates of the line of centres. -/
theorem tilt_app {O : M3} (hO : IsRot O) (δ S : ℝ) (v : V3) :
    app (rotMat (-(app O (polarVec δ))) S * O) v = app (O * Rz δ) (app (Rx (-S)) (app (Rz (-δ)) v)) := by
  have hQ : IsRot (O * Rz δ) := hO.mul (IsRot.Rz δ)
  have e1 : app O (polarVec δ) = app (O * Rz δ) RIGHT := by
    rw [app_mul]; congr 1; apply V3.ext3 <;> simp [polarVec, RIGHT]
  have e2 : app O v = app (O * Rz δ) (app (Rz (-δ)) v) := by
    rw [← app_mul, mul_assoc, ← Rz_add, add_neg_cancel, Rz_zero, mul_one]
  rw [app_mul, app_rotMat, e1, e2]
  obtain ⟨u, hu⟩ : ∃ u, u = app (Rz (-δ)) v := ⟨_, rfl⟩
  rw [← hu, rodrigues, ← app_neg, hQ.cross_app, hQ.dot_app, ← app_smul, ← app_smul, ← app_smul, ← app_add, ← app_add]
  congr 1
  apply V3.ext3
  · simp [RIGHT, dot, cross, Matrix.vecHead, Matrix.vecTail]; ring
  · simp [RIGHT, dot, cross, Matrix.vecHead, Matrix.vecTail]
  · simp [RIGHT, dot, cross, Matrix.vecHead, Matrix.vecTail]; ring

theorem base_app (O : M3) (δ : ℝ) (v : V3) : app O v = app (O * Rz δ) (app (Rz (-δ)) v) := by
  rw [← app_mul, mul_assoc, ← Rz_add, add_neg_cancel, Rz_zero, mul_one]

theorem Rz_neg_polar (δ x : ℝ) : app (Rz (-δ)) (polarVec (δ + x)) = polarVec x := by
  rw [Rz_polarVec]; congr 1; ring

/-- The common normal of the flanks of two crossed helical gears, before normalisation: `T` is the tangent of the normal
pressure angle (negative for upper flanks), `β` the helix angle of the partner. -/
noncomputable def rackNormal (O : M3) (δ T β : ℝ) : V3 :=
  (-T) • app O (polarVec δ) + (cos β • app O (polarVec (δ + π / 2)) - sin β • app O OUT)

theorem crossed_geom {O : M3} (hO : IsRot O) (C : V3) (δ D T αg αh β1 β2 : ℝ) (hS : sin (β1 + β2) ≠ 0) (hT : T ≠ 0)
    (hc1 : 0 < cos β1) (hc2 : 0 < cos β2) (hag : 0 < cos αg) (hah : 0 < cos αh) (h1 : tan αg * cos β1 = T)
    (h2 : tan αh * cos β2 = T) (rg rh ug uh : ℝ) :
    let M := rotMat (-(app O (polarVec δ))) (β1 + β2) * O
    let C' := C + D • app O (polarVec δ)
    let ng := app M (polarVec (δ + π + αg + π / 2)) - (tan β1 * cos αg) • app M OUT
    let nh := app O (polarVec (δ + αh + π / 2)) - (tan β2 * cos αh) • app O OUT
    ∃ Xg Xh : V3, dot (Xg - C') (app M (polarVec (δ + π + αg))) = rg ∧ dot (Xg - C') ng = ug ∧
      dot (Xh - C) (app O (polarVec (δ + αh))) = rh ∧ dot (Xh - C) nh = uh ∧
      Xg - Xh = ((-(cos β1 / cos αg * ug) - D * T - cos β2 / cos αh * uh) / (1 + T ^ 2)) • rackNormal O δ T β2 ∧
      rackNormal O δ T β2 = (-(cos β1 / cos αg)) • ng ∧ rackNormal O δ T β2 = (cos β2 / cos αh) • nh := by
  intro M C' ng nh
  obtain ⟨Q, hQd⟩ : ∃ Q, Q = O * Rz δ := ⟨_, rfl⟩
  have hQ : IsRot Q := by rw [hQd]; exact hO.mul (IsRot.Rz δ)
  obtain ⟨n, hn⟩ : ∃ n : V3, n = ![-T, cos β2, -sin β2] := ⟨_, rfl⟩
  have tg : sin αg = tan αg * cos αg := by rw [tan_eq_sin_div_cos]; field_simp
  have th : sin αh = tan αh * cos αh := by rw [tan_eq_sin_div_cos]; field_simp
  have s1 : cos (β1 + β2) * cos β1 + sin (β1 + β2) * sin β1 = cos β2 := by
    rw [← cos_sub]; congr 1; ring
  have s2 : sin (β1 + β2) * cos β1 - cos (β1 + β2) * sin β1 = sin β2 := by
    rw [← sin_sub]; congr 1; ring
  have s3 : cos (β1 + β2) * cos β2 + sin (β1 + β2) * sin β2 = cos β1 := by
    rw [← cos_sub]; congr 1; ring
  have hd : app O (polarVec δ) = app Q RIGHT := by
    rw [base_app O δ, hQd]; congr 1
    have := Rz_neg_polar δ 0
    rw [add_zero] at this
    rw [this]; apply V3.ext3 <;> simp [polarVec, RIGHT]
  have hN : rackNormal O δ T β2 = app Q n := by
    rw [rackNormal, hd, base_app O δ (polarVec (δ + π / 2)), base_app O δ OUT, ← hQd, Rz_neg_polar, Rz_app_OUT,
      ← app_smul, ← app_smul, ← app_smul, ← app_sub, ← app_add, hn]
    congr 1
    apply V3.ext3 <;> simp [polarVec, OUT, RIGHT]
  have hnh : nh = (cos αh / cos β2) • app Q n := by
    simp only [nh]
    rw [base_app O δ, base_app O δ OUT, ← hQd, add_assoc δ, Rz_neg_polar, Rz_app_OUT, ← app_smul, ← app_smul, ← app_sub, hn]
    congr 1
    apply V3.ext3
    · simp [polarVec, OUT, cos_add_pi_div_two]; rw [th, ← h2]; field_simp
    · simp [polarVec, OUT, sin_add_pi_div_two]; field_simp
    · simp [polarVec, OUT, tan_eq_sin_div_cos]; field_simp
  have heh : app O (polarVec (δ + αh)) = app Q (polarVec αh) := by rw [base_app O δ, ← hQd, Rz_neg_polar]
  obtain ⟨eg, hegd⟩ : ∃ eg, eg = app (Rx (-(β1 + β2))) (polarVec (π + αg)) := ⟨_, rfl⟩
  have heg : app M (polarVec (δ + π + αg)) = app Q eg := by
    simp only [M]
    rw [tilt_app hO, ← hQd, add_assoc δ, Rz_neg_polar, hegd]
  have hp : polarVec (π + αg + π / 2) = ![sin αg, -cos αg, 0] := by
    apply V3.ext3
    · simp only [polarVec, cos_add_pi_div_two, Matrix.cons_val_zero]; rw [add_comm, sin_add_pi, neg_neg]
    · simp only [polarVec, sin_add_pi_div_two, Matrix.cons_val_one, Matrix.cons_val_zero]; rw [add_comm, cos_add_pi]
    · simp [polarVec]
  have hkey : app (Rx (-(β1 + β2))) (polarVec (π + αg + π / 2)) - (tan β1 * cos αg) • app (Rx (-(β1 + β2))) OUT =
      (-(cos αg / cos β1)) • n := by
    rw [hp, hn]
    apply V3.ext3
    · simp [OUT, -neg_add_rev]
      rw [tg, ← h1]; field_simp
    · simp [OUT, tan_eq_sin_div_cos, -neg_add_rev]
      rw [← s1]; field_simp; ring
    · simp [OUT, tan_eq_sin_div_cos, -neg_add_rev]
      rw [← s2]; field_simp
  have hng : ng = (-(cos αg / cos β1)) • app Q n := by
    simp only [ng, M]
    rw [tilt_app hO, tilt_app hO, ← hQd, add_assoc δ, add_assoc δ, Rz_neg_polar, Rz_app_OUT, ← app_smul Q, ← app_smul Q,
      ← app_sub, hkey]
  have hegc : eg = ![-cos αg, -(cos (β1 + β2) * sin αg), sin (β1 + β2) * sin αg] := by
    rw [hegd]; apply V3.ext3
    · simp [polarVec, cos_add π αg]
    · simp [polarVec, sin_add π αg, -neg_add_rev]
    · simp [polarVec, sin_add π αg, -neg_add_rev]
  have hdet : dot (polarVec αh) (cross n eg) ≠ 0 := by
    have : dot (polarVec αh) (cross n eg) * (cos β1 * cos β2) =
        sin (β1 + β2) * (T * (1 + T ^ 2) * (cos αg * cos αh)) := by
      rw [hn, hegc]
      have q1 : tan αg = T / cos β1 := by rw [← h1]; field_simp
      have q2 : tan αh = T / cos β2 := by rw [← h2]; field_simp
      have s4 : sin (β1 + β2) * cos β2 - cos (β1 + β2) * sin β2 = sin β1 := by
        rw [← sin_sub]; congr 1; ring
      simp only [dot, cross, polarVec, Matrix.cons_val_zero, Matrix.cons_val_one, Matrix.cons_val]
      rw [tg, th, q1, q2]
      field_simp
      linear_combination (T * cos αh * cos β2) * s4 - T * cos αh * sin_add β1 β2
    intro h0
    rw [h0, zero_mul] at this
    have hpos : T * (1 + T ^ 2) * (cos αg * cos αh) ≠ 0 := by
      have : 0 < 1 + T ^ 2 := by positivity
      exact mul_ne_zero (mul_ne_zero hT this.ne') (mul_pos hag hah).ne'
    exact mul_ne_zero hS hpos this.symm
  have hne : dot n eg = 0 := by
    rw [hn, hegc]; simp [dot]; rw [tg, ← h1]; linear_combination (-(tan αg * cos αg)) * s3
  have hnn : dot n n = 1 + T ^ 2 := by
    rw [hn]; simp [dot]; linear_combination sin_sq_add_cos_sq β2
  obtain ⟨Y, y1, y2, y3⟩ := solve_three hdet rh (cos β2 / cos αh * uh) (rg + D * dot RIGHT eg)
  obtain ⟨L, hL⟩ : ∃ L, L = (-(cos β1 / cos αg * ug) - D * T - cos β2 / cos αh * uh) / (1 + T ^ 2) := ⟨_, rfl⟩
  have hT2 : (0 : ℝ) < 1 + T ^ 2 := by positivity
  have hXg : C + app Q (Y + L • n) - C' = app Q (Y + L • n - D • RIGHT) := by
    simp only [C']; rw [hd, app_sub, app_smul]; abel
  have hXh : C + app Q Y - C = app Q Y := by abel
  refine ⟨C + app Q (Y + L • n), C + app Q Y, ?_, ?_, ?_, ?_, ?_, ?_, ?_⟩
  · rw [hXg, heg, hQ.dot_app, dot_sub_left, dot_add_left, dot_smul_left, dot_smul_left, y3, hne]; ring
  · rw [hXg, hng, dot_smul_right, hQ.dot_app, dot_sub_left, dot_add_left, dot_smul_left, dot_smul_left, y2, hnn, hL]
    have : dot RIGHT n = -T := by rw [hn]; simp [dot, RIGHT]
    rw [this]; field_simp; ring
  · rw [hXh, heh, hQ.dot_app, y1]
  · rw [hXh, hnh, dot_smul_right, hQ.dot_app, y2]; field_simp
  · rw [hN, ← hL, app_add, app_smul]; abel
  · rw [hN, hng, smul_smul]
    rw [show -(cos β1 / cos αg) * -(cos αg / cos β1) = 1 by field_simp, one_smul]
  · rw [hN, hnh, smul_smul, show cos β2 / cos αh * (cos αh / cos β2) = 1 by field_simp, one_smul]

/-- Where `HelicalGear.mesh_to` puts a gear: at the mesh distance in the target direction, tilted about it by the sum of the
helix angles, with the teeth of one gear in the gaps of the other. -/
theorem meshToHelical_place (solve : (ℝ → ℝ) → ℝ) {g h : WGear} {P Q : GearInput} {s1 s2 : ℝ → ℝ}
    (Hg : Cylinder g P s1 false) (Hh : Cylinder h Q s2 false) {N1 N2 : ℕ} (h1 : P.numTeeth = N1) (h2 : Q.numTeeth = N2)
    (hN1 : 0 < N1) (hN2 : 0 < N2) (hc : g.coneAngle = 0) (hc' : h.coneAngle = 0) {O : M3} (hO : IsRot O)
    (hhO : h.core.transform.orientation = O) (tp tq : ℝ) {ρ : ℝ} (hρ : 0 < ρ) (δ a : ℝ)
    (hbig : 1 / 10 ^ 12 ≤ (g.involuteObj tp).rBase + (h.involuteObj tq).rBase)
    (F : Finds solve (g.residual tp h tq false 0) a) :
    ∃ A', g.meshToHelical solve tp h tq (ρ • app O (polarVec δ)) = some (g.place (h.core.transform.center +
        (((g.involuteObj tp).rBase + (h.involuteObj tq).rBase) / cos a) • app O (polarVec δ))
        (rotMat (-(app O (polarVec δ))) (P.helixAngle + Q.helixAngle) * O) A') ∧
      ∃ n : ℤ, N1 * (A' - (δ + π)) + N2 * (h.core.transform.angle - δ) = π + 2 * π * n := by
  have hca : 0 < cos a := cos_pos' F.lo F.hi
  have hpi := pi_pos
  have h1' : (0 : ℝ) < N1 := by exact_mod_cast hN1
  have h2' : (0 : ℝ) < N2 := by exact_mod_cast hN2
  have hrg : (g.involuteObj tp).insideTeeth = false := by
    change g.core.tooth.insideTeeth = false; rw [Hg.teeth]
  have hrh : (h.involuteObj tq).insideTeeth = false := by
    change h.core.tooth.insideTeeth = false; rw [Hh.teeth]
  obtain ⟨D, hDd⟩ : ∃ D, D = ((g.involuteObj tp).rBase + (h.involuteObj tq).rBase) / cos a := ⟨_, rfl⟩
  have hD : (g.involuteObj tp).meshDistance solve (h.involuteObj tq) 0 = D := by
    have hF := F.is
    rw [WGear.residual] at hF
    rw [GearObj.meshDistance, hrg, hrh, calcInvoluteMeshDistance]
    simp only [Bool.or_self, Bool.false_eq_true, if_false, ← hF, hDd]
  have hDbig : 1 / 10 ^ 12 ≤ D := by
    rw [hDd, le_div_iff₀ hca]
    have := cos_le_one a
    nlinarith
  have hDpos : 0 < D := lt_of_lt_of_le (by norm_num) hDbig
  obtain ⟨d, hd⟩ : ∃ d, d = app O (polarVec δ) := ⟨_, rfl⟩
  have hdu : dot d d = 1 := by
    rw [hd, hO.dot_app]
    have := sin_sq_add_cos_sq δ
    simp [dot, polarVec]; linear_combination this
  have hnd : dot (-d) (-d) = 1 := by rw [dot_neg_left, dot_neg_right, neg_neg, hdu]
  have hcg : (g.involuteObj tp).coneAngle = 0 := hc
  have hch : (h.involuteObj tq).coneAngle = 0 := hc'
  have hkh : (h.involuteObj tq).kind ≠ .cycloid := by simp [WGear.involuteObj]
  obtain ⟨G, hG⟩ : ∃ G, G = (g.involuteObj tp).meshToAt (h.involuteObj tq) d D (0 / 2 * 0 / (g.involuteObj tp).rBase) :=
    ⟨_, rfl⟩
  have hoC : (h.involuteObj tq).transform.center = h.core.transform.center := rfl
  have hoO : (h.involuteObj tq).transform.orientation = O := hhO
  have hGc : G.transform.center = h.core.transform.center + D • d := by
    rw [hG]; simp only [GearObj.meshToAt]; rw [hoC, add_comm]
  have hGo : G.transform.orientation = O := by rw [hG, ← hoO]; rfl
  have hGs : G.transform.scale = g.core.transform.scale := by rw [hG]; rfl
  have hinv : (g.involuteObj tp).meshToInvolute solve (h.involuteObj tq) (ρ • d) 0 0 = some G := by
    simp only [GearObj.meshToInvolute, normalizeVector_smul hρ, normalizeVector_unit hdu, hcg, hch, ne_eq,
      not_true_eq_false, or_self, if_false, hkh, hD, hG]
  have hdiff : h.core.transform.center - G.transform.center = D • (-d) := by rw [hGc]; module
  refine ⟨G.transform.angle, ?_, ?_⟩
  · rw [← hd, ← hDd, WGear.meshToHelical, GearObj.meshToHelical, hinv]
    simp only [hoC, hdiff, normalizeVector_smul hDpos, normalizeVector_unit hnd, Option.map_some]
    rw [fromRotvec_smul hnd, hGo]
    have e1 : (g.involuteObj tp).helixAngle = P.helixAngle := Hg.helix
    have e2 : (h.involuteObj tq).helixAngle = Q.helixAngle := Hh.helix
    rw [e1, e2]
    simp only [WGear.place, ← hGc, ← hGs]
  · obtain ⟨T, hT⟩ : ∃ T : GearTransform, T = { (g.involuteObj tp).transform with
        center := D • d + (h.involuteObj tq).transform.center, orientation := (h.involuteObj tq).transform.orientation } :=
      ⟨_, rfl⟩
    have hTc : (h.involuteObj tq).transform.center - T.center = D • -d := by rw [hT]; module
    have hTc' : T.center - (h.involuteObj tq).transform.center = D • d := by rw [hT]; module
    have hTo : T.orientation = O := by rw [hT]; exact hoO
    have hA : G.transform.angle = calcMeshAngle T (h.involuteObj tq).transform (2 * π / N1) (2 * π / N2) false false := by
      rw [hG]; simp only [GearObj.meshToAt]
      rw [← hT, hrg, hrh, Hg.pitchAngle, Hh.pitchAngle, h1, h2]; simp
    have hc30 := c30_external_whole T (h.involuteObj tq).transform N1 N2 hN1 hN2 (δ + π) δ (by
        rw [hTc, norm3_smul, norm3_neg, hd, app_polarVec_unit hO, mul_one, abs_of_pos hDpos]; exact hDbig)
      (by rw [hTo, hTc, hd, ← app_neg, ← polarVec_add_pi]; exact seenAt_polar hO hDpos _)
      (by rw [hoO, hTc', hd]; exact seenAt_polar hO hDpos _)
    obtain ⟨n, hn⟩ := hc30
    rw [← hA] at hn
    have hang : (h.involuteObj tq).transform.angle = h.core.transform.angle := rfl
    rw [hang] at hn
    refine ⟨n, ?_⟩
    have e : N1 * (G.transform.angle - (δ + π)) + N2 * (h.core.transform.angle - δ) =
        2 * π * ((G.transform.angle - (δ + π)) / (2 * π / N1) + (h.core.transform.angle - δ) / (2 * π / N2)) := by
      field_simp
    rw [e]
    linear_combination 2 * π * hn

/-! ## C126 -/

/-- Two surfaces have the common normal `n` at points that are `gap·n` apart. -/
def SurfaceContact (S1 S2 : ℝ → ℝ → V3) (n : V3) (gap : ℝ) : Prop :=
  ∃ z1 t1 z2 t2 : ℝ, S1 z1 t1 - S2 z2 t2 = gap • n ∧ NormalAt2 S1 z1 t1 n ∧ NormalAt2 S2 z2 t2 n

/-- Unit normal of the rack tooth that both gears of a crossed pair would mesh with: it makes the angle `α` with the plane
perpendicular to the line of centres `δ`, and its component in this plane the angle `β` with the plane of the gear. -/
noncomputable def crossNormal (O : M3) (δ α β : ℝ) : V3 :=
  (-sin α) • app O (polarVec δ) + cos α • (cos β • app O (polarVec (δ + π / 2)) - sin β • app O OUT)

theorem crossNormal_unit {O : M3} (hO : IsRot O) (δ α β : ℝ) :
    dot (crossNormal O δ α β) (crossNormal O δ α β) = 1 := by
  have e : crossNormal O δ α β =
      app O ((-sin α) • polarVec δ + cos α • (cos β • polarVec (δ + π / 2) - sin β • OUT)) := by
    rw [crossNormal, app_add, app_smul, app_smul, app_sub, app_smul, app_smul]
  rw [e, hO.dot_app]
  simp [dot, polarVec, OUT, cos_add_pi_div_two, sin_add_pi_div_two]
  have h1 := sin_sq_add_cos_sq δ
  have h2 := sin_sq_add_cos_sq α
  have h3 := sin_sq_add_cos_sq β
  linear_combination (sin α ^ 2 + cos α ^ 2 * cos β ^ 2) * h1 + h2 + cos α ^ 2 * h3

theorem rackNormal_eq (O : M3) (δ α β : ℝ) (hα : cos α ≠ 0) :
    rackNormal O δ (tan α) β = (cos α)⁻¹ • crossNormal O δ α β := by
  rw [rackNormal, crossNormal, smul_add, smul_smul, smul_smul, inv_mul_cancel₀ hα, one_smul, tan_eq_sin_div_cos]
  congr 2
  field_simp

/-- How much play is left between the flanks of two helical gears with the normal module `m` and the normal pressure angle `α`
that are `D` apart, on each side. The first term is the difference to the sum of the pitch radii, from which the profile
shifts take `m·x` each; `b` is the `backlash` given to the constructors. -/
noncomputable def crossPlay (D : ℝ) (p q : GearInput) : ℝ :=
  (D - (p.module_ * p.numTeeth / (2 * cos p.helixAngle) + q.module_ * q.numTeeth / (2 * cos q.helixAngle))
    - p.module_ * (p.profileShift + q.profileShift)) * sin p.pressureAngle +
  p.module_ * (p.backlash + q.backlash) * cos p.pressureAngle

/-- What the constructor of a helical gear makes of its arguments. -/
structure Transverse (p P : GearInput) (α : ℝ) : Prop where
  sin_eq : sin α = tan α * cos α
  cosPos : 0 < cos α
  tan_eq : tan α * cos p.helixAngle = tan p.pressureAngle
  alpha : P.pressureAngle = α
  rb : cos p.helixAngle / cos α * (P.module_ * cos α * (P.numTeeth / 2)) = p.module_ * p.numTeeth / 2
  tooth : P.numTeeth * P.toothAngle = π / 2 + 2 * (p.profileShift * tan p.pressureAngle) - 2 * p.backlash
  radius : P.numTeeth / 2 * p.module_ * tan α = p.module_ * p.numTeeth / (2 * cos p.helixAngle) * tan p.pressureAngle

theorem transverse_spec (p : GearInput) (hn : 0 < p.numTeeth) (hβ : 0 < cos p.helixAngle) :
    Transverse p p.transverse p.transverse.pressureAngle := by
  have hc : 0 < cos p.transverse.pressureAngle := cos_arctan_pos _
  have ht : tan p.transverse.pressureAngle * cos p.helixAngle = tan p.pressureAngle := by
    simp only [GearInput.transverse, tan_arctan]; field_simp
  refine ⟨by rw [tan_eq_sin_div_cos]; field_simp, hc, ht, rfl, ?_, ?_, ?_⟩
  · change cos p.helixAngle / cos p.transverse.pressureAngle * (p.module_ / cos p.helixAngle *
      cos p.transverse.pressureAngle * (p.numTeeth / 2)) = _
    field_simp
  · rw [GearInput.toothAngle, ← ht]
    change p.numTeeth * (2 * π / p.numTeeth / 4 + p.profileShift * cos p.helixAngle * tan p.transverse.pressureAngle /
      (p.numTeeth / 2) - p.backlash / (p.numTeeth / 2)) = _
    field_simp; ring
  · rw [← ht]
    change p.numTeeth / 2 * p.module_ * _ = _
    field_simp

/-- Base radius of a helical gear. -/
noncomputable def baseRadius (p : GearInput) : ℝ :=
  p.transverse.module_ * cos p.transverse.pressureAngle * (p.numTeeth / 2)

/-- Arguments of two `HelicalGear`s with outer teeth, of the same (normal) module and pressure angle, without crowning. -/
structure CrossedPair (p q : GearInput) (N1 N2 : ℕ) : Prop where
  teeth : p.numTeeth = N1
  teeth' : q.numTeeth = N2
  posN : 0 < N1
  posN' : 0 < N2
  mod : p.module_ = q.module_
  modPos : 0 < p.module_
  alpha : p.pressureAngle = q.pressureAngle
  alphaPos : 0 < p.pressureAngle
  alphaLt : p.pressureAngle < π / 2
  beta : 0 < cos p.helixAngle
  beta' : 0 < cos q.helixAngle
  crown : p.crowning = 0
  crown' : q.crowning = 0
  out : p.insideTeeth = false
  out' : q.insideTeeth = false
  inv : tan p.transverse.pressureAngle - p.transverse.pressureAngle ≤ π
  inv' : tan q.transverse.pressureAngle - q.transverse.pressureAngle ≤ π

/-- **C126.** Two `HelicalGear`s with the same module and pressure angle and with helix angles that do not add up to 0 are
meshed. The meshed gear `g'` stands on a crossed axis, `D` away from the partner `h`. Whatever angles `φ1`, `φ2` the two gears
are turned by, every lower flank of `h` has a common normal with a lower flank of `g'`, whose direction is always the same, and
so have the upper flanks. Along the normals the flanks are `crossPlay D` apart, plus what the turning adds; that
is constant if the gears turn in the ratio of their tooth counts, `N1·φ1 + N2·φ2 = 0`. -/
theorem c126_crossed (solve : (ℝ → ℝ) → ℝ) (p q : GearInput) (N1 N2 : ℕ) (H : CrossedPair p q N1 N2)
    (hcross : sin (p.helixAngle + q.helixAngle) ≠ 0)
    (c C : V3) (o O : M3) (hO : IsRot O) (θ A ρ δ a : ℝ) (hρ : 0 < ρ) :
    let g := (helicalGear false p).place c o θ
    let h := (helicalGear false q).place C O A
    let tp := tan p.transverse.pressureAngle
    let tq := tan q.transverse.pressureAngle
    let D := (baseRadius p + baseRadius q) / cos a
    1 / 10 ^ 12 ≤ baseRadius p + baseRadius q → Finds solve (g.residual tp h tq false 0) a →
    ∃ M A', g.meshToHelical solve tp h tq (ρ • app O (polarVec δ)) =
        some (g.place (C + D • app O (polarVec δ)) M A') ∧
      ∀ (φ1 φ2 : ℝ) (k : ℤ),
        let g' := g.place (C + D • app O (polarVec δ)) M A'
        (∃ k1 : ℤ, SurfaceContact (fun z t => g'.involuteFlank tp false z φ1 k1 t) (fun z t => h.involuteFlank tq false z φ2 k t)
          (crossNormal O δ p.pressureAngle q.helixAngle)
          (-crossPlay D p q - p.module_ * cos p.pressureAngle / 2 * (N1 * φ1 + N2 * φ2))) ∧
        (∃ k1 : ℤ, SurfaceContact (fun z t => g'.involuteFlank tp true z φ1 k1 t) (fun z t => h.involuteFlank tq true z φ2 k t)
          (crossNormal O δ (-p.pressureAngle) q.helixAngle)
          (crossPlay D p q - p.module_ * cos p.pressureAngle / 2 * (N1 * φ1 + N2 * φ2))) := by
  intro g h tp tq D hbig F
  obtain ⟨h1, h2, hN1, hN2, hm, hm0, hα, ha, ha', hβ, hβ', hk, hk', hi, hi', hinv, hinv'⟩ := H
  let P := p.transverse
  let Q := q.transverse
  have h1' : (0 : ℝ) < N1 := by exact_mod_cast hN1
  have h2' : (0 : ℝ) < N2 := by exact_mod_cast hN2
  have hp0 : 0 < p.numTeeth := by rw [h1]; exact h1'
  have hq0 : 0 < q.numTeeth := by rw [h2]; exact h2'
  have hP0 : 0 < P.numTeeth := hp0
  have hQ0 : 0 < Q.numTeeth := hq0
  have Hg := (cylinder_helical (p := p) hp0 hi false).place c o θ
  have Hh := (cylinder_helical (p := q) hq0 hi' false).place C O A
  have hrg : (g.involuteObj tp).rBase = P.module_ * cos P.pressureAngle * (N1 / 2) := by rw [Hg.rBase, ← h1]; rfl
  have hrh : (h.involuteObj tq).rBase = Q.module_ * cos Q.pressureAngle * (N2 / 2) := by rw [Hh.rBase, ← h2]; rfl
  have hsum : (g.involuteObj tp).rBase + (h.involuteObj tq).rBase = baseRadius p + baseRadius q := by
    rw [hrg, hrh, baseRadius, baseRadius, h1, h2]
  have hcg : g.coneAngle = 0 := Hg.cone
  have hch : h.coneAngle = 0 := Hh.cone
  obtain ⟨A', hmesh, n, hn⟩ := meshToHelical_place solve Hg Hh (N1 := N1) (N2 := N2) h1 h2 hN1 hN2 hcg hch hO rfl tp tq hρ δ
    a (by rw [hsum]; exact hbig) F
  rw [hsum] at hmesh
  have hS1 := transverse_spec p hp0 hβ
  have hS2 := transverse_spec q hq0 hβ'
  have hca : 0 < cos p.pressureAngle := cos_pos' (by linarith [pi_pos]) ha'
  have hT0 : 0 < tan p.pressureAngle := tan_pos_of_pos_of_lt_pi_div_two ha ha'
  obtain ⟨M, hM⟩ : ∃ M, M = rotMat (-(app O (polarVec δ))) (p.helixAngle + q.helixAngle) * O := ⟨_, rfl⟩
  refine ⟨M, A', by rw [hM]; exact hmesh, ?_⟩
  intro φ1 φ2 k g'
  have Hg' := Hg.place (C + D • app O (polarVec δ)) M A'
  have hMr : IsRot M := by
    rw [hM]
    refine (IsRot.rotMat ?_ _).mul hO
    rw [dot_neg_left, dot_neg_right, neg_neg, hO.dot_app]
    have := sin_sq_add_cos_sq δ
    simp [dot, polarVec]; linear_combination this
  have hPα : 0 < P.pressureAngle := arctan_pos.mpr (div_pos hT0 hβ)
  have hPα' : P.pressureAngle < π / 2 := arctan_lt_pi_div_two _
  have hQα : 0 < Q.pressureAngle := arctan_pos.mpr (div_pos (hα ▸ hT0) hβ')
  have hQα' : Q.pressureAngle < π / 2 := arctan_lt_pi_div_two _
  have hbg : (g'.involuteObj tp).baseAngle = -(P.toothAngle + (tan P.pressureAngle - P.pressureAngle)) := by
    have := Hg'.angleBase hP0 hPα hPα' hinv
    have e : P.crowningFunc 0 P.toothAngle = P.toothAngle := by
      have : P.crowning = 0 := hk
      simp [GearInput.crowningFunc, this]
    rw [← e, ← neg_eq_iff_eq_neg]; exact this
  have hbh : (h.involuteObj tq).baseAngle = -(Q.toothAngle + (tan Q.pressureAngle - Q.pressureAngle)) := by
    have := Hh.angleBase hQ0 hQα hQα' hinv'
    have e : Q.crowningFunc 0 Q.toothAngle = Q.toothAngle := by
      have : Q.crowning = 0 := hk'
      simp [GearInput.crowningFunc, this]
    rw [← e, ← neg_eq_iff_eq_neg]; exact this
  have hrg' : (g'.involuteObj tp).rBase = P.module_ * cos P.pressureAngle * (P.numTeeth / 2) := Hg'.rBase tp
  have hrh' : (h.involuteObj tq).rBase = Q.module_ * cos Q.pressureAngle * (Q.numTeeth / 2) := Hh.rBase tq
  have hpg : (g'.involuteObj tp).pitchAngle = 2 * π / N1 := by rw [Hg'.pitchAngle, ← h1]; rfl
  have hph : (h.involuteObj tq).pitchAngle = 2 * π / N2 := by rw [Hh.pitchAngle, ← h2]; rfl
  have hPm : 0 < P.module_ := div_pos hm0 hβ
  have hQm : 0 < Q.module_ := div_pos (hm ▸ hm0) hβ'
  have eh := hS2.tan_eq
  rw [← hα] at eh
  have hxn : N1 * P.toothAngle + N2 * Q.toothAngle =
      π + 2 * ((p.profileShift + q.profileShift) * tan p.pressureAngle) - 2 * (p.backlash + q.backlash) := by
    have e1 := hS1.tooth
    have e2 := hS2.tooth
    rw [← hα] at e2
    have f1 : p.transverse.numTeeth = N1 := h1
    have f2 : q.transverse.numTeeth = N2 := h2
    rw [f1] at e1; rw [f2] at e2
    linear_combination e1 + e2
  have hrad : p.module_ / 2 * (N1 * tan P.pressureAngle + N2 * tan Q.pressureAngle) =
      (p.module_ * p.numTeeth / (2 * cos p.helixAngle) + q.module_ * q.numTeeth / (2 * cos q.helixAngle)) *
        tan p.pressureAngle := by
    have e1 := hS1.radius
    have e2 := hS2.radius
    rw [← hα] at e2
    have f1 : p.transverse.numTeeth = N1 := h1
    have f2 : q.transverse.numTeeth = N2 := h2
    rw [f1] at e1; rw [f2, ← hm] at e2
    rw [← hm]
    linear_combination e1 + e2
  have hT2 : 1 + tan p.pressureAngle ^ 2 = (cos p.pressureAngle)⁻¹ ^ 2 := by
    rw [tan_eq_sin_div_cos]; field_simp; linear_combination sin_sq_add_cos_sq p.pressureAngle
  have hplay : crossPlay D p q = cos p.pressureAngle * ((D -
      (p.module_ * p.numTeeth / (2 * cos p.helixAngle) + q.module_ * q.numTeeth / (2 * cos q.helixAngle))
      - p.module_ * (p.profileShift + q.profileShift)) * tan p.pressureAngle + p.module_ * (p.backlash + q.backlash)) := by
    have : sin p.pressureAngle = tan p.pressureAngle * cos p.pressureAngle := by rw [tan_eq_sin_div_cos]; field_simp
    rw [crossPlay, this]; ring
  have hgo : g'.core.transform.orientation = M := rfl
  have hgc : g'.core.transform.center = C + D • app O (polarVec δ) := rfl
  have hga : g'.core.transform.angle = A' := rfl
  have hho : h.core.transform.orientation = O := rfl
  have hhc : h.core.transform.center = C := rfl
  have hha : h.core.transform.angle = A := rfl
  have hhx : Q.helixAngle = q.helixAngle := rfl
  have hgx : P.helixAngle = p.helixAngle := rfl
  rw [hha] at hn
  have hrb1 := hS1.rb
  have hrb2 := hS2.rb
  rw [h1] at hrb1
  rw [h2, ← hm] at hrb2
  have hN1c : (N1 : ℝ) * (2 * π / N1) = 2 * π := by field_simp
  have hN2c : (N2 : ℝ) * (2 * π / N2) = 2 * π := by field_simp
  constructor
  · refine ⟨-n - k, ?_⟩
    obtain ⟨ug, hug⟩ : ∃ u, u = -((g'.involuteObj tp).rBase * (δ + π + P.pressureAngle -
      (A' + φ1 + ((-n - k : ℤ) : ℝ) * (g'.involuteObj tp).pitchAngle + (g'.involuteObj tp).baseAngle))) := ⟨_, rfl⟩
    obtain ⟨uh, huh⟩ : ∃ u, u = -((h.involuteObj tq).rBase * (δ + Q.pressureAngle -
      (A + φ2 + k * (h.involuteObj tq).pitchAngle + (h.involuteObj tq).baseAngle))) := ⟨_, rfl⟩
    obtain ⟨Xg, Xh, x1, x2, x3, x4, x5, x6, x7⟩ := crossed_geom hO C δ D (tan p.pressureAngle) P.pressureAngle Q.pressureAngle
      p.helixAngle q.helixAngle hcross hT0.ne' hβ hβ' hS1.cosPos hS2.cosPos hS1.tan_eq eh (g'.involuteObj tp).rBase
      (h.involuteObj tq).rBase ug uh
    rw [← hM] at x1 x2 x6
    obtain ⟨z1, t1, y1, y2⟩ := screw_lower Hg' hP0 hPm hk hMr tp φ1 (-n - k) (δ + π + P.pressureAngle) Xg x1 (x2.trans hug)
    obtain ⟨z2, t2, w1, w2⟩ := screw_lower Hh hQ0 hQm hk' hO tq φ2 k (δ + Q.pressureAngle) Xh x3 (x4.trans huh)
    have hnrm : crossNormal O δ p.pressureAngle q.helixAngle =
        cos p.pressureAngle • rackNormal O δ (tan p.pressureAngle) q.helixAngle := by
      rw [rackNormal_eq _ _ _ _ hca.ne', smul_smul, mul_inv_cancel₀ hca.ne', one_smul]
    refine ⟨z1, t1, z2, t2, ?_, ?_, ?_⟩
    · change g'.involuteFlank tp false z1 φ1 (-n - k) t1 - h.involuteFlank tq false z2 φ2 k t2 = _
      rw [y1, w1, x5, hnrm, smul_smul]
      congr 1
      have e1 : cos p.helixAngle / cos P.pressureAngle * ug = -(p.module_ / 2 * (N1 * (δ + π - A' - φ1) + 2 * π * (n + k) +
          N1 * P.toothAngle + N1 * tan P.pressureAngle)) := by
        rw [hug, hrg', hbg, hpg]
        push_cast
        linear_combination (-(δ + π + P.pressureAngle - (A' + φ1 + (-n - k) * (2 * π / N1) +
          -(P.toothAngle + (tan P.pressureAngle - P.pressureAngle))))) * hrb1 - p.module_ / 2 * (n + k) * hN1c
      have e2 : cos q.helixAngle / cos Q.pressureAngle * uh = -(p.module_ / 2 * (N2 * (δ - A - φ2) - 2 * π * k +
          N2 * Q.toothAngle + N2 * tan Q.pressureAngle)) := by
        rw [huh, hrh', hbh, hph]
        linear_combination (-(δ + Q.pressureAngle - (A + φ2 + k * (2 * π / N2) +
          -(Q.toothAngle + (tan Q.pressureAngle - Q.pressureAngle))))) * hrb2 + p.module_ / 2 * k * hN2c
      have hnum : -(cos p.helixAngle / cos P.pressureAngle * ug) - D * tan p.pressureAngle -
          cos q.helixAngle / cos Q.pressureAngle * uh = -(p.module_ / 2 * (N1 * φ1 + N2 * φ2)) - ((D -
          (p.module_ * p.numTeeth / (2 * cos p.helixAngle) + q.module_ * q.numTeeth / (2 * cos q.helixAngle))
          - p.module_ * (p.profileShift + q.profileShift)) * tan p.pressureAngle +
          p.module_ * (p.backlash + q.backlash)) := by
        rw [e1, e2]
        linear_combination p.module_ / 2 * hxn - p.module_ / 2 * hn + hrad
      rw [hnum, hT2, hplay]
      field_simp
      ring
    · rw [hnrm, x6]; exact (y2.smul _).smul _
    · rw [hnrm, x7]; exact (w2.smul _).smul _
  · refine ⟨-n - k - 1, ?_⟩
    obtain ⟨ug, hug⟩ : ∃ u, u = -((g'.involuteObj tp).rBase * (δ + π + -P.pressureAngle -
      (A' + φ1 + ((-n - k - 1 : ℤ) : ℝ) * (g'.involuteObj tp).pitchAngle - (g'.involuteObj tp).baseAngle))) := ⟨_, rfl⟩
    obtain ⟨uh, huh⟩ : ∃ u, u = -((h.involuteObj tq).rBase * (δ + -Q.pressureAngle -
      (A + φ2 + k * (h.involuteObj tq).pitchAngle - (h.involuteObj tq).baseAngle))) := ⟨_, rfl⟩
    obtain ⟨Xg, Xh, x1, x2, x3, x4, x5, x6, x7⟩ := crossed_geom hO C δ D (-tan p.pressureAngle) (-P.pressureAngle)
      (-Q.pressureAngle) p.helixAngle q.helixAngle hcross (neg_ne_zero.mpr hT0.ne') hβ hβ' (by rw [cos_neg]; exact hS1.cosPos)
      (by rw [cos_neg]; exact hS2.cosPos) (by rw [tan_neg, neg_mul, hS1.tan_eq]) (by rw [tan_neg, neg_mul, eh])
      (g'.involuteObj tp).rBase (h.involuteObj tq).rBase ug uh
    rw [← hM] at x1 x2 x6
    rw [cos_neg] at x2 x4
    rw [cos_neg P.pressureAngle] at x6 x5
    rw [cos_neg Q.pressureAngle] at x7 x5
    obtain ⟨z1, t1, y1, y2⟩ := screw_upper Hg' hP0 hPm hk hMr tp φ1 (-n - k - 1) (δ + π + -P.pressureAngle) Xg x1
      (x2.trans hug)
    obtain ⟨z2, t2, w1, w2⟩ := screw_upper Hh hQ0 hQm hk' hO tq φ2 k (δ + -Q.pressureAngle) Xh x3 (x4.trans huh)
    have hnrm : crossNormal O δ (-p.pressureAngle) q.helixAngle =
        cos p.pressureAngle • rackNormal O δ (-tan p.pressureAngle) q.helixAngle := by
      rw [← tan_neg, rackNormal_eq _ _ _ _ (by rw [cos_neg]; exact hca.ne'), smul_smul, cos_neg, mul_inv_cancel₀ hca.ne',
        one_smul]
    refine ⟨z1, t1, z2, t2, ?_, ?_, ?_⟩
    · change g'.involuteFlank tp true z1 φ1 (-n - k - 1) t1 - h.involuteFlank tq true z2 φ2 k t2 = _
      rw [y1, w1, x5, hnrm, smul_smul]
      congr 1
      have e1 : cos p.helixAngle / cos P.pressureAngle * ug = -(p.module_ / 2 * (N1 * (δ + π - A' - φ1) + 2 * π * (n + k + 1) -
          N1 * P.toothAngle - N1 * tan P.pressureAngle)) := by
        rw [hug, hrg', hbg, hpg]
        push_cast
        linear_combination (-(δ + π + -P.pressureAngle - (A' + φ1 + (-n - k - 1) * (2 * π / N1) -
          -(P.toothAngle + (tan P.pressureAngle - P.pressureAngle))))) * hrb1 - p.module_ / 2 * (n + k + 1) * hN1c
      have e2 : cos q.helixAngle / cos Q.pressureAngle * uh = -(p.module_ / 2 * (N2 * (δ - A - φ2) - 2 * π * k -
          N2 * Q.toothAngle - N2 * tan Q.pressureAngle)) := by
        rw [huh, hrh', hbh, hph]
        linear_combination (-(δ + -Q.pressureAngle - (A + φ2 + k * (2 * π / N2) -
          -(Q.toothAngle + (tan Q.pressureAngle - Q.pressureAngle))))) * hrb2 + p.module_ / 2 * k * hN2c
      have hnum : -(cos p.helixAngle / cos P.pressureAngle * ug) - D * -tan p.pressureAngle -
          cos q.helixAngle / cos Q.pressureAngle * uh = -(p.module_ / 2 * (N1 * φ1 + N2 * φ2)) + ((D -
          (p.module_ * p.numTeeth / (2 * cos p.helixAngle) + q.module_ * q.numTeeth / (2 * cos q.helixAngle))
          - p.module_ * (p.profileShift + q.profileShift)) * tan p.pressureAngle +
          p.module_ * (p.backlash + q.backlash)) := by
        rw [e1, e2]
        linear_combination -(p.module_ / 2) * hxn - p.module_ / 2 * hn - hrad
      rw [hnum, neg_sq, hT2, hplay]
      field_simp
      ring
    · rw [hnrm, x6]; exact (y2.smul _).smul _
    · rw [hnrm, x7]; exact (w2.smul _).smul _

/-! ## C127 -/

theorem sin_lt_tangent {x y : ℝ} (hx : 0 ≤ x) (hx' : x ≤ π) (hy : 0 ≤ y) (hy' : y ≤ π) (h : x ≠ y) :
    sin y < sin x + (y - x) * cos x := by
  rcases lt_or_gt_of_ne h with h | h
  · obtain ⟨c, hc, e⟩ := exists_hasDerivAt_eq_slope sin cos h continuous_sin.continuousOn (fun t _ => hasDerivAt_sin t)
    have hlt : cos c < cos x := strictAntiOn_cos ⟨hx, hx'⟩ ⟨by linarith [hc.1], by linarith [hc.2]⟩ hc.1
    rw [eq_div_iff (by linarith)] at e
    nlinarith
  · obtain ⟨c, hc, e⟩ := exists_hasDerivAt_eq_slope sin cos h continuous_sin.continuousOn (fun t _ => hasDerivAt_sin t)
    have hlt : cos x < cos c := strictAntiOn_cos ⟨by linarith [hc.1], by linarith [hc.2]⟩ ⟨hx, hx'⟩ hc.2
    rw [eq_div_iff (by linarith)] at e
    nlinarith

/-- The equation of the working pressure angle, for gears without backlash of their own. -/
theorem crossed_root {solve : (ℝ → ℝ) → ℝ} {p q : GearInput} {N1 N2 : ℕ} (H : CrossedPair p q N1 N2)
    (hb : p.backlash = 0) (hb' : q.backlash = 0) (c C : V3) (o O : M3) (θ A a : ℝ)
    (F : Finds solve (((helicalGear false p).place c o θ).residual (tan p.transverse.pressureAngle)
      ((helicalGear false q).place C O A) (tan q.transverse.pressureAngle) false 0) a) :
    let w := fun p : GearInput => p.transverse.module_ * cos p.transverse.pressureAngle
    let j := fun p : GearInput => tan p.transverse.pressureAngle - p.transverse.pressureAngle
    (tan a - a) * (baseRadius p + baseRadius q) = baseRadius p * j p + baseRadius q * j q + π / 4 * (w p - w q) +
      (w p * p.profileShift + w q * q.profileShift) * tan p.pressureAngle := by
  intro w j
  obtain ⟨h1, h2, hN1, hN2, hm, hm0, hα, ha, ha', hβ, hβ', hk, hk', hi, hi', hinv, hinv'⟩ := H
  have h1' : (0 : ℝ) < N1 := by exact_mod_cast hN1
  have h2' : (0 : ℝ) < N2 := by exact_mod_cast hN2
  have hp0 : 0 < p.numTeeth := by rw [h1]; exact h1'
  have hq0 : 0 < q.numTeeth := by rw [h2]; exact h2'
  have hP0 : 0 < p.transverse.numTeeth := hp0
  have hQ0 : 0 < q.transverse.numTeeth := hq0
  have hT0 : 0 < tan p.pressureAngle := tan_pos_of_pos_of_lt_pi_div_two ha ha'
  have Hg := (cylinder_helical (p := p) hp0 hi false).place c o θ
  have Hh := (cylinder_helical (p := q) hq0 hi' false).place C O A
  have hS1 := transverse_spec p hp0 hβ
  have hS2 := transverse_spec q hq0 hβ'
  have e1 := Hg.angleBase hP0 (arctan_pos.mpr (div_pos hT0 hβ)) (arctan_lt_pi_div_two _) hinv
  have e2 := Hh.angleBase hQ0 (arctan_pos.mpr (div_pos (hα ▸ hT0) hβ')) (arctan_lt_pi_div_two _) hinv'
  have c1 : p.transverse.crowningFunc 0 p.transverse.toothAngle = p.transverse.toothAngle := by
    have : p.transverse.crowning = 0 := hk
    simp [GearInput.crowningFunc, this]
  have c2 : q.transverse.crowningFunc 0 q.transverse.toothAngle = q.transverse.toothAngle := by
    have : q.transverse.crowning = 0 := hk'
    simp [GearInput.crowningFunc, this]
  have hroot := F.root
  simp only [WGear.residual, meshResidual, Bool.false_eq_true, if_false] at hroot
  rw [Hg.rBase, Hh.rBase, e1, e2, c1, c2, Hh.pitchAngle] at hroot
  have r1 : p.transverse.module_ * cos p.transverse.pressureAngle * (p.transverse.numTeeth / 2) = baseRadius p := rfl
  have r2 : q.transverse.module_ * cos q.transverse.pressureAngle * (q.transverse.numTeeth / 2) = baseRadius q := rfl
  have w1 : 0 < w p := mul_pos (div_pos hm0 hβ) hS1.cosPos
  have w2 : 0 < w q := mul_pos (div_pos (hm ▸ hm0) hβ') hS2.cosPos
  have hbp : baseRadius p = w p * (p.numTeeth / 2) := rfl
  have hbq : baseRadius q = w q * (q.numTeeth / 2) := rfl
  have b1 : 0 < baseRadius p := by rw [hbp]; positivity
  have b2 : 0 < baseRadius q := by rw [hbq]; positivity
  rw [r1, r2] at hroot
  have t1 : baseRadius p * p.transverse.toothAngle = w p * (π / 4 + p.profileShift * tan p.pressureAngle) := by
    have := hS1.tooth
    have e : p.transverse.numTeeth = p.numTeeth := rfl
    rw [e, hb] at this
    rw [hbp]; linear_combination w p / 2 * this
  have t2 : baseRadius q * q.transverse.toothAngle = w q * (π / 4 + q.profileShift * tan p.pressureAngle) := by
    have := hS2.tooth
    have e : q.transverse.numTeeth = q.numTeeth := rfl
    rw [e, hb', ← hα] at this
    rw [hbq]; linear_combination w q / 2 * this
  have t3 : baseRadius q * (2 * π / q.transverse.numTeeth) = w q * π := by
    have e : q.transverse.numTeeth = q.numTeeth := rfl
    rw [hbq, e]; field_simp
  have hsum : baseRadius p + baseRadius q ≠ 0 := by positivity
  have hr := (div_eq_iff hsum).mp (eq_sub_of_add_eq' hroot)
  simp only [j]
  linear_combination t1 + t2 - t3 / 2 - hr

/-- The arguments of C127: the working pressure angle `a` that the solver finds for two gears without backlash. -/
def Meshes (solve : (ℝ → ℝ) → ℝ) (p q : GearInput) (a : ℝ) : Prop :=
  p.backlash = 0 ∧ q.backlash = 0 ∧ ∃ (c C : V3) (o O : M3) (θ A : ℝ),
    Finds solve (((helicalGear false p).place c o θ).residual (tan p.transverse.pressureAngle)
      ((helicalGear false q).place C O A) (tan q.transverse.pressureAngle) false 0) a

/-- Pitch radius. -/
theorem pitch_radius {p : GearInput} (hβ : 0 < cos p.helixAngle) :
    p.module_ * p.numTeeth / (2 * cos p.helixAngle) = baseRadius p / cos p.transverse.pressureAngle := by
  have hc : 0 < cos p.transverse.pressureAngle := cos_arctan_pos _
  rw [baseRadius, eq_div_iff hc.ne']
  change _ = p.module_ / cos p.helixAngle * _ * _
  field_simp

theorem CrossedPair.base {p q : GearInput} {N1 N2 : ℕ} (H : CrossedPair p q N1 N2) : 0 < baseRadius p ∧ 0 < baseRadius q := by
  have h1' : (0 : ℝ) < N1 := by exact_mod_cast H.posN
  have h2' : (0 : ℝ) < N2 := by exact_mod_cast H.posN'
  constructor
  · have : 0 < p.transverse.module_ := div_pos H.modPos H.beta
    have : 0 < cos p.transverse.pressureAngle := cos_arctan_pos _
    rw [baseRadius, H.teeth]; positivity
  · have : 0 < q.transverse.module_ := div_pos (H.mod ▸ H.modPos) H.beta'
    have : 0 < cos q.transverse.pressureAngle := cos_arctan_pos _
    rw [baseRadius, H.teeth']; positivity

theorem CrossedPair.angles {p q : GearInput} {N1 N2 : ℕ} (H : CrossedPair p q N1 N2) :
    (0 < p.transverse.pressureAngle ∧ p.transverse.pressureAngle < π / 2) ∧
    (0 < q.transverse.pressureAngle ∧ q.transverse.pressureAngle < π / 2) := by
  have hT0 : 0 < tan p.pressureAngle := tan_pos_of_pos_of_lt_pi_div_two H.alphaPos H.alphaLt
  exact ⟨⟨arctan_pos.mpr (div_pos hT0 H.beta), arctan_lt_pi_div_two _⟩,
    ⟨arctan_pos.mpr (div_pos (H.alpha ▸ hT0) H.beta'), arctan_lt_pi_div_two _⟩⟩

/-- The larger the helix angle, the larger the base pitch in the plane of the gear. -/
theorem CrossedPair.base_pitch_lt {p q : GearInput} {N1 N2 : ℕ} (H : CrossedPair p q N1 N2)
    (hβ : cos p.helixAngle < cos q.helixAngle) :
    q.transverse.module_ * cos q.transverse.pressureAngle < p.transverse.module_ * cos p.transverse.pressureAngle := by
  have hT0 : 0 < tan p.pressureAngle := tan_pos_of_pos_of_lt_pi_div_two H.alphaPos H.alphaLt
  have hw : ∀ r : GearInput, 0 < cos r.helixAngle → r.transverse.module_ * cos r.transverse.pressureAngle =
      r.module_ / √(cos r.helixAngle ^ 2 + tan r.pressureAngle ^ 2) := by
    intro r hr
    change r.module_ / cos r.helixAngle * cos (arctan (tan r.pressureAngle / cos r.helixAngle)) = _
    rw [cos_arctan]
    have : cos r.helixAngle ^ 2 + tan r.pressureAngle ^ 2 =
        cos r.helixAngle ^ 2 * (1 + (tan r.pressureAngle / cos r.helixAngle) ^ 2) := by field_simp
    rw [this, sqrt_mul (sq_nonneg _), sqrt_sq hr.le]
    field_simp
  rw [hw p H.beta, hw q H.beta', ← H.mod, ← H.alpha]
  have hc0 := H.beta
  refine div_lt_div_of_pos_left H.modPos (by positivity) (sqrt_lt_sqrt (by positivity) ?_)
  have := pow_lt_pow_left₀ hβ hc0.le (two_ne_zero)
  linarith

theorem CrossedPair.symm {p q : GearInput} {N1 N2 : ℕ} (H : CrossedPair p q N1 N2) : CrossedPair q p N2 N1 :=
  ⟨H.teeth', H.teeth, H.posN', H.posN, H.mod.symm, H.mod ▸ H.modPos, H.alpha.symm, H.alpha ▸ H.alphaPos, H.alpha ▸ H.alphaLt,
    H.beta', H.beta, H.crown', H.crown, H.out', H.out, H.inv', H.inv⟩

/-- **C127, equal helix angles.** Without backlash, and with profile shifts that add up to 0, the flanks of two gears with equal
helix angles just touch, on both sides. -/
theorem c127_equal_partial (solve : (ℝ → ℝ) → ℝ) (p q : GearInput) (N1 N2 : ℕ) (H : CrossedPair p q N1 N2) (a : ℝ)
    (F : Meshes solve p q a) (hβ : cos p.helixAngle = cos q.helixAngle) (hx : p.profileShift + q.profileShift = 0) :
    crossPlay ((baseRadius p + baseRadius q) / cos a) p q = 0 := by
  obtain ⟨hb, hb', c, C, o, O, θ, A, F⟩ := F
  have hroot := crossed_root H hb hb' c C o O θ A a F
  obtain ⟨b1, b2⟩ := H.base
  obtain ⟨⟨ap, ap'⟩, aq, aq'⟩ := H.angles
  have hα : q.transverse.pressureAngle = p.transverse.pressureAngle := by
    change arctan (_ / _) = arctan (_ / _); rw [hβ, H.alpha]
  have hM : q.transverse.module_ = p.transverse.module_ := by
    change _ / _ = _ / _; rw [hβ, H.mod]
  simp only [hα, hM, sub_self, mul_zero, add_zero] at hroot
  have hx' : q.profileShift = -p.profileShift := by linarith
  rw [hx', mul_neg, add_neg_cancel, zero_mul, add_zero, ← add_mul, mul_comm] at hroot
  have he := mul_left_cancel₀ (add_pos b1 b2).ne' hroot
  have ha := inv_injective F.lo F.hi (by linarith [pi_pos]) ap' he
  rw [crossPlay, pitch_radius H.beta, pitch_radius H.beta', hb, hb', hx, ha, hα]
  ring

/-- **C127, different helix angles.** A gear whose helix angle is larger than that of its partner, so that its base pitch is
larger, is always placed too far away: there is play although no backlash was asked for. -/
theorem c127_play (solve : (ℝ → ℝ) → ℝ) (p q : GearInput) (N1 N2 : ℕ) (H : CrossedPair p q N1 N2) (a : ℝ)
    (F : Meshes solve p q a) (hβ : cos p.helixAngle < cos q.helixAngle) (hx : p.profileShift = 0) (hx' : q.profileShift = 0) :
    0 < crossPlay ((baseRadius p + baseRadius q) / cos a) p q := by
  obtain ⟨hb, hb', c, C, o, O, θ, A, F⟩ := F
  have hroot := crossed_root H hb hb' c C o O θ A a F
  obtain ⟨b1, b2⟩ := H.base
  obtain ⟨⟨ap, ap'⟩, aq, aq'⟩ := H.angles
  have hpi := pi_pos
  have hca : 0 < cos a := cos_pos' F.lo F.hi
  have hcp : 0 < cos p.transverse.pressureAngle := cos_arctan_pos _
  have hcq : 0 < cos q.transverse.pressureAngle := cos_arctan_pos _
  have hsp : 0 < sin p.pressureAngle := sin_pos_of_pos_of_lt_pi H.alphaPos (by linarith [H.alphaLt])
  have hwlt := H.base_pitch_lt hβ
  have tp := lt_tan ap ap'
  have tq := lt_tan aq aq'
  simp only [hx, hx', mul_zero, add_zero, zero_mul] at hroot
  have hRpos : 0 < baseRadius p + baseRadius q := add_pos b1 b2
  have hpos : 0 < tan a - a := by
    refine pos_of_mul_pos_left (b := baseRadius p + baseRadius q) ?_ hRpos.le
    rw [hroot]
    have := mul_pos b1 (sub_pos.mpr tp)
    have := mul_pos b2 (sub_pos.mpr tq)
    have := mul_pos (show 0 < π / 4 by positivity) (sub_pos.mpr hwlt)
    linarith
  have ha0 : 0 < a := by
    by_contra h
    have := inv_lt_inv_iff F.lo F.hi (b := 0) (by linarith) (by linarith)
    have h0 : ¬ (tan 0 - 0 < tan a - a) := by
      rw [inv_lt_inv_iff (by linarith) (by linarith) F.lo F.hi]; exact h
    rw [tan_zero, sub_zero] at h0
    exact h0 hpos
  have hsa : 0 < sin a := sin_pos_of_pos_of_lt_pi ha0 (by linarith [F.hi])
  have key : ∀ x : ℝ, 0 < x → x < π / 2 → sin a / cos x ≤ tan x - x + a := by
    intro x h0 h1
    have hc : 0 < cos x := cos_pos' (by linarith) h1
    have hle : sin a ≤ sin x + (a - x) * cos x := by
      rcases eq_or_ne x a with h | h
      · rw [h]; linarith
      · exact (sin_lt_tangent h0.le (by linarith) ha0.le (by linarith [F.hi]) h).le
    rw [div_le_iff₀ hc, tan_eq_sin_div_cos]
    have : (sin x / cos x - x + a) * cos x = sin x + (a - x) * cos x := by field_simp; ring
    rw [this]; exact hle
  have k1 := mul_le_mul_of_nonneg_left (key _ ap ap') b1.le
  have k2 := mul_le_mul_of_nonneg_left (key _ aq aq') b2.le
  rw [crossPlay, pitch_radius H.beta, pitch_radius H.beta', hb, hb', hx, hx']
  simp only [add_zero, mul_zero, zero_mul, sub_zero]
  refine mul_pos ?_ hsp
  refine pos_of_mul_pos_left (b := sin a) ?_ hsa.le
  have htan : tan a * (baseRadius p + baseRadius q) = sin a * ((baseRadius p + baseRadius q) / cos a) := by
    rw [tan_eq_sin_div_cos]; field_simp
  have hsplit : ((baseRadius p + baseRadius q) / cos a -
      (baseRadius p / cos p.transverse.pressureAngle + baseRadius q / cos q.transverse.pressureAngle)) * sin a =
      tan a * (baseRadius p + baseRadius q) - (baseRadius p * (sin a / cos p.transverse.pressureAngle) +
        baseRadius q * (sin a / cos q.transverse.pressureAngle)) := by rw [htan]; ring
  rw [hsplit]
  have := mul_pos (show 0 < π / 4 by positivity) (sub_pos.mpr hwlt)
  linarith

/-- **C127, order of the gears.** The distance depends on which of the two gears is meshed to the other. -/
theorem c127_order (solve solve' : (ℝ → ℝ) → ℝ) (p q : GearInput) (N1 N2 : ℕ) (H : CrossedPair p q N1 N2) (a a' : ℝ)
    (F : Meshes solve p q a) (F' : Meshes solve' q p a') (hβ : cos p.helixAngle < cos q.helixAngle)
    (hx : p.profileShift = 0) (hx' : q.profileShift = 0) :
    (baseRadius q + baseRadius p) / cos a' < (baseRadius p + baseRadius q) / cos a := by
  obtain ⟨hb, hb', c, C, o, O, θ, A, F⟩ := F
  obtain ⟨-, -, c', C', o', O', θ', A', F'⟩ := F'
  have h1 := crossed_root H hb hb' c C o O θ A a F
  have h2 := crossed_root H.symm hb' hb c' C' o' O' θ' A' a' F'
  obtain ⟨b1, b2⟩ := H.base
  obtain ⟨⟨ap, ap'⟩, aq, aq'⟩ := H.angles
  have hpi := pi_pos
  have hwlt := H.base_pitch_lt hβ
  simp only [hx, hx', mul_zero, add_zero, zero_mul] at h1 h2
  have hS := mul_pos b1 (sub_pos.mpr (lt_tan ap ap'))
  have hS' := mul_pos b2 (sub_pos.mpr (lt_tan aq aq'))
  have he := mul_pos (show 0 < π / 4 by positivity) (sub_pos.mpr hwlt)
  have hR : 0 < baseRadius p + baseRadius q := add_pos b1 b2
  have e1 : tan a' - a' < tan a - a := by
    refine lt_of_mul_lt_mul_right (a := baseRadius p + baseRadius q) ?_ hR.le
    linarith
  have e2 : tan (-a') - -a' < tan a - a := by
    refine lt_of_mul_lt_mul_right (a := baseRadius p + baseRadius q) ?_ hR.le
    rw [tan_neg]; linarith
  rw [inv_lt_inv_iff F'.lo F'.hi F.lo F.hi] at e1
  rw [inv_lt_inv_iff (by linarith [F'.hi]) (by linarith [F'.lo]) F.lo F.hi] at e2
  have habs : |a'| < a := abs_lt.mpr ⟨by linarith, e1⟩
  have hcos : cos a < cos a' := by
    rw [← cos_abs a']
    exact strictAntiOn_cos ⟨abs_nonneg _, by linarith [F.hi]⟩ ⟨by linarith [abs_nonneg a'], by linarith [F.hi]⟩ habs
  rw [add_comm (baseRadius q)]
  exact div_lt_div_of_pos_left hR (cos_pos' F.lo F.hi) hcos

/-- **C127, profile shift.** Gears with equal helix angles whose profile shifts do not add up to 0 are always placed too close
together: their teeth overlap. -/
theorem c127_overlap (solve : (ℝ → ℝ) → ℝ) (p q : GearInput) (N1 N2 : ℕ) (H : CrossedPair p q N1 N2) (a : ℝ)
    (F : Meshes solve p q a) (ha0 : 0 ≤ a) (hβ : cos p.helixAngle = cos q.helixAngle)
    (hx : p.profileShift + q.profileShift ≠ 0) :
    crossPlay ((baseRadius p + baseRadius q) / cos a) p q < 0 := by
  obtain ⟨hb, hb', c, C, o, O, θ, A, F⟩ := F
  have hroot := crossed_root H hb hb' c C o O θ A a F
  obtain ⟨b1, b2⟩ := H.base
  obtain ⟨⟨ap, ap'⟩, aq, aq'⟩ := H.angles
  have hpi := pi_pos
  have hca : 0 < cos a := cos_pos' F.lo F.hi
  have hT0 : 0 < tan p.pressureAngle := tan_pos_of_pos_of_lt_pi_div_two H.alphaPos H.alphaLt
  have hsp : 0 < sin p.pressureAngle := sin_pos_of_pos_of_lt_pi H.alphaPos (by linarith [H.alphaLt])
  have hα : q.transverse.pressureAngle = p.transverse.pressureAngle := by
    change arctan (_ / _) = arctan (_ / _); rw [hβ, H.alpha]
  have hM : q.transverse.module_ = p.transverse.module_ := by
    change _ / _ = _ / _; rw [hβ, H.mod]
  simp only [hα, hM, sub_self, mul_zero, add_zero] at hroot
  have hcp : 0 < cos p.transverse.pressureAngle := cos_arctan_pos _
  have hMm : p.transverse.module_ * cos p.transverse.pressureAngle * tan p.pressureAngle =
      p.module_ * sin p.transverse.pressureAngle := by
    have e := (transverse_spec p (by rw [H.teeth]; exact_mod_cast H.posN) H.beta)
    have e1 := e.tan_eq
    have e2 := e.sin_eq
    rw [e2, ← e1]
    change p.module_ / cos p.helixAngle * _ * _ = _
    have := H.beta
    field_simp
  obtain ⟨R, hR⟩ : ∃ R, R = baseRadius p + baseRadius q := ⟨_, rfl⟩
  have hRpos : 0 < R := by rw [hR]; exact add_pos b1 b2
  obtain ⟨x, hxd⟩ : ∃ x, x = p.transverse.pressureAngle := ⟨_, rfl⟩
  obtain ⟨X, hX⟩ : ∃ X, X = p.profileShift + q.profileShift := ⟨_, rfl⟩
  have hroot' : (tan a - a - (tan x - x)) * R = p.module_ * sin x * X := by
    rw [hR, hX, hxd, ← hMm]; linear_combination hroot
  rw [← hxd] at ap ap' hcp
  have hsx : 0 < sin x := sin_pos_of_pos_of_lt_pi ap (by linarith)
  have hax : a ≠ x := by
    intro h
    rw [h, sub_self, zero_mul, eq_comm] at hroot'
    exact (mul_ne_zero (mul_pos H.modPos hsx).ne' (hX ▸ hx)) hroot'
  have ht := sin_lt_tangent ha0 (by linarith [F.hi]) ap.le (by linarith) hax
  rw [crossPlay, pitch_radius H.beta, pitch_radius H.beta', hb, hb', hα, ← hxd, ← hX, ← hR]
  simp only [add_zero, mul_zero, zero_mul]
  refine mul_neg_of_neg_of_pos ?_ hsp
  have e : baseRadius p / cos x + baseRadius q / cos x = R / cos x := by rw [hR]; ring
  rw [e]
  have hlt : R / cos a * sin x < R * (tan a - a + x) := by
    have : tan a = sin a / cos a := tan_eq_sin_div_cos a
    have e2 : R * (tan a - a + x) = R / cos a * (sin a + (x - a) * cos a) := by rw [this]; field_simp; ring
    rw [e2]
    exact mul_lt_mul_of_pos_left ht (div_pos hRpos hca)
  have e3 : R / cos x * sin x = R * tan x := by rw [tan_eq_sin_div_cos]; ring
  by_contra hcon
  push Not at hcon
  have := mul_nonneg hcon hsx.le
  have : (R / cos a - R / cos x - p.module_ * X) * sin x =
      R / cos a * sin x - R * tan x - p.module_ * sin x * X := by rw [← e3]; ring
  nlinarith

/-- `HelicalGear(24, module 2)` with the given helix angle and profile shift. -/
noncomputable def crossInput (β x : ℝ) : GearInput := { exampleInput with helixAngle := β, profileShift := x }

theorem crossInput_inv (β x : ℝ) (hβ : 1 / 2 ≤ cos β) :
    tan (crossInput β x).transverse.pressureAngle - (crossInput β x).transverse.pressureAngle ≤ π := by
  have hpi := pi_pos
  have e : tan (crossInput β x).transverse.pressureAngle = tan (π / 9) / cos β := tan_arctan _
  have h0 : 0 < tan (π / 9) := tan_pos_of_pos_of_lt_pi_div_two (by positivity) (by linarith)
  have h1 : tan (π / 9) < 1 := by
    rw [← tan_pi_div_four]
    exact tan_lt_tan_of_lt_of_lt_pi_div_two (by linarith) (by linarith) (by linarith)
  have h2 : tan (π / 9) / cos β ≤ 2 := by
    rw [div_le_iff₀ (by linarith)]; nlinarith
  have h3 : 0 < (crossInput β x).transverse.pressureAngle := 
    arctan_pos.mpr (div_pos h0 (show 0 < cos β by linarith))
  rw [e]
  linarith [two_le_pi]

theorem crossInput_pair (β β' x x' : ℝ) (hβ : 1 / 2 ≤ cos β) (hβ' : 1 / 2 ≤ cos β') :
    CrossedPair (crossInput β x) (crossInput β' x') 24 24 :=
  ⟨by norm_num [crossInput, exampleInput], by norm_num [crossInput, exampleInput], by norm_num, by norm_num, rfl,
    by norm_num [crossInput, exampleInput], rfl, by change 0 < π / 9; positivity,
    by change π / 9 < π / 2; linarith [pi_pos], by change 0 < cos β; linarith, by change 0 < cos β'; linarith, rfl, rfl, rfl, rfl,
    crossInput_inv β x hβ, crossInput_inv β' x' hβ'⟩

theorem cos_pi_div_six_ge : 1 / 2 ≤ cos (π / 6) := by
  rw [cos_pi_div_six]
  have : (1 : ℝ) ≤ √3 := by rw [← sqrt_one]; exact sqrt_le_sqrt (by norm_num)
  linarith

theorem crossInput_meshes (β β' x x' : ℝ) : ∃ solve a, Meshes solve (crossInput β x) (crossInput β' x') a := by
  obtain ⟨solve, a, F⟩ := solvable _ _ _ _ _ false 0
  exact ⟨solve, a, rfl, rfl, 0, 0, 1, 1, 0, 0, F⟩

/-- Concrete case of C126: gears with 24 teeth, module 2 and profile shift 1/5, helix angles of 30° and 0°. The base radii add
up to more than 24. -/
example : CrossedPair (crossInput (π / 6) (1 / 5)) (crossInput 0 (1 / 5)) 24 24 ∧
    sin ((crossInput (π / 6) (1 / 5)).helixAngle + (crossInput 0 (1 / 5)).helixAngle) ≠ 0 ∧
    1 / 10 ^ 12 ≤ baseRadius (crossInput (π / 6) (1 / 5)) + baseRadius (crossInput 0 (1 / 5)) ∧
    ∃ solve a, Meshes solve (crossInput (π / 6) (1 / 5)) (crossInput 0 (1 / 5)) a := by
  refine ⟨crossInput_pair _ _ _ _ cos_pi_div_six_ge (by rw [cos_zero]; norm_num), ?_, ?_, crossInput_meshes _ _ _ _⟩
  · change sin (π / 6 + 0) ≠ 0
    rw [add_zero, sin_pi_div_six]; norm_num
  · have hb := (crossInput_pair (π / 6) 0 (1 / 5) (1 / 5) cos_pi_div_six_ge (by rw [cos_zero]; norm_num)).base
    have h1 : baseRadius (crossInput 0 (1 / 5)) = 24 * cos (arctan (tan (π / 9))) := by
      change 2 / cos 0 * cos (arctan (tan (π / 9) / cos 0)) * (24 / 2) = _
      rw [cos_zero, div_one, div_one]; ring
    rw [arctan_tan (by linarith [pi_pos]) (by linarith [pi_pos])] at h1
    have h2 : 1 / 2 ≤ cos (π / 9) := by
      rw [← cos_pi_div_three]
      exact (strictAntiOn_cos ⟨by positivity, by linarith [pi_pos]⟩ ⟨by positivity, by linarith [pi_pos]⟩
        (by linarith [pi_pos])).le
    linarith [hb.1]

/-- Concrete case of `c127_equal_partial`: two equal gears with a helix angle of 30°, on axes crossed by 60°. -/
example : CrossedPair (crossInput (π / 6) 0) (crossInput (π / 6) 0) 24 24 ∧
    (crossInput (π / 6) 0).profileShift + (crossInput (π / 6) 0).profileShift = 0 ∧
    ∃ solve a, Meshes solve (crossInput (π / 6) 0) (crossInput (π / 6) 0) a :=
  ⟨crossInput_pair _ _ _ _ cos_pi_div_six_ge cos_pi_div_six_ge, by change (0 : ℝ) + 0 = 0; ring, crossInput_meshes _ _ _ _⟩

/-- Concrete case of `c127_play` and `c127_order`. -/
example : CrossedPair (crossInput (π / 6) 0) (crossInput 0 0) 24 24 ∧
    cos (crossInput (π / 6) 0).helixAngle < cos (crossInput 0 0).helixAngle ∧
    (∃ solve a, Meshes solve (crossInput (π / 6) 0) (crossInput 0 0) a) ∧
    (∃ solve a, Meshes solve (crossInput 0 0) (crossInput (π / 6) 0) a) := by
  refine ⟨crossInput_pair _ _ _ _ cos_pi_div_six_ge (by rw [cos_zero]; norm_num), ?_, crossInput_meshes _ _ _ _,
    crossInput_meshes _ _ _ _⟩
  change cos (π / 6) < cos 0
  exact strictAntiOn_cos ⟨le_refl 0, pi_pos.le⟩ ⟨by positivity, by linarith [pi_pos]⟩ (by positivity)

/-- **C127 is violated** by a helical gear of 30° meshed to a spur gear (as `HelicalGear` with helix angle 0): play, and by two
helical gears of 30° with profile shift 1/5: overlap. -/
theorem c127_violated :
    (∃ solve a, Meshes solve (crossInput (π / 6) 0) (crossInput 0 0) a ∧ CrossedPair (crossInput (π / 6) 0) (crossInput 0 0) 24 24 ∧
      0 < crossPlay ((baseRadius (crossInput (π / 6) 0) + baseRadius (crossInput 0 0)) / cos a)
        (crossInput (π / 6) 0) (crossInput 0 0)) ∧
    (∃ solve a, Meshes solve (crossInput (π / 6) (1 / 5)) (crossInput (π / 6) (1 / 5)) a ∧
      CrossedPair (crossInput (π / 6) (1 / 5)) (crossInput (π / 6) (1 / 5)) 24 24 ∧
      crossPlay ((baseRadius (crossInput (π / 6) (1 / 5)) + baseRadius (crossInput (π / 6) (1 / 5))) / cos a)
        (crossInput (π / 6) (1 / 5)) (crossInput (π / 6) (1 / 5)) < 0) := by
  constructor
  · obtain ⟨solve, a, F⟩ := crossInput_meshes (π / 6) 0 0 0
    have H := crossInput_pair (π / 6) 0 0 0 cos_pi_div_six_ge (by rw [cos_zero]; norm_num)
    refine ⟨solve, a, F, H, c127_play solve _ _ 24 24 H a F ?_ rfl rfl⟩
    change cos (π / 6) < cos 0
    exact strictAntiOn_cos ⟨le_refl 0, pi_pos.le⟩ ⟨by positivity, by linarith [pi_pos]⟩ (by positivity)
  · obtain ⟨solve, a, F⟩ := crossInput_meshes (π / 6) (π / 6) (1 / 5) (1 / 5)
    have H := crossInput_pair (π / 6) (π / 6) (1 / 5) (1 / 5) cos_pi_div_six_ge cos_pi_div_six_ge
    refine ⟨solve, a, F, H, c127_overlap solve _ _ 24 24 H a F ?_ rfl (by change (1 / 5 : ℝ) + 1 / 5 ≠ 0; norm_num)⟩
    obtain ⟨hb, hb', c, C, o, O, θ, A, F'⟩ := F
    have hroot := crossed_root H hb hb' c C o O θ A a F'
    obtain ⟨b1, b2⟩ := H.base
    obtain ⟨⟨ap, ap'⟩, -, -⟩ := H.angles
    have hpi := pi_pos
    by_contra hneg
    push Not at hneg
    have h0 : tan a - a < tan 0 - 0 := inv_lt_inv F'.lo hneg (by linarith)
    rw [tan_zero, sub_zero] at h0
    have e : (crossInput (π / 6) (1 / 5)).profileShift = 1 / 5 := rfl
    simp only [e, sub_self, mul_zero, add_zero] at hroot
    have hj := sub_pos.mpr (lt_tan ap ap')
    have hT : 0 < tan (crossInput (π / 6) (1 / 5)).pressureAngle :=
      tan_pos_of_pos_of_lt_pi_div_two H.alphaPos H.alphaLt
    have hM : 0 < (crossInput (π / 6) (1 / 5)).transverse.module_ := div_pos H.modPos H.beta
    have hc : 0 < cos (crossInput (π / 6) (1 / 5)).transverse.pressureAngle := cos_arctan_pos _
    have hl := mul_neg_of_neg_of_pos h0 (add_pos b1 b2)
    rw [hroot] at hl
    have : 0 < baseRadius (crossInput (π / 6) (1 / 5)) * (tan (crossInput (π / 6) (1 / 5)).transverse.pressureAngle -
      (crossInput (π / 6) (1 / 5)).transverse.pressureAngle) := mul_pos b1 hj
    have : 0 < ((crossInput (π / 6) (1 / 5)).transverse.module_ * cos (crossInput (π / 6) (1 / 5)).transverse.pressureAngle * (1 / 5) +
      (crossInput (π / 6) (1 / 5)).transverse.module_ * cos (crossInput (π / 6) (1 / 5)).transverse.pressureAngle * (1 / 5)) *
      tan (crossInput (π / 6) (1 / 5)).pressureAngle := by positivity
    linarith

end Verif
