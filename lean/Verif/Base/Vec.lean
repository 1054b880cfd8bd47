import Mathlib.LinearAlgebra.CrossProduct
import Mathlib.Analysis.SpecialFunctions.Trigonometric.Arctan
import Mathlib.Analysis.SpecialFunctions.Complex.Arg
import Mathlib.Tactic.Linarith
import Mathlib.Tactic.Ring
import Mathlib.Tactic.FinCases
import Mathlib.Tactic.FieldSimp
import Mathlib.Tactic.LinearCombination
import Mathlib.Tactic.Positivity

/-!
# Vectors, matrices and rotations

Primitives used by every model file: numpy vectors of length 3, 3×3 arrays, the named
direction constants, norms and products, and the scipy rotations with a closed form.
-/

namespace Verif

open Matrix Real

/-- A numpy array of shape `(3,)`. -/
abbrev V3 := Fin 3 → ℝ

/-- A numpy array of shape `(3, 3)`. -/
abbrev M3 := Matrix (Fin 3) (Fin 3) ℝ

/-- Direction constants of `/repo/src/gggears/defs.py:33-46`. -/
def ORIGIN : V3 := ![0, 0, 0]
def RIGHT : V3 := ![1, 0, 0]
def LEFT : V3 := ![-1, 0, 0]
def UP : V3 := ![0, 1, 0]
def DOWN : V3 := ![0, -1, 0]
def OUT : V3 := ![0, 0, 1]
def IN : V3 := ![0, 0, -1]

/-- `DELTA` of `/repo/src/gggears/defs.py:21`. -/
noncomputable def DELTA : ℝ := 1 / 1000000

/-- `np.dot` of two vectors. -/
def dot (v w : V3) : ℝ := v 0 * w 0 + v 1 * w 1 + v 2 * w 2

/-- `np.cross` of two vectors. -/
def cross (v w : V3) : V3 :=
  ![v 1 * w 2 - v 2 * w 1, v 2 * w 0 - v 0 * w 2, v 0 * w 1 - v 1 * w 0]

/-- `np.linalg.norm` of one vector. -/
noncomputable def norm3 (v : V3) : ℝ := √(dot v v)

/-- `np.arctan2(y, x)`. -/
noncomputable def arctan2 (y x : ℝ) : ℝ := Complex.arg ⟨x, y⟩

/-- scipy `Rotation.from_euler("z", a).as_matrix()`. -/
noncomputable def Rz (a : ℝ) : M3 := !![cos a, -sin a, 0; sin a, cos a, 0; 0, 0, 1]

/-- scipy `Rotation.from_euler("y", a).as_matrix()`. -/
noncomputable def Ry (a : ℝ) : M3 := !![cos a, 0, sin a; 0, 1, 0; -sin a, 0, cos a]

/-- scipy `Rotation.from_euler("x", a).as_matrix()`. -/
noncomputable def Rx (a : ℝ) : M3 := !![1, 0, 0; 0, cos a, -sin a; 0, sin a, cos a]

/-- `rot.apply(v)` / `M @ v`. -/
def app (M : M3) (v : V3) : V3 := M *ᵥ v

/-- Matrix of the rotation by `angle` about the unit vector `n`. -/
noncomputable def rotMat (n : V3) (a : ℝ) : M3 :=
  !![cos a + (1 - cos a) * n 0 * n 0, -(sin a * n 2) + (1 - cos a) * n 0 * n 1,
      sin a * n 1 + (1 - cos a) * n 0 * n 2;
    sin a * n 2 + (1 - cos a) * n 1 * n 0, cos a + (1 - cos a) * n 1 * n 1,
      -(sin a * n 0) + (1 - cos a) * n 1 * n 2;
    -(sin a * n 1) + (1 - cos a) * n 2 * n 0, sin a * n 0 + (1 - cos a) * n 2 * n 1,
      cos a + (1 - cos a) * n 2 * n 2]

/-- scipy `Rotation.from_rotvec(w).as_matrix()`: the rotation by `|w|` about `w / |w|`,
and the identity for the zero vector. -/
noncomputable def fromRotvec (w : V3) : M3 :=
  if norm3 w = 0 then 1 else rotMat ((norm3 w)⁻¹ • w) (norm3 w)

/-- Rodrigues' formula for rotating `v` by `angle` about the unit vector `axis`. -/
noncomputable def rodrigues (axis : V3) (angle : ℝ) (v : V3) : V3 :=
  cos angle • v + sin angle • cross axis v + ((1 - cos angle) * dot axis v) • axis

/-- A rotation matrix: orthogonal with determinant one. -/
structure IsRot (M : M3) : Prop where
  orth : Mᵀ * M = 1
  det : M.det = 1

/-! ## Component lemmas -/

@[simp] theorem ORIGIN_eq : ORIGIN = 0 := by ext i; fin_cases i <;> simp [ORIGIN]
theorem LEFT_eq : LEFT = -RIGHT := by ext i; fin_cases i <;> simp [LEFT, RIGHT]
theorem DOWN_eq : DOWN = -UP := by ext i; fin_cases i <;> simp [DOWN, UP]
theorem IN_eq : IN = -OUT := by ext i; fin_cases i <;> simp [IN, OUT]

theorem V3.ext3 {v w : V3} (h0 : v 0 = w 0) (h1 : v 1 = w 1) (h2 : v 2 = w 2) : v = w := by
  ext i; fin_cases i <;> assumption

theorem app_0 (M : M3) (v : V3) : app M v 0 = M 0 0 * v 0 + M 0 1 * v 1 + M 0 2 * v 2 := by
  simp [app, Matrix.mulVec, dotProduct, Fin.sum_univ_three]
theorem app_1 (M : M3) (v : V3) : app M v 1 = M 1 0 * v 0 + M 1 1 * v 1 + M 1 2 * v 2 := by
  simp [app, Matrix.mulVec, dotProduct, Fin.sum_univ_three]
theorem app_2 (M : M3) (v : V3) : app M v 2 = M 2 0 * v 0 + M 2 1 * v 1 + M 2 2 * v 2 := by
  simp [app, Matrix.mulVec, dotProduct, Fin.sum_univ_three]

@[simp] theorem Rz_app (a : ℝ) (v : V3) :
    app (Rz a) v = ![cos a * v 0 - sin a * v 1, sin a * v 0 + cos a * v 1, v 2] := by
  apply V3.ext3 <;> simp [app_0, app_1, app_2, Rz]
  ring

@[simp] theorem Ry_app (a : ℝ) (v : V3) :
    app (Ry a) v = ![cos a * v 0 + sin a * v 2, v 1, -(sin a * v 0) + cos a * v 2] := by
  apply V3.ext3 <;> simp [app_0, app_1, app_2, Ry]

@[simp] theorem Rx_app (a : ℝ) (v : V3) :
    app (Rx a) v = ![v 0, cos a * v 1 - sin a * v 2, sin a * v 1 + cos a * v 2] := by
  apply V3.ext3 <;> simp [app_0, app_1, app_2, Rx]
  ring

theorem app_add (M : M3) (v w : V3) : app M (v + w) = app M v + app M w := Matrix.mulVec_add ..
theorem app_sub (M : M3) (v w : V3) : app M (v - w) = app M v - app M w := Matrix.mulVec_sub ..
theorem app_neg (M : M3) (v : V3) : app M (-v) = -app M v := Matrix.mulVec_neg ..
theorem app_smul (M : M3) (c : ℝ) (v : V3) : app M (c • v) = c • app M v := Matrix.mulVec_smul ..
theorem app_zero (M : M3) : app M 0 = 0 := Matrix.mulVec_zero M
theorem app_mul (M N : M3) (v : V3) : app (M * N) v = app M (app N v) := by
  simp [app, Matrix.mulVec_mulVec]
@[simp] theorem app_one (v : V3) : app 1 v = v := by simp [app]
/-- `v @ M` for a numpy row vector. -/
theorem vecMul_eq (M : M3) (v : V3) : v ᵥ* M = app Mᵀ v := by
  simp [app, Matrix.mulVec_transpose]

/-! ## dot, cross, norm -/

theorem dot_eq (v w : V3) : dot v w = v ⬝ᵥ w := by
  simp [dot, dotProduct, Fin.sum_univ_three]
theorem dot_comm (v w : V3) : dot v w = dot w v := by simp [dot]; ring
theorem dot_add_left (u v w : V3) : dot (u + v) w = dot u w + dot v w := by simp [dot]; ring
theorem dot_add_right (u v w : V3) : dot u (v + w) = dot u v + dot u w := by simp [dot]; ring
theorem dot_sub_left (u v w : V3) : dot (u - v) w = dot u w - dot v w := by simp [dot]; ring
theorem dot_sub_right (u v w : V3) : dot u (v - w) = dot u v - dot u w := by simp [dot]; ring
theorem dot_smul_left (c : ℝ) (v w : V3) : dot (c • v) w = c * dot v w := by simp [dot]; ring
theorem dot_smul_right (c : ℝ) (v w : V3) : dot v (c • w) = c * dot v w := by simp [dot]; ring
theorem dot_neg_left (v w : V3) : dot (-v) w = -dot v w := by simp [dot]; ring
theorem dot_neg_right (v w : V3) : dot v (-w) = -dot v w := by simp [dot]; ring
@[simp] theorem dot_zero_left (v : V3) : dot 0 v = 0 := by simp [dot]
@[simp] theorem dot_zero_right (v : V3) : dot v 0 = 0 := by simp [dot]

theorem dot_self_nonneg (v : V3) : 0 ≤ dot v v := by
  simp only [dot]; nlinarith [sq_nonneg (v 0), sq_nonneg (v 1), sq_nonneg (v 2)]

theorem dot_self_eq_zero {v : V3} : dot v v = 0 ↔ v = 0 := by
  constructor
  · intro h
    simp only [dot] at h
    have h0 : v 0 = 0 := by nlinarith [sq_nonneg (v 0), sq_nonneg (v 1), sq_nonneg (v 2)]
    have h1 : v 1 = 0 := by nlinarith [sq_nonneg (v 0), sq_nonneg (v 1), sq_nonneg (v 2)]
    have h2 : v 2 = 0 := by nlinarith [sq_nonneg (v 0), sq_nonneg (v 1), sq_nonneg (v 2)]
    exact V3.ext3 h0 h1 h2
  · rintro rfl; simp

theorem norm3_nonneg (v : V3) : 0 ≤ norm3 v := Real.sqrt_nonneg _
theorem norm3_sq (v : V3) : norm3 v ^ 2 = dot v v := Real.sq_sqrt (dot_self_nonneg v)
theorem norm3_mul_self (v : V3) : norm3 v * norm3 v = dot v v := Real.mul_self_sqrt (dot_self_nonneg v)
theorem norm3_eq_zero {v : V3} : norm3 v = 0 ↔ v = 0 := by
  rw [norm3, Real.sqrt_eq_zero (dot_self_nonneg v), dot_self_eq_zero]
theorem norm3_pos {v : V3} (h : v ≠ 0) : 0 < norm3 v :=
  lt_of_le_of_ne (norm3_nonneg v) (fun e => h (norm3_eq_zero.1 e.symm))
theorem norm3_smul (c : ℝ) (v : V3) : norm3 (c • v) = |c| * norm3 v := by
  rw [norm3, norm3, dot_smul_left, dot_smul_right, ← mul_assoc, Real.sqrt_mul (mul_self_nonneg c),
    Real.sqrt_mul_self_eq_abs]
theorem norm3_neg (v : V3) : norm3 (-v) = norm3 v := by
  simp [norm3, dot_neg_left, dot_neg_right]
theorem norm3_eq_of_dot {v : V3} {r : ℝ} (hr : 0 ≤ r) (h : dot v v = r ^ 2) : norm3 v = r := by
  rw [norm3, h, Real.sqrt_sq hr]

@[simp] theorem cross_0 (v w : V3) : cross v w 0 = v 1 * w 2 - v 2 * w 1 := rfl
@[simp] theorem cross_1 (v w : V3) : cross v w 1 = v 2 * w 0 - v 0 * w 2 := rfl
@[simp] theorem cross_2 (v w : V3) : cross v w 2 = v 0 * w 1 - v 1 * w 0 := rfl

/-- Lagrange's identity. -/
theorem dot_cross_self (v w : V3) :
    dot (cross v w) (cross v w) = dot v v * dot w w - dot v w ^ 2 := by
  simp [dot, cross]; ring
theorem dot_cross_left (v w : V3) : dot v (cross v w) = 0 := by simp [dot, cross]; ring
theorem dot_cross_right (v w : V3) : dot w (cross v w) = 0 := by simp [dot, cross]; ring
theorem cross_self (v : V3) : cross v v = 0 := by
  apply V3.ext3 <;> simp [cross] <;> ring
theorem cross_anticomm (v w : V3) : cross v w = -cross w v := by
  apply V3.ext3 <;> simp [cross] <;> ring
theorem cross_smul_left (c : ℝ) (v w : V3) : cross (c • v) w = c • cross v w := by
  apply V3.ext3 <;> simp [cross] <;> ring
theorem cross_smul_right (c : ℝ) (v w : V3) : cross v (c • w) = c • cross v w := by
  apply V3.ext3 <;> simp [cross] <;> ring
theorem cross_add_left (u v w : V3) : cross (u + v) w = cross u w + cross v w := by
  apply V3.ext3 <;> simp [cross] <;> ring
theorem cross_add_right (u v w : V3) : cross u (v + w) = cross u v + cross u w := by
  apply V3.ext3 <;> simp [cross] <;> ring
theorem cross_sub_left (u v w : V3) : cross (u - v) w = cross u w - cross v w := by
  apply V3.ext3 <;> simp [cross] <;> ring
theorem cross_sub_right (u v w : V3) : cross u (v - w) = cross u v - cross u w := by
  apply V3.ext3 <;> simp [cross] <;> ring
/-- `a × (b × c) = (a·c) b − (a·b) c`. -/
theorem cross_cross_right (a b c : V3) : cross a (cross b c) = dot a c • b - dot a b • c := by
  apply V3.ext3 <;> simp [cross, dot] <;> ring
theorem cross_cross_left (a b c : V3) : cross (cross a b) c = dot a c • b - dot b c • a := by
  apply V3.ext3 <;> simp [cross, dot] <;> ring
theorem dot_cross_cross (a b c d : V3) :
    dot (cross a b) (cross c d) = dot a c * dot b d - dot a d * dot b c := by
  simp [cross, dot]; ring

/-! ## Rotations -/

theorem Rz_zero : Rz 0 = 1 := by
  ext i j; fin_cases i <;> fin_cases j <;> simp [Rz]
theorem Rz_add (a b : ℝ) : Rz (a + b) = Rz a * Rz b := by
  ext i j; fin_cases i <;> fin_cases j <;>
    simp [Rz, Matrix.mul_apply, Fin.sum_univ_three, cos_add, sin_add] <;> ring
theorem Rz_comm (a b : ℝ) : Rz a * Rz b = Rz b * Rz a := by rw [← Rz_add, add_comm, Rz_add]
theorem Rz_transpose (a : ℝ) : (Rz a)ᵀ = Rz (-a) := by
  ext i j; fin_cases i <;> fin_cases j <;> simp [Rz]
theorem Rz_two_pi_int (k : ℤ) : Rz (2 * π * k) = 1 := by
  have h1 : cos (2 * π * k) = 1 := by rw [mul_comm]; exact Real.cos_int_mul_two_pi k
  have h2 : sin (2 * π * k) = 0 := by
    have := Real.sin_int_mul_pi (2 * k); push_cast at this; rw [← this]; congr 1; ring
  ext i j; fin_cases i <;> fin_cases j <;> simp [Rz, h1, h2]

theorem IsRot.one : IsRot 1 := ⟨by simp, by simp⟩
theorem IsRot.mul {M N : M3} (hM : IsRot M) (hN : IsRot N) : IsRot (M * N) :=
  ⟨by rw [Matrix.transpose_mul, Matrix.mul_assoc, ← Matrix.mul_assoc Mᵀ, hM.orth, Matrix.one_mul,
    hN.orth], by rw [Matrix.det_mul, hM.det, hN.det, one_mul]⟩
theorem IsRot.orth' {M : M3} (h : IsRot M) : M * Mᵀ = 1 := mul_eq_one_comm.1 h.orth
theorem IsRot.transpose {M : M3} (h : IsRot M) : IsRot Mᵀ :=
  ⟨by simpa using h.orth', by rw [Matrix.det_transpose, h.det]⟩
theorem IsRot.Rz (a : ℝ) : IsRot (Rz a) := by
  constructor
  · rw [Rz_transpose, ← Rz_add, neg_add_cancel, Rz_zero]
  · rw [Matrix.det_fin_three]; simp [Verif.Rz]; nlinarith [sin_sq_add_cos_sq a]
theorem IsRot.Ry (a : ℝ) : IsRot (Ry a) := by
  constructor
  · ext i j; fin_cases i <;> fin_cases j <;>
      simp [Verif.Ry, Matrix.mul_apply, Fin.sum_univ_three] <;> nlinarith [sin_sq_add_cos_sq a]
  · rw [Matrix.det_fin_three]; simp [Verif.Ry]; nlinarith [sin_sq_add_cos_sq a]
theorem IsRot.Rx (a : ℝ) : IsRot (Rx a) := by
  constructor
  · ext i j; fin_cases i <;> fin_cases j <;>
      simp [Verif.Rx, Matrix.mul_apply, Fin.sum_univ_three] <;> nlinarith [sin_sq_add_cos_sq a]
  · rw [Matrix.det_fin_three]; simp [Verif.Rx]; nlinarith [sin_sq_add_cos_sq a]

theorem dot_app_left (M : M3) (v w : V3) : dot (app M v) w = dot v (app Mᵀ w) := by
  simp [dot, app_0, app_1, app_2]; ring
theorem IsRot.dot_app {M : M3} (h : IsRot M) (v w : V3) : dot (app M v) (app M w) = dot v w := by
  rw [dot_app_left, ← app_mul, h.orth, app_one]
theorem IsRot.norm_app {M : M3} (h : IsRot M) (v : V3) : norm3 (app M v) = norm3 v := by
  rw [norm3, h.dot_app, norm3]
theorem IsRot.app_T_app {M : M3} (h : IsRot M) (v : V3) : app Mᵀ (app M v) = v := by
  rw [← app_mul, h.orth, app_one]
theorem IsRot.app_app_T {M : M3} (h : IsRot M) (v : V3) : app M (app Mᵀ v) = v := by
  rw [← app_mul, h.orth', app_one]

/-- Cofactor identity: a linear map with matrix `M` sends cross products to the
cofactor matrix applied to the cross product. -/
theorem transpose_app_cross (M : M3) (v w : V3) :
    app Mᵀ (cross (app M v) (app M w)) = M.det • cross v w := by
  rw [Matrix.det_fin_three]
  apply V3.ext3 <;> simp [cross, app_0, app_1, app_2] <;> ring
theorem IsRot.cross_app {M : M3} (h : IsRot M) (v w : V3) :
    cross (app M v) (app M w) = app M (cross v w) := by
  have := transpose_app_cross M v w
  rw [h.det, one_smul] at this
  rw [← this, h.app_app_T]

theorem app_rotMat (n : V3) (a : ℝ) (v : V3) : app (rotMat n a) v = rodrigues n a v := by
  apply V3.ext3 <;> simp [app_0, app_1, app_2, rotMat, rodrigues, dot] <;> ring

theorem M3.ext_app {M N : M3} (h : ∀ v, app M v = app N v) : M = N :=
  Matrix.ext_of_mulVec_single (fun _ => h _)

theorem dot_rodrigues {n : V3} (hn : dot n n = 1) (a : ℝ) (v w : V3) :
    dot (rodrigues n a v) (rodrigues n a w) = dot v w := by
  have hs : sin a ^ 2 = 1 - cos a ^ 2 := by rw [← sin_sq_add_cos_sq a]; ring
  simp only [rodrigues, dot_add_left, dot_add_right, dot_smul_left, dot_smul_right]
  have e1 : dot (cross n v) n = 0 := by rw [dot_comm, dot_cross_left]
  have e2 : dot n (cross n w) = 0 := dot_cross_left n w
  have e3 : dot (cross n v) (cross n w) = dot v w - dot n w * dot n v := by
    rw [dot_cross_cross, hn, dot_comm v n]; ring
  have e4 : dot v (cross n w) = -dot (cross n v) w := by simp [dot, cross]; ring
  rw [e1, e2, e3, e4, hn, dot_comm v n]
  linear_combination (dot v w - dot n w * dot n v) * hs

theorem IsRot.rotMat {n : V3} (hn : dot n n = 1) (a : ℝ) : IsRot (rotMat n a) := by
  constructor
  · apply M3.ext_app
    intro v
    rw [app_one]
    have key : ∀ w, dot (app ((Verif.rotMat n a)ᵀ * Verif.rotMat n a) v) w = dot v w := by
      intro w
      rw [app_mul, dot_comm, ← dot_app_left, dot_comm, app_rotMat, app_rotMat, dot_rodrigues hn]
    have := key (app ((Verif.rotMat n a)ᵀ * Verif.rotMat n a) v - v)
    have h0 : dot (app ((Verif.rotMat n a)ᵀ * Verif.rotMat n a) v - v)
        (app ((Verif.rotMat n a)ᵀ * Verif.rotMat n a) v - v) = 0 := by
      rw [dot_sub_left, this, sub_self]
    exact sub_eq_zero.1 (dot_self_eq_zero.1 h0)
  · have hs : sin a ^ 2 = 1 - cos a ^ 2 := by rw [← sin_sq_add_cos_sq a]; ring
    have hn' : n 0 * n 0 + n 1 * n 1 + n 2 * n 2 = 1 := hn
    have hz : n 2 * n 2 = 1 - n 0 * n 0 - n 1 * n 1 := by linarith
    rw [Matrix.det_fin_three]
    simp only [Verif.rotMat, Matrix.of_apply, Matrix.cons_val', Matrix.cons_val_zero,
      Matrix.cons_val_one, Matrix.cons_val]
    linear_combination (cos a + (1 - cos a) * (n 0 * n 0 + n 1 * n 1 + n 2 * n 2)) *
      (n 0 * n 0 + n 1 * n 1 + n 2 * n 2) * hs +
      ((1 - cos a ^ 2) * (cos a + (1 - cos a) * (n 0 * n 0 + n 1 * n 1 + n 2 * n 2)) +
        cos a ^ 2 * (1 - cos a) + (1 - cos a ^ 2) * (1 - cos a)) * hn'

theorem rotMat_neg (n : V3) (a : ℝ) : rotMat (-n) (-a) = rotMat n a := by
  ext i j; fin_cases i <;> fin_cases j <;> simp [rotMat]
theorem rotMat_zero (n : V3) : rotMat n 0 = 1 := by
  ext i j; fin_cases i <;> fin_cases j <;> simp [rotMat]

/-- For a unit axis, `from_rotvec(angle * axis)` is the rotation by `angle` about `axis`. -/
theorem fromRotvec_smul {n : V3} (hn : dot n n = 1) (a : ℝ) : fromRotvec (a • n) = rotMat n a := by
  have h1 : norm3 n = 1 := norm3_eq_of_dot zero_le_one (by rw [hn]; ring)
  unfold fromRotvec
  rw [norm3_smul, h1, mul_one]
  rcases lt_trichotomy a 0 with h | h | h
  · rw [if_neg (abs_ne_zero.2 h.ne), abs_of_neg h, smul_smul]
    rw [inv_neg, neg_mul, inv_mul_cancel₀ h.ne, neg_one_smul, rotMat_neg]
  · subst h; simp [rotMat_zero]
  · rw [if_neg (abs_ne_zero.2 h.ne'), abs_of_pos h, smul_smul, inv_mul_cancel₀ h.ne', one_smul]

theorem IsRot.fromRotvec (w : V3) : IsRot (fromRotvec w) := by
  unfold Verif.fromRotvec
  split_ifs with h
  · exact IsRot.one
  · apply IsRot.rotMat
    rw [dot_smul_left, dot_smul_right, ← norm3_mul_self]
    field_simp

theorem Rz_app_OUT (a : ℝ) : app (Rz a) OUT = OUT := by
  apply V3.ext3 <;> simp [OUT]

end Verif
