import Verif.Model.Bezier

/-!
# Model of the curve and surface fits

`fit_nurb_points` (`/repo/src/gggears/curve.py:783-861`) and `GearToNurbs`
(`/repo/src/gggears/gggears_convert.py:24-263`). The optimiser is a parameter: the properties speak about
every vector it may return and about the cost and gradient handed to it. Arrays are functions of natural
indices together with their lengths; `scaler = 1` is left out.
-/

namespace Verif

/-- An array whose entries may fail to exist (`NaN`, exception): defined if all entries are. -/
noncomputable def optSeq {α : Type*} {n : ℕ} (f : Fin n → Option α) : Option (Fin n → α) :=
  open Classical in
  if h : ∀ k, (f k).isSome then some fun k => (f k).get (h k) else none

section CurveFit
variable (D n N : ℕ) (T : ℕ → Fin D → ℝ)

/-- Row `k` of `points` in `point_allocator`, curve.py:792-798: the loop writes rows `1 … n - 2`, the
first and the last row are the first and the last target. `D` is `N_Dim`, `N` is `N_target`. -/
def fitPoints (x : ℕ → ℝ) (k : ℕ) : Fin D → ℝ :=
  if 1 ≤ k ∧ k < n - 1 then fun j => x (D * (k - 1) + j)
  else if k = n - 1 then T (N - 1) else T 0

/-- Entry `k` of `weights`, curve.py:795-799. -/
def fitWeights (x : ℕ → ℝ) (k : ℕ) : ℝ :=
  if 1 ≤ k ∧ k < n - 1 then x (D * (n - 2) + k - 1) else 1

/-- Entry `i` of `t`, curve.py:800-804. -/
def fitT (x : ℕ → ℝ) (i : ℕ) : ℝ :=
  if i = N - 1 then 1 else if i = 0 then 0 else x ((D + 1) * (n - 2) + (i - 1))

/-- `inverse_allocator`, curve.py:807-819: entry `i` of the packed vector. -/
def fitPack (points : ℕ → ℕ → ℝ) (weights t : ℕ → ℝ) (i : ℕ) : ℝ :=
  if i < D * (n - 2) then points (i / D + 1) (i % D)
  else if i < (D + 1) * (n - 2) then weights (i - D * (n - 2) + 1)
  else t (i - (D + 1) * (n - 2) + 1)

/-- Length of the packed vector, curve.py:808. -/
def fitLen : ℕ := (D + 1) * (n - 2) + (N - 2)

/-- What `cost_fun_combined` computes for one target row. -/
structure FitRow where
  diff : Fin D → ℝ
  dPoints : Fin n → ℝ
  dWeights : Fin n → Fin D → ℝ
  dT : Fin D → ℝ

/-- Row `i` of the arrays in `cost_fun_combined`, curve.py:831-835. -/
noncomputable def fitRow (x : ℕ → ℝ) (i : ℕ) : Option (FitRow D n) :=
  let t := fitT D n N x i
  let P := List.ofFn fun k : Fin n => fitPoints D n N T x k
  let W := List.ofFn fun k : Fin n => fitWeights D n x k
  match nurbezier t P W, optSeq fun k : Fin n => nurbezierDiffPoints t W k,
      optSeq fun k : Fin n => nurbezierDiffWeights t P W k, nurbezierDiffT t P W with
  | some s, some dp, some dw, some dt =>
    some ⟨T i - s, fun k => -dp k, fun k => -dw k, -dt⟩
  | _, _, _, _ => none

/-- `cost_fun_combined`, curve.py:830-841: the cost and the gradient handed to the optimiser. -/
noncomputable def fitCost (x : ℕ → ℝ) : Option (ℝ × (ℕ → ℝ)) :=
  (optSeq fun i : Fin N => fitRow D n N T x i).map fun r =>
    let dp : ℕ → ℕ → ℝ := fun k j =>
      if h : k < n ∧ j < D then ∑ i : Fin N, (r i).dPoints ⟨k, h.1⟩ * (r i).diff ⟨j, h.2⟩ else 0
    let dt : ℕ → ℝ := fun i =>
      if h : i < N then ∑ j : Fin D, (r ⟨i, h⟩).diff j * (r ⟨i, h⟩).dT j else 0
    let dw : ℕ → ℝ := fun k =>
      if h : k < n then ∑ i : Fin N, ∑ j : Fin D, (r i).diff j * (r i).dWeights ⟨k, h⟩ j else 0
    ((∑ i : Fin N, ∑ j : Fin D, (r i).diff j ^ 2) / 2, fitPack D n dp dw dt)

/-- `fit_nurb_points`, curve.py:859-861: control points and weights built from the optimiser's vector. -/
def fitNurbPoints (x : ℕ → ℝ) : List (Fin D → ℝ) × List ℝ :=
  (List.ofFn fun k : Fin n => fitPoints D n N T x k, List.ofFn fun k : Fin n => fitWeights D n x k)

end CurveFit

section SurfaceFit
variable (q m o : ℕ) (T : ℕ → Fin q → ℝ)

/-- Row `k` of `points` in the `point_allocator` of `solve_surface` and `solve_surface_fast`,
gggears_convert.py:176-183 and 227-232. Rows are flattened: `q = 4 n`. -/
def surfPoints (x : ℕ → ℝ) (k : ℕ) : Fin q → ℝ :=
  if 1 ≤ k ∧ k < m - 1 then fun j => x ((k - 1) * q + j)
  else if k = m - 1 then T (o - 1) else T 0

/-- `t` of `solve_surface`, gggears_convert.py:182. -/
def surfT (x : ℕ → ℝ) (i : ℕ) : ℝ := x ((m - 2) * q + i)

/-- `t` of `solve_surface_fast`, gggears_convert.py:241: `np.linspace(0, 1, o)[1:-1]`. -/
noncomputable def surfTFast (i : ℕ) : ℝ := ((i : ℝ) + 1) / ((o : ℝ) - 1)

/-- `inverse_allocator`, gggears_convert.py:185-189; without `t` (234-237) the tail stays zero. -/
def surfPack (points : ℕ → ℕ → ℝ) (t : ℕ → ℝ) (i : ℕ) : ℝ :=
  if i < (m - 2) * q then points (i / q + 1) (i % q)
  else if i < (m - 2) * q + (o - 2) then t (i - (m - 2) * q) else 0

/-- Length of the packed vector, gggears_convert.py:186 and 235. -/
def surfLen : ℕ := (m - 2) * q + o

/-- Row `i` of `diff`, `deriv_dpoints` and `deriv_dt`, gggears_convert.py:193-198. -/
noncomputable def surfRow (x : ℕ → ℝ) (t : ℕ → ℝ) (i : ℕ) :
    Option ((Fin q → ℝ) × (Fin m → ℝ) × (Fin q → ℝ)) :=
  let P := List.ofFn fun k : Fin m => surfPoints q m o T x k
  match bezierdc (t i) P, optSeq fun k : Fin m => ((bezierDiffP (t i) m)[(k : ℕ)]?).bind id,
      bezierDiffT (t i) P 1 with
  | some s, some dp, .point dt => some (T (i + 1) - s, fun k => -dp k, -dt)
  | _, _, _ => none

/-- `cost_fun` of `solve_surface`, gggears_convert.py:191-202. -/
noncomputable def surfCost (x : ℕ → ℝ) : Option (ℝ × (ℕ → ℝ)) :=
  (optSeq fun i : Fin (o - 2) => surfRow q m o T x (surfT q m x) i).map fun r =>
    let dp : ℕ → ℕ → ℝ := fun k j =>
      if h : k < m ∧ j < q then ∑ i : Fin (o - 2), (r i).2.1 ⟨k, h.1⟩ * (r i).1 ⟨j, h.2⟩ else 0
    let dt : ℕ → ℝ := fun i =>
      if h : i < o - 2 then ∑ j : Fin q, (r ⟨i, h⟩).1 j * (r ⟨i, h⟩).2.2 j else 0
    (∑ i : Fin (o - 2), ∑ j : Fin q, (r i).1 j * (r i).1 j, surfPack q m o dp dt)

/-- `cost_fun` of `solve_surface_fast`, gggears_convert.py:239-249. The derivative in `t` is not
computed there; leaving it in the row changes nothing for two or more rows. -/
noncomputable def surfCostFast (x : ℕ → ℝ) : Option (ℝ × (ℕ → ℝ)) :=
  (optSeq fun i : Fin (o - 2) => surfRow q m o T x (surfTFast o) i).map fun r =>
    let dp : ℕ → ℕ → ℝ := fun k j =>
      if h : k < m ∧ j < q then ∑ i : Fin (o - 2), (r i).2.1 ⟨k, h.1⟩ * (r i).1 ⟨j, h.2⟩ else 0
    (∑ i : Fin (o - 2), ∑ j : Fin q, (r i).1 j * (r i).1 j, surfPack q m o dp fun _ => 0)

/-- `n_z_tweens`, gggears_convert.py:60-62. -/
noncomputable def nZTweens (nPointsVert : ℕ) (ratio : ℝ) : ℤ :=
  ⌈((nPointsVert : ℝ) - 2) * ratio⌉ + 2

end SurfaceFit

end Verif
