import Verif.Model.Curve
import Verif.Model.Fit

/-!
# Model of the start of the curve fits

`fit_bezier_hermite_cubic` and `fit_bezier_hermite_quadratic` (`/repo/src/gggears/curve.py:757-780`) and
`fit_nurb_optim` (`/repo/src/gggears/curve.py:864-904`) with all of its arguments, on top of the cost of `fit_nurb_points`
(`Model/Fit.lean`). The optimiser and the root finder are parameters, functions of exactly what the code hands to them.
`none`: an exception or a point that is not defined.
-/

namespace Verif

/-- The optimiser behind `minimize`, curve.py:843-851: it sees the cost with its gradient and the start vector, and returns
`sol.x`. -/
abbrev FitMinimizer := ((ℕ → ℝ) → Option (ℝ × (ℕ → ℝ))) → (ℕ → ℝ) → ℕ → ℝ

/-- The root finder of `fit_bezier_hermite_quadratic`, curve.py:775-778: the function of three unknowns and the start
`[0.5, 0.5, 0.5]` go in, `sol.x` comes out; `sol.success` is not read. -/
abbrev FitRoot := (V3 → V3) → V3 → V3

/-- `fit_bezier_hermite_cubic`, curve.py:757-764: the four rows. -/
noncomputable def hermiteCubic (c : Curve) : Option (ℕ → V3) :=
  match c.eval 0, c.eval 1, c.derivative 0 1 (1 / 10000) 1, c.derivative 1 (-1) (1 / 10000) 1 with
  | some p0, some p3, some d1, some d2 =>
    some fun k => if k = 0 then p0 else if k = 1 then p0 + (1 / 3 : ℝ) • d1
      else if k = 2 then p3 - (1 / 3 : ℝ) • d2 else p3
  | _, _, _, _ => none

/-- `fit_bezier_hermite_quadratic`, curve.py:767-780: the three rows. -/
noncomputable def hermiteQuadratic (root : FitRoot) (c : Curve) : Option (ℕ → V3) :=
  match c.eval 0, c.eval 1, c.derivative 0 1 (1 / 10000) 1, c.derivative 1 (-1) (1 / 10000) 1 with
  | some p0, some p2, some v1, some v2 =>
    let d1 := (1 / 3 : ℝ) • v1
    let d2 := (1 / 3 : ℝ) • v2
    let x := root (fun x => p0 + x 0 • d1 - p2 - x 1 • d2) (fun _ => 1 / 2)
    some fun k => if k = 0 then p0 else if k = 1 then p0 + x 0 • d1 else p2
  | _, _, _, _ => none

/-- Row `k` of `initpoints` for other numbers of points, curve.py:885-894, from the rows `h` of the cubic. The assignments
are read from the last one to the first one. `np.linspace(h[1], h[-1], n - 2)[1:-1]` fills the rows `2 … n - 3`. -/
noncomputable def spreadPoints (n : ℕ) (h : ℕ → V3) (k : ℕ) : V3 :=
  if 2 ≤ k ∧ k + 2 < n then h 1 + (((k : ℝ) - 1) / ((n : ℝ) - 3)) • (h 3 - h 1)
  else if k + 2 = n then h 2 else if k = 1 then h 1 else if k + 1 = n then h 3 else h 0

/-- `initpoints` when no `initguess` is given, curve.py:879-894. With `force_2D` (`flat`) the array has two columns and
assigning a row of three numbers raises `ValueError`; fewer than two rows raise `IndexError`. -/
noncomputable def initPoints (root : FitRoot) (n : ℕ) (flat : Bool) (c : Curve) : Option (ℕ → V3) :=
  if n = 3 then hermiteQuadratic root c
  else if n = 4 then hermiteCubic c
  else if flat ∨ n < 2 then none
  else (hermiteCubic c).map (spreadPoints n)

/-- `initpoints`, curve.py:879-896: the given ones or the computed ones. -/
noncomputable def startRows (root : FitRoot) (n : ℕ) (flat : Bool) (init : Option (ℕ → V3)) (c : Curve) :
    Option (ℕ → V3) :=
  match init with
  | some p => some p
  | none => initPoints root n flat c

/-- `n_fit_points`, curve.py:874. -/
noncomputable def fitCount (n : ℕ) (ratio : ℝ) : ℕ := (⌈((n : ℝ) - 2) * 2 * ratio⌉ + 2).toNat

/-- `initguess_x`, curve.py:824-828: all weights are one and the parameters are evenly spaced. `D` is `N_Dim`. -/
noncomputable def fitStart (D n N : ℕ) (rows : ℕ → V3) : ℕ → ℝ :=
  fitPack D n (fun k j => if h : j < 3 then rows k ⟨j, h⟩ else 0) (fun _ => 1) (linspace 0 1 (N - 1))

/-- Row `i` of `target_curve(tvals)`, curve.py:876-877. -/
noncomputable def fitTarget (c : Curve) (N i : ℕ) : V3 := c.evalD (linspace 0 1 (N - 1) i)

/-- The first two columns, curve.py:877. -/
noncomputable def fitTarget2 (c : Curve) (N i : ℕ) : Fin 2 → ℝ := fun j => fitTarget c N i (Fin.castLE (by omega) j)

/-- `fit_nurb_optim(target_curve, n_points, force_2D, samp_ratio, initguess)`, curve.py:864-904: control points and weights.
A given `initguess` is assumed to have enough rows and three columns. With `force_2D` (`flat`) the fit is done in two
columns and the third is the mean of the sampled `z` (lines 899-902). -/
noncomputable def fitCurve (root : FitRoot) (opt : FitMinimizer) (n : ℕ) (flat : Bool) (ratio : ℝ)
    (init : Option (ℕ → V3)) (c : Curve) : Option (List V3 × List ℝ) :=
  let N := fitCount n ratio
  open Classical in
  if ∀ i < N, (c.eval (linspace 0 1 (N - 1) i)).isSome then
    (startRows root n flat init c).map fun rows =>
      if flat then
        let r := fitNurbPoints 2 n N (fitTarget2 c N) (opt (fitCost 2 n N (fitTarget2 c N)) (fitStart 2 n N rows))
        let z := (∑ i : Fin N, fitTarget c N i 2) / N
        (r.1.map fun p : Fin 2 → ℝ => ![p 0, p 1, z], r.2)
      else fitNurbPoints 3 n N (fitTarget c N) (opt (fitCost 3 n N (fitTarget c N)) (fitStart 3 n N rows))
  else none

end Verif
