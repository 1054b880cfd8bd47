import Verif.Base.Vec

/-!
# Model of `Curve`, `LineCurve` and `ArcCurve`

`/repo/src/gggears/curve.py`, lines 23-344 and 1072-1180. Only scalar parameters are modelled; the
array branches apply the same formulas elementwise.
-/

namespace Verif

open Real

/-- Largest `j ≤ n` with `xp j ≤ x`, or 0: the result of the binary search in `np.interp` on a
sorted array. -/
noncomputable def lastLe (xp : ℕ → ℝ) (x : ℝ) : ℕ → ℕ
  | 0 => 0
  | n + 1 => if xp (n + 1) ≤ x then n + 1 else lastLe xp x n

/-- `np.interp(x, xp, fp)` for arrays with entries `0 … n` and sorted `xp`. -/
noncomputable def npInterp (xp fp : ℕ → ℝ) (n : ℕ) (x : ℝ) : ℝ :=
  if x < xp 0 then fp 0
  else
    let j := lastLe xp x n
    if j = n then fp n
    else fp j + (fp (j + 1) - fp j) / (xp (j + 1) - xp j) * (x - xp j)

/-- `interpolate(x, x0, x1, y0, y1)`, function_generators.py:365-366. `none`: division by zero. -/
noncomputable def interpolate (x x0 x1 y0 y1 : ℝ) : Option ℝ :=
  if x1 - x0 = 0 then none else some (y0 + (y1 - y0) * (x - x0) / (x1 - x0))

/-- `t2s_lookup`: two arrays with entries `0 … n`. -/
structure Lookup where
  n : ℕ
  s : ℕ → ℝ
  t : ℕ → ℝ

/-- The initial `t2s_lookup`, curve.py:80: two entries. -/
noncomputable def Lookup.default : Lookup :=
  ⟨1, fun i => if i = 0 then -10 ^ 6 else 10 ^ 6, fun i => if i = 0 then -10 ^ 6 else 10 ^ 6⟩

/-- The subclasses with different geometry and length computation. `generic` is a plain `Curve` with
any function and `n + 1` length samples (`lenght_approx_ndiv`). The arc keeps its rotation matrix. -/
inductive CurveKind
  | generic (f : ℝ → V3) (n : ℕ)
  | line (p0 p1 : V3)
  | arc (radius angle : ℝ) (center : V3) (rotmat : M3)

/-- `self.function` with its parameters: any function, `line_func` (curve.py:1087-1093), `arcfunc`
(curve.py:1135-1138). -/
noncomputable def CurveKind.fn : CurveKind → ℝ → V3
  | .generic f _, t => f t
  | .line p0 p1, t => (1 - t) • p0 + t • p1
  | .arc r a c M, t => app (M * Rz (a * t)) (r • RIGHT) + c

/-- A `Curve` object. -/
structure Curve where
  kind : CurveKind
  active : Bool
  t0 : ℝ
  t1 : ℝ
  length : ℝ
  lookup : Lookup

/-- `np.linspace(a, b, n + 1)[i]`. -/
noncomputable def linspace (a b : ℝ) (n i : ℕ) : ℝ := a + (b - a) * (i / n)

/-- `curve_len[i]` of `update_lengths`: cumulated chord lengths. -/
noncomputable def chordLen (f : ℝ → V3) (t : ℕ → ℝ) : ℕ → ℝ
  | 0 => 0
  | i + 1 => chordLen f t i + norm3 (f (t (i + 1)) - f (t i))

/-- `update_lengths`: curve.py:177-198 (generic), 1095-1098 (line), 1140-1143 (arc). -/
noncomputable def Curve.updateLengths (c : Curve) : Curve :=
  match c.kind with
  | .generic f n =>
    let t := linspace c.t0 c.t1 n
    let len := chordLen f t n
    { c with
      length := len
      lookup := ⟨n, if len = 0 then linspace 0 1 n else fun i => chordLen f t i / len, t⟩ }
  | .line p0 p1 =>
    { c with
      length := norm3 (p1 - p0) * |c.t1 - c.t0|
      lookup := ⟨1, fun i => if i = 0 then 0 else 1, fun i => if i = 0 then c.t0 else c.t1⟩ }
  | .arc r a _ _ =>
    { c with
      length := r * a
      lookup := ⟨1, fun i => if i = 0 then 0 else 1, fun i => if i = 0 then c.t0 else c.t1⟩ }

/-- `Curve.__init__`, curve.py:53-88. -/
noncomputable def Curve.make (kind : CurveKind) (active : Bool) (t0 t1 : ℝ) : Curve :=
  let c : Curve := ⟨kind, active, t0, t1, 0, Lookup.default⟩
  if active then c.updateLengths else c

/-- `s2t`, curve.py:97-136. `none`: division by zero in the extrapolation. The index `[-2]` is entry
`n - 1`. -/
noncomputable def Curve.s2t (c : Curve) (s : ℝ) : Option ℝ :=
  let l := c.lookup
  if s < 0 then interpolate s (l.s 0) (l.s 1) (l.t 0) (l.t 1)
  else if 1 < s then interpolate s (l.s l.n) (l.s (l.n - 1)) (l.t l.n) (l.t (l.n - 1))
  else some (npInterp l.s l.t l.n s)

/-- `t2s`, curve.py:138-175, for a table with increasing `t`. -/
noncomputable def Curve.t2s (c : Curve) (t : ℝ) : Option ℝ :=
  let l := c.lookup
  if t < c.t0 then interpolate t (l.t 0) (l.t 1) (l.s 0) (l.s 1)
  else if c.t1 < t then interpolate t (l.t l.n) (l.t (l.n - 1)) (l.s l.n) (l.s (l.n - 1))
  else some (npInterp l.t l.s l.n t)

/-- `__call__`, curve.py:90-95. -/
noncomputable def Curve.eval (c : Curve) (s : ℝ) : Option V3 := (c.s2t s).map c.kind.fn

/-- `reverse`, curve.py:200-204: swaps the ends and flips the `t` array of the lookup. -/
def Curve.reverse (c : Curve) : Curve :=
  { c with t0 := c.t1, t1 := c.t0,
           lookup := { c.lookup with t := fun i => c.lookup.t (c.lookup.n - i) } }

/-- `set_start_on`, curve.py:258-261. -/
noncomputable def Curve.setStartOn (c : Curve) (s : ℝ) : Option Curve :=
  (c.s2t s).map fun t => { c with t0 := t }.updateLengths

/-- `set_end_on`, curve.py:263-266. -/
noncomputable def Curve.setEndOn (c : Curve) (s : ℝ) : Option Curve :=
  (c.s2t s).map fun t => { c with t1 := t }.updateLengths

/-- `set_start_and_end_on`, curve.py:252-256. -/
noncomputable def Curve.setStartAndEndOn (c : Curve) (s0 s1 : ℝ) : Option Curve :=
  match c.s2t s0, c.s2t s1 with
  | some t0, some t1 => some { c with t0 := t0, t1 := t1 }.updateLengths
  | _, _ => none

/-- `cut`, curve.py:240-246. -/
noncomputable def Curve.cut (c : Curve) (s : ℝ) : Option (Curve × Curve) :=
  match c.setEndOn s, c.setStartOn s with
  | some a, some b => some (a, b)
  | _, _ => none

/-- What `derivative` passes to `numeric_diff` as `function`: the curve itself, or the array returned by
a recursive call. -/
inductive PyFun
  | fn (f : ℝ → Option V3)
  | array (v : V3)

/-- Calling it; calling an array raises `TypeError`. -/
def PyFun.call : PyFun → ℝ → Option V3
  | .fn f, x => f x
  | .array _, _ => none

/-- `numeric_diff` of `derivative`, curve.py:226-232. -/
noncomputable def numericDiff (f : PyFun) (t : ℝ) (direction : ℤ) (delta : ℝ) : Option V3 :=
  if direction = 0 then
    match f.call (t + delta), f.call (t - delta) with
    | some a, some b => some ((1 / 2 / delta : ℝ) • (a - b))
    | _, _ => none
  else if 0 < direction then
    match f.call (t + delta), f.call t with
    | some a, some b => some ((1 / delta : ℝ) • (a - b))
    | _, _ => none
  else
    match f.call t, f.call (t - delta) with
    | some a, some b => some ((1 / delta : ℝ) • (a - b))
    | _, _ => none

/-- `derivative`, curve.py:206-238, for orders `n ≥ 0`. -/
noncomputable def Curve.derivative (c : Curve) (t : ℝ) (direction : ℤ) (delta : ℝ) : ℕ → Option V3
  | 0 => numericDiff (.fn c.eval) t direction delta
  | 1 => numericDiff (.fn c.eval) t direction delta
  | n + 2 => (c.derivative t direction delta (n + 1)).bind fun v =>
      numericDiff (.array v) t direction delta

/-- The curve function of `a + b`, `a - b`, `a * k`, `a / k`, curve.py:268-336: the operands are called
with the natural parameter of the result. Curves with an undefined value (division by zero) are
represented by `0` there; all properties assume defined operands. -/
noncomputable def Curve.evalD (c : Curve) (s : ℝ) : V3 := (c.eval s).getD 0

/-- `__add__`, curve.py:268-281 (default of 21 length samples). -/
noncomputable def Curve.add (a b : Curve) : Curve :=
  .make (.generic (fun t => a.evalD t + b.evalD t) 20) (a.active && b.active) 0 1

/-- `__sub__`, curve.py:283-296. -/
noncomputable def Curve.sub (a b : Curve) : Curve :=
  .make (.generic (fun t => a.evalD t - b.evalD t) 20) (a.active && b.active) 0 1

/-- `__mul__`, `__rmul__`, curve.py:298-320. -/
noncomputable def Curve.mul (a : Curve) (k : ℝ) : Curve :=
  .make (.generic (fun t => k • a.evalD t) 20) a.active 0 1

/-- `__truediv__`, curve.py:322-336: keeps the natural range of the operand. -/
noncomputable def Curve.div (a : Curve) (k : ℝ) : Curve :=
  .make (.generic (fun t => (1 / k) • a.evalD t) 20) a.active a.t0 a.t1

end Verif
