import Verif.Base.Vec

/-! # Specification: wires -/

namespace Verif.Spec

/-- The curves run, one after the other, from `a` to `b`: each starts exactly where the previous one ends. -/
inductive Wire : List (ℝ → Option V3) → V3 → V3 → Prop
  | nil (a : V3) : Wire [] a a
  | cons {f : ℝ → Option V3} {l : List (ℝ → Option V3)} {a b c : V3} :
      f 0 = some a → f 1 = some b → Wire l b c → Wire (f :: l) a c

end Verif.Spec
