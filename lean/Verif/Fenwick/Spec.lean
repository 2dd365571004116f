import Mathlib.Algebra.BigOperators.Group.List.Basic
/-! What a range-sum structure should answer. -/

namespace Verif.Fenwick.Spec

variable {T : Type} [AddCommGroup T]

/-- The sum of all increments made at positions `a..b` (inclusive). -/
def rangeSum (hist : List (Int × T)) (a b : Int) : T :=
  ((hist.filter (fun e => a ≤ e.1 ∧ e.1 ≤ b)).map (·.2)).sum

end Verif.Fenwick.Spec
