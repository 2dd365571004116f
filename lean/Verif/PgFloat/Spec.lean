import Verif.PgFloat.Model
import Verif.Postgres.Spec
import Verif.LexFloat.Spec
/-! The numbers that bits and texts stand for. -/
namespace Verif.PgFloat.Spec
open Verif.Double Verif.Postgres.Spec

/-- The finite `double` with the bits `d` is the number `x`; `neg` is its sign. -/
def IsDouble (d : UInt64) (neg : Bool) (x : Rat) : Prop :=
  ∃ (m : Nat) (e : Int), Decodes d neg m e ∧ x = (if neg then -1 else 1) * m * (2 : Rat) ^ e

/-- The text shows the number `q` as a `double`: perhaps with fewer digits or with more, but so that the same `double` is the nearest one. -/
def Shows (s : Sql.Str) (q : Rat) : Prop := 0 ∉ s ∧ ∃ q', LexFloat.Spec.Begins s q' ∧ rnd F64 q' = rnd F64 q

end Verif.PgFloat.Spec
