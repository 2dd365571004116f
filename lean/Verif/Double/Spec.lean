import Verif.Double.Model
/-! # Specification: the numbers of a floating point format -/
namespace Verif.Double.Spec
open Verif.Double

/-- The finite numbers of a format: `m * 2^e` with a significand of `prec` binary digits and an exponent in range. -/
def IsNum (F : Fmt) (x : Rat) : Prop :=
  ∃ m e : Int, m.natAbs < 2 ^ F.prec ∧ F.emin ≤ e ∧ e ≤ F.emax - F.prec ∧ x = m * (2 : Rat) ^ e

/-- The distance of two numbers. -/
def dist (x y : Rat) : Rat := if x ≤ y then y - x else x - y

end Verif.Double.Spec
