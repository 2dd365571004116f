import Verif.Ratio.Model
import Mathlib.Data.Rat.Defs
/-! # Specification: rational numbers -/
namespace Verif.Ratio.Spec
open Verif.Ratio

/-- The rational number a `ratio` stands for. -/
def value (r : R) : ℚ := (r.num : ℚ) / (r.den : ℚ)

/-- Lowest terms with a positive denominator. -/
def Canonical (r : R) : Prop := 0 < r.den ∧ Int.gcd r.num r.den = 1

instance (r : R) : Decidable (Canonical r) := inferInstanceAs (Decidable (_ ∧ _))

/-- Integers without bounds. -/
def bigInt : IntTy := ⟨fun _ => true, fun x => x.natAbs⟩

/-- `n`-bit signed integers with a correct `abs`. -/
def signed (n : Nat) : IntTy := ⟨fun x => -2 ^ (n - 1) ≤ x ∧ x < 2 ^ (n - 1), fun x => x.natAbs⟩

/-- 64-bit integers where `abs` is the C function on `int`: the argument is first converted to 32 bits. -/
def signed64WithIntAbs : IntTy := ⟨(signed 64).ok, fun x => (Int.bmod x (2 ^ 32)).natAbs⟩

/-- `abs` is the absolute value. -/
def AbsOk (T : IntTy) : Prop := ∀ x, T.abs x = x.natAbs

end Verif.Ratio.Spec
