import Verif.Double.Spec
import Verif.RandReal.Model
/-! # Specification: what a user may assume of the mathematical functions, and sequences of calls -/
namespace Verif.RandReal.Spec
open Verif.Double Verif.Double.Spec Verif.RandReal

/-- What is assumed of the library functions: the logarithm of a number from `2^-53` to 1 is a number between -37 and 0 (the true value
is at least -36.8), the square root of a number from 0 to 74 is a number from 0 to 9 (the true value is at most 8.7), sine and cosine of
a number are numbers between -1 and 1, and `pi` is a number below 4. -/
structure Sane (lib : Lib) : Prop where
  log : ∀ x, (2 : Rat) ^ (-53 : Int) ≤ x → x ≤ 1 → ∃ y, lib.log (.fin x) = .fin y ∧ -37 ≤ y ∧ y ≤ 0
  sqrt : ∀ x, 0 ≤ x → x ≤ 74 → ∃ y, lib.sqrt (.fin x) = .fin y ∧ 0 ≤ y ∧ y ≤ 9
  sin : ∀ x, ∃ y, lib.sin (.fin x) = .fin y ∧ -1 ≤ y ∧ y ≤ 1
  cos : ∀ x, ∃ y, lib.cos (.fin x) = .fin y ∧ -1 ≤ y ∧ y ≤ 1
  pi : ∃ y, lib.pi = .fin y ∧ 0 ≤ y ∧ y ≤ 4

/-- The calls a program makes on a `random`. -/
inductive Call where
  | real
  | realTo (a : D)
  | realIn (a b : D)
  | int (a : UInt32)
  | gaussian
  | gaussianAt (mean deviation : D)

/-- Whether a call asks for a normally distributed number. -/
def Call.isGaussian : Call → Bool
  | .gaussian => true
  | .gaussianAt _ _ => true
  | _ => false

/-- One call; the value it returns where that is a `double`, `none` for one that was never set. -/
def call {G : Type} (lib : Lib) (next : G → UInt32 × G) (r : Rand G) : Call → Option D × Rand G
  | .real => let p := nextDouble next r; (some p.1, p.2)
  | .realTo a => let p := nextDoubleTo next a r; (some p.1, p.2)
  | .realIn a b => let p := nextDoubleIn next a b r; (some p.1, p.2)
  | .int a => let p := nextInt next a r; (p.1.map (fun i => D.fin i), p.2)
  | .gaussian => nextGaussian lib next r
  | .gaussianAt m d => nextGaussianAt lib next m d r

/-- A sequence of calls: the values returned, and what is left. -/
def calls {G : Type} (lib : Lib) (next : G → UInt32 × G) : Rand G → List Call → List (Option D) × Rand G
  | r, [] => ([], r)
  | r, c :: cs =>
    let p := call lib next r c
    let q := calls lib next p.2 cs
    (p.1 :: q.1, q.2)

/-- The generator after `n` numbers. -/
def after {G : Type} (next : G → UInt32 × G) : Nat → G → G
  | 0, g => g
  | n + 1, g => after next n (next g).2

/-- The two independent normally distributed numbers made of two uniformly
distributed ones from 0 (included) to 1 (excluded), by Box and Muller's formula. -/
def boxMuller (lib : Lib) (x y : Rat) : D × D :=
  let radius := lib.sqrt (mul F64 (.fin (-2)) (lib.log (.fin (1 - x))))
  let angle := mul F64 (mul F64 (.fin 2) lib.pi) (.fin (1 - y))
  (mul F64 radius (lib.sin angle), mul F64 radius (lib.cos angle))

/-- Microseconds since 1970 of a clock reading. -/
def micros (ct : Clock.T) : Int := ct.sec.toNat * 1000000 + ct.usec

/-- A generator that always draws the same number. -/
def always (n : UInt32) : Unit → UInt32 × Unit := fun _ => (n, ())

/-- The largest `double`. -/
def largest : Rat := (2 ^ 53 - 1) * 2 ^ 971

end Verif.RandReal.Spec
