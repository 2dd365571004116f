import Verif.Duration.Model
import Verif.Clock.Spec
import Verif.Double.Spec
/-! # Specification: times as rational numbers of seconds -/
namespace Verif.Duration.Spec
open Verif.Duration
open Verif.Double (D F64)
open Verif.Double.Spec (IsNum)

/-- The seconds that a `timespec` (`unit` = 10^9) or `timeval` (`unit` = 10^6) stands for. -/
def secs (unit : Nat) (t : Tv) : Rat := (t.sec : Rat) + (t.frac : Rat) / (unit : Rat)

/-- The system accepts no others. -/
def Valid (unit : Nat) (t : Tv) : Prop := 0 ≤ t.sec ∧ 0 ≤ t.frac ∧ t.frac < unit

instance (u : Nat) (t : Tv) : Decidable (Valid u t) := inferInstanceAs (Decidable (_ ∧ _))

/-- Less than `eps` apart. -/
def Within (eps x y : Rat) : Prop := x - y < eps ∧ y - x < eps

instance (e x y : Rat) : Decidable (Within e x y) := inferInstanceAs (Decidable (_ ∧ _))

/-- A nanosecond and a microsecond, in seconds. -/
def nano : Rat := 1 / 1000000000
def micro : Rat := 1 / 1000000

/-- A reading of the clock in seconds. -/
def clock (t : Clock.T) : Rat := (Clock.Spec.micros t : Rat) / 1000000

/-- A normalised reading of the clock up to the year 2106. -/
def Now (t : Clock.T) : Prop := Clock.Spec.Normal t ∧ clock t ≤ 2 ^ 32

instance (t : Clock.T) : Decidable (Now t) := inferInstanceAs (Decidable (_ ∧ _))

/-- For a socket, this is no timeout at all. -/
def forever : Tv := ⟨0, 0⟩

end Verif.Duration.Spec
