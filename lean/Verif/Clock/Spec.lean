import Verif.Clock.Model
/-! # Specification: times as whole numbers of microseconds -/
namespace Verif.Clock.Spec
open Verif.Clock

/-- Microseconds since the epoch. -/
def micros (t : T) : Int := (t.sec.toNat : Int) * 1000000 + t.usec

/-- A normalised time: less than a second of microseconds. -/
def Normal (t : T) : Prop := 0 ≤ t.usec ∧ t.usec < 1000000

instance (t : T) : Decidable (Normal t) := inferInstanceAs (Decidable (_ ∧ _))

/-- Number of microseconds after which `sec` wraps around. -/
def wrap : Int := 2 ^ 64 * 1000000

end Verif.Clock.Spec
