import Verif.RwMutex.Model
/-!
# Specification of reader-writer locks (C30)
-/
namespace Verif.RwMutex.Spec
open Verif.RwMutex

/-- States reachable by any sequence of calls of any threads that satisfy
`ok`. Threads unlock only what they were told they have. -/
inductive Reach (ok : Call → Prop) (valid : Bool) : St → Prop
  | start : Reach ok valid (init valid)
  | step {s s' : St} {b : Bool} (t : Tid) (c : Call) (err : Int) : Reach ok valid s → ok c →
      (c = .unlock → ∃ m, (t, m) ∈ s.told) → call s t c err = some (s', b) → Reach ok valid s'

/-- No reader coexists with a writer and no two writers coexist. -/
def Exclusive (h : List (Tid × Mode)) : Prop :=
  (∀ x ∈ h, x.2 = .read) ∨ ∃ t, h = [(t, .write)]

/-- The full property: callers have exactly the locks they were told they
have, and these are exclusive. -/
def Truthful : Prop := ∀ s, Reach (fun _ => True) true s → s.told = s.holders ∧ Exclusive s.told

/-- Any call but `read_lock(sec)` with `sec < 1e-9`. -/
def NotTinyRead (c : Call) : Prop := c ≠ .lockFor .read true

/-- The call asks for a lock of mode `m`. -/
def Asks (c : Call) (m : Mode) : Prop := c = .lock m ∨ ∃ tiny, c = .lockFor m tiny

end Verif.RwMutex.Spec
