import Verif.Thread.Model
/-!
# Specification of the thread life cycle (C31)
-/
namespace Verif.Thread.Spec
open Verif.Thread

/-- A history: calls, the answers of the system and the results. -/
abbrev Hist := List (Call × Bool × Bool)

/-- What a sequence of calls does. -/
inductive Run (hasF : Bool) : Hist → St → Prop
  | nil : Run hasF [] (init hasF)
  | snoc {h : Hist} {s s' : St} {b : Bool} (c : Call) (ok : Bool) : Run hasF h s →
      call s c ok = some (s', b) → Run hasF (h ++ [(c, ok, b)]) s'

/-- The number of successful starts. -/
def starts (h : Hist) : Nat := (h.filter (fun e => e.1 == .start && e.2.2)).length

/-- The number of successful joins and detaches. -/
def ends (h : Hist) : Nat := (h.filter (fun e => (e.1 == .join || e.1 == .detach) && e.2.2)).length

end Verif.Thread.Spec
