import Verif.Chan.Model
/-!
# Specification of channels (C28)
-/
namespace Verif.Chan.Spec
open Verif.Chan Verif.Monitor

variable {α : Type}

/-- States reachable under any interleaving. -/
inductive Reach : St α → Prop
  | start : Reach init
  | step {s s' : St α} (t : Tid) (c : Call α) : Reach s → step s t c = some s' → Reach s'

/-- What is left of a stream of values after the given events: a read takes
the first value — and must have returned that value — and `unget` puts one in
front. `none` if some read returned anything else. -/
def consume [DecidableEq α] : List α → List (Ev α) → Option (List α)
  | s, [] => some s
  | [], .read _ :: _ => none
  | v :: s, .read w :: h => if v = w then consume s h else none
  | s, .unget v :: h => consume (v :: s) h

/-- The values read. -/
def reads (h : List (Ev α)) : List α :=
  h.filterMap (fun e => match e with | .read v => some v | .unget _ => none)

/-- Nobody has the mutex of the link: no `write`, `dup` or destructor is in
progress. -/
def Quiet (s : St α) : Prop := s.link = none

/-- Perform steps; `none` if one is blocked. -/
def runs : St α → List (Tid × Call α) → Option (St α)
  | s, [] => some s
  | s, (t, c) :: l => match step s t c with
    | none => none
    | some s' => runs s' l

end Verif.Chan.Spec
