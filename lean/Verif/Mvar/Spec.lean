import Verif.Mvar.Model
import Verif.Monitor.Spec
/-!
# Specification of mvars (C26), in terms of calls and results only
-/
namespace Verif.Mvar.Spec
open Verif.Monitor Verif.Mvar

variable {α : Type}

/-- The values a call put into the mvar. -/
def putBy (e : Entry (Op α) (Res α)) : List α :=
  match e.op with
  | .put v => [v]
  | .tryPut v => if e.res matches .failed then [] else [v]
  | .swap v => [v]
  | _ => []

/-- The values a call took out of the mvar. -/
def takenBy (e : Entry (Op α) (Res α)) : List α :=
  match e.op, e.res with
  | .take, .value v => [v]
  | .tryTake, .value v => [v]
  | .swap _, .value v => [v]
  | _, _ => []

/-- All values put, in order. -/
def puts (l : List (Entry (Op α) (Res α))) : List α := l.flatMap putBy

/-- All values taken, in order. -/
def takes (l : List (Entry (Op α) (Res α))) : List α := l.flatMap takenBy

end Verif.Mvar.Spec
