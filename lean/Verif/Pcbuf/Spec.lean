import Verif.Pcbuf.Model
import Verif.Monitor.Spec
/-!
# Specification of bounded buffers (C27), in terms of calls and results only
-/
namespace Verif.Pcbuf.Spec
open Verif.Monitor Verif.Pcbuf

variable {α : Type}

/-- The values a call pushed: a timed push that returned false pushed
nothing. -/
def pushedBy (e : Entry (Op α) (Res α)) : List α :=
  match e.op, e.res with
  | .push v, _ => [v]
  | .pushFor _, .timeout => []
  | .pushFor v, _ => [v]
  | _, _ => []

/-- The values a call popped. -/
def poppedBy (e : Entry (Op α) (Res α)) : List α :=
  match e.op, e.res with
  | .pop, .value v => [v]
  | .popFor, .value v => [v]
  | _, _ => []

/-- All values pushed, in order. -/
def pushed (l : List (Entry (Op α) (Res α))) : List α := l.flatMap pushedBy

/-- All values popped, in order. -/
def popped (l : List (Entry (Op α) (Res α))) : List α := l.flatMap poppedBy

/-- No call in the list is `clear`. -/
def NoClear (l : List (Entry (Op α) (Res α))) : Prop := ∀ e ∈ l, e.op ≠ .clear

end Verif.Pcbuf.Spec
