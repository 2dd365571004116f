import Verif.CgiServer.ModelPool
/-! Specification of the web server with several threads (C111). -/
namespace Verif.CgiServer.Pool.Spec
open Verif Verif.Socket Verif.CgiServer Verif.CgiServer.Pool

/-- The connections that thread `w` takes in a history, in order. -/
def taken (w : Nat) : List Ev → List Conn
  | [] => []
  | .take v c :: es => if v = w then c :: taken w es else taken w es
  | .finish _ :: es => taken w es

/-- The connections that any thread takes. -/
def takenAll : List Ev → List Conn
  | [] => []
  | .take _ c :: es => c :: takenAll es
  | .finish _ :: es => takenAll es

/-- What thread `w` is done with. -/
def of (w : Nat) {σ : Type} (s : State σ) : List (Nat × Conn × Str) := s.log.filter fun l => l.1 = w

/-- The connection that thread `w` has now. -/
def held (w : Nat) {σ : Type} (s : State σ) : List Conn := ((s.workers[w]?).bind Worker.busy).toList

/-- A program whose answers do not depend on what its object remembers. -/
def Forgetful {σ : Type} (p : Program σ) : Prop := ∀ st st' v h, (p.run st v h).2 = (p.run st' v h).2

end Verif.CgiServer.Pool.Spec
