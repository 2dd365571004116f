import Verif.MpServer.Model
/-!
# Specification of the life of an RPC server (C80)
-/
namespace Verif.MpServer.Spec
open Verif.MpServer

/-- States after any steps. -/
inductive Any (timed : Bool) : State → Prop
  | new : Any timed (new timed)
  | step {s s' e} (h : Any timed s) (hs : step s e = some s') : Any timed s'

/-- A thread object that has been started and not joined. -/
def Open : Slot → Prop
  | .run _ => True
  | _ => False

/-- Every thread that was started has been joined: `join` has been called
since the last `run` (which a synchronous or failing `run` does itself). -/
def Settled (s : State) : Prop := ∀ x ∈ s.threads, ¬ Open x

/-- How the server should be used. `create`, `run` and the destructor are not
called before the threads of an earlier `run` have been joined, nor while some
thread is still in `stop`; `create` not while the server runs; `join` not
after a `run` that failed, which leaves null pointers behind; and nothing
after the destructor. -/
def Proper (s : State) : Ev → Prop
  | .create _ => Settled s ∧ s.closing = 0 ∧ s.running = false ∧ s.destroyed = false
  | .run _ _ => Settled s ∧ s.closing = 0 ∧ s.destroyed = false
  | .join => Slot.null ∉ s.threads ∧ s.destroyed = false
  | .stopFlag => s.destroyed = false
  | .destroy => Settled s ∧ s.closing = 0 ∧ s.destroyed = false
  | _ => True

/-- States of a server that is used as it should be. -/
inductive Reach (timed : Bool) : State → Prop
  | new : Reach timed (new timed)
  | step {s s' e} (h : Reach timed s) (hp : Proper s e) (hs : step s e = some s') : Reach timed s'

/-- The worker has not ended. -/
def Alive (s : State) (w : Nat) : Prop := ∃ p, s.workers[w]? = some p ∧ p ≠ .done

/-- Events by which the user of the class begins something. -/
def Call : Ev → Prop
  | .create _ => True
  | .run _ _ => True
  | .join => True
  | .stopFlag => True
  | .destroy => True
  | _ => False

/-- `n` steps, none of which begins a call. -/
inductive Goes : Nat → State → State → Prop
  | zero (s) : Goes 0 s s
  | more {n s s' s'' e} (hc : ¬ Call e) (hs : step s e = some s') (h : Goes n s' s'') : Goes (n + 1) s s''

/-- Events that happen by themselves, without a call, a client, or an error of
the network. -/
def Own : Ev → Prop
  | .start _ => True
  | .joinNext => True
  | .stopClose => True
  | .test _ => True
  | .fetch _ => True
  | .accept _ .closed => True
  | .setup _ _ => True
  | .receive _ .timeout => True
  | _ => False

/-- Nothing happens by itself any more. -/
def Rest (s : State) : Prop := ∀ e, Own e → step s e = none

end Verif.MpServer.Spec
