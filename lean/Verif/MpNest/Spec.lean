import Verif.MpNest.Model
import Verif.RpcNest.SpecMany
/-!
# Specification of MessagePack-RPC calls within calls (C112)
-/
namespace Verif.MpNest.Spec
open Verif.MpNest

/-- States that servers with `n k` threads can come to. -/
def Reach (n : Nat → Nat) (s : State) : Prop := ∃ es, run (start n) es = some s

/-- Events that are not new clients. -/
def Inner : Ev → Prop
  | .arrive _ => False
  | _ => True

/-- The one who made call `i` has its answer. -/
def Answered (s : State) (i : Nat) : Prop := ∃ a, s.acts[i]? = some a ∧ a.who = .answered

/-- The one who made call `i` has given up. -/
def GivenUp (s : State) (i : Nat) : Prop := ∃ a, s.acts[i]? = some a ∧ a.who = .gaveUp

/-- The threads of server `k` that are with a call: those whose functions wait for a call inside, the one whose function runs, and the one whose
function has thrown while the connection is open. -/
def holds (k : Nat) (a : Act) : Nat :=
  (a.frames.filter fun f => f.1 == k).length + match a.top with
    | .queued _ => 0
    | .running s _ => if s == k then 1 else 0
    | .silent s => if s == k then 1 else 0
    | .done => 0

/-- The threads of server `k` that are not free. -/
def busy (s : State) (k : Nat) : Nat := (s.acts.map (holds k)).sum

/-- How many functions are begun in a history. -/
def begun : List Ev → Nat
  | [] => 0
  | .accept _ :: es => begun es + 1
  | _ :: es => begun es

mutual
/-- The number of calls that a call consists of, itself included. -/
def size : Tree → Nat
  | .node _ ks => sizes ks + 1
/-- The number of calls that some calls consist of. -/
def sizes : List Tree → Nat
  | [] => 0
  | t :: ts => size t + sizes ts
end

/-- The number of calls that were asked for in a history, by clients or for them. -/
def asked : List Ev → Nat
  | [] => 0
  | .arrive t :: es => size t + asked es
  | _ :: es => asked es

/-- Nobody gives up in a history. -/
def Patient (es : List Ev) : Prop := ∀ i j, Ev.giveUp i j ∉ es ∧ ∀ more, Ev.caught i j more ∉ es

/-- How many threads of server `k` may wait at once for all clients of a history together: for each client, the calls to `k` that make
calls themselves, one inside of the other (`nested` of C110). -/
def needs (k : Nat) : List Ev → Nat
  | [] => 0
  | .arrive t :: es => Verif.RpcNest.Many.Spec.nested k t + needs k es
  | _ :: es => needs k es

/-- Nothing more happens unless another client comes or someone gives up. -/
def Stuck (s : State) : Prop := ∀ i, step s (.accept i) = none ∧ step s (.call i) = none ∧ step s (.reply i) = none ∧ step s (.close i) = none

/-- Nothing more happens unless another client comes. -/
def Rest (s : State) : Prop := ∀ e, Inner e → step s e = none

end Verif.MpNest.Spec
