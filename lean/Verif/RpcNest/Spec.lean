import Verif.RpcNest.Model
/-!
# Specification of RPC functions that call their own server (C110)
-/
namespace Verif.RpcNest.Spec
open Verif.RpcNest

mutual
/-- How deep a call goes: 1 for a function that makes no calls. -/
def height : Tree → Nat
  | .node ks => heights ks + 1
/-- How deep the deepest of some calls goes. -/
def heights : List Tree → Nat
  | [] => 0
  | k :: ks => max (height k) (heights ks)
end

/-- A function that makes one call, which makes one call and so on, `h` calls below the first. -/
def chain : Nat → Tree
  | 0 => .node []
  | h + 1 => .node [chain h]

/-- States that a server with `n` threads can come to. -/
def Reach (n : Nat) (s : State) : Prop := ∃ es, run (start n) es = some s

/-- Events that are not new clients. -/
def Inner : Ev → Prop
  | .arrive _ => False
  | _ => True

/-- The threads that are not free: for each client those whose functions wait for a call inside, and the one whose function runs. -/
def busy (s : State) : Nat := (s.acts.map fun a => a.frames.length + match a.top with
    | .queued _ => 0
    | .running _ => 1
    | .done => 0).sum

/-- Client `i` has its answer. -/
def Answered (s : State) (i : Nat) : Prop := ∃ a, s.acts[i]? = some a ∧ a.top = .done

/-- Client `i` made the call `t`. -/
def Made (s : State) (i : Nat) (t : Tree) : Prop := ∃ a, s.acts[i]? = some a ∧ a.given = t

/-- How deep the calls of a client that waits for its answer go below the first, and 0
for one that has it. -/
def below (a : Act) : Nat :=
  match a.top with
  | .done => 0
  | _ => height a.given - 1

/-- That of all clients together. -/
def allBelow (s : State) : Nat := (s.acts.map below).sum

/-- Nothing more happens unless another client comes. -/
def Rest (s : State) : Prop := ∀ e, Inner e → step s e = none

end Verif.RpcNest.Spec
