import Verif.RpcNest.ModelMany
/-!
# Specification of RPC functions that call functions of several servers (C110)
-/
namespace Verif.RpcNest.Many.Spec
open Verif.RpcNest.Many

mutual
/-- How many threads of server `k` may wait at once for a call: the calls to `k`
that make calls themselves, one inside of the other. -/
def nested (k : Nat) : Tree → Nat
  | .node _ [] => 0
  | .node s (t :: ts) => one k s + max (nested k t) (nesteds k ts)
/-- The same for the worst of some calls. -/
def nesteds (k : Nat) : List Tree → Nat
  | [] => 0
  | t :: ts => max (nested k t) (nesteds k ts)
end

mutual
/-- How many calls to server `k` there are one inside of the other. -/
def deep (k : Nat) : Tree → Nat
  | .node s ts => one k s + deeps k ts
/-- The same for the worst of some calls. -/
def deeps (k : Nat) : List Tree → Nat
  | [] => 0
  | t :: ts => max (deep k t) (deeps k ts)
end

/-- Client `i` has made call `t`. -/
def Made (s : State) (i : Nat) (t : Tree) : Prop := ∃ a, s.acts[i]? = some a ∧ a.given = t

/-- States that servers with `n k` threads can come to. -/
def Reach (n : Nat → Nat) (s : State) : Prop := ∃ es, run (start n) es = some s

/-- Events that are not new clients. -/
def Inner : Ev → Prop
  | .arrive _ => False
  | _ => True

/-- The threads of server `k` that are not free: for each client those whose functions wait for a call inside, and the one whose function runs. -/
def busy (s : State) (k : Nat) : Nat := (s.acts.map fun a => (a.frames.filter fun f => f.1 == k).length + match a.top with
    | .queued _ => 0
    | .running j _ => if j == k then 1 else 0
    | .done => 0).sum

/-- Client `i` has its answer. -/
def Answered (s : State) (i : Nat) : Prop := ∃ a, s.acts[i]? = some a ∧ a.top = .done

/-- How many threads of server `k` may wait for a client that has no answer yet. -/
def demand (k : Nat) (a : Act) : Nat :=
  match a.top with
  | .done => 0
  | _ => nested k a.given

/-- That of all clients together. -/
def demands (s : State) (k : Nat) : Nat := (s.acts.map (demand k)).sum

/-- Nothing more happens unless another client comes. -/
def Rest (s : State) : Prop := ∀ e, Inner e → step s e = none

end Verif.RpcNest.Many.Spec
