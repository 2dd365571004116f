import Verif.RpcPool.Model
/-!
# Specification of the worker threads of an RPC server (C109)
-/
namespace Verif.RpcPool.Spec
open Verif.RpcPool

variable {σ α β : Type}

/-- States that a server with `n` threads can come to. -/
def Reach (f : σ → α → σ × β) (n : Nat) (timeout : Bool) (d : σ) (s : State σ α β) : Prop :=
  ∃ es, run f (start n timeout d) es = some s

/-- Events of the server itself. -/
def Inner : Ev α → Prop
  | .arrive _ _ => False
  | .stop => False
  | _ => True

instance : DecidablePred (Inner (α := α)) := fun e => by
  cases e <;> unfold Inner <;> infer_instance

/-- The number of steps of the server itself in a history. -/
def innerSteps (es : List (Ev α)) : Nat := (es.filter fun e => decide (Inner e)).length

/-- The server is not stopped in a history. -/
def NoStop (es : List (Ev α)) : Prop := .stop ∉ es

/-- The requests of a client that were run, in their order. -/
def ran (s : State σ α β) (i : Nat) : List α := (s.log.filter fun e => e.1 = i).map fun e => e.2.1

/-- A log that is what the functions do to the data, one request after the
other. -/
inductive Replays (f : σ → α → σ × β) : σ → List (Nat × α × β) → σ → Prop
  | nil (d) : Replays f d [] d
  | cons {d d'' : σ} {i : Nat} {r : α} {l : List (Nat × α × β)} (h : Replays f (f d r).1 l d'') :
      Replays f d ((i, r, (f d r).2) :: l) d''

/-- The functions keep the data in parts: a request with key `k` reads and changes part `k`
only. -/
def InParts {κ τ : Type} (key : α → κ) (f : (κ → τ) → α → (κ → τ) × β) : Prop :=
  (∀ d d' r, d (key r) = d' (key r) → (f d r).2 = (f d' r).2 ∧ (f d r).1 (key r) = (f d' r).1 (key r)) ∧
  ∀ d r k, k ≠ key r → (f d r).1 k = d k

/-- No two clients have requests with the same key. -/
def OwnKeys {κ : Type} (key : α → κ) (s : State σ α β) : Prop :=
  ∀ (i j : Nat) (ri rj : List α), s.given[i]? = some ri → s.given[j]? = some rj → i ≠ j → ∀ a ∈ ri, ∀ b ∈ rj, key a ≠ key b

/-- The connection of a client is with thread `w`. -/
def With (s : State σ α β) (w i : Nat) : Prop := ∃ c, s.workers[w]? = some (.busy c) ∧ c.id = i

/-- Client `i` waits for its connection to be taken. -/
def Waits (s : State σ α β) (i : Nat) : Prop := ∃ c ∈ s.queue, c.id = i

/-- Every connection that is open will end: its client closes it, or the
server has a timeout. -/
def Ending (s : State σ α β) : Prop :=
  s.timeout = true ∨ (∀ c ∈ s.queue, c.closes = true) ∧ ∀ c, .busy c ∈ s.workers → c.closes = true

/-- Nothing more happens unless another client comes or the server is stopped. -/
def Rest (f : σ → α → σ × β) (s : State σ α β) : Prop := ∀ e, Inner e → step f s e = none

/-- Thread `w` is with a client that has nothing to say and does not close its
connection. -/
def Silenced (s : State σ α β) (w : Nat) : Prop :=
  ∃ i, s.workers[w]? = some (.busy ⟨i, [], false⟩)

end Verif.RpcPool.Spec
