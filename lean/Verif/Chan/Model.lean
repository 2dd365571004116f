import Verif.Monitor.Model
/-!
# Model of `pfi::concurrent::chan`

Source: `/repo/src/concurrent/chan.h`.

A group of channel ends shares a `link`: a set of ends and a mutex. Each end
has its own queue, mutex and condition. The model has two layers:

* `endObj`: one end as an object guarded by its mutex and condition, where
  `put` is the private member called by `write`;
* `St`/`step`: the whole group, with any number of threads that write, read,
  unget, duplicate ends and destroy them, in any interleaving. There the
  operations on a single end are single steps, as justified by the first
  layer; a `write` is one step per end, under the mutex of the link.
-/
namespace Verif.Chan
open Verif.Monitor (Obj Tid upd)

/-! ### One end -/

/-- Operations on one end. -/
inductive Op (α : Type)
  | put (v : α) | read | unget (v : α) | size | empty
deriving DecidableEq, Repr

/-- Results. -/
inductive Res (α : Type)
  | none | value (v : α) | num (n : Nat) | bool (b : Bool)
deriving DecidableEq, Repr

variable {α : Type}

/-- `while(dat.empty()) cond.wait(m)` in `read`
(`/repo/src/concurrent/chan.h:76`). -/
def guard : Op α → List α → Bool
  | .read, q => !q.isEmpty
  | _, _ => true

/-- The critical sections: `put` (`/repo/src/concurrent/chan.h:129`), `read`
(`77-79`), `unget` (`86`), `size` (`96`), `empty` (`105`). -/
def body : Op α → List α → List α × Res α
  | .put v, q => (q ++ [v], .none)
  | .read, q => match q with
    | [] => ([], .none)
    | v :: q => (q, .value v)
  | .unget v, q => (v :: q, .none)
  | .size, q => (q, .num q.length)
  | .empty, q => (q, .bool q.isEmpty)

/-- `put` and `unget` notify (`/repo/src/concurrent/chan.h:132`, `89`). -/
def notifies : Op α → List α → Bool
  | .put _, _ => true
  | .unget _, _ => true
  | _, _ => false

/-- One end. -/
def endObj (α : Type) : Obj (List α) (Op α) (Res α) := ⟨guard, body, notifies, fun _ => .none⟩

/-! ### The group. Its ends are numbered. -/

/-- Where a thread is: `w…` in `write`, `d…` in the constructor called by
`dup`, `x…` in the destructor; acquiring the link's mutex, holding it and
about to act, about to release. `wPut v rem` has still to put `v` into
`rem`. -/
inductive Ph (α : Type)
  | idle
  | wAcq (v : α) | wPut (v : α) (rem : List Nat)
  | dAcq | dIns | dRel
  | xAcq (c : Nat) | xDel (c : Nat) | xRel

/-- What was done at an end. -/
inductive Ev (α : Type)
  | read (v : α) | unget (v : α)
deriving DecidableEq, Repr

/-- The link and the ends; `next` is the next unused end. The rest records
what happened: `writes`, the values written in the order in which the writers
got the link's mutex; `since c`, how many had been written when `c` joined;
`hist c`, what was read and ungot at `c`. -/
structure St (α : Type) where
  link : Option Tid
  members : List Nat
  dat : Nat → List α
  ph : Tid → Ph α
  next : Nat
  writes : List α
  since : Nat → Nat
  hist : Nat → List (Ev α)

/-- `chan()` (`/repo/src/concurrent/chan.h:51-54`): one end. -/
def init : St α := ⟨none, [0], fun _ => [], fun _ => .idle, 1, [], fun _ => 0, fun _ => []⟩

/-- What an idle thread does next. -/
inductive Call (α : Type)
  | write (v : α) | dup | destroy (c : Nat) | read (c : Nat) | unget (c : Nat) (v : α)

/-- A step of thread `t`: `write` (`/repo/src/concurrent/chan.h:67-72`), `dup`
(`63-65` and `117-123`), the destructor (`56-61`), `read` (`74-80`, blocked
while there is nothing to read) and `unget` (`82-90`). -/
def step (s : St α) (t : Tid) (call : Call α) : Option (St α) :=
  match s.ph t with
  | .idle => match call with
    | .write v => some { s with ph := upd s.ph t (.wAcq v) }
    | .dup => some { s with ph := upd s.ph t .dAcq }
    | .destroy c => some { s with ph := upd s.ph t (.xAcq c) }
    | .read c => match s.dat c with
      | [] => none
      | v :: q => some { s with dat := upd s.dat c q, hist := upd s.hist c (s.hist c ++ [.read v]) }
    | .unget c v => some { s with
        dat := upd s.dat c (v :: s.dat c), hist := upd s.hist c (s.hist c ++ [.unget v]) }
  | .wAcq v =>
    if s.link = none then some { s with
      link := some t, ph := upd s.ph t (.wPut v s.members), writes := s.writes ++ [v] }
    else none
  | .wPut _ [] => some { s with link := none, ph := upd s.ph t .idle }
  | .wPut v (c :: rem) => some { s with
      dat := upd s.dat c (s.dat c ++ [v]), ph := upd s.ph t (.wPut v rem) }
  | .dAcq => if s.link = none then some { s with link := some t, ph := upd s.ph t .dIns } else none
  | .dIns => some { s with
      members := s.members ++ [s.next], dat := upd s.dat s.next [], next := s.next + 1,
      since := upd s.since s.next s.writes.length, hist := upd s.hist s.next [],
      ph := upd s.ph t .dRel }
  | .dRel => some { s with link := none, ph := upd s.ph t .idle }
  | .xAcq c => if s.link = none then some { s with link := some t, ph := upd s.ph t (.xDel c) } else none
  | .xDel c => some { s with members := s.members.filter (· ≠ c), ph := upd s.ph t .xRel }
  | .xRel => some { s with link := none, ph := upd s.ph t .idle }

end Verif.Chan
