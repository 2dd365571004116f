/-!
# Model of an object guarded by one mutex and one condition variable

`mvar`, `pcbuf` and `qsem` are all written in the same way
(`/repo/src/concurrent/mvar.h:53-66` and following,
`/repo/src/concurrent/pcbuf.h:77-144`, `/repo/src/concurrent/qsem.h:53-76`):
take the mutex, wait on the condition while a guard is false, change the
state, release the mutex, call `notify_all`. This module models the common
part: any number of threads calling the operations in any order, with every
interleaving of their steps, spurious wake-ups and time-outs. What the mutex
and `condition::wait` do is what C24 and C25 prove of them: one owner at a
time, and a waiting thread gives the mutex up completely and has it back when
it returns.
-/
namespace Verif.Monitor

/-- Threads. -/
abbrev Tid := Nat

/-- An object: `guard` ends the waiting loop, `body` is the critical section
after it, `notifies` says whether the operation calls `notify_all` after
releasing the mutex, and `expired` is the result of a timed operation that
gives up. -/
structure Obj (S Op R : Type) where
  guard : Op → S → Bool
  body : Op → S → S × R
  notifies : Op → S → Bool
  expired : Op → Option R

/-- Where a thread is: outside; acquiring the mutex; holding it and about to
test the guard; about to run the body; about to release; waiting on the
condition; woken and acquiring the mutex again; about to notify. -/
inductive Phase (Op R : Type)
  | idle
  | enter (op : Op)
  | test (op : Op)
  | run (op : Op)
  | leave (op : Op) (r : R) (n : Bool)
  | waiting (op : Op)
  | woken (op : Op)
  | notify (op : Op) (r : R)

/-- One completed critical section. -/
structure Entry (Op R : Type) where
  tid : Tid
  op : Op
  res : R
  timedOut : Bool

/-- The state, with two records for the specification: `log`, the critical
sections in the order in which they ran, and `returned`, the calls each
thread has seen return, with their results. -/
structure Config (S Op R : Type) where
  lock : Option Tid
  st : S
  ph : Tid → Phase Op R
  log : List (Entry Op R)
  returned : Tid → List (Op × R)

/-- Point update. -/
def upd {α : Type} (f : Tid → α) (t : Tid) (v : α) : Tid → α := fun u => if u = t then v else f u

/-- What the scheduler and the environment choose. -/
inductive Choice (Op : Type)
  | call (op : Op)
  | go
  | expire

variable {S Op R : Type}

/-- `notify_all`: every waiting thread is woken. -/
def wakeAll (ph : Tid → Phase Op R) : Tid → Phase Op R := fun u =>
  match ph u with
  | .waiting op => .woken op
  | p => p

/-- Nothing has happened yet. -/
def start (s : S) : Config S Op R := ⟨none, s, fun _ => .idle, [], fun _ => []⟩

/-- A step of thread `t`. A waiting thread may be woken at any time. A timed
operation may give up when the guard is false or when it comes back from
waiting (`/repo/src/concurrent/pcbuf.h:103-107`). -/
def step (O : Obj S Op R) (c : Config S Op R) (t : Tid) (ch : Choice Op) : Option (Config S Op R) :=
  match c.ph t with
  | .idle => match ch with
    | .call op => some { c with ph := upd c.ph t (.enter op) }
    | _ => none
  | .enter op =>
    if c.lock = none then some { c with lock := some t, ph := upd c.ph t (.test op) } else none
  | .test op =>
    if O.guard op c.st then some { c with ph := upd c.ph t (.run op) }
    else match ch, O.expired op with
      | .expire, some r => some { c with
          ph := upd c.ph t (.leave op r false), log := c.log ++ [⟨t, op, r, true⟩] }
      | _, _ => some { c with lock := none, ph := upd c.ph t (.waiting op) }
  | .run op =>
    some { c with
      st := (O.body op c.st).1,
      ph := upd c.ph t (.leave op (O.body op c.st).2 (O.notifies op c.st)),
      log := c.log ++ [⟨t, op, (O.body op c.st).2, false⟩] }
  | .leave op r n =>
    if n then some { c with lock := none, ph := upd c.ph t (.notify op r) }
    else some { c with
      lock := none, ph := upd c.ph t .idle, returned := upd c.returned t (c.returned t ++ [(op, r)]) }
  | .notify op r => some { c with
      ph := upd (wakeAll c.ph) t .idle, returned := upd c.returned t (c.returned t ++ [(op, r)]) }
  | .waiting op => some { c with ph := upd c.ph t (.woken op) }
  | .woken op =>
    if c.lock = none then
      match ch, O.expired op with
      | .expire, some r => some { c with
          lock := some t, ph := upd c.ph t (.leave op r false), log := c.log ++ [⟨t, op, r, true⟩] }
      | _, _ => some { c with lock := some t, ph := upd c.ph t (.test op) }
    else none

end Verif.Monitor
