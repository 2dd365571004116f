/-!
# Model of starting and stopping an RPC server

Source: `/repo/src/network/rpc/base.cpp:53-258`. Any number of threads call `start`, `stop` and `wait_until_stopped`; the worker threads of the
server run beside them, in every interleaving, with spurious wake-ups. What workers do with their connections is a single phase here (the RPC
protocol is in `Verif.Rpc`). The mutex excludes, and waiting gives it up while waiting (C24, C25).
-/
namespace Verif.RpcStop

/-- Threads. -/
abbrev Tid := Nat

/-- `server_state`, `/repo/src/network/rpc/base.h:60-64`. -/
inductive State
  | stopped
  | running
  | stopping
deriving DecidableEq, Repr

/-- Where a thread is. A thread outside the server is idle, also before it is created and after it has ended. -/
inductive Phase
  | idle
  /-- `start`, `/repo/src/network/rpc/base.cpp:91-112`: about to take the mutex -/
  | startEnter (nthreads : Nat)
  /-- `start`, lines 105-109: holding the mutex, with `k` threads still to create -/
  | starting (k : Nat)
  /-- `stop`, lines 114-134: about to take the mutex -/
  | stopEnter
  /-- `stop`, lines 123-132: holding the mutex, with `k` calls still to make -/
  | exiting (k : Nat)
  /-- `wait_until_stopped`, lines 136-143: about to take the mutex -/
  | waitEnter
  /-- `wait_until_stopped`, line 142: inside the wait -/
  | blocked
  /-- `wait_until_stopped`, line 142: woken, about to take the mutex -/
  | woken
  /-- `process`, line 170: about to test `is_running` -/
  | check
  /-- `process`, lines 171-228 -/
  | busy
  /-- `notify_if_this_is_the_last_running_threads`, line 251: about to take the mutex -/
  | leave
  /-- `notify_if_this_is_the_last_running_threads`, line 257: about to notify -/
  | signal
deriving DecidableEq, Repr

/-- The fields of the server, `/repo/src/network/rpc/base.h:99-112`, and the threads. `spawned` is a record for the specification: the last
`start` has started a thread. -/
structure Server where
  lock : Option Tid
  st : State
  num : Int
  nthreads : Nat
  ph : Tid → Phase
  spawned : Bool

/-- Point update. -/
def upd (f : Tid → Phase) (t : Tid) (v : Phase) : Tid → Phase := fun u => if u = t then v else f u

/-- What the scheduler and the environment choose. -/
inductive Choice
  /-- an idle thread calls a function -/
  | start (nthreads : Nat)
  | stop
  | wait
  /-- the thread goes on -/
  | go
  /-- the thread goes on, and the system call it makes fails -/
  | fail
  /-- the thread goes on and creates thread `u`, or wakes thread `u` -/
  | with (u : Tid)
  /-- the thread wakes up without a notification -/
  | spurious
deriving DecidableEq, Repr

/-- Constructor, `/repo/src/network/rpc/base.cpp:53-61`. -/
def new : Server := ⟨none, .stopped, 0, 0, fun _ => .idle, false⟩

/-- The predicate of the wait, evaluated with the mutex held; `/repo/src/network/rpc/base.cpp:139-142`. -/
def testStopped (s : Server) (t : Tid) : Server :=
  if s.st = .stopped then { s with ph := upd s.ph t .idle } else { s with ph := upd s.ph t .blocked }

/-- A step of thread `t`, from one operation on shared data to the next. A critical section that ends without another such operation is one
step. `start`: `/repo/src/network/rpc/base.cpp:91-112`, creating the socket may fail (line 94), and so may each thread (line 107). `stop`:
114-134; a call that cannot connect is the same as one that succeeds, any other error leaves the function (129-131). `wait_until_stopped`:
136-143. `process`: 168-231. The end of a worker: 248-258, where `notify_one` wakes one of the waiting threads; that it wakes nobody only if
nobody waits is in `Step`. -/
def step (s : Server) (t : Tid) (c : Choice) : Option Server :=
  match s.ph t with
  | .idle => match c with
    | .start n => some { s with ph := upd s.ph t (.startEnter n) }
    | .stop => some { s with ph := upd s.ph t .stopEnter }
    | .wait => some { s with ph := upd s.ph t .waitEnter }
    | _ => none
  | .startEnter n => match c with
    | .fail => some { s with ph := upd s.ph t .idle }
    | .go =>
      if s.lock = none then
        some { s with lock := some t, st := .running, nthreads := n, ph := upd s.ph t (.starting n), spawned := false }
      else none
    | _ => none
  | .starting 0 => match c with
    | .go => some { s with lock := none, ph := upd s.ph t .idle }
    | _ => none
  | .starting (k + 1) => match c with
    | .fail => some { s with lock := none, ph := upd s.ph t .idle }
    | .with u =>
      if s.ph u = .idle then
        some { s with num := s.num + 1, ph := upd (upd s.ph t (.starting k)) u .check, spawned := true }
      else none
    | _ => none
  | .stopEnter => match c with
    | .go =>
      if s.lock = none then
        if s.st = .running then some { s with lock := some t, st := .stopping, ph := upd s.ph t (.exiting s.nthreads) }
        else some { s with ph := upd s.ph t .idle }
      else none
    | _ => none
  | .exiting 0 => match c with
    | .go => some { s with lock := none, ph := upd s.ph t .idle }
    | _ => none
  | .exiting (k + 1) => match c with
    | .go => some { s with ph := upd s.ph t (.exiting k) }
    | .fail => some { s with lock := none, ph := upd s.ph t .idle }
    | _ => none
  | .waitEnter => match c with
    | .go => if s.lock = none then some (testStopped s t) else none
    | _ => none
  | .blocked => match c with
    | .spurious => some { s with ph := upd s.ph t .woken }
    | _ => none
  | .woken => match c with
    | .go => if s.lock = none then some (testStopped s t) else none
    | _ => none
  | .check => match c with
    | .go =>
      if s.lock = none then
        if s.st = .running then some { s with ph := upd s.ph t .busy } else some { s with ph := upd s.ph t .leave }
      else none
    | _ => none
  | .busy => match c with
    | .go => some { s with ph := upd s.ph t .check }
    | _ => none
  | .leave => match c with
    | .go =>
      if s.lock = none then
        if s.num - 1 > 0 then some { s with num := s.num - 1, ph := upd s.ph t .idle }
        else some { s with num := s.num - 1, st := .stopped, ph := upd s.ph t .signal }
      else none
    | _ => none
  | .signal => match c with
    | .with u => if s.ph u = .blocked then some { s with ph := upd (upd s.ph t .idle) u .woken } else none
    | .go => some { s with ph := upd s.ph t .idle }
    | _ => none

/-- The steps there are: `step`, where `notify_one` (`/repo/src/network/rpc/base.cpp:257`) wakes nobody only if nobody waits. -/
def Step (s : Server) (t : Tid) (c : Choice) (s' : Server) : Prop :=
  step s t c = some s' ∧ (s.ph t = .signal → c = .go → ∀ u, s.ph u ≠ .blocked)

end Verif.RpcStop
