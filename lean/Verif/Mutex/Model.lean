/-!
# Model of mutexes and of waiting on a condition

Source: `/repo/src/concurrent/mutex.cpp`, `/repo/src/concurrent/condition.cpp`.

One mutex and any number of threads, each of which performs an arbitrary
sequence of `lock`, `unlock` and `condition::wait` calls. Every access to a
shared variable is a step of its own and steps of different threads
interleave arbitrarily (sequentially consistent memory; `holder` and `cnt`
are plain variables that are read without the lock, which C++11 calls a data
race).

`pthread_mutex_lock` blocks until there is no owner. `pthread_cond_wait`
releases the mutex and enters the wait set in one step; it may return at any
later time at which the mutex is free, which covers notification, spurious
wake-up and time-out.
-/
namespace Verif.Mutex

/-- Threads. -/
abbrev Tid := Nat

/-- `thread::id()`: kernel thread ids are positive
(`/repo/src/concurrent/thread.cpp:109-116`). -/
def ident (t : Tid) : Int := t + 1

/-- Where a thread is. The parameters are local variables: the value read by
`cnt++`/`--cnt`, and `holder` and `cnt` saved by `wait`. -/
inductive Pc
  | idle
  -- lock()
  | lk0 | nlAcq | nlHold | lkTest | lkRead | lkInc (c : Int) | lkAcq | lkCnt | lkHold
  -- unlock()
  | un0 | nuHold | nuRel | unTest | unRead | unDec (c : Int) | unHold | unRel
  -- condition::wait(m)
  | wTest | wSaveH | wSaveC (h : Int) | wH0 (h c : Int) | wC0 (h c : Int) | wWait (h c : Int)
  | wBlk (h c : Int) | wCnt (h c : Int) | wHold (h c : Int)
deriving DecidableEq, Repr

/-- Shared variables, the threads, and what can be observed of each thread:
`depth` is the number of its `lock` calls that returned true minus the number
of its `unlock` calls that returned true; `res` is its last result. `ub` is
set by an `unlock` or `wait` on a pthread mutex the caller does not own. -/
structure St where
  owner : Option Tid
  holder : Int
  cnt : Int
  pc : Tid → Pc
  depth : Tid → Nat
  res : Tid → Bool
  ub : Bool

/-- Point update. -/
def upd {α : Type} (f : Tid → α) (t : Tid) (v : α) : Tid → α := fun u => if u = t then v else f u

/-- A new mutex (`/repo/src/concurrent/mutex.cpp:57-63`). -/
def init (recursive : Bool) : St :=
  ⟨none, -1, if recursive then 0 else -1, fun _ => .idle, fun _ => 0, fun _ => false, false⟩

/-- Calls. -/
inductive Call
  | lock | unlock | wait
deriving DecidableEq, Repr

/-- The next step of thread `t`; `c` is the call it makes if it is idle.
`none`: the thread is blocked.

* `lock` (`/repo/src/concurrent/mutex.cpp:71-97`): `lk0` tests `cnt<0`;
  `nl…` is the non-recursive branch, `lk…` the recursive one.
* `unlock` (`/repo/src/concurrent/mutex.cpp:99-120`), likewise.
* `wait` (`/repo/src/concurrent/condition.cpp:107-130` and, with a time
  limit, `132-158`). -/
def step (s : St) (t : Tid) (c : Call) : Option St :=
  match s.pc t with
  | .idle =>
    match c with
    | .lock => some { s with pc := upd s.pc t .lk0 }
    | .unlock => some { s with pc := upd s.pc t .un0 }
    | .wait => some { s with pc := upd s.pc t .wTest }
  -- lock
  | .lk0 => some { s with pc := upd s.pc t (if s.cnt < 0 then .nlAcq else .lkTest) }
  | .nlAcq =>
    if s.owner = none then some { s with owner := some t, pc := upd s.pc t .nlHold } else none
  | .nlHold => some { s with
      holder := ident t, pc := upd s.pc t .idle,
      depth := upd s.depth t (s.depth t + 1), res := upd s.res t true }
  | .lkTest => some { s with pc := upd s.pc t (if ident t = s.holder then .lkRead else .lkAcq) }
  | .lkRead => some { s with pc := upd s.pc t (.lkInc s.cnt) }
  | .lkInc c => some { s with
      cnt := c + 1, pc := upd s.pc t .idle,
      depth := upd s.depth t (s.depth t + 1), res := upd s.res t true }
  | .lkAcq =>
    if s.owner = none then some { s with owner := some t, pc := upd s.pc t .lkCnt } else none
  | .lkCnt => some { s with cnt := 1, pc := upd s.pc t .lkHold }
  | .lkHold => some { s with
      holder := ident t, pc := upd s.pc t .idle,
      depth := upd s.depth t (s.depth t + 1), res := upd s.res t true }
  -- unlock
  | .un0 => some { s with pc := upd s.pc t (if s.cnt < 0 then .nuHold else .unTest) }
  | .nuHold => some { s with holder := -1, pc := upd s.pc t .nuRel }
  | .nuRel =>
    if s.owner = some t then some { s with
      owner := none, pc := upd s.pc t .idle,
      depth := upd s.depth t (s.depth t - 1), res := upd s.res t true }
    else some { s with ub := true }
  | .unTest =>
    if ident t = s.holder then some { s with pc := upd s.pc t .unRead }
    else some { s with pc := upd s.pc t .idle, res := upd s.res t false }
  | .unRead => some { s with pc := upd s.pc t (.unDec s.cnt) }
  | .unDec c =>
    if c - 1 = 0 then some { s with cnt := c - 1, pc := upd s.pc t .unHold }
    else some { s with
      cnt := c - 1, pc := upd s.pc t .idle,
      depth := upd s.depth t (s.depth t - 1), res := upd s.res t true }
  | .unHold => some { s with holder := -1, pc := upd s.pc t .unRel }
  | .unRel =>
    if s.owner = some t then some { s with
      owner := none, pc := upd s.pc t .idle,
      depth := upd s.depth t (s.depth t - 1), res := upd s.res t true }
    else some { s with ub := true }
  -- wait
  | .wTest => some { s with pc := upd s.pc t (if ident t = s.holder then .wSaveH else .idle) }
  | .wSaveH => some { s with pc := upd s.pc t (.wSaveC s.holder) }
  | .wSaveC h => some { s with pc := upd s.pc t (if 0 ≤ s.cnt then .wH0 h s.cnt else .wWait h s.cnt) }
  | .wH0 h c => some { s with holder := 0, pc := upd s.pc t (.wC0 h c) }
  | .wC0 h c => some { s with cnt := 0, pc := upd s.pc t (.wWait h c) }
  | .wWait h c =>
    if s.owner = some t then some { s with owner := none, pc := upd s.pc t (.wBlk h c) }
    else some { s with ub := true }
  | .wBlk h c =>
    if s.owner = none then some { s with owner := some t, pc := upd s.pc t (.wCnt h c) } else none
  | .wCnt h c => some { s with cnt := c, pc := upd s.pc t (.wHold h c) }
  | .wHold h _ => some { s with holder := h, pc := upd s.pc t .idle }

end Verif.Mutex
