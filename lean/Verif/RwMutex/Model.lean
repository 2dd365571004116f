/-!
# Model of `pfi::concurrent::rw_mutex`

Source: `/repo/src/concurrent/rwmutex.cpp`, on Linux.

The native `pthread_rwlock_t` is a set of holders: any number of readers or
one writer. Each native call is one step. What it returns is chosen by the
environment: 0 is possible only if the lock can be granted; a call that
cannot be granted blocks or returns an error (`EBUSY`, `ETIMEDOUT`,
`EDEADLK`, `EAGAIN`), and may also do so for other reasons.
-/
namespace Verif.RwMutex

/-- Threads. -/
abbrev Tid := Nat

/-- Reading or writing. -/
inductive Mode
  | read | write
deriving DecidableEq, Repr

/-- The native lock and two records: `told`, the locks that callers were told
they have (the calls that returned true, minus the unlocks), and `ub`, set by
an `unlock` of a lock its caller does not have. `valid` is the field of the
same name (`/repo/src/concurrent/rwmutex.cpp:60`). -/
structure St where
  valid : Bool
  holders : List (Tid × Mode)
  told : List (Tid × Mode)
  ub : Bool
deriving DecidableEq, Repr

/-- A new lock (`/repo/src/concurrent/rwmutex.cpp:63-75`): initialisation may
fail. -/
def init (valid : Bool) : St := ⟨valid, [], [], false⟩

/-- Can the lock be granted? -/
def grantable (h : List (Tid × Mode)) : Mode → Bool
  | .read => h.all (fun x => x.2 == .read)
  | .write => h.isEmpty

/-- Native `pthread_rwlock_{rd,wr,tryrd,trywr,timedrd,timedwr}lock`: the new
holders and the returned error code. `none`: not possible. -/
def native (h : List (Tid × Mode)) (t : Tid) (m : Mode) (err : Int) : Option (List (Tid × Mode) × Int) :=
  if err = 0 then if grantable h m then some ((t, m) :: h, 0) else none else some (h, err)

/-- Calls. `lockFor m tiny` is the call with a time limit; `tiny` says
whether the limit is below `1e-9`. -/
inductive Call
  | lock (m : Mode) | lockFor (m : Mode) (tiny : Bool) | unlock
deriving DecidableEq, Repr

/-- How the wrapper turns the native result into a `bool`:
`/repo/src/concurrent/rwmutex.cpp:90`, `102`, `111`, `120`, `123` compare with
0, but line `99` converts the result itself, so that an error is `true`. -/
def wrap : Call → Int → Bool
  | .lockFor .read true, r => r ≠ 0
  | _, r => r = 0

/-- The mode of a locking call. -/
def mode : Call → Option Mode
  | .lock m => some m
  | .lockFor m _ => some m
  | .unlock => none

/-- The first lock of `t`. -/
def lockOf (h : List (Tid × Mode)) (t : Tid) : Option (Tid × Mode) := h.find? (fun x => x.1 == t)

/-- A call: the new state and the result. `read_lock`
(`/repo/src/concurrent/rwmutex.cpp:87-106`), `write_lock` (`108-128`),
`unlock` (`130-134`). -/
def call (s : St) (t : Tid) (c : Call) (err : Int) : Option (St × Bool) :=
  if s.valid then
    match mode c with
    | some m =>
      match native s.holders t m err with
      | some (h, r) => some ({ s with
          holders := h, told := if wrap c r then (t, m) :: s.told else s.told }, wrap c r)
      | none => none
    | none =>
      match lockOf s.holders t with
      | some x => some ({ s with holders := s.holders.erase x, told := s.told.erase x }, true)
      | none => some ({ s with ub := true }, false)
  else some (s, false)

end Verif.RwMutex
