/-! Model of the lock objects of `/repo/src/concurrent/lock.h` and `/repo/src/concurrent/rwmutex.h`, of `singleton::instance`, and of the conversion of times.

Any number of threads make, copy and destroy lock objects on any number of mutexes and read-write locks. The locks themselves are used as the models of their own
(`Verif/Mutex`, `Verif/RwMutex`) show them: a lock is the list of its holders, and one call is one step. What a native call returns is chosen by the environment: 0 only
when the lock can be granted. -/

namespace Verif.Locks

/-- The kinds of locks: `mutex`, `r_mutex`, `rw_mutex`. -/
inductive Kind
  | plain | recursive | rw
deriving DecidableEq, Repr

/-- Reading or writing; mutexes are locked for writing. -/
inductive Mode
  | read | write
deriving DecidableEq, Repr

/-- A lock. `valid`: whether the initialisation succeeded (`/repo/src/concurrent/rwmutex.cpp:63-75`; that of mutexes always does, `/repo/src/concurrent/mutex.cpp:57-63`). -/
structure Lock where
  kind : Kind
  valid : Bool
  holders : List (Nat × Mode)
deriving DecidableEq, Repr

/-- Whether the thread `t` can be given the lock. -/
def Lock.grantable (l : Lock) (t : Nat) (m : Mode) : Bool :=
  match l.kind with
  | .plain => l.holders.isEmpty
  | .recursive => l.holders.all (fun h => h.1 == t)
  | .rw => match m with
    | .read => l.holders.all (fun h => h.2 == .read)
    | .write => l.holders.isEmpty

/-- A native call that takes the lock: the lock afterwards and the error code. `none`: not possible. -/
def Lock.native (l : Lock) (t : Nat) (m : Mode) (err : Int) : Option (Lock × Int) :=
  if err = 0 then if l.grantable t m then some ({ l with holders := (t, m) :: l.holders }, 0) else none
  else some (l, err)

/-- `mutex_base::lock`, `/repo/src/concurrent/mutex.cpp:71-97`: the holder of a recursive mutex gets it again without a native call. -/
def Lock.lock (l : Lock) (t : Nat) (err : Int) : Option (Lock × Bool) :=
  if l.kind = .recursive ∧ (t, .write) ∈ l.holders then some ({ l with holders := (t, .write) :: l.holders }, true)
  else (l.native t .write err).map (fun r => (r.1, decide (r.2 = 0)))

/-- `rw_mutex::read_lock()` and `write_lock()`, `/repo/src/concurrent/rwmutex.cpp:87-91` and `/repo/src/concurrent/rwmutex.cpp:108-112`. -/
def Lock.rwLock (l : Lock) (t : Nat) (m : Mode) (err : Int) : Option (Lock × Bool) :=
  if l.valid then (l.native t m err).map (fun r => (r.1, decide (r.2 = 0))) else some (l, false)

/-- `rw_mutex::read_lock(sec)` and `write_lock(sec)` on Linux, `/repo/src/concurrent/rwmutex.cpp:93-106` and `/repo/src/concurrent/rwmutex.cpp:114-128`: line 99 returns the
error code as it is, so that an error counts as true. -/
def Lock.rwLockFor (l : Lock) (t : Nat) (m : Mode) (sec : Rat) (err : Int) : Option (Lock × Bool) :=
  if l.valid then
    (l.native t m err).map (fun r => (r.1, if sec < 1 / 1000000000 ∧ m = .read then decide (r.2 ≠ 0) else decide (r.2 = 0)))
  else some (l, false)

/-- `unlock` of all kinds, `/repo/src/concurrent/mutex.cpp:99-120` and `/repo/src/concurrent/rwmutex.cpp:130-134`: gives back one lock of the thread. `none`: the thread has no
lock, which is undefined for `mutex` and `rw_mutex`, and refused by `r_mutex`. -/
def Lock.unlock (l : Lock) (t : Nat) : Option Lock :=
  match l.holders.find? (fun h => h.1 == t) with
  | some h => some { l with holders := l.holders.erase h }
  | none => match l.kind with
    | .recursive => some l
    | _ => if l.valid then none else some l

/-- How a lock object takes its lock: `scoped_lock(m)` for the mutexes; `scoped_lock(rlock(m))`, `scoped_lock(rlock(m, sec))` and with `wlock`; `scoped_rlock(m, sec)` and
`scoped_wlock(m, sec)`. -/
inductive How
  | mutex
  | locker (m : Mode) (sec : Option Rat)
  | direct (m : Mode) (sec : Rat)
deriving DecidableEq, Repr

/-- The mode a lock object takes its lock in. -/
def How.mode : How → Mode
  | .mutex => .write
  | .locker m _ => m
  | .direct m _ => m

/-- Whether the object can be used with the lock: the types of the constructors. -/
def How.fits : How → Kind → Bool
  | .mutex, .rw => false
  | .mutex, _ => true
  | _, .rw => true
  | _, _ => false

/-- The call of a constructor: `scoped_lock`, `/repo/src/concurrent/lock.h:54-60` and `/repo/src/concurrent/lock.h:62-68`, with `rlocker` and `wlocker`,
`/repo/src/concurrent/rwmutex.h:61-81` and `/repo/src/concurrent/rwmutex.h:93-113`, made by `/repo/src/concurrent/rwmutex.h:125-143`; `scoped_rwlock`,
`/repo/src/concurrent/rwmutex.h:147-182`. -/
def How.call (how : How) (l : Lock) (t : Nat) (err : Int) : Option (Lock × Bool) :=
  match how with
  | .mutex => l.lock t err
  | .locker m none => l.rwLock t m err
  | .locker m (some sec) => l.rwLockFor t m sec err
  | .direct m sec => if sec ≥ 0 then l.rwLockFor t m sec err else l.rwLock t m err

/-- A lock object: its name, the thread that uses it, the lock, the mode (from its type), and `need_unlock`, `/repo/src/concurrent/lock.h:83-87` and
`/repo/src/concurrent/rwmutex.h:198-201`. Only `scoped_rwlock` can be copied. -/
structure Obj where
  name : Nat
  tid : Nat
  lock : Nat
  mode : Mode
  copyable : Bool
  need : Bool
deriving DecidableEq, Repr

/-- The locks, the objects that are alive, and whether something undefined has happened. -/
structure St where
  locks : Nat → Lock
  objs : List Obj
  ub : Bool

/-- A function changed at one place. -/
def upd (f : Nat → Lock) (x : Nat) (v : Lock) : Nat → Lock := fun y => if y = x then v else f y

/-- What a thread can do. -/
inductive Op
  | make (x : Nat) (l : Nat) (how : How) (err : Int)
  | copy (y x : Nat)
  | drop (x : Nat)
deriving DecidableEq, Repr

/-- The object with the name `x`. -/
def St.find (s : St) (x : Nat) : Option Obj := s.objs.find? (fun o => o.name == x)

/-- `locked()` and the test as `bool`, `/repo/src/concurrent/lock.h:79-81` and `/repo/src/concurrent/rwmutex.h:195-196`. The body of `synchronized(m)`,
`/repo/src/concurrent/lock.h:92-98`, is run when this is true. -/
def St.locked (s : St) (x : Nat) : Option Bool := (s.find x).map (·.need)

/-- The object `x` without its lock. -/
def St.release (os : List Obj) (x : Nat) : List Obj := os.map (fun o => if o.name = x then { o with need := false } else o)

/-- A step of the thread `t`. `none`: it cannot happen (blocked, or there is no such object). Objects are destroyed by the thread that made them, at the end of a scope, by
`return` or by an exception.
* `make`: the constructors (see `How.call`).
* `copy`: the copy constructor of `scoped_rwlock`, `/repo/src/concurrent/rwmutex.h:184-188`, which takes the lock over.
* `drop`: the destructors, `/repo/src/concurrent/lock.h:70-77` and `/repo/src/concurrent/rwmutex.h:190-193`. -/
def step (s : St) (t : Nat) : Op → Option St
  | .make x l how err =>
    if (s.find x).isNone ∧ how.fits (s.locks l).kind then
      (how.call (s.locks l) t err).map (fun r =>
        { s with locks := upd s.locks l r.1, objs := ⟨x, t, l, how.mode, match how with | .direct _ _ => true | _ => false, r.2⟩ :: s.objs })
    else none
  | .copy y x =>
    match s.find x with
    | some o =>
      if o.tid = t ∧ o.copyable = true ∧ (s.find y).isNone then some { s with objs := { o with name := y } :: St.release s.objs x } else none
    | none => none
  | .drop x =>
    match s.find x with
    | some o =>
      if o.tid = t then
        if o.need then
          match (s.locks o.lock).unlock t with
          | some l => some { s with locks := upd s.locks o.lock l, objs := s.objs.erase o }
          | none => some { s with objs := s.objs.erase o, ub := true }
        else some { s with objs := s.objs.erase o }
      else none
    | none => none

/-- The beginning: nothing is locked. -/
def init (kind : Nat → Kind) (valid : Nat → Bool) : St := ⟨fun l => ⟨kind l, valid l, []⟩, [], false⟩

/-! ### `singleton::instance`, `/repo/src/lang/singleton.h:44-53` -/

/-- How a call of `instance()` ends: with an exception of the constructor, or with `*p`; `deref none` would follow a null pointer. -/
inductive Result
  | threw | deref (p : Option Nat)
deriving DecidableEq, Repr

/-- Where a thread is in `instance()`. -/
inductive Pc
  | idle | locking | testing | making | returning | unlocking (result : Result)
deriving DecidableEq, Repr

/-- The mutex, the pointer `p`, the number of objects that were ever made, the threads, and how the calls ended. -/
structure Single where
  owner : Option Nat
  p : Option Nat
  made : Nat
  pc : Nat → Pc
  returned : List (Nat × Result)

/-- A function changed at one place. -/
def updPc (f : Nat → Pc) (x : Nat) (v : Pc) : Nat → Pc := fun y => if y = x then v else f y

/-- A step of the thread `t`; `throws`: the constructor of `T`, or `new`, throws. `none`: the thread has to wait for the mutex. The mutex is released by
the destructor of the lock object, after the result has been read. Not modelled: an error of `pthread_mutex_lock`, after which the function would end without a result, and a
constructor of `T` that calls `instance()` itself, which would wait for ever. -/
def sstep (s : Single) (t : Nat) (throws : Bool) : Option Single :=
  match s.pc t with
  | .idle => some { s with pc := updPc s.pc t .locking }
  | .locking => if s.owner.isNone then some { s with owner := some t, pc := updPc s.pc t .testing } else none
  | .testing => some { s with pc := updPc s.pc t (if s.p.isNone then .making else .returning) }
  | .making =>
    if throws then some { s with pc := updPc s.pc t (.unlocking .threw) }
    else some { s with p := some s.made, made := s.made + 1, pc := updPc s.pc t .returning }
  | .returning => some { s with pc := updPc s.pc t (.unlocking (.deref s.p)) }
  | .unlocking r => some { s with owner := none, pc := updPc s.pc t .idle, returned := (t, r) :: s.returned }

/-- The beginning, `/repo/src/lang/singleton.h:60-64`. -/
def sinit : Single := ⟨none, none, 0, fun _ => .idle, []⟩

/-! ### Times -/

/-- The conversion of a `double` to an integer type drops the fraction. -/
def trunc (x : Rat) : Int := if 0 ≤ x then x.floor else x.ceil

/-- `to_timespec`, `/repo/src/concurrent/internal.cpp:40-46`, for exact numbers. -/
def toTimespec (sec : Rat) : Int × Int :=
  (max 0 (trunc sec), min 999999999 (max 0 (trunc ((sec - (max 0 (trunc sec) : Int)) * 1000000000))))

end Verif.Locks
