/-!
# Model of `pfi::concurrent::thread`

Source: `/repo/src/concurrent/thread.cpp`. One thread object, used by one
thread. Native threads are numbered in the order of their creation.
-/
namespace Verif.Thread

/-- A native thread: joinable, or already joined or detached, after which its
handle is dead. -/
inductive Native
  | joinable | joined | detached
deriving DecidableEq, Repr

/-- The object (`/repo/src/concurrent/thread.cpp:57-60`): `tid` is a number
of a native thread plus one, 0 for none; `hasF` says whether the function is
non-empty. `native` are the threads created so far; `ub` is set by an
operation on a dead or invalid handle; `alive` is false after the
destructor. -/
structure St where
  running : Bool
  tid : Nat
  hasF : Bool
  native : List Native
  ub : Bool
  alive : Bool
deriving DecidableEq, Repr

/-- The constructor (`/repo/src/concurrent/thread.cpp:118-123`). -/
def init (hasF : Bool) : St := ⟨false, 0, hasF, [], false, true⟩

/-- `pthread_create`: creates a thread unless the system refuses. -/
def create (s : St) (ok : Bool) : St × Bool :=
  if ok then ({ s with native := s.native ++ [.joinable], tid := s.native.length + 1 }, true) else (s, false)

/-- `pthread_join` or `pthread_detach` on the handle in `tid`; it may refuse
(a thread that joins itself). A dead or invalid handle is undefined. -/
def finish (s : St) (how : Native) (ok : Bool) : St × Bool :=
  match s.tid with
  | 0 => ({ s with ub := true }, false)
  | n + 1 =>
    if s.native[n]? = some .joinable then
      if ok then ({ s with native := s.native.set n how }, true) else (s, false)
    else ({ s with ub := true }, false)

/-- `start` (`/repo/src/concurrent/thread.cpp:131-147`). -/
def start (s : St) (ok : Bool) : St × Bool :=
  if !s.hasF then (s, false)
  else if s.running then (s, false)
  else
    match create { s with running := true } ok with
    | (s', true) => (s', true)
    | (s', false) => ({ s' with tid := 0, running := false }, false)

/-- `join` (`/repo/src/concurrent/thread.cpp:149-162`). -/
def join (s : St) (ok : Bool) : St × Bool :=
  if !s.running then (s, false)
  else match finish s .joined ok with
    | (s', true) => ({ s' with running := false, tid := 0 }, true)
    | (s', false) => (s', false)

/-- `detach` (`/repo/src/concurrent/thread.cpp:164-176`). The result is not
visible to the caller of the code; here it says whether the thread was
detached. -/
def detach (s : St) (ok : Bool) : St × Bool :=
  if !s.running then (s, false)
  else match finish s .detached ok with
    | (s', true) => ({ s' with running := false, tid := 0 }, true)
    | (s', false) => (s', false)

/-- The destructor (`/repo/src/concurrent/thread.cpp:125-129`). -/
def destroy (s : St) (ok : Bool) : St × Bool :=
  ({ (if s.running then (detach s ok).1 else s) with alive := false }, true)

/-- Calls. -/
inductive Call
  | start | join | detach | destroy
deriving DecidableEq, Repr

/-- A call; `ok` is the answer of the system. `none` after the destructor. -/
def call (s : St) (c : Call) (ok : Bool) : Option (St × Bool) :=
  if s.alive then
    some (match c with
      | .start => start s ok
      | .join => join s ok
      | .detach => detach s ok
      | .destroy => destroy s ok)
  else none

end Verif.Thread
