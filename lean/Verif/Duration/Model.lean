import Verif.Clock.Model
import Verif.Double.Model
/-!
# Model of times in seconds

Source: `/repo/src/concurrent/thread.cpp`, `/repo/src/concurrent/internal.cpp`,
`/repo/src/concurrent/condition.cpp`, `/repo/src/concurrent/rwmutex.cpp`,
`/repo/src/concurrent/pcbuf.h`, `/repo/src/network/socket.cpp`,
`/repo/src/network/mprpc/socket.cpp`, `/repo/src/network/mprpc/object_stream.cpp`,
`/repo/src/system/time_util.h`.

Times are `double` numbers of seconds; the system takes whole seconds and
nanoseconds (`timespec`) or microseconds (`timeval`). Modelled is what the
system is given, not what it then does. `int` has 32 bits, `time_t` and `long`
have 64. A conversion of a `double` that does not fit is undefined behaviour,
the outcome `none`. Readings of the clock are inputs.
-/
namespace Verif.Duration
open Verif.Double

/-- A literal, or an integer converted to `double`. -/
def num (x : Rat) : D := ofRat F64 x

/-- `std::max(a, b)`. -/
def maxI (a b : Int) : Int := if a < b then b else a

/-- `std::min(a, b)`. -/
def minI (a b : Int) : Int := if b < a then b else a

/-- `timespec` or `timeval`. -/
structure Tv where
  sec : Int
  frac : Int
deriving Repr, DecidableEq

/-- `thread::sleep` up to the call of `nanosleep`
(`/repo/src/concurrent/thread.cpp:96-105`). -/
def sleepReq (sec : D) : Option Tv := do
  let sec := if lt (num 0) sec then sec else num 0
  let s ← toInt 64 sec
  let s := maxI 0 s
  let n ← toInt 64 (mul F64 (sub F64 sec (num s)) (num 1000000000))
  return ⟨s, maxI 0 (minI 999999999 n)⟩

/-- `to_timespec` (`/repo/src/concurrent/internal.cpp:40-46`). -/
def toTimespec (sec : D) : Option Tv := do
  let s ← toInt 64 sec
  let s := maxI 0 s
  let n ← toInt 64 (mul F64 (sub F64 sec (num s)) (num 1000000000))
  return ⟨s, minI 999999999 (maxI 0 n)⟩

/-- `clock_time::operator double` (`/repo/src/system/time_util.h:52-54`). -/
def ofClock (t : Clock.T) : D :=
  add F64 (num (t.sec.toNat : Rat)) (mul F64 (num t.usec) (num (1 / 1000000)))

/-- `to_timespec(get_clock_time()+sec)`: the end of a wait
(`/repo/src/concurrent/condition.cpp:141`,
`/repo/src/concurrent/rwmutex.cpp:101,122`). A `double` does not convert to a
`clock_time`, so the clock converts to `double`. -/
def deadline (now : Clock.T) (sec : D) : Option Tv := toTimespec (add F64 (ofClock now) sec)

/-- How `rw_mutex` locks with a time limit (`/repo/src/concurrent/rwmutex.cpp:98-102`,
`:119-123`): at once or not at all, or until a point in time. -/
inductive Wait where
  | try
  | until (t : Tv)
deriving Repr, DecidableEq

/-- See `Wait`. -/
def rwWait (now : Clock.T) (sec : D) : Option Wait :=
  if lt sec (num (1 / 1000000000)) then some .try else (deadline now sec).map .until

/-- One round of the loops of `push(value, second)` and `pop(value, second)`
of `pcbuf` (`/repo/src/concurrent/pcbuf.h:99`, `:103-107`, `:129`, `:133-137`) that finds the
buffer full or empty: `none` inside is giving up, else the end of the wait. `start`,
`now` and `then` are the clock at the beginning, in this round, and in
`condition::wait`. -/
def pcbufRound (start now then_ : Clock.T) (second : D) : Option (Option Tv) :=
  let elapsed := sub F64 (ofClock now) (ofClock start)
  if le second elapsed then some none
  else (deadline then_ (sub F64 second elapsed)).map some

/-- What `setsockopt` gets. -/
inductive Opt where
  | refused
  | set (t : Tv)
deriving Repr, DecidableEq

/-- The two assignments at `/repo/src/network/socket.cpp:332-333` and
`/repo/src/network/mprpc/socket.cpp:246-247`. -/
def timeval (sec : D) : Option Tv := do
  let s ← toInt 32 sec
  let s := maxI 0 s
  let n ← toInt 32 (mul F64 (sub F64 sec (num s)) (num 1000000))
  return ⟨s, minI 999999 (maxI 0 n)⟩

/-- `set_timeo` (`/repo/src/network/socket.cpp:327-338`), which
`set_recv_timeout`, `set_send_timeout` and `set_timeout` of open sockets call
(`:320-325`, `:340-350`, `:536-543`). -/
def setTimeo (sec : D) : Option Opt :=
  if lt sec (num 0) then some .refused else (timeval sec).map .set

/-- `set_timeout_sockopt` of an open socket of `mprpc` (`/repo/src/network/mprpc/socket.cpp:241-252`). -/
def mpSetTimeout (sec : D) : Option Opt := (timeval sec).map .set

/-- The sockets of servers and clients get a timeout if it is positive
(`/repo/src/network/rpc/base.cpp:174-178`, `/repo/src/network/mprpc/rpc_server.cpp:146-150`,
`/repo/src/network/mprpc/rpc_client.cpp:58-62`,
`/repo/src/network/cgi/server.cpp:148-153,243-244`): `none` inside is no call. -/
def guarded (f : D → Option Opt) (sec : D) : Option (Option Opt) :=
  if lt (num 0) sec then (f sec).map some else some none

/-- The test of `read` and `write` after a failed system call
(`/repo/src/network/mprpc/object_stream.cpp:87-90`, `:111-114`). -/
def expired (start now : Clock.T) (timeout : D) : Option Bool :=
  if lt (num 0) timeout then (Clock.sub now start).map (fun d => lt timeout (ofClock d)) else some false

end Verif.Duration
