import Verif.RpcNest.ModelMany
/-!
# Model of MessagePack-RPC functions that call functions of several servers, with timeouts

Source: `/repo/src/network/mprpc/rpc_server.cpp:137-202`, `/repo/src/network/mprpc/rpc_stream.h:85-96`,
`/repo/src/network/mprpc/object_stream.cpp:67-97`, `/repo/src/network/mprpc/caller.h:63-79`.

Who waits for whom when functions of servers call functions of the same server or of others, by a client with a timeout of its own. One
who waits may give up at any time; what was asked then goes on without anyone to answer to. Each call has a connection of its
own, which is closed when the caller has its answer or has given up. A function that gives up may catch the exception or
not: both are events. Threads of a server are all alike and are counted; any connection that waits may be taken next. Results,
and a timeout of the server itself, are not modelled here.
-/
namespace Verif.MpNest

/-- A call: the server, and the calls that its function makes, one after the other (`/repo/src/network/mprpc/caller.h:63-79`, inside of
line 197 of `/repo/src/network/mprpc/rpc_server.cpp`). -/
abbrev Tree := Verif.RpcNest.Many.Tree

/-- What the innermost call on a connection does: the connection waits to be taken (`/repo/src/network/mprpc/rpc_server.cpp:141`), the function runs and has still to
make some calls (line 197), the function has thrown an `rpc_error`, no answer was sent (line 198) and the thread waits for another request on
the connection (line 158), or all is over. -/
inductive Top
  | queued (t : Tree)
  | running (server : Nat) (kids : List Tree)
  | silent (server : Nat)
  | done

/-- The one who has made the outermost call: waits in `join` (`/repo/src/network/mprpc/rpc_stream.h:93`), has an answer, or has given up with `rpc_timeout_error`
(`/repo/src/network/mprpc/object_stream.cpp:87-90`). -/
inductive Who
  | waits
  | answered
  | gaveUp
  deriving DecidableEq

/-- A call, the threads that wait for answers inside of it, innermost first, each with its server and the calls it has still to
make, and the innermost call (`/repo/src/network/mprpc/rpc_server.cpp:155-174`). -/
structure Act where
  frames : List (Nat × List Tree)
  top : Top
  who : Who

/-- Servers with `n k` threads each (`/repo/src/network/mprpc/rpc_server.cpp:91-117`), and the calls. -/
structure State where
  n : Nat → Nat
  acts : List Act

/-- The servers run (`/repo/src/network/mprpc/rpc_server.cpp:91-117`). -/
def start (n : Nat → Nat) : State := ⟨n, []⟩

/-- One if equal: to count the threads of one server (helper, no source). -/
def one (k s : Nat) : Nat := if s = k then 1 else 0

/-- The threads of server `k` that wait for an answer (`/repo/src/network/mprpc/rpc_stream.h:93`). -/
def waiting (k : Nat) (fs : List (Nat × List Tree)) : Nat := (fs.map fun f => one k f.1).sum

/-- The threads of server `k` that the innermost call has (`/repo/src/network/mprpc/rpc_server.cpp:155-174`). -/
def Top.threads (k : Nat) : Top → Nat
  | .running s _ => one k s
  | .silent s => one k s
  | _ => 0

/-- The threads of server `k` that a call has (`/repo/src/network/mprpc/rpc_server.cpp:155-174`). -/
def Act.threads (k : Nat) (a : Act) : Nat := waiting k a.frames + a.top.threads k

/-- The threads of server `k` in use: those not in `accept` (`/repo/src/network/mprpc/rpc_server.cpp:141`). -/
def State.used (s : State) (k : Nat) : Nat := (s.acts.map (Act.threads k)).sum

/-- What happens. `giveUp i j`: the `j`th of those who wait in call `i` gives up, counted from the innermost. `caught i j more`: the same, but it is
a function, which catches the exception, and then makes its other calls or, without `more`, makes no more and answers. `close i`: the thread sees that the connection was closed. -/
inductive Ev
  | arrive (t : Tree)
  | accept (i : Nat)
  | call (i : Nat)
  | reply (i : Nat)
  | giveUp (i j : Nat)
  | caught (i j : Nat) (more : Bool)
  | close (i : Nat)

/-- One event. `accept`: line 141 of `/repo/src/network/mprpc/rpc_server.cpp`. `call`: `/repo/src/network/mprpc/rpc_stream.h:89-93`. `reply`: `/repo/src/network/mprpc/invoker.h:103-104`; if the
caller has given up, nobody reads it. `giveUp`: `/repo/src/network/mprpc/object_stream.cpp:87-90`, in a function as in a client outside; the function that
gives up ends with `rpc_timeout_error`, which is dropped without an answer (line 198 of `rpc_server.cpp`), and what it has
asked for is on its own. `caught`: the same, but the function goes on (inside of line 197 there), or throws another `std::exception`,
which makes an answer too (lines 199-200). `close`: line 158 there, after the caller has gone. -/
def step (s : State) : Ev → Option State
  | .arrive t => some { s with acts := s.acts ++ [⟨[], .queued t, .waits⟩] }
  | .accept i =>
    match s.acts[i]? with
    | some ⟨fs, .queued (.node k ks), w⟩ =>
      if s.used k < s.n k then some { s with acts := s.acts.set i ⟨fs, .running k ks, w⟩ } else none
    | _ => none
  | .call i =>
    match s.acts[i]? with
    | some ⟨fs, .running k (t :: ks), w⟩ => some { s with acts := s.acts.set i ⟨(k, ks) :: fs, .queued t, w⟩ }
    | _ => none
  | .reply i =>
    match s.acts[i]? with
    | some ⟨[], .running _ [], w⟩ => some { s with acts := s.acts.set i ⟨[], .done, if w = .waits then .answered else w⟩ }
    | some ⟨(k, ks) :: fs, .running _ [], w⟩ => some { s with acts := s.acts.set i ⟨fs, .running k ks, w⟩ }
    | _ => none
  | .giveUp i j =>
    match s.acts[i]? with
    | some ⟨fs, top, w⟩ =>
      match fs.drop j with
      | (k, _) :: outer => some { s with acts := s.acts.set i ⟨outer, .silent k, w⟩ ++ [⟨fs.take j, top, .gaveUp⟩] }
      | [] => if w = .waits then some { s with acts := s.acts.set i ⟨fs, top, .gaveUp⟩ } else none
    | none => none
  | .caught i j more =>
    match s.acts[i]? with
    | some ⟨fs, top, w⟩ =>
      match fs.drop j with
      | (k, ks) :: outer => some { s with acts := s.acts.set i ⟨outer, .running k (if more then ks else []), w⟩ ++ [⟨fs.take j, top, .gaveUp⟩] }
      | [] => none
    | none => none
  | .close i =>
    match s.acts[i]? with
    | some ⟨[], .silent _, w⟩ => if w = .waits then none else some { s with acts := s.acts.set i ⟨[], .done, w⟩ }
    | _ => none

/-- A history of the servers and their clients (`/repo/src/network/mprpc/rpc_server.cpp:137-176`). -/
def run (s : State) : List Ev → Option State
  | [] => some s
  | e :: es => (step s e).bind fun s => run s es

end Verif.MpNest
