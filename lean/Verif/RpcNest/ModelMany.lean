/-!
# Model of RPC functions that call functions of several servers

Source: `/repo/src/network/rpc/base.cpp:168-231`, `269-308`, `/repo/src/network/rpc/caller.h:66-101`.

As `Verif/RpcNest/Model.lean`, with any number of servers, each with threads of its own, whose functions call each
other. Simplified in the same way: each call has a connection of its own, threads of a
server are all alike and are counted, any connection that waits may be taken next.
-/
namespace Verif.RpcNest.Many

/-- A call: the server, and the calls that its function makes, one after the other
(`/repo/src/network/rpc/caller.h:66-82`, each inside of `invoke`, `/repo/src/network/rpc/base.cpp:224`). -/
inductive Tree
  | node (server : Nat) (kids : List Tree)

/-- What the innermost call of a client does, as in `/repo/src/network/rpc/base.cpp:284-294` and line 224: its connection waits to be taken, its function
runs on a server and has still to make some calls, or the client has its answer. -/
inductive Top
  | queued (t : Tree)
  | running (server : Nat) (kids : List Tree)
  | done

/-- A client outside: its call, the threads that wait for answers on its behalf, innermost
first, each with its server and the calls it has still to make, and the innermost call
(`/repo/src/network/rpc/caller.h:78-79`: the thread waits here). -/
structure Act where
  given : Tree
  frames : List (Nat × List Tree)
  top : Top

/-- Servers with `n k` threads each, and their clients (`/repo/src/network/rpc/base.cpp:91-112`). -/
structure State where
  n : Nat → Nat
  acts : List Act

/-- The servers are started (`/repo/src/network/rpc/base.cpp:91-112`). -/
def start (n : Nat → Nat) : State := ⟨n, []⟩

/-- One if equal: to count the threads of one server (helper, no source). -/
def one (k s : Nat) : Nat := if s = k then 1 else 0

/-- The threads of server `k` that wait for an answer (`/repo/src/network/rpc/caller.h:79`). -/
def waiting (k : Nat) (fs : List (Nat × List Tree)) : Nat := (fs.map fun f => one k f.1).sum

/-- The threads of server `k` that a client's call has: a thread stays with its connection
(`/repo/src/network/rpc/base.cpp:183-229`). -/
def Act.threads (k : Nat) (a : Act) : Nat :=
  waiting k a.frames + match a.top with
    | .running s _ => one k s
    | _ => 0

/-- The threads of server `k` in use: those not in `accept` (`/repo/src/network/rpc/base.cpp:171`). -/
def State.used (s : State) (k : Nat) : Nat := (s.acts.map (Act.threads k)).sum

/-- What happens: a client connects, a thread takes a connection, a function makes a call, a function returns
(`/repo/src/network/rpc/base.cpp:168-231`). -/
inductive Ev
  | arrive (t : Tree)
  | accept (i : Nat)
  | call (i : Nat)
  | reply (i : Nat)

/-- One event. `accept`: line 171 of `/repo/src/network/rpc/base.cpp`, by a thread of the server that was called. `call`:
`/repo/src/network/rpc/caller.h:66-82` inside of `invoke`, line 224 of `base.cpp`. `reply`: the end of `invoke`. -/
def step (s : State) : Ev → Option State
  | .arrive t => some { s with acts := s.acts ++ [⟨t, [], .queued t⟩] }
  | .accept i =>
    match s.acts[i]? with
    | some ⟨g, fs, .queued (.node k ks)⟩ =>
      if s.used k < s.n k then some { s with acts := s.acts.set i ⟨g, fs, .running k ks⟩ } else none
    | _ => none
  | .call i =>
    match s.acts[i]? with
    | some ⟨g, fs, .running k (t :: ks)⟩ => some { s with acts := s.acts.set i ⟨g, (k, ks) :: fs, .queued t⟩ }
    | _ => none
  | .reply i =>
    match s.acts[i]? with
    | some ⟨g, [], .running _ []⟩ => some { s with acts := s.acts.set i ⟨g, [], .done⟩ }
    | some ⟨g, (k, ks) :: fs, .running _ []⟩ => some { s with acts := s.acts.set i ⟨g, fs, .running k ks⟩ }
    | _ => none

/-- A history of the loop (`/repo/src/network/rpc/base.cpp:168-231`). -/
def run (s : State) : List Ev → Option State
  | [] => some s
  | e :: es => (step s e).bind fun s => run s es

end Verif.RpcNest.Many
