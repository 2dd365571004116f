/-!
# Model of RPC functions that call the server they run on

Source: `/repo/src/network/rpc/base.cpp:168-231`, `269-308`, `/repo/src/network/rpc/caller.h:66-101`.

A function of a server may use an `rpc_client` of the same server. The thread
that runs it then waits for the answer, and the call inside needs a thread of its own. Only what matters
for who waits for whom is modelled: how many threads there are, which calls have one, and which calls each call makes. Each
call has a connection of its own, which ends with it. Threads are all alike, and any connection that waits may be
the next to be taken (the system takes the oldest one; `Verif/RpcPool` has that order).
There is no timeout: `rpc_client` has none, and that of the server ends only
connections on which the server waits for a request (`/repo/src/network/rpc/base.cpp:174-191`).
-/
namespace Verif.RpcNest

/-- A call, by the calls that its function makes, one after the other. -/
inductive Tree
  | node (kids : List Tree)

/-- What the innermost call of a client does: its connection waits to be taken
(the caller waits in `get_connection`, `/repo/src/network/rpc/base.cpp:284-294`), its function runs and has still
to make some calls, or the client has its answer. -/
inductive Top
  | queued (t : Tree)
  | running (kids : List Tree)
  | done

/-- A client outside: its call, the threads that wait for answers on its behalf, innermost
first, each with the calls it has still to make, and the innermost call. -/
structure Act where
  given : Tree
  frames : List (List Tree)
  top : Top

/-- A server with `n` threads and its clients. -/
structure State where
  n : Nat
  acts : List Act

/-- The server is started with `n` threads (`/repo/src/network/rpc/base.cpp:91-112`). -/
def start (n : Nat) : State := ⟨n, []⟩

/-- The threads that a client's call has: those that wait, and the one that runs. -/
def Act.threads (a : Act) : Nat :=
  a.frames.length + match a.top with
    | .running _ => 1
    | _ => 0

/-- The threads in use. -/
def State.used (s : State) : Nat := (s.acts.map Act.threads).sum

/-- What happens. -/
inductive Ev
  /-- a client outside makes a call -/
  | arrive (t : Tree)
  /-- a thread takes the connection of the innermost call of client `i` -/
  | accept (i : Nat)
  /-- the function that runs for client `i` makes its next call -/
  | call (i : Nat)
  /-- the function returns -/
  | reply (i : Nat)

/-- One event. `accept`: line 171 of `/repo/src/network/rpc/base.cpp`, by a thread that has nothing else
to do. `call`: `/repo/src/network/rpc/caller.h:66-82` inside of `invoke`, line 224 of `base.cpp`. `reply`: the end of `invoke`; the caller goes on, its
connection ends and the thread is free again, lines 190-191 and 229. -/
def step (s : State) : Ev → Option State
  | .arrive t => some { s with acts := s.acts ++ [⟨t, [], .queued t⟩] }
  | .accept i =>
    match s.acts[i]? with
    | some ⟨g, fs, .queued (.node ks)⟩ => if s.used < s.n then some { s with acts := s.acts.set i ⟨g, fs, .running ks⟩ } else none
    | _ => none
  | .call i =>
    match s.acts[i]? with
    | some ⟨g, fs, .running (k :: ks)⟩ => some { s with acts := s.acts.set i ⟨g, ks :: fs, .queued k⟩ }
    | _ => none
  | .reply i =>
    match s.acts[i]? with
    | some ⟨g, [], .running []⟩ => some { s with acts := s.acts.set i ⟨g, [], .done⟩ }
    | some ⟨g, ks :: fs, .running []⟩ => some { s with acts := s.acts.set i ⟨g, fs, .running ks⟩ }
    | _ => none

/-- A history. -/
def run (s : State) : List Ev → Option State
  | [] => some s
  | e :: es => (step s e).bind fun s => run s es

end Verif.RpcNest
