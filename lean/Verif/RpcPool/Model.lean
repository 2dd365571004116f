/-!
# Model of the worker threads of an RPC server and of its clients' connections

Source: `/repo/src/network/rpc/base.cpp:91-134`, `168-231`, `260-313`.

A server with `n` threads and any number of clients. Each thread takes a
connection and serves it until it ends; connections that nobody has taken yet
are kept by the system in their order. What a client does is up to it: it sends
some requests on its connection and then closes it or stays silent. Bytes, names and
versions are in `Verif/Rpc`, broken connections in `Verif/RpcFault`, the lock and
the end of the server in `Verif/RpcStop`. A request is one step: functions of different
threads act on the data of the program (`σ`) as if one after the other.
-/
namespace Verif.RpcPool

variable {σ α β : Type}

/-- A connection: the client, the requests that are still to come, and
whether the client closes it then. `rpc_client` keeps its connection from call to call until
it is destroyed (`/repo/src/network/rpc/base.cpp:269-313`). -/
structure Conn (α : Type) where
  id : Nat
  reqs : List α
  closes : Bool

/-- Where a thread of the server is (`/repo/src/network/rpc/base.cpp:168-231`): at the test of the loop, in
`accept`, in the inner loop with a connection, or at its end. -/
inductive W (α : Type)
  | check
  | accepting
  | busy (c : Conn α)
  | ended

/-- The server, with what the system and the clients hold. `given` are the requests
each client has, `log` the requests that were run, with their answers, and `taken` the clients
in the order in which their connections were accepted; these three are records for the specification. -/
structure State (σ α β : Type) where
  running : Bool
  timeout : Bool
  workers : List (W α)
  queue : List (Conn α)
  data : σ
  given : List (List α)
  log : List (Nat × α × β)
  taken : List Nat

/-- `start` with `n` threads (`/repo/src/network/rpc/base.cpp:91-112`); `timeout` tells whether `timeout_sec` is positive. -/
def start (n : Nat) (timeout : Bool) (d : σ) : State σ α β :=
  ⟨true, timeout, List.replicate n .check, [], d, [], [], []⟩

/-- What happens. -/
inductive Ev (α : Type)
  /-- a client connects -/
  | arrive (reqs : List α) (closes : Bool)
  | stop
  | test (w : Nat)
  | accept (w : Nat)
  /-- `accept` returns without a connection -/
  | wake (w : Nat)
  | serve (w : Nat)
  | leave (w : Nat)

/-- One event. `stop`: `/repo/src/network/rpc/base.cpp:114-134`. `test`: line 170. `accept`: line 171; the system hands
connections out in the order in which they came. `wake`: lines 171-172 and 198-205, the socket is closed or the connection is that of `stop`; simplified: `accept` does not fail while
the server runs. `serve`: lines 183-227; a request that makes the server end the connection (lines 208-221) is the last one on it. `leave`: lines 190-191, the client has closed the
connection, or has sent nothing for as long as the timeout; simplified: a client that has more to send does so in time, as what it sends
after that is sent on another connection. -/
def step (f : σ → α → σ × β) (s : State σ α β) : Ev α → Option (State σ α β)
  | .arrive reqs closes =>
    some { s with queue := s.queue ++ [⟨s.given.length, reqs, closes⟩], given := s.given ++ [reqs] }
  | .stop => some { s with running := false }
  | .test w =>
    match s.workers[w]? with
    | some .check => some { s with workers := s.workers.set w (if s.running then .accepting else .ended) }
    | _ => none
  | .accept w =>
    match s.workers[w]?, s.queue with
    | some .accepting, c :: q => some { s with workers := s.workers.set w (.busy c), queue := q, taken := s.taken ++ [c.id] }
    | _, _ => none
  | .wake w =>
    match s.workers[w]?, s.running with
    | some .accepting, false => some { s with workers := s.workers.set w .check }
    | _, _ => none
  | .serve w =>
    match s.workers[w]? with
    | some (.busy ⟨i, r :: rs, cl⟩) =>
      some { s with workers := s.workers.set w (.busy ⟨i, rs, cl⟩), data := (f s.data r).1, log := s.log ++ [(i, r, (f s.data r).2)] }
    | _ => none
  | .leave w =>
    match s.workers[w]? with
    | some (.busy ⟨_, [], cl⟩) => if cl || s.timeout then some { s with workers := s.workers.set w .check } else none
    | _ => none

/-- A history. -/
def run (f : σ → α → σ × β) (s : State σ α β) : List (Ev α) → Option (State σ α β)
  | [] => some s
  | e :: es => (step f s e).bind fun s => run f s es

end Verif.RpcPool
