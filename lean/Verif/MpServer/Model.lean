/-!
# Model of the life of an `rpc_server` of MessagePack-RPC

Source: `/repo/src/network/mprpc/rpc_server.cpp`, with `socket` of
`/repo/src/network/mprpc/socket.cpp` and `thread` of `/repo/src/concurrent/thread.cpp`.

One thread, the owner, creates, runs, joins and destroys the server; any
thread may stop it; the workers run `process`. All ways in which their steps
can be mixed are considered. The messages themselves are the subject of
`Verif.Mprpc`; here only matters that a call to receive returns. Exceptions
that leave `process` and end the program are not modelled, nor is running out
of memory.
-/
namespace Verif.MpServer

/-- Where a worker is in `process` (`/repo/src/network/mprpc/rpc_server.cpp:137-176`).
A listening socket is known by the number of its `create`. -/
inductive Phase
  /-- before the test of the outer loop (139) -/
  | head
  /-- before it reads the descriptor (141) -/
  | fetch
  /-- has read the descriptor, `none` if it was negative, and is about to call or is in `accept` (141) -/
  | acc (fd : Option Nat)
  /-- has a connection (143) -/
  | setup
  /-- before the test of the inner loop (155) -/
  | inner
  /-- in `receive` (158) -/
  | recv
  | done
deriving DecidableEq, Repr

/-- An element of `serv_threads`: a null pointer, or a thread object which has
not been started, runs the given worker, or has been joined
(`/repo/src/concurrent/thread.cpp:57`). -/
inductive Slot
  | null
  | fresh
  | run (w : Nat)
  | joined
deriving DecidableEq, Repr

/-- What the owner is doing: nothing, the loop that starts threads in `run`
(`/repo/src/network/mprpc/rpc_server.cpp:101-111`), the loop that joins after
a thread could not be started (106-108), or `join` (132-134). -/
inductive Owner
  | idle
  | starting (i n : Nat) (sync : Bool)
  | failing (j i : Nat)
  | joining (i : Nat)
deriving DecidableEq, Repr

/-- The server (`/repo/src/network/mprpc/rpc_server.h:61`,
`/repo/src/network/mprpc/rpc_server.h:83-85`) and the threads around it.
`closing` counts the calls of `stop` that have set the flag but not yet closed
the socket. -/
structure State where
  /-- `timeout_sec > 0` -/
  timed : Bool
  running : Bool
  listening : Option Nat
  created : Nat
  threads : List Slot
  workers : List Phase
  owner : Owner
  closing : Nat
  destroyed : Bool
  /-- a worker has taken a connection from a socket that is not the server's -/
  foreign : Bool
  ub : Bool
deriving DecidableEq, Repr

/-- The constructor (`/repo/src/network/mprpc/rpc_server.cpp:69-72`). -/
def new (timed : Bool) : State := ⟨timed, false, none, 0, [], [], .idle, 0, false, false, false⟩

/-- What `accept` may return: a connection, an error because the descriptor
has been closed, another error, or a connection of somebody else's socket
which has got the number of the closed descriptor. -/
inductive Acc
  | conn
  | closed
  | error
  | foreign
deriving DecidableEq, Repr

/-- What `receive` may return: a message (which is then handled), the end of
the connection, or a timeout. -/
inductive Rcv
  | msg
  | eof
  | timeout
deriving DecidableEq, Repr

/-- Steps: calls by the owner and their progress, `stop` by any thread in two
steps, and steps of workers. -/
inductive Ev
  | create (ok : Bool)
  | run (n : Nat) (sync : Bool)
  | start (ok : Bool)
  | join
  | joinNext
  | stopFlag
  | stopClose
  | destroy
  | test (w : Nat)
  | fetch (w : Nat)
  | accept (w : Nat) (r : Acc)
  | setup (w : Nat) (ok : Bool)
  | receive (w : Nat) (r : Rcv)
deriving DecidableEq, Repr

/-- `create` (`/repo/src/network/mprpc/rpc_server.cpp:76-82`, with `listen` at
`/repo/src/network/mprpc/socket.cpp:88-97`): the old socket is closed first. -/
def create (s : State) (ok : Bool) : State :=
  if ok then { s with listening := some s.created, created := s.created + 1 } else { s with listening := none }

/-- `serv_threads.resize(n)` (`/repo/src/network/mprpc/rpc_server.cpp:100`). -/
def resize (l : List Slot) (n : Nat) : List Slot := l.take n ++ List.replicate (n - l.length) .null

/-- The beginning of `run` (`/repo/src/network/mprpc/rpc_server.cpp:96-100`). -/
def runCall (s : State) (n : Nat) (sync : Bool) : State :=
  if s.listening = none || s.running then s
  else { s with running := true, threads := resize s.threads n, owner := .starting 0 n sync }

/-- The end of `run`, after the loop (`/repo/src/network/mprpc/rpc_server.cpp:113-116`). -/
def runEnd (s : State) (sync : Bool) : State := { s with owner := if sync then .joining 0 else .idle }

/-- One round of the loop in `run` (`/repo/src/network/mprpc/rpc_server.cpp:101-111`).
If the thread cannot be started, `stop` is called; that its two steps are one
here makes no difference to the owner, which does nothing in between. -/
def startNext (s : State) (i n : Nat) (sync ok : Bool) : State :=
  if i < n then
    if ok then
      { s with threads := s.threads.set i (.run s.workers.length), workers := s.workers ++ [.head]
               owner := .starting (i + 1) n sync }
    else
      { s with threads := s.threads.set i .fresh, running := false, listening := none, owner := .failing 0 i }
  else runEnd s sync

/-- `thread::join` on an element of `serv_threads`: `none` if it has to wait
(`/repo/src/concurrent/thread.cpp:149-162`); a null pointer is undefined. -/
def joinSlot (s : State) (i : Nat) : Option State :=
  match s.threads[i]? with
  | some (.run w) =>
    if s.workers[w]? = some .done then some { s with threads := s.threads.set i .joined } else none
  | some .fresh => some s
  | some .joined => some s
  | _ => some { s with ub := true }

/-- One round of the loop of a failed `run`
(`/repo/src/network/mprpc/rpc_server.cpp:106-109`). -/
def failNext (s : State) (j i : Nat) : Option State :=
  if j < i then (joinSlot s j).map fun s => { s with owner := .failing (j + 1) i }
  else some { s with owner := .idle }

/-- One round of `join` (`/repo/src/network/mprpc/rpc_server.cpp:132-134`). -/
def joinNext (s : State) (i : Nat) : Option State :=
  if i < s.threads.length then (joinSlot s i).map fun s => { s with owner := .joining (i + 1) }
  else some { s with threads := [], owner := .idle }

/-- Worker `w` goes on to a phase. -/
def goto (s : State) (w : Nat) (p : Phase) : State := { s with workers := s.workers.set w p }

/-- `accept` on the descriptor that was read: the first three results by
whether that socket is still open (`/repo/src/network/mprpc/rpc_server.cpp:141-143`). -/
def acceptStep (s : State) (w : Nat) (fd : Option Nat) (r : Acc) : Option State :=
  match r with
  | .conn => if fd ≠ none ∧ fd = s.listening then some (goto s w .setup) else none
  | .closed => if fd = none ∨ fd ≠ s.listening then some (goto s w .head) else none
  | .error => some (goto s w .head)
  | .foreign => if fd ≠ none ∧ fd ≠ s.listening then some { goto s w .setup with foreign := true } else none

/-- A step of a worker (`/repo/src/network/mprpc/rpc_server.cpp:137-176`). The
members of the server are read by the tests of `serv_running` (139, 155), by
`sock.get()` (141) and `timeout_sec` (146), and when a message is handled
(171). -/
def workerStep (s : State) (w : Nat) : Ev → Option State
  | .test _ =>
    match s.workers[w]? with
    | some .head => some (goto s w (if s.running then .fetch else .done))
    | some .inner => some (goto s w (if s.running then .recv else .head))
    | _ => none
  | .fetch _ =>
    match s.workers[w]? with
    | some .fetch => some (goto s w (.acc s.listening))
    | _ => none
  | .accept _ r =>
    match s.workers[w]? with
    | some (.acc fd) => acceptStep s w fd r
    | _ => none
  | .setup _ ok =>
    match s.workers[w]? with
    | some .setup => if s.timed || ok then some (goto s w (if ok then .inner else .head)) else none
    | _ => none
  | .receive _ r =>
    match s.workers[w]? with
    | some .recv =>
      match r with
      | .msg => some (goto s w .inner)
      | .eof => some (goto s w .head)
      | .timeout => if s.timed then some (goto s w .head) else none
    | _ => none
  | _ => none

/-- The worker that an event belongs to. -/
def Ev.worker : Ev → Option Nat
  | .test w => some w
  | .fetch w => some w
  | .accept w _ => some w
  | .setup w _ => some w
  | .receive w _ => some w
  | _ => none

/-- A step of the owner or of a thread that calls `stop`. -/
def ownerStep (s : State) : Ev → Option State
  | .create ok => if s.owner = .idle then some (create s ok) else none
  | .run n sync => if s.owner = .idle then some (runCall s n sync) else none
  | .start ok =>
    match s.owner with
    | .starting i n sync => some (startNext s i n sync ok)
    | _ => none
  | .join => if s.owner = .idle then some { s with owner := .joining 0 } else none
  | .joinNext =>
    match s.owner with
    | .joining i => joinNext s i
    | .failing j i => failNext s j i
    | _ => none
  | .stopFlag => some { s with running := false, closing := s.closing + 1 }
  | .stopClose => if 0 < s.closing then some { s with listening := none, closing := s.closing - 1 } else none
  | .destroy => if s.owner = .idle then some { s with destroyed := true, listening := none, threads := [] } else none
  | _ => none

/-- One step; `none` if it cannot be made. `stop` sets the flag and closes the
socket (`/repo/src/network/mprpc/rpc_server.cpp:124-128`,
`/repo/src/network/mprpc/socket.cpp:59-74`). The destructor closes the
socket and drops the thread objects, which detaches the threads that were not
joined (`/repo/src/network/mprpc/rpc_server.cpp:53-56`,
`/repo/src/concurrent/thread.cpp:125-129`). What is done with a
destroyed server is undefined, and after that nothing more is said. -/
def step (s : State) (e : Ev) : Option State :=
  if s.ub then none
  else
    ((match e.worker with
      | some w => workerStep s w e
      | none => ownerStep s e).map fun (s' : State) => if s.destroyed then { s' with ub := true } else s')

end Verif.MpServer
