/-! Model of how the network classes handle file descriptors: `socket`, `object_stream`, `rpc_client` and the accepting part of `rpc_server` in `/repo/src/network/mprpc`, and `stream_socket`
and `server_socket` in `/repo/src/network/socket.cpp`. What is sent and received is left out; other threads open and close files of their own between any two system calls. -/

namespace Verif.Descr

/-! ### The kernel -/

/-- An open file: of the objects of the model, or of something else in the process. -/
inductive File
  | mine | other
deriving DecidableEq, Repr

/-- What other threads do: get a descriptor, close one of theirs. -/
inductive Move
  | take (n : Nat) | give (n : Nat)
deriving DecidableEq, Repr

/-- `close` succeeds, is interrupted, or reports an error. In all cases the descriptor is free afterwards, as on Linux. -/
inductive CloseRes
  | ok | intr | err
deriving DecidableEq, Repr

/-- The answers to the system calls, by number of the call: what other threads do before it, the number of the new descriptor, the outcome of other calls (after repetition, if they are
interrupted), the outcome of `close`. `limit` is the number of times a `close` is interrupted at most. -/
structure Kernel where
  env : Nat → List Move
  fd : Nat → Option Nat
  ok : Nat → Bool
  close : Nat → CloseRes
  limit : Nat

abbrev Table := Nat → Option File

/-- Change of one entry. -/
def Table.put (t : Table) (n : Nat) (f : Option File) : Table := fun m => if m = n then f else t m

/-- The process. `harm`: a system call was made on a descriptor that is not open or is not that of an object of the model. -/
structure World where
  table : Table := fun _ => none
  calls : Nat := 0
  harm : Bool := false

/-- A step of another thread: a free number is taken, a descriptor of its own is closed. -/
def Move.apply (t : Table) : Move → Table
  | .take n => if t n = none then t.put n (some .other) else t
  | .give n => if t n = some .other then t.put n none else t

/-- What happens before a system call. -/
def settle (k : Kernel) (w : World) : World := { w with table := (k.env w.calls).foldl Move.apply w.table, calls := w.calls + 1 }

/-- The kernel gives a new descriptor, or none. -/
def fresh (k : Kernel) (i : Nat) (w : World) : Option Nat × World :=
  match k.fd i with
  | some n => if w.table n = none then (some n, { w with table := w.table.put n (some .mine) }) else (none, w)
  | none => (none, w)

/-- `::socket`. -/
def sysSocket (k : Kernel) (w : World) : Option Nat × World := fresh k w.calls (settle k w)

/-- A call that neither makes nor closes a descriptor. -/
def sysUse (k : Kernel) (n : Nat) (w : World) : Bool × World :=
  let v := settle k w
  if v.table n = some .mine then (k.ok w.calls, v) else (false, { v with harm := true })

/-- `::accept`. -/
def sysAccept (k : Kernel) (n : Nat) (w : World) : Option Nat × World :=
  let v := settle k w
  if v.table n = some .mine then fresh k w.calls v else (none, { v with harm := true })

/-- `::close`. -/
def sysClose (k : Kernel) (n : Nat) (w : World) : CloseRes × World :=
  let v := settle k w
  match v.table n with
  | some .mine => (k.close w.calls, { v with table := v.table.put n none })
  | some .other => (k.close w.calls, { v with table := v.table.put n none, harm := true })
  | none => (.err, { v with harm := true })

/-- `NO_INTR(ret, ::close(fd))`, `/repo/src/system/syscall.h:38-44`: whether `ret` is not negative. -/
def closeLoop (k : Kernel) (n : Nat) : Nat → World → Bool × World
  | 0, w => (false, w)
  | fuel + 1, w => match sysClose k n w with
    | (.ok, w) => (true, w)
    | (.err, w) => (false, w)
    | (.intr, w) => closeLoop k n fuel w

/-- The same, with as many rounds as there may be. -/
def noIntrClose (k : Kernel) (n : Nat) (w : World) : Bool × World := closeLoop k n (k.limit + 1) w

/-- The calls of `::connect` for the addresses, `/repo/src/network/mprpc/socket.cpp:125-135` and `/repo/src/network/socket.cpp:120-134`. -/
def connectAny (k : Kernel) (n : Nat) : Nat → World → Bool × World
  | 0, w => (false, w)
  | addrs + 1, w => match sysUse k n w with
    | (true, w) => (true, w)
    | (false, w) => connectAny k n addrs w

/-- Calls that must all succeed, one after the other. -/
def useAll (k : Kernel) (n : Nat) : Nat → World → Bool × World
  | 0, w => (true, w)
  | calls + 1, w => match sysUse k n w with
    | (true, w) => useAll k n calls w
    | (false, w) => (false, w)

/-! ### `mprpc::socket` -/

/-- `connect_sock`, `/repo/src/network/mprpc/socket.cpp:114-139`, for a name with that many addresses. -/
def connectSock (k : Kernel) (addrs : Nat) (w : World) : Option Nat × World :=
  match sysSocket k w with
  | (none, w) => (none, w)
  | (some n, w) => match connectAny k n addrs w with
    | (true, w) => (some n, w)
    | (false, w) => (none, (noIntrClose k n w).2)

/-- `listen_sock`, `/repo/src/network/mprpc/socket.cpp:141-186`: four calls, and `close` when one of them fails. -/
def listenSock (k : Kernel) (w : World) : Option Nat × World :=
  match sysSocket k w with
  | (none, w) => (none, w)
  | (some n, w) => match useAll k n 4 w with
    | (true, w) => (some n, w)
    | (false, w) => (none, (noIntrClose k n w).2)

/-- `close`, `/repo/src/network/mprpc/socket.cpp:59-74`. The descriptor is -1 afterwards. The destructor (54-57) does nothing else. -/
def sockClose (k : Kernel) (fd : Option Nat) (w : World) : Bool × World :=
  match fd with
  | none => (false, w)
  | some n => noIntrClose k n (sysUse k n w).2

/-- `connect`, `/repo/src/network/mprpc/socket.cpp:77-86`: the result, the descriptor. -/
def sockConnect (k : Kernel) (addrs : Nat) (fd : Option Nat) (w : World) : (Bool × Option Nat) × World :=
  match connectSock k addrs w with
  | (none, w) => ((false, fd), w)
  | (some n, w) => ((true, some n), (sockClose k fd w).2)

/-- `listen`, `/repo/src/network/mprpc/socket.cpp:88-97`. -/
def sockListen (k : Kernel) (fd : Option Nat) (w : World) : (Bool × Option Nat) × World :=
  match listenSock k w with
  | (none, w) => ((false, fd), w)
  | (some n, w) => ((true, some n), (sockClose k fd w).2)

/-- `set_nodelay_sock`, `/repo/src/network/mprpc/socket.cpp:194-207`; `set_timeout_sock` (225-252) makes two calls as well. -/
def setOptions (k : Kernel) (fd : Option Nat) (w : World) : Bool × World :=
  match fd with
  | none => (false, w)
  | some n => useAll k n 2 w

/-! ### Streams, the client and the server of MessagePack-RPC -/

/-- The destructor of `object_stream`, `/repo/src/network/mprpc/object_stream.cpp:61-65`. Calls with -1 fail and do nothing. -/
def streamDestroy (k : Kernel) (fd : Option Nat) (w : World) : World :=
  match fd with
  | none => w
  | some n => (sysClose k n (sysUse k n w).2).2

/-- One round of `get_connection`, `/repo/src/network/mprpc/rpc_client.cpp:53-71`; `continue` destroys the socket. -/
def tryConnect (k : Kernel) (addrs : Nat) (timeout : Bool) (w : World) : Option Nat × World :=
  match sockConnect k addrs none w with
  | ((false, fd), w) => (none, (sockClose k fd w).2)
  | ((true, fd), w) =>
    match (if timeout then setOptions k fd w else (true, w)) with
    | (false, w) => (none, (sockClose k fd w).2)
    | (true, w) => match setOptions k fd w with
      | (false, w) => (none, (sockClose k fd w).2)
      | (true, w) => (fd, w)

/-- `get_connection`, `/repo/src/network/mprpc/rpc_client.cpp:48-75`: `ss` is the descriptor of the stream. -/
def getConnection (k : Kernel) (addrs : Nat) (timeout : Bool) (ss : Option Nat) (w : World) : Option Nat × World :=
  match ss with
  | some n => (some n, w)
  | none => match tryConnect k addrs timeout w with
    | (some n, w) => (some n, w)
    | (none, w) => tryConnect k addrs timeout w

/-- The beginning of a round of `process`, `/repo/src/network/mprpc/rpc_server.cpp:140-153`: the descriptor of the stream, if there is one. -/
def acceptStream (k : Kernel) (timeout : Bool) (listener : Option Nat) (w : World) : Option Nat × World :=
  match listener with
  | none => (none, w)
  | some l => match sysAccept k l w with
    | (none, w) => (none, w)
    | (some n, w) =>
      let w := (setOptions k (some n) w).2
      match (if timeout then setOptions k (some n) w else (true, w)) with
      | (false, w) => (none, (sockClose k (some n) w).2)
      | (true, w) => (some n, w)

/-! ### `stream_socket` -/

/-- `sock` and `connected` of a `stream_socket` or a `server_socket`, `/repo/src/network/socket.h:98-99` and 136-139. -/
structure Net where
  fd : Option Nat := none
  connected : Bool := false
deriving DecidableEq, Repr

/-- `open`, `/repo/src/network/socket.cpp:167-177`. -/
def netOpen (k : Kernel) (s : Net) (w : World) : (Bool × Net) × World :=
  match s.fd with
  | some _ => ((false, s), w)
  | none => match sysSocket k w with
    | (none, w) => ((false, s), w)
    | (some n, w) => ((true, { s with fd := some n }), w)

/-- The constructor, `/repo/src/network/socket.cpp:71-83`. -/
def netNew (k : Kernel) (w : World) : Net × World := ((netOpen k {} w).1.2, (netOpen k {} w).2)

/-- `close`, `/repo/src/network/socket.cpp:179-198`. -/
def netClose (k : Kernel) (s : Net) (w : World) : (Bool × Net) × World :=
  match s.fd with
  | none => ((false, s), w)
  | some n => (((noIntrClose k n w).1, {}), (noIntrClose k n w).2)

/-- The end of `connect`, `/repo/src/network/socket.cpp:118-137`. -/
def netDial (k : Kernel) (addrs : Nat) (s : Net) (w : World) : (Bool × Net) × World :=
  match s.fd with
  | none => ((false, s), w)
  | some n => match connectAny k n addrs w with
    | (true, w) => ((true, { s with connected := true }), w)
    | (false, w) => ((false, (netClose k s w).1.2), (netClose k s w).2)

/-- `connect`, `/repo/src/network/socket.cpp:98-138`. -/
def netConnect (k : Kernel) (addrs : Nat) (s : Net) (w : World) : (Bool × Net) × World :=
  match s.fd with
  | none => ((false, s), w)
  | some _ =>
    if s.connected then
      match netClose k s w with
      | ((false, s), w) => ((false, s), w)
      | ((true, s), w) => match netOpen k s w with
        | ((false, s), w) => ((false, s), w)
        | ((true, s), w) => netDial k addrs s w
    else netDial k addrs s w

/-- `shutdown`, `/repo/src/network/socket.cpp:140-145`. -/
def netShutdown (k : Kernel) (s : Net) (w : World) : (Bool × Net) × World :=
  match netClose k s w with
  | ((false, s), w) => ((false, s), w)
  | ((true, s), w) => netOpen k s w

/-- `recv` and `send`, `/repo/src/network/socket.cpp:367-395`: one call, and `close` if it fails or the peer has closed. -/
def netIo (k : Kernel) (s : Net) (w : World) : (Bool × Net) × World :=
  if s.connected = false then ((false, s), w)
  else match s.fd with
    | none => ((false, s), w)
    | some n => match sysUse k n w with
      | (true, w) => ((true, s), w)
      | (false, w) => ((false, (netClose k s w).1.2), (netClose k s w).2)

/-- Repeated calls, until one fails, as in `read` and `send_all`, `/repo/src/network/socket.cpp:232-236` and 401-405. -/
def netIos (k : Kernel) : Nat → Net → World → Net × World
  | 0, s, w => (s, w)
  | calls + 1, s, w => match netIo k s w with
    | ((true, s), w) => netIos k calls s w
    | ((false, s), w) => (s, w)

/-- The destructor, `/repo/src/network/socket.cpp:85-89`, when `flush` needs that many calls. -/
def netDestroy (k : Kernel) (calls : Nat) (s : Net) (w : World) : World :=
  let r := netIos k calls s w
  (netClose k r.1 r.2).2

/-- `bind_socket`, `/repo/src/network/socket.cpp:152-165`. -/
def bindSocket (k : Kernel) (n : Nat) (s : Net) (w : World) : (Bool × Net) × World :=
  match s.fd with
  | none => ((true, ⟨some n, true⟩), w)
  | some _ => match netClose k s w with
    | ((false, s), w) => ((false, s), w)
    | ((true, _), w) => ((true, ⟨some n, true⟩), w)

/-! ### `server_socket` -/

/-- `create`, `/repo/src/network/socket.cpp:442-500`; a fifth call if the port is 0. When a call fails, the descriptor is closed but remains in `sock`, and `connected` is left as it is. -/
def srvCreate (k : Kernel) (anyPort : Bool) (s : Net) (w : World) : (Bool × Net) × World :=
  match sysSocket k w with
  | (none, w) => ((false, { s with fd := none }), w)
  | (some n, w) => match useAll k n (if anyPort then 5 else 4) w with
    | (true, w) => ((true, ⟨some n, true⟩), w)
    | (false, w) => ((false, { s with fd := some n }), (noIntrClose k n w).2)

/-- `close`, `/repo/src/network/socket.cpp:502-519`, also the destructor (437-440). -/
def srvClose (k : Kernel) (s : Net) (w : World) : (Bool × Net) × World :=
  if s.connected = false then ((false, s), w)
  else match s.fd with
    | none => ((false, ⟨none, false⟩), w)
    | some n => (((noIntrClose k n w).1, {}), (noIntrClose k n w).2)

/-- `accept`, `/repo/src/network/socket.cpp:545-564`: the new `stream_socket`. The result of `bind_socket` is not looked at. -/
def srvAccept (k : Kernel) (s : Net) (w : World) : Option Net × World :=
  if s.connected = false then (none, w)
  else match s.fd with
    | none => (none, w)
    | some l => match sysAccept k l w with
      | (none, w) => (none, w)
      | (some n, w) =>
        let r := netNew k w
        (some (bindSocket k n r.1 r.2).1.2, (bindSocket k n r.1 r.2).2)

/-! ### A program -/

/-- The objects of a program: sockets and streams of MessagePack-RPC, its clients (with the stream, if there is one), stream and server sockets, objects that are destroyed. -/
inductive Obj
  | sock (fd : Option Nat) | stream (fd : Option Nat) | client (ss : Option Nat) | net (s : Net) | srv (s : Net) | gone
deriving DecidableEq, Repr

/-- What a program does: make an object, call a function of the object with a number, destroy it. The other arguments are numbers of addresses and of calls, and whether there is a
timeout. -/
inductive Cmd
  | newSock | newStream (addrs : Nat) | newClient | newNet | newSrv
  | close (i : Nat) | connect (i addrs : Nat) | listen (i : Nat) | options (i : Nat)
  | accept (i : Nat) (timeout : Bool) | getConnection (i addrs : Nat) (timeout : Bool) | io (i calls : Nat) | shutdown (i : Nat) | create (i : Nat) (anyPort : Bool)
  | destroy (i calls : Nat)
deriving DecidableEq, Repr

/-- The state of a program. -/
structure State where
  objs : List Obj := []
  w : World := {}

/-- A step of a program. Calls of functions that the object does not have do nothing. -/
def step (k : Kernel) (st : State) : Cmd → State
  | .newSock => ⟨st.objs ++ [.sock none], st.w⟩
  | .newStream addrs => ⟨st.objs ++ [.stream (connectSock k addrs st.w).1], (connectSock k addrs st.w).2⟩
  | .newClient => ⟨st.objs ++ [.client none], st.w⟩
  | .newNet => ⟨st.objs ++ [.net (netNew k st.w).1], (netNew k st.w).2⟩
  | .newSrv => ⟨st.objs ++ [.srv {}], st.w⟩
  | .close i => match st.objs[i]? with
    | some (.sock fd) => ⟨st.objs.set i (.sock none), (sockClose k fd st.w).2⟩
    | some (.srv s) => ⟨st.objs.set i (.srv (srvClose k s st.w).1.2), (srvClose k s st.w).2⟩
    | _ => st
  | .connect i addrs => match st.objs[i]? with
    | some (.sock fd) => ⟨st.objs.set i (.sock (sockConnect k addrs fd st.w).1.2), (sockConnect k addrs fd st.w).2⟩
    | some (.net s) => ⟨st.objs.set i (.net (netConnect k addrs s st.w).1.2), (netConnect k addrs s st.w).2⟩
    | _ => st
  | .listen i => match st.objs[i]? with
    | some (.sock fd) => ⟨st.objs.set i (.sock (sockListen k fd st.w).1.2), (sockListen k fd st.w).2⟩
    | _ => st
  | .options i => match st.objs[i]? with
    | some (.sock fd) => ⟨st.objs, (setOptions k fd st.w).2⟩
    | some (.net s) => ⟨st.objs, (setOptions k s.fd st.w).2⟩
    | some (.srv s) => if s.connected then ⟨st.objs, (setOptions k s.fd st.w).2⟩ else st
    | _ => st
  | .accept i timeout => match st.objs[i]? with
    | some (.sock fd) => match acceptStream k timeout fd st.w with
      | (some n, w) => ⟨st.objs ++ [.stream (some n)], w⟩
      | (none, w) => ⟨st.objs, w⟩
    | some (.srv s) => match srvAccept k s st.w with
      | (some c, w) => ⟨st.objs ++ [.net c], w⟩
      | (none, w) => ⟨st.objs, w⟩
    | _ => st
  | .getConnection i addrs timeout => match st.objs[i]? with
    | some (.client ss) => ⟨st.objs.set i (.client (getConnection k addrs timeout ss st.w).1), (getConnection k addrs timeout ss st.w).2⟩
    | _ => st
  | .io i calls => match st.objs[i]? with
    | some (.stream (some n)) => ⟨st.objs, (useAll k n calls st.w).2⟩
    | some (.client (some n)) => ⟨st.objs, (useAll k n calls st.w).2⟩
    | some (.net s) => ⟨st.objs.set i (.net (netIos k calls s st.w).1), (netIos k calls s st.w).2⟩
    | _ => st
  | .shutdown i => match st.objs[i]? with
    | some (.net s) => ⟨st.objs.set i (.net (netShutdown k s st.w).1.2), (netShutdown k s st.w).2⟩
    | _ => st
  | .create i anyPort => match st.objs[i]? with
    | some (.srv s) => ⟨st.objs.set i (.srv (srvCreate k anyPort s st.w).1.2), (srvCreate k anyPort s st.w).2⟩
    | _ => st
  | .destroy i calls => match st.objs[i]? with
    | some (.sock fd) => ⟨st.objs.set i .gone, (sockClose k fd st.w).2⟩
    | some (.stream fd) => ⟨st.objs.set i .gone, streamDestroy k fd st.w⟩
    | some (.client ss) => ⟨st.objs.set i .gone, streamDestroy k ss st.w⟩
    | some (.net s) => ⟨st.objs.set i .gone, netDestroy k calls s st.w⟩
    | some (.srv s) => ⟨st.objs.set i .gone, (srvClose k s st.w).2⟩
    | _ => st

/-- A program. -/
def run (k : Kernel) : List Cmd → State → State
  | [], st => st
  | c :: cs, st => run k cs (step k st c)

end Verif.Descr
