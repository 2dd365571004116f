import Verif.Mprpc.MsgPack
/-!
# Model of MessagePack-RPC

Source: `/repo/src/network/mprpc`. One client, the stream it uses for all its calls (`rpc_client.cpp:50`), and the thread that serves the
connection, with all ways in which their steps can be mixed, bytes can be delayed, and timeouts can expire.
-/
namespace Verif.Mprpc

/-! ### Messages -/

/-- How deep messages are unpacked by the library called at `/repo/src/network/mprpc/object_stream.cpp:72`. -/
def depth : Nat := 32

/-- A request, `/repo/src/network/mprpc/message.h:93-95`. -/
def reqObj (id : BitVec 32) (name : Str) (param : Obj) : Obj := .arr [.uint 0, .uint (id.setWidth 64), .raw name, param]
/-- A response, `/repo/src/network/mprpc/message.h:134-136`. -/
def respObj (id : BitVec 32) (error result : Obj) : Obj := .arr [.uint 1, .uint (id.setWidth 64), error, result]

/-- `rpc_message`, `/repo/src/network/mprpc/message.h:45-70`. -/
structure Msg where
  type : BitVec 8
  id : BitVec 32
  a2 : Obj
  a3 : Obj

/-- `reset`, `/repo/src/network/mprpc/message.h:55-59`: conversion to a tuple, or `type_error`. More than four elements are let through. -/
def message : Obj → Option Msg
  | .arr (.uint t :: .uint i :: a2 :: a3 :: _) =>
    if t.toNat < 2 ^ 8 ∧ i.toNat < 2 ^ 32 then some ⟨t.setWidth 8, i.setWidth 32, a2, a3⟩ else none
  | _ => none

/-! ### The server -/

/-- A type of arguments or results: how values are packed, how objects are converted, and the value left by default initialization, `none` if it
is indeterminate (as for numbers). -/
structure Ty where
  T : Type
  pack : T → Obj
  conv : Obj → Option T
  init : Option T

/-- Lists of arguments. -/
@[reducible] def Args : List Ty → Type
  | [] => Unit
  | t :: ts => t.T × Args ts

/-- The parameter of a request, `argumentN::msgpack_pack`, `/repo/src/network/mprpc/argument.h:45-48,59-63,82-87`. -/
def packArgs : (ts : List Ty) → Args ts → List Obj
  | [], _ => []
  | t :: ts, (a, as) => t.pack a :: packArgs ts as

/-- Why there are no arguments, `/repo/src/network/mprpc/argument.h:65-70`: a `type_error`, or indeterminate values. -/
inductive Bad
  | mismatch
  | undefined
deriving DecidableEq

/-- The elements of the parameter, `argumentN::msgpack_unpack`, `/repo/src/network/mprpc/argument.h:50-53,65-70,89-95`: missing ones are not
set, and the ones beyond the last are not looked at. -/
def unpackArgs : (ts : List Ty) → List Obj → Except Bad (Args ts)
  | [], _ => .ok ()
  | t :: ts, o :: os =>
    match t.conv o with
    | none => .error .mismatch
    | some a => (unpackArgs ts os).map fun as => (a, as)
  | t :: ts, [] =>
    match t.init with
    | none => .error .undefined
    | some a => (unpackArgs ts []).map fun as => (a, as)

/-- `param_as`, `/repo/src/network/mprpc/message.h:98-105`, `argument.h:52,67`. -/
def paramAs (ts : List Ty) : Obj → Except Bad (Args ts)
  | .arr l => unpackArgs ts l
  | _ => .error .mismatch

/-- How a function called at `/repo/src/network/mprpc/rpc_server.cpp:196-201` ends: with a result, an `rpc_error`, another `std::exception`, or something else that is thrown. -/
inductive Outcome (α : Type)
  | ret (a : α)
  | rpcError
  | exc (what : Str)
  | other

/-- A registered function, `/repo/src/network/mprpc/invoker.h:95-150`. -/
structure Fn where
  args : List Ty
  res : Ty
  run : Args args → Outcome res.T

/-- The table of functions, a `map`, `/repo/src/network/mprpc/rpc_server.h:92`. -/
abbrev Funcs := Str → Option Fn

/-- `add`, `/repo/src/network/mprpc/rpc_server.cpp:178-182`. -/
def add (fs : Funcs) (name : Str) (f : Fn) : Funcs := fun n => if n = name then some f else fs n

/-- An invocation of a function (`/repo/src/network/mprpc/invoker.h:124`), for the record. -/
structure Call where
  name : Str
  args : List Ty
  val : Args args

/-- What comes of a request, `/repo/src/network/mprpc/rpc_server.cpp:169-173`: a response, no response, an exception that leaves the thread, or undefined behaviour. -/
inductive Handled
  | reply (error result : Obj) (calls : List Call)
  | silent (calls : List Call)
  | crash
  | undefined

/-- `process_request`, `/repo/src/network/mprpc/rpc_server.cpp:184-202`, and `invoke`, `invoker.h:84-150`. -/
def handle (fs : Funcs) (name : Str) (param : Obj) : Handled :=
  match fs name with
  | none => .reply (.uint 1) (.raw name) []
  | some f =>
    match paramAs f.args param with
    | .error .mismatch => .reply (.uint 2) .nil []
    | .error .undefined => .undefined
    | .ok as =>
      match f.run as with
      | .ret r => .reply .nil (f.res.pack r) [⟨name, f.args, as⟩]
      | .rpcError => .silent [⟨name, f.args, as⟩]
      | .exc what => .reply (.raw what) .nil [⟨name, f.args, as⟩]
      | .other => .crash

/-! ### The client -/

/-- What a call gives to its caller: the result, or one of the exceptions of `/repo/src/network/mprpc/exception.h:45-87`. -/
inductive Answer (α : Type)
  | value (a : α)
  | notFound (name : Str)
  | typeError
  | error (e : Obj)

/-- `object_to_string`, `/repo/src/network/mprpc/message.h:186-194`; `none` for an object printed by the library. -/
def objString : Obj → Option Str
  | .raw s => some s
  | _ => none

/-- `DO_RPC` after the response, and `gen_exception`, `/repo/src/network/mprpc/caller.h:51-61,70-79`. -/
def answer (res : Ty) (error result : Obj) : Answer res.T :=
  match error with
  | .nil =>
    match res.conv result with
    | none => .typeError
    | some r => .value r
  | .uint n =>
    if n.setWidth 32 = 1 then .notFound ((objString result).getD [])
    else if n.setWidth 32 = 2 then .typeError
    else .error error
  | e => .error e

/-! ### The stream -/

/-- Where the client is, `/repo/src/network/mprpc/rpc_stream.h:72-82`: between calls, inside `write` with the bytes left to write, or inside `join`. -/
inductive Phase
  | idle
  | writing (id : BitVec 32) (rest : Str)
  | waiting (id : BitVec 32)
deriving DecidableEq

/-- Ways in which the server ends, in `/repo/src/network/mprpc/rpc_server.cpp:137-176`. -/
inductive Fault
  | crash
  | undefined
deriving DecidableEq

/-- The stream of a client and its server, `/repo/src/network/mprpc/rpc_stream.h:44-69`, `object_stream.h:44-61`. -/
structure State where
  /-- `seqid`, `/repo/src/network/mprpc/rpc_stream.h:66` -/
  seq : BitVec 32
  phase : Phase
  /-- whether the server serves the connection -/
  up : Bool
  fault : Option Fault
  /-- bytes under way to the server, and those in the server's unpacker -/
  toServer : Str
  sbuf : Str
  /-- bytes under way to the client, and those in the client's unpacker -/
  toClient : Str
  cbuf : Str
  /-- for the record: the calls begun (a call is known by its place in this list), the requests written but not yet read by the server,
  the requests whose response was written but not yet read by the client, those whose response could not be written, the responses that calls
  have returned, and the functions invoked -/
  calls : List (Str × Obj)
  queue : List Nat
  pending : List Nat
  lost : List Nat
  results : List (Nat × Obj × Obj)
  log : List Call

/-- Whether an unpacker has no complete message, so that `::read` is called, `/repo/src/network/mprpc/object_stream.cpp:72-83`. -/
def hungry (buf : Str) : Bool :=
  match unpack depth buf with
  | .more => true
  | _ => false

/-- What can happen in `/repo/src/network/mprpc/object_stream.cpp:67-121`, on both sides. -/
inductive Event
  /-- the client begins a call -/
  | call (name : Str) (param : Obj)
  /-- `::write` takes `n` bytes -/
  | write (n : Nat)
  /-- `write` gives up: by a timeout or an error -/
  | cut
  /-- `::read` of the client gives `n` bytes -/
  | arrive (n : Nat)
  /-- the client's unpacker gives a message -/
  | take
  /-- the client's `read` gives up: by a timeout or an error -/
  | timeout
  /-- the client's `::read` meets the end of the stream -/
  | eof
  /-- `::read` of the server gives `n` bytes -/
  | sarrive (n : Nat)
  /-- the server's unpacker gives a message; the response is written completely, or only `n` bytes of it until a timeout or an error -/
  | stake (n : Option Nat)
  /-- the server closes the connection: by a timeout, an error, or as it is stopped -/
  | sclose

/-- A new stream, `/repo/src/network/mprpc/rpc_stream.cpp:38-39`. -/
def new : State := ⟨0, .idle, true, none, [], [], [], [], [], [], [], [], [], []⟩

/-- The server has read a request: `process`, `/repo/src/network/mprpc/rpc_server.cpp:165-173`. The constructor in line 169 throws if the name is
not a string. -/
def serve (fs : Funcs) (s : State) (m : Msg) (n : Option Nat) : State :=
  if m.type ≠ 0 then s
  else
    match m.a2 with
    | .raw name =>
      match handle fs name m.a3 with
      | .reply error result calls =>
        let s := { s with log := s.log ++ calls }
        let bytes := pack (respObj m.id error result)
        match n with
        | none => { s with toClient := s.toClient ++ bytes, pending := s.pending ++ s.queue.head?.toList, queue := s.queue.tail }
        | some n => { s with toClient := s.toClient ++ bytes.take n, lost := s.lost ++ s.queue.head?.toList, queue := s.queue.tail }
      | .silent calls => { s with log := s.log ++ calls, queue := s.queue.tail }
      | .crash => { s with up := false, fault := some .crash }
      | .undefined => { s with up := false, fault := some .undefined }
    | _ => { s with up := false, fault := some .crash }

/-- One event; `none` if it cannot happen. -/
def step (fs : Funcs) (s : State) : Event → Option State
  /- `rpc_stream::call` and `send`, `/repo/src/network/mprpc/rpc_stream.h:72-82,88-89` -/
  | .call name param =>
    match s.phase with
    | .idle => some { s with seq := s.seq + 1, phase := .writing s.seq (pack (reqObj s.seq name param)), calls := s.calls ++ [(name, param)] }
    | _ => none
  /- `object_stream::write`, `/repo/src/network/mprpc/object_stream.cpp:104-120` -/
  | .write n =>
    match s.phase with
    | .writing id rest =>
      if n = 0 ∨ rest.length < n then none
      else if n < rest.length then some { s with phase := .writing id (rest.drop n), toServer := s.toServer ++ rest.take n }
      else some { s with phase := .waiting id, toServer := s.toServer ++ rest, queue := s.queue ++ [s.calls.length - 1] }
    | _ => none
  /- lines 107-116 there; `rpc_stream.h:77-79,89-91` -/
  | .cut =>
    match s.phase with
    | .writing _ _ => some { s with phase := .idle }
    | _ => none
  /- `object_stream::read`, `/repo/src/network/mprpc/object_stream.cpp:79-95` -/
  | .arrive n =>
    match s.phase with
    | .waiting _ =>
      if n = 0 ∨ s.toClient.length < n ∨ !hungry s.cbuf then none
      else some { s with cbuf := s.cbuf ++ s.toClient.take n, toClient := s.toClient.drop n }
    | _ => none
  /- `/repo/src/network/mprpc/object_stream.cpp:72-77`, `try_receive` and `join`, `rpc_stream.cpp:44-60,71-90` -/
  | .take =>
    match s.phase with
    | .waiting id =>
      match unpack depth s.cbuf with
      | .more => none
      | .bad => some { s with phase := .idle }
      | .ok o rest =>
        let s := { s with cbuf := rest, pending := s.pending.tail }
        match message o with
        | none => some { s with phase := .idle }
        | some m =>
          if m.type ≠ 1 then some s
          else if m.id ≠ id then some s
          else some { s with phase := .idle, results := s.results ++ [(s.calls.length - 1, m.a2, m.a3)] }
    | _ => none
  /- `/repo/src/network/mprpc/object_stream.cpp:87-92` -/
  | .timeout =>
    match s.phase with
    | .waiting _ => if !hungry s.cbuf then none else some { s with phase := .idle }
    | _ => none
  /- line 85 there -/
  | .eof =>
    match s.phase with
    | .waiting _ => if !hungry s.cbuf ∨ s.toClient ≠ [] ∨ s.up then none else some { s with phase := .idle }
    | _ => none
  | .sarrive n =>
    if !s.up ∨ n = 0 ∨ s.toServer.length < n ∨ !hungry s.sbuf then none
    else some { s with sbuf := s.sbuf ++ s.toServer.take n, toServer := s.toServer.drop n }
  /- `process`, `/repo/src/network/mprpc/rpc_server.cpp:155-174`; `unpack_error` is not caught -/
  | .stake n =>
    if !s.up then none
    else
      match unpack depth s.sbuf with
      | .more => none
      | .bad => some { s with up := false, fault := some .crash }
      | .ok o rest =>
        let s := { s with sbuf := rest }
        match message o with
        | none => some { s with up := false }
        | some m => some (serve fs s m n)
  | .sclose => some { s with up := false }

/-- A sequence of events. -/
def run (fs : Funcs) : State → List Event → Option State
  | s, [] => some s
  | s, e :: es => (step fs s e).bind fun s => run fs s es

end Verif.Mprpc
