import Verif.Serial.Spec
import Verif.AssocMap
import Verif.Decimal
/-!
# Model of remote procedure calls

Source: `/repo/src/network/rpc/base.cpp:76-79,168-231,260-318`, `caller.h`, `invoker.h`. One client and the thread that serves its connections.
A connection carries the bytes of each side in order (C49, C50); it does not fail while a call runs, but the server may have closed it, and
a new one may be refused. Values are those of the serialization model (C20); the bytes of a value are a function given from outside, as
unordered containers may be written in any order. There are no timeouts.
-/
namespace Verif.Rpc
open Verif.Serial

abbrev Str := List UInt8

/-- `PING_MSG`, `PONG_MSG`, `EXIT_MSG`, `/repo/src/network/rpc/base.cpp:48-50`: `<<<PING>>>`, `<<<PONG>>>`, `<<<EXIT>>>`. -/
def pingMsg : Str := [60, 60, 60, 80, 73, 78, 71, 62, 62, 62]
def pongMsg : Str := [60, 60, 60, 80, 79, 78, 71, 62, 62, 62]
def exitMsg : Str := [60, 60, 60, 69, 88, 73, 84, 62, 62, 62]

/-- `OK`, `/repo/src/network/rpc/base.cpp:199`, `caller.h:80`, `invoker.h:52`. -/
def okMsg : Str := [79, 75]

/-- `NotFound` and `VersionMismatch`, `/repo/src/network/rpc/base.cpp:209,217`, `caller.h:53,58`. -/
def notFoundMsg : Str := [78, 111, 116, 70, 111, 117, 110, 100]
def mismatchMsg : Str := [86, 101, 114, 115, 105, 111, 110, 77, 105, 115, 109, 97, 116, 99, 104]

/-- Arguments: none at all, or values written one after the other, which are a pair, of a pair, and so on. -/
@[reducible] def Arg : Option Ty → Type
  | none => Unit
  | some t => Val t

/-- How a function ends: with a result, with an `rpc_error`, or with another exception. -/
inductive Outcome (α : Type)
  | ret (a : α)
  | rpcError
  | other

/-- A registered function, `/repo/src/network/rpc/invoker.h:57-110`. -/
structure Fn where
  arg : Option Ty
  res : Ty
  run : Arg arg → Outcome (Val res)

/-- A server, `/repo/src/network/rpc/base.h:99-104`. -/
structure Server where
  version : BitVec 32
  funcs : List (Str × Fn)

/-- `add`, `/repo/src/network/rpc/base.cpp:76-79`. -/
def Server.add (sv : Server) (name : Str) (f : Fn) : Server := { sv with funcs := AssocMap.upsert sv.funcs name f }

/-- The bytes written for the values of each type. -/
structure Encoder where
  enc : (t : Ty) → Val t → List UInt8
  ok : ∀ t v, Writes t v (enc t v)

/-- The bytes written for a string; these are determined (`/repo/src/data/serialization/string.h:45-54`). -/
def encStr (s : Str) : List UInt8 := sizeField s.length ++ s.take (s.length % 2 ^ 32)

/-- The bytes written for arguments, `/repo/src/network/rpc/caller.h:75`. -/
def Encoder.arg (E : Encoder) : (a : Option Ty) → Arg a → List UInt8
  | none, _ => []
  | some t, v => E.enc t v

/-- `ostream << int`, used by `lexical_cast<string>` (`/repo/src/lang/cast.h:66-74`). -/
def showInt (i : Int) : Str := if i < 0 then 45 :: Decimal.digits i.natAbs else Decimal.digits i.natAbs

/-- An invocation of a function, for the record. -/
structure Call where
  name : Str
  arg : Option Ty
  val : Arg arg

/-- What one turn of the loop of the server does, `/repo/src/network/rpc/base.cpp:183-228`. -/
inductive Round
  /-- waits for more bytes -/
  | blocked
  /-- leaves the loop and closes the connection, after writing `out` -/
  | closed (out : List UInt8)
  /-- goes on after writing `out`, with `rest` unread -/
  | next (out rest : List UInt8) (calls : List Call)
  /-- an exception leaves the thread -/
  | crash
  /-- undefined behaviour -/
  | undefined

/-- The end of an invocation, `/repo/src/network/rpc/invoker.h:51-55,64-68`, and the handler of `rpc_error` around it,
`/repo/src/network/rpc/base.cpp:223-227`. -/
def answer (E : Encoder) (res : Ty) (rest : List UInt8) (c : Call) : Outcome (Val res) → Round
  | .ret r => .next (encStr okMsg ++ E.enc res r) rest [c]
  | .rpcError => .next [] rest [c]
  | .other => .crash

/-- `invoke`, `/repo/src/network/rpc/invoker.h:49-110`; `eof` tells that the client has closed the connection, so that reading does not wait.
A function without arguments is called without looking at the state of the archive (line 63). -/
def invoke (E : Encoder) (eof : Bool) (name : Str) : Fn → Strm → Round
  | ⟨none, res, run⟩, s => answer E res s.rest ⟨name, none, ()⟩ (run ())
  | ⟨some t, res, run⟩, s =>
    let a := read t (dflt t) s
    if !a.2.good && !eof then .blocked
    else if a.2.ub then .undefined
    else if !a.2.good then .next [] a.2.rest []
    else answer E res a.2.rest ⟨name, some t, a.1⟩ (run a.1)

/-- One turn of the loop of `process`, `/repo/src/network/rpc/base.cpp:183-228`. -/
def round (E : Encoder) (sv : Server) (eof : Bool) (inbox : List UInt8) : Round :=
  let n := read .str [] ⟨inbox, true, false⟩
  if !n.2.good then if eof then .closed [] else .blocked
  else if n.1 = pingMsg then .next (encStr pongMsg) n.2.rest []
  else if n.1 = exitMsg then .closed (encStr okMsg ++ encStr [49])
  else
    match AssocMap.find sv.funcs n.1 with
    | none => .closed (encStr (notFoundMsg ++ 32 :: n.1))
    | some f =>
      let v := read (.prim 4 true) 0 n.2
      if !v.2.good && !eof then .blocked
      else if v.2.good && v.1 ≠ sv.version then
        .closed (encStr (mismatchMsg ++ 32 :: showInt sv.version.toInt ++ 32 :: showInt v.1.toInt))
      else invoke E eof n.1 f v.2

/-! ### The client -/

/-- A connection: bytes sent by the client that the server has not read, bytes sent by the server that the client has not read, whether the
server still serves it, and the state of the client's stream. -/
structure Conn where
  inbox : List UInt8
  outbox : List UInt8
  up : Bool
  good : Bool
deriving DecidableEq

/-- Ways in which a call does not come to an end. -/
inductive Stop
  /-- client and server wait for each other -/
  | hangs
  /-- the server's thread is left by an exception -/
  | crashed
  | undefined
deriving DecidableEq

/-- The server serves the connection until it has to wait or closes it, `/repo/src/network/rpc/base.cpp:183-228`. Each turn but the last reads
four bytes at least. -/
def serve (E : Encoder) (sv : Server) : Nat → Conn → List Call → Except Stop (Conn × List Call)
  | 0, c, log => .ok (c, log)
  | fuel + 1, c, log =>
    if !c.up then .ok (c, log)
    else
      match round E sv false c.inbox with
      | .blocked => .ok (c, log)
      | .closed out => .ok ({ c with inbox := [], outbox := c.outbox ++ out, up := false }, log)
      | .next out rest calls => serve E sv fuel { c with inbox := rest, outbox := c.outbox ++ out } (log ++ calls)
      | .crash => .error .crashed
      | .undefined => .error .undefined

/-- The client sends a message, and the server reacts. -/
def send (E : Encoder) (sv : Server) (msg : List UInt8) (c : Conn) (log : List Call) : Except Stop (Conn × List Call) :=
  serve E sv (c.inbox.length + msg.length + 1) { c with inbox := c.inbox ++ msg } log

/-- The client reads a value. It waits if the bytes do not suffice, unless the server has closed the connection. -/
def recv (t : Ty) (old : Val t) (c : Conn) : Except Stop (Val t × Conn) :=
  let r := read t old ⟨c.outbox, c.good, false⟩
  if c.good && !r.2.good && c.up then .error .hangs
  else if r.2.ub then .error .undefined
  else .ok (r.1, { c with outbox := r.2.rest, good := r.2.good })

/-- A new connection, `/repo/src/network/rpc/base.cpp:273-281`; `reachable` tells whether the server accepts it. -/
def connect (reachable : Bool) : Option Conn := if reachable then some ⟨[], [], true, true⟩ else none

/-- Lines 284-302 of `get_connection`, `/repo/src/network/rpc/base.cpp:284-302`. The tests in lines 289 and 295 are on the pointer and always
pass. `none` means that the connection is given up; what the server does with the rest of it is not followed. -/
def ping (E : Encoder) (sv : Server) (c : Conn) (log : List Call) : Except Stop (Option Conn × List Call) := do
  let (c, log) ← send E sv (encStr pingMsg) c log
  let (pong, c) ← recv .str [] c
  .ok (if pong ≠ pongMsg then none else some c, log)

/-- Lines 272-282, `/repo/src/network/rpc/base.cpp:272-282`: the connection at hand if it is usable, or else a new one. -/
def current (reachable : Bool) : Option Conn → Option Conn
  | some c => if c.good then some c else connect reachable
  | none => connect reachable

/-- `get_connection`, `/repo/src/network/rpc/base.cpp:269-308`, with the number of attempts left. -/
def getConn (E : Encoder) (sv : Server) (reachable : Bool) : Nat → Option Conn → List Call → Except Stop (Option Conn × List Call)
  | 0, c, log => .ok (c, log)
  | n + 1, c, log =>
    match current reachable c with
    | none => getConn E sv reachable n none log
    | some c => do
      let (c, log) ← ping E sv c log
      match c with
      | some c => .ok (some c, log)
      | none => getConn E sv reachable n none log

/-- What a call gives to its caller: the result, or one of the exceptions of `/repo/src/network/rpc/exception.h:44-96`. -/
inductive Answer (α : Type)
  | value (a : α)
  | notFound (name : Str)
  | mismatch (server client : Int)
  | error (msg : Str)
  | noConnection

/-- `isspace` in the "C" locale. -/
def isSpace (c : UInt8) : Bool := c == 32 || (9 ≤ c && c ≤ 13)

/-- `istream >> string`: the next word and what follows it. -/
def word (s : Str) : Str × Str :=
  let s := s.dropWhile isSpace
  (s.takeWhile (fun c => !isSpace c), s.dropWhile (fun c => !isSpace c))

/-- `istream >> int`: `none` if there is no number, or none that fits. -/
def readInt (s : Str) : Option (Int × Str) :=
  let s := s.dropWhile isSpace
  let neg := s.head? = some 45
  let s := if neg ∨ s.head? = some 43 then s.tail else s
  let ds := s.takeWhile Decimal.isDigit
  let i : Int := if neg then - Decimal.value ds else Decimal.value ds
  if ds = [] ∨ i < -2 ^ 31 ∨ 2 ^ 31 ≤ i then none else some (i, s.dropWhile Decimal.isDigit)

/-- `gen_exception`, `/repo/src/network/rpc/caller.h:48-64`; `none` if a version is not a number that fits, as indeterminate
values may be used then. -/
def genException {α : Type} (s : Str) : Option (Answer α) :=
  let c := word s
  if c.1 = notFoundMsg then some (.notFound (word c.2).1)
  else if c.1 = mismatchMsg then
    match readInt c.2 with
    | none => none
    | some (sv, rest) =>
      match readInt rest with
      | none => none
      | some (cv, _) => some (.mismatch sv cv)
  else some (.error s)

/-- The client's connection, `/repo/src/network/rpc/base.h:137`, and the record of the functions called so far. -/
structure World where
  conn : Option Conn
  log : List Call

/-- A call, `/repo/src/network/rpc/caller.h:66-107`: `GET_CONN` and `DO_RPC`. -/
def call (E : Encoder) (sv : Server) (reachable : Bool) (version : BitVec 32) (name : Str) (a : Option Ty) (v : Arg a) (res : Ty) (w : World) :
    Except Stop (Answer (Val res) × World) := do
  let (c, log) ← getConn E sv reachable 2 w.conn w.log
  match c with
  | none => .ok (.noConnection, ⟨none, log⟩)
  | some c =>
    let (c, log) ← send E sv (encStr name ++ toLE 4 version.toNat ++ E.arg a v) c log
    let (code, c) ← recv .str [] c
    if code ≠ okMsg then
      match genException code with
      | none => .error .undefined
      | some a => .ok (a, ⟨some c, log⟩)
    else
      let (r, c) ← recv res (dflt res) c
      if !c.good then .ok (.error [99, 97, 110, 110, 111, 116, 32, 114, 101, 99, 118, 32, 114, 101, 116, 117, 114, 110, 32, 118, 97, 108, 117, 101], ⟨some c, log⟩)
      else .ok (.value r, ⟨some c, log⟩)

end Verif.Rpc
