import Verif.Rpc.Model
/-!
# Remote calls through connections that break

`/repo/src/network/rpc/base.cpp:168-231,260-308`, `caller.h`, `invoker.h`, with the turn of the server's loop from `Verif.Rpc`. A
connection may break after any number of bytes in either direction; both sides notice that, as they notice that the other one has closed. The
server may time out (`/repo/src/network/rpc/base.cpp:174-178`), which it treats like the end of the input. The client has no timeouts: a network that loses bytes
without a sign makes it wait for ever and is not modelled.
-/
namespace Verif.RpcFault
open Verif.Serial
open Verif.Rpc (Str Encoder Server Call Fn Arg Stop Answer Round round encStr pingMsg pongMsg okMsg genException)

/-- A connection: what has reached the server and is unread, what has reached the client and is unread, whether the server still serves it,
whether the client's stream is good, and how many more bytes will get through to the server and to the client. -/
structure Link where
  inbox : List UInt8
  outbox : List UInt8
  up : Bool
  good : Bool
  toServer : Nat
  toClient : Nat
deriving DecidableEq

/-- The loop of `process`, `/repo/src/network/rpc/base.cpp:183-228`, until it waits or ends: whether it goes on, what it has not read, what it
has written, and the record of calls. `eof` tells that no more bytes will come, because the client has closed the connection, the connection is
broken, or the time is up. -/
def run (E : Encoder) (sv : Server) (eof : Bool) : Nat → List UInt8 → List UInt8 → List Call → Except Stop (Bool × List UInt8 × List UInt8 × List Call)
  | 0, inbox, out, log => .ok (true, inbox, out, log)
  | fuel + 1, inbox, out, log =>
    match round E sv eof inbox with
    | .blocked => .ok (true, inbox, out, log)
    | .closed o => .ok (false, [], out ++ o, log)
    | .next o rest calls => run E sv eof fuel rest (out ++ o) (log ++ calls)
    | .crash => .error .crashed
    | .undefined => .error .undefined

/-- The server learns that nothing more will come, and ends its loop; what it still writes reaches the client as far as the connection
carries it. -/
def finish (E : Encoder) (sv : Server) (l : Link) (log : List Call) : Except Stop (Link × List Call) :=
  if l.up then do
    let (_, _, out, log) ← run E sv true (l.inbox.length + 1) l.inbox [] log
    .ok ({ l with inbox := [], outbox := l.outbox ++ out.take l.toClient, up := false, toClient := l.toClient - out.length }, log)
  else .ok (l, log)

/-- The client sends a message, and the server reacts to what arrives of it. If its answer does not get through, both are cut off. -/
def send (E : Encoder) (sv : Server) (msg : List UInt8) (l : Link) (log : List Call) : Except Stop (Link × List Call) :=
  if l.up then do
    let got := msg.take l.toServer
    let (up, inbox, out, log) ← run E sv (decide (l.toServer < msg.length)) (l.inbox.length + got.length + 1) (l.inbox ++ got) [] log
    let l' : Link := { l with
      inbox := inbox, outbox := l.outbox ++ out.take l.toClient, up := up, toServer := l.toServer - got.length, toClient := l.toClient - out.length }
    if l.toClient < out.length then finish E sv l' log else .ok (l', log)
  else .ok (l, log)

/-- The client reads a value, `/repo/src/network/rpc/caller.h:79,81`. If the bytes do not suffice and the server waits as well, the server's
time runs out if it has a timeout, `/repo/src/network/rpc/base.cpp:174-178`; otherwise they wait for ever. -/
def recv (E : Encoder) (sv : Server) (timeout : Bool) (t : Ty) (old : Val t) (l : Link) (log : List Call) : Except Stop (Val t × Link × List Call) :=
  let r := read t old ⟨l.outbox, l.good, false⟩
  if l.good && !r.2.good && l.up then
    if timeout then do
      let (l, log) ← finish E sv l log
      let r := read t old ⟨l.outbox, l.good, false⟩
      if r.2.ub then .error .undefined else .ok (r.1, { l with outbox := r.2.rest, good := r.2.good }, log)
    else .error .hangs
  else if r.2.ub then .error .undefined
  else .ok (r.1, { l with outbox := r.2.rest, good := r.2.good }, log)

/-- How an attempt to connect goes: refused, or how many bytes get through in each direction before the connection breaks. -/
abbrev Plan := Option (Nat × Nat)

/-- A new connection, `/repo/src/network/rpc/base.cpp:273-281`. -/
def connect : Plan → Option Link
  | none => none
  | some (a, b) => some ⟨[], [], true, true, a, b⟩

/-- Lines 272-282 of `get_connection`, `/repo/src/network/rpc/base.cpp:272-282`: the connection at hand if its stream is good, or else a new one. -/
def current (p : Plan) : Option Link → Option Link
  | some l => if l.good then some l else connect p
  | none => connect p

/-- `get_connection`, `/repo/src/network/rpc/base.cpp:269-308`: one plan for each attempt. A connection that does not answer the ping is
closed. -/
def getConn (E : Encoder) (sv : Server) (timeout : Bool) : List Plan → Option Link → List Call → Except Stop (Option Link × List Call)
  | [], c, log => .ok (c, log)
  | p :: ps, c, log =>
    match current p c with
    | none => getConn E sv timeout ps none log
    | some l => do
      let (l, log) ← send E sv (encStr pingMsg) l log
      let (pong, l, log) ← recv E sv timeout .str [] l log
      if pong ≠ pongMsg then do
        let (_, log) ← finish E sv l log
        getConn E sv timeout ps none log
      else .ok (some l, log)

/-- The client and the record of calls. -/
structure World where
  conn : Option Link
  log : List Call

/-- `cannot send arguments`, `cannot recv return value`, `/repo/src/network/rpc/caller.h:76,82`. -/
def cannotSend : Str := "cannot send arguments".toList.map (fun c => UInt8.ofNat c.toNat)
def cannotRecv : Str := "cannot recv return value".toList.map (fun c => UInt8.ofNat c.toNat)

/-- The client reads the answer, `/repo/src/network/rpc/caller.h:78-82`. -/
def receive (E : Encoder) (sv : Server) (timeout : Bool) (res : Ty) (l : Link) (log : List Call) : Except Stop (Answer (Val res) × World) := do
  let (code, l, log) ← recv E sv timeout .str [] l log
  if code ≠ okMsg then
    match genException code with
    | none => .error .undefined
    | some a => .ok (a, ⟨some l, log⟩)
  else
    let (r, l, log) ← recv E sv timeout res (dflt res) l log
    if !l.good then .ok (.error cannotRecv, ⟨some l, log⟩)
    else .ok (.value r, ⟨some l, log⟩)

/-- A call, `/repo/src/network/rpc/caller.h:66-82`, with the two attempts of `get_connection` (`/repo/src/network/rpc/base.cpp:271`). `stuck` tells that
writing the request fails before it is flushed (line 76). -/
def call (E : Encoder) (sv : Server) (timeout : Bool) (p₁ p₂ : Plan) (stuck : Bool) (version : BitVec 32) (name : Str) (a : Option Ty) (v : Arg a)
    (res : Ty) (w : World) : Except Stop (Answer (Val res) × World) := do
  let (c, log) ← getConn E sv timeout [p₁, p₂] w.conn w.log
  match c with
  | none => .ok (.noConnection, ⟨none, log⟩)
  | some l =>
    let (l, log) ← send E sv (encStr name ++ toLE 4 version.toNat ++ E.arg a v) l log
    if stuck then
      let (l, log) ← finish E sv l log
      .ok (.error cannotSend, ⟨some { l with good := false }, log⟩)
    else receive E sv timeout res l log

end Verif.RpcFault
