import Verif.CgiServer.Model
import Verif.Base64.Model
/-!
# Reading a resource by its URL

`/repo/src/network/http/stream.h`, on top of the models of URIs, sockets and HTTP messages. Which hosts answer, and what they send, is a function of
the host and the port.
-/
namespace Verif.HttpStream
open Verif Verif.Socket Verif.Http Verif.HttpMsg
open Verif.CgiServer (ascii)

/-- How the constructor can end otherwise: what goes wrong in the URI parser, the exceptions of lines 54 and 61, `bad_cast`, and the exceptions of
sending and receiving. -/
inductive Fail where
  | uri (e : Uri.Err)
  | scheme
  | port
  | connect
  | send (e : SendErr)
  | recv (e : RecvErr)
deriving DecidableEq

/-- The port, `/repo/src/network/http/stream.h:56`, as `connect` gets it (`/repo/src/network/socket.h:60`): a `uint16_t`. -/
def portOf (u : Uri.Parts) : Option Nat :=
  if u.port = [] then some 80 else (Lexical.intOfString Lexical.int32 u.port).map fun n => (n % 65536).toNat

/-- The request, `/repo/src/network/http/stream.h:63-68`. -/
def requestFor (u : Uri.Parts) : Request :=
  let h := Http.set (ascii "Host") u.host []
  let h := Http.set (ascii "Connection") (ascii "close") h
  let h := if u.userinfo ≠ [] then Http.set (ascii "Authorization") (ascii "Basic " ++ Base64.encode u.userinfo) h else h
  ⟨ascii "GET", u, (1, 1), h, []⟩

/-- Lines 70 and 72 of the constructor, `/repo/src/network/http/stream.h:70-72`. -/
def exchange (fuel : Nat) (u : Uri.Parts) : Prog (Except Fail GotResponse) :=
  (sendRequest (requestFor u)).bind fun r =>
    match r with
    | .error e => .ret (.error (.send e))
    | .ok () => (recvResponse fuel).bind fun r => .ret (match r with | .error e => .error (.recv e) | .ok g => .ok g)

/-- The members of `basic_httpstreambuf`, `/repo/src/network/http/stream.h:92-93`; `bad` is whether the state of the body's stream is not good. -/
structure Stream where
  buf : Option UInt8 := none
  resp : GotResponse
  bad : Bool := false

/-- The constructor, `/repo/src/network/http/stream.h:48-73`, and the state of its socket if there was a connection. `fuel` bounds the number of lines;
every line of the response takes a character from the stream, so that their number is enough. -/
def construct (net : Str → Nat → Net) (k : Kernel) (fuel : Nat) (url : Str) : Except Fail Stream × Option St :=
  match Uri.uri url with
  | .error e => (.error (.uri e), none)
  | .ok u =>
    if u.scheme ≠ ascii "http" ∧ u.scheme ≠ [] then (.error .scheme, none)
    else
      match portOf u with
      | none => (.error .port, none)
      | some port =>
        match Socket.connect (net u.host port) Socket.new with
        | (false, _) => (.error .connect, none)
        | (true, s) =>
          let r := (exchange fuel u).run (step k) s
          (r.1.map fun g => { resp := g }, some r.2)

/-- `resp.body().get()`: once the end was reached or an exception was caught, the stream gives nothing any more. -/
def bodyGet (fuel : Nat) (s : Stream) : Prog (Option UInt8 × Stream) :=
  if s.bad then .ret (none, s)
  else (CgiServer.Body.take fuel s.resp.body).bind fun r =>
    match r with
    | .error _ => .ret (none, { s with bad := true })
    | .ok (none, b) => .ret (none, { s with resp := { s.resp with body := b }, bad := true })
    | .ok (some c, b) => .ret (some c, { s with resp := { s.resp with body := b } })

/-- `underflow`, `/repo/src/network/http/stream.h:81-85`. -/
def Stream.underflow (fuel : Nat) (s : Stream) : Prog (Option UInt8 × Stream) :=
  match s.buf with
  | some c => .ret (some c, s)
  | none => (bodyGet fuel s).bind fun (c, s) => .ret (c, { s with buf := c })

/-- `uflow`, `/repo/src/network/http/stream.h:75-79`. -/
def Stream.uflow (fuel : Nat) (s : Stream) : Prog (Option UInt8 × Stream) :=
  (s.underflow fuel).bind fun (c, s) => .ret (c, { s with buf := none })

/-- Calls in sequence. -/
def Stream.run (fuel : Nat) : List BOp → Stream → Prog (List (Option UInt8) × Stream)
  | [], s => .ret ([], s)
  | o :: os, s =>
    (match o with | .peek => s.underflow fuel | .take => s.uflow fuel).bind fun (c, s) =>
      (Stream.run fuel os s).bind fun (cs, s) => .ret (c :: cs, s)

/-- A program that opens a URL, and then takes characters with the given calls: the header (`/repo/src/network/http/stream.h:87-89`), the characters,
and the state of the socket. -/
def visit (net : Str → Nat → Net) (k : Kernel) (fuel : Nat) (url : Str) (ops : List BOp) : Except Fail (Header × List (Option UInt8)) × Option St :=
  match construct net k fuel url with
  | (.ok s, some sock) =>
    let r := (s.run fuel ops).run (step k) sock
    (.ok (s.resp.header, r.1.1), some r.2)
  | (.ok s, none) => (.ok (s.resp.header, []), none)
  | (.error e, sock) => (.error e, sock)

end Verif.HttpStream
