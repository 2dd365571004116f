import Verif.HttpMsg.Model
import Verif.Http.Spec
import Verif.Uri.Spec
import Verif.Lexical.Spec
import Verif.Socket.Spec
/-! What HTTP messages are on the wire, and what a receiver should make of them. -/

namespace Verif.HttpMsg.Spec
open Verif.Socket Verif.Http Verif.HttpMsg

/-- The names of header fields, without regard to case. -/
def names (h : Header) : List Str := h.map fun e => Http.Spec.fold e.1

/-- The header that is sent: with the length of the body, unless there is no body or the user has set the length. -/
def sentHeader (h : Header) (body : Str) : Header :=
  if body = [] ∨ Http.Spec.fold contentLength ∈ names h then h else h ++ [(contentLength, Lexical.put body.length)]

/-- A message on the wire. -/
def wire (line : Str) (h : Header) (body : Str) : Str := line ++ [13, 10] ++ Http.Spec.text (sentHeader h body) ++ body

/-- The first line of a request without the line end. -/
def requestText (q : Request) : Str :=
  q.method ++ [32] ++ Uri.print q.uri ++ [32] ++ httpSlash ++ Lexical.put q.version.1 ++ [46] ++ Lexical.put q.version.2

/-- The first line of a response without the line end. -/
def statusText (p : Response) : Str :=
  httpSlash ++ Lexical.put p.version.1 ++ [46] ++ Lexical.put p.version.2 ++ [32] ++ Lexical.put p.code ++ [32] ++ p.reason

/-- A user's program that receives a request and then reads its body with the given calls. -/
def receiveRequest (fuel : Nat) (ops : List BOp) : Prog (Except RecvErr (GotRequest × Except Err (List (Option UInt8)))) :=
  (recvRequest fuel).bind fun r =>
    match r with
    | .error e => .ret (.error e)
    | .ok q => (q.body.run fuel ops).bind fun b => .ret (.ok (q, b))

/-- The same for a response. -/
def receiveResponse (fuel : Nat) (ops : List BOp) : Prog (Except RecvErr (GotResponse × Except Err (List (Option UInt8)))) :=
  (recvResponse fuel).bind fun r =>
    match r with
    | .error e => .ret (.error e)
    | .ok p => (p.body.run fuel ops).bind fun b => .ret (.ok (p, b))

/-- A header that can be sent: legal fields, no name twice. -/
structure LegalHeader (h : Header) : Prop where
  fields : ∀ e ∈ h, Http.Spec.Legal e
  once : (names h).Nodup

/-- A header and a body that can be sent: a length that is right if there is one, no chunks announced (`send` does not make chunks), a body whose
length an `int64_t` has. -/
structure LegalMessage (h : Header) (body : Str) : Prop where
  header : LegalHeader h
  length : ∀ e ∈ h, Http.Spec.fold e.1 = Http.Spec.fold contentLength → e.2 = Lexical.put body.length
  plain : ∀ e ∈ h, Http.Spec.fold e.1 = Http.Spec.fold transferEncoding → Http.Spec.fold e.2 ≠ chunkedWord
  size : body.length < 2 ^ 63

/-- A first line of a request that can be sent: a method without spaces, a legal URI that `operator<<` writes faithfully, a version of two `int`s. -/
structure LegalFirst (q : Request) (sp : Uri.Spec.Split) : Prop where
  method : q.method ≠ [] ∧ ∀ c ∈ q.method, ¬ Http.Spec.Space c
  uri : q.uri = Uri.Spec.parts sp ∧ Uri.Spec.Valid sp
  host : ∀ ui h po, sp.authority = some (ui, h, po) → Uri.Spec.KnownHost h ∧ Uri.Spec.ch '%' ∉ Uri.Spec.authorityText (ui, h, po)
  form : sp.scheme.isSome = sp.authority.isSome ∧ sp.path ≠ []
  version : Lexical.Spec.Fits Lexical.int32 q.version.1 ∧ Lexical.Spec.Fits Lexical.int32 q.version.2

/-- A request that can be sent: with a first line that fits into the buffer of the receiver. -/
structure LegalRequest (q : Request) (sp : Uri.Spec.Split) : Prop where
  first : LegalFirst q sp
  short : (requestText q).length + 2 ≤ 4096
  message : LegalMessage q.header q.body

/-- A first line of a response that can be sent. -/
structure LegalStatus (p : Response) : Prop where
  version : Lexical.Spec.Fits Lexical.int32 p.version.1 ∧ Lexical.Spec.Fits Lexical.int32 p.version.2
  code : Lexical.Spec.Fits Lexical.int32 p.code
  reason : 10 ∉ p.reason ∧ ∀ c ∈ p.reason.head?, ¬ Http.Spec.Space c
  short : (statusText p).length + 2 ≤ 4096

/-- A response that can be sent. -/
structure LegalResponse (p : Response) : Prop where
  first : LegalStatus p
  message : LegalMessage p.header p.body

/-- The value of a field, empty if there is none. -/
def field (h : Header) (n : Str) : Str := ((h.find? fun e => Http.Spec.fold e.1 = Http.Spec.fold n).map (·.2)).getD []

end Verif.HttpMsg.Spec
