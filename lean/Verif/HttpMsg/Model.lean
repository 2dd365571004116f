import Verif.Http.Model
import Verif.Uri.Model
import Verif.Lexical.Model
/-!
# HTTP requests and responses

`/repo/src/network/http/base.cpp:402-607`, on top of the models of sockets, headers, bodies, URIs and `lexical_cast`. What is sent to or read from
the socket is a `Prog`. The stream of a message that is to be sent is a `stringstream`; only its contents matter.
-/
namespace Verif.HttpMsg
open Verif.Socket Verif.Http

/-- `"Content-Length"`. -/
def contentLength : Str := [67, 111, 110, 116, 101, 110, 116, 45, 76, 101, 110, 103, 116, 104]

/-- `"Transfer-Encoding"`. -/
def transferEncoding : Str := [84, 114, 97, 110, 115, 102, 101, 114, 45, 69, 110, 99, 111, 100, 105, 110, 103]

/-- `"chunked"`. -/
def chunkedWord : Str := [99, 104, 117, 110, 107, 101, 100]

/-- `"HTTP/"`. -/
def httpSlash : Str := [72, 84, 84, 80, 47]

/-! ### Sending -/

/-- The fields of `request`, `/repo/src/network/http/base.h:121-126`, before it is sent. -/
structure Request where
  method : Str
  uri : Uri.Parts
  version : Int × Int
  header : Header
  body : Str

/-- The fields of `response`, `/repo/src/network/http/base.h:149-154`, before it is sent. -/
structure Response where
  version : Int × Int
  code : Int
  reason : Str
  header : Header
  body : Str

/-- The call `puts`. -/
def puts (s : Str) : Prog Bool := .op (.puts s) fun r => .ret (match r with | .bool b => b | _ => false)

/-- The call `flush`. -/
def flush : Prog Int := .op .flush fun r => .ret (match r with | .int n => n | _ => 0)

/-- The exceptions of `send`. -/
inductive SendErr where
  | line
  | header
  | body
  | flush
deriving DecidableEq

/-- `header::send`, `/repo/src/network/http/base.cpp:216-224`: the result of the last call is not looked at. -/
def sendFields : Header → Prog (Except SendErr Unit)
  | [] => (puts [13, 10]).bind fun _ => .ret (.ok ())
  | e :: h => (puts (fieldText e)).bind fun b => if b then sendFields h else .ret (.error .header)

/-- `/repo/src/network/http/base.cpp:490-491` and 595-596. -/
def withLength (h : Header) (dat : Str) : Header :=
  if ¬ hasKey contentLength h ∧ dat.length > 0 then set contentLength (Lexical.stringOfInt dat.length) h else h

/-- The end of `send`, `/repo/src/network/http/base.cpp:494-499` and 599-604. What `body()` is afterwards (lines 500, 605) is left out. -/
def sendBody (dat : Str) : Prog (Except SendErr Unit) :=
  (if dat.length > 0 then puts dat else .ret true).bind fun b =>
    if ¬ b then .ret (.error .body) else flush.bind fun n => .ret (if n ≥ 0 then .error .flush else .ok ())

/-- `send` from its first call on, `/repo/src/network/http/base.cpp:487-499` and 592-604. -/
def sendMessage (line : Str) (h : Header) (dat : Str) : Prog (Except SendErr Unit) :=
  (puts line).bind fun b =>
    if ¬ b then .ret (.error .line)
    else (sendFields (withLength h dat)).bind fun r =>
      match r with
      | .error e => .ret (.error e)
      | .ok () => sendBody dat

/-- The version, `/repo/src/network/http/base.cpp:485` and 588. -/
def versionText (v : Int × Int) : Str := httpSlash ++ Lexical.stringOfInt v.1 ++ [46] ++ Lexical.stringOfInt v.2

/-- The first line of a request, `/repo/src/network/http/base.cpp:482-485`. -/
def requestLine (q : Request) : Str := q.method ++ [32] ++ Uri.print q.uri ++ [32] ++ versionText q.version ++ [13, 10]

/-- The first line of a response, `/repo/src/network/http/base.cpp:587-590`. -/
def statusLine (p : Response) : Str := versionText p.version ++ [32] ++ Lexical.stringOfInt p.code ++ [32] ++ p.reason ++ [13, 10]

/-- `request::send`, `/repo/src/network/http/base.cpp:475-502`. -/
def sendRequest (q : Request) : Prog (Except SendErr Unit) := sendMessage (requestLine q) q.header q.body

/-- `response::send`, `/repo/src/network/http/base.cpp:580-607`. -/
def sendResponse (p : Response) : Prog (Except SendErr Unit) := sendMessage (statusLine p) p.header p.body

/-! ### Receiving -/

/-- The body of a message that was received, `/repo/src/network/http/base.cpp:440-445`: the `streambuf`. The last one is that of a `socketstream`,
`/repo/src/network/iostream.h:134`. -/
inductive Body where
  | chunked (b : Chunked)
  | fixed (b : Fixed)
  | raw (buf : Option UInt8)
deriving DecidableEq

/-- A request that was received. -/
structure GotRequest where
  method : Str
  uri : Uri.Parts
  version : Int × Int
  header : Header
  body : Body
deriving DecidableEq

/-- A response that was received; `code` is `none` if the member is left without a value. -/
structure GotResponse where
  version : Int × Int
  code : Option Int
  reason : Str
  header : Header
  body : Body
deriving DecidableEq

/-- What receiving can end with otherwise: an invalid first line, an invalid header, what goes wrong in the URI parser, `bad_cast`, a number that
`sscanf` cannot represent (undefined). -/
inductive RecvErr where
  | line
  | header (f : Fail)
  | uri (e : Uri.Err)
  | cast
  | overflow
deriving DecidableEq

/-- `toupper`. -/
def toupper (c : UInt8) : UInt8 := if 97 ≤ c ∧ c ≤ 122 then c - 32 else c

/-- `%d` of `sscanf`: the number, whatever its size, and the rest. -/
def scanD (s : Str) : Option (Int × Str) :=
  let s := s.dropWhile isspace
  let neg := s.head? = some 45
  let s := if s.head? = some 45 ∨ s.head? = some 43 then s.tail else s
  let ds := s.takeWhile Decimal.isDigit
  if ds = [] then none else some (if neg then -(Decimal.value ds : Int) else Decimal.value ds, s.dropWhile Decimal.isDigit)

/-- Whether an `int` has a value. -/
def fits (n : Int) : Bool := -2147483648 ≤ n && n ≤ 2147483647

/-- `/repo/src/network/http/base.cpp:426-433` and 532-538. -/
def scanVersion (ver : Str) : Except RecvErr (Int × Int) :=
  let s := (ver.map toupper).takeWhile (· ≠ 0)
  if ¬ httpSlash.isPrefixOf s then .error .line
  else
    match scanD (s.drop 5) with
    | none => .error .line
    | some (a, r) =>
      if ¬ fits a then .error .overflow
      else if r.head? ≠ some 46 then .error .line
      else
        match scanD r.tail with
        | none => .error .line
        | some (b, _) => if ¬ fits b then .error .overflow else .ok (a, b)

/-- The choice of the body, `/repo/src/network/http/base.cpp:440-445` and 545-550, with the header after it. -/
def bodyOf (h : Header) : Except RecvErr (Body × Header) :=
  let te := Http.get transferEncoding h
  if cicmp te.1 chunkedWord then .ok (.chunked {}, te.2)
  else
    let cl := Http.get contentLength te.2
    if cl.1 ≠ [] then
      match Lexical.intOfString Lexical.int64 cl.1 with
      | none => .error .cast
      | some n => .ok (.fixed { rest := n }, cl.2)
    else .ok (.raw none, cl.2)

/-- What the first line of a request says, `/repo/src/network/http/base.cpp:420-433`. -/
def readRequestLine (head : Str) : Except RecvErr (Str × Uri.Parts × (Int × Int)) :=
  let m := Lexical.getWord head
  let u := Lexical.getWord m.2
  let v := Lexical.getWord u.2
  match Uri.uri (u.1.getD []) with
  | .error e => .error (.uri e)
  | .ok u => (scanVersion (v.1.getD [])).map fun v => (m.1.getD [], u, v)

/-- What the first line of a response says, `/repo/src/network/http/base.cpp:526-538`. -/
def readStatusLine (line : Str) : Except RecvErr ((Int × Int) × Option Int × Str) :=
  let v := Lexical.getWord line
  let g := Lexical.get Lexical.int32 (v.2.dropWhile isspace)
  let reason := if g.ok then (g.rest.dropWhile isspace).takeWhile (· ≠ 10) else []
  (scanVersion (v.1.getD [])).map fun v => (v, g.val, reason)

/-- `request(sock)`, `/repo/src/network/http/base.cpp:409-446`: without a first line `head` is empty. -/
def recvRequest (fuel : Nat) : Prog (Except RecvErr GotRequest) :=
  (Prog.getline lineLimit).bind fun l =>
    match readRequestLine (l.getD []) with
    | .error e => .ret (.error e)
    | .ok (m, u, v) => (headerOfSocket fuel).bind fun h =>
      match h with
      | .error e => .ret (.error (.header e))
      | .ok h => .ret ((bodyOf h).map fun b => ⟨m, u, v, b.2, b.1⟩)

/-- `response(sock)`, `/repo/src/network/http/base.cpp:518-551`. -/
def recvResponse (fuel : Nat) : Prog (Except RecvErr GotResponse) :=
  (Prog.getline lineLimit).bind fun l =>
    match l with
    | none => .ret (.error .line)
    | some l =>
      match readStatusLine l with
      | .error e => .ret (.error e)
      | .ok (v, c, r) => (headerOfSocket fuel).bind fun h =>
        match h with
        | .error e => .ret (.error (.header e))
        | .ok h => .ret ((bodyOf h).map fun b => ⟨v, c, r, b.2, b.1⟩)

/-- `underflow` and `uflow` of a `socketstream`, `/repo/src/network/iostream.h:119-131`. -/
def rawStep (o : BOp) (buf : Option UInt8) : Prog (Option UInt8 × Option UInt8) :=
  (match buf with | some c => Prog.ret (some c) | none => Prog.getc).bind fun c =>
    .ret (c, match o with | .peek => c | .take => none)

/-- Calls on the body of a `socketstream` in sequence. -/
def rawRun : List BOp → Option UInt8 → Prog (List (Option UInt8))
  | [], _ => .ret []
  | o :: os, buf => (rawStep o buf).bind fun r => (rawRun os r.2).bind fun cs => .ret (r.1 :: cs)

/-- Calls on a body in sequence, and what they give. -/
def Body.run (fuel : Nat) (ops : List BOp) : Body → Prog (Except Err (List (Option UInt8)))
  | .chunked b => (Chunked.run fuel ops b).bind fun r => .ret (r.map (·.1))
  | .fixed b => (Fixed.run ops b).bind fun r => .ret (.ok r.1)
  | .raw buf => (rawRun ops buf).bind fun r => .ret (.ok r)

end Verif.HttpMsg
