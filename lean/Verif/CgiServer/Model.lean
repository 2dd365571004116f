import Verif.HttpMsg.Model
import Verif.Cgi.Model
/-!
# The web server for CGI programs

`/repo/src/network/cgi/server.cpp:190-283`, and the end of `cgi::exec`, `/repo/src/network/cgi/base.cpp:111-135`, on top of the models of HTTP messages and
of form values. What is done with a connection is a `Prog`. The program of the user, `cgi::run`, is a parameter.

Not modelled here: the options of the command line (C84), accepting connections, timeouts, the threads (`ModelPool.lean`; each has its own copy of the program, so they share
nothing but the listening socket).
-/
namespace Verif.CgiServer
open Verif Verif.AssocMap Verif.Socket Verif.Http Verif.HttpMsg

/-- ASCII text as bytes. -/
def ascii (s : String) : Str := s.toList.map fun c => UInt8.ofNat c.toNat

/-- `string` to `string`: `std::map<std::string, std::string>`. -/
abbrev Env := List (Str × Str)

/-- What `run` finds in the members of its object, `/repo/src/network/cgi/base.h:77-83`, but for `head`. -/
structure View where
  method : Str
  env : Env
  form : Cgi.St

/-- The program of the user, with the state that its object keeps from one request to the next. `run` is given the header, and leaves the header
and the output; `none` if it throws an exception (one that is derived from `std::exception`; others end the process). `page` is the text of the error
page, `/repo/src/network/cgi/base.cpp:118-127`. -/
structure Program (σ : Type) where
  run : σ → View → Header → σ × Option (Header × Str)
  page : Cgi.Msg → Str
  maxLength : Nat

/-- The header that `run` is given, `/repo/src/network/cgi/base.cpp:68` and 111. -/
def startHeader : Header := Http.set (ascii "Content-Type") (ascii "text/plain; charset=utf-8") []

/-- The output of `exec`, `/repo/src/network/cgi/base.cpp:130-135`. -/
def output (h : Header) (body : Str) : Str := (h.map fun e => e.1 ++ [58, 32] ++ e.2 ++ [10]).flatten ++ [10] ++ body

/-- The variables `exec` looks at, `/repo/src/network/cgi/base.cpp:74-97`. -/
def formEnv (env : Env) : Cgi.Env where
  method := (find env (ascii "REQUEST_METHOD")).getD []
  queryString := (find env (ascii "QUERY_STRING")).getD []
  contentLength := (find env (ascii "CONTENT_LENGTH")).getD []
  contentType := (find env (ascii "CONTENT_TYPE")).getD []

/-- `exec` when the input has been read, `/repo/src/network/cgi/base.cpp:57-136`: the state of the program and the output, `none` if there is an
exception. All variables `exec` looks at are there, so it adds none to `env`. -/
def exec {σ : Type} (p : Program σ) (st : σ) (env : Env) (input : Str) : σ × Option Str :=
  match (Cgi.exec (formEnv env) p.maxLength input).1 with
  | .error _ => (st, none)
  | .ok (.run f) =>
    let r := p.run st ⟨(find env (ascii "REQUEST_METHOD")).getD [], env, f⟩ startHeader
    (r.1, r.2.map fun r => output r.1 r.2)
  | .ok (.page m) => (st, some (output (Http.set (ascii "Status") (ascii "500 Internal Server Error") startHeader) (p.page m)))

/-- `strtol(p, &q, 10)` and what `q` points to, for a `long` of 64 bits: the nearest value if there is no such `long`; without a number 0, and `q` is
`p`. -/
def strtol (p : Str) : Int × Str :=
  match scanD p with
  | none => (0, p)
  | some (n, q) => (max (-(2 ^ 63)) (min n (2 ^ 63 - 1)), q)

/-- Conversion of a `long` to `int`. -/
def toInt (n : Int) : Int := (n + 2 ^ 31) % 2 ^ 32 - 2 ^ 31

/-- Lines 195-213 of `gen_resp`, `/repo/src/network/cgi/server.cpp:195-196` and 202-213: code, reason, and the header after it. -/
def statusOf (h : Header) : Int × Str × Header :=
  let (code, reason) : Int × Str := if hasKey (ascii "location") h then (302, ascii "Found") else (200, ascii "OK")
  if hasKey (ascii "status") h then
    let r := strtol ((getConst (ascii "status") h).takeWhile (· ≠ 0))
    (toInt r.1, r.2.dropWhile isspace, Http.erase (ascii "status") h)
  else (code, reason, h)

/-- `gen_resp`, `/repo/src/network/cgi/server.cpp:190-226`. -/
def genResp (ss : Str) : Except Fail Response :=
  match headerOfStream ss with
  | (.error e, _) => .error e
  | (.ok h, rest) =>
    let (contentType, h) :=
      if hasKey (ascii "content-type") h then (getConst (ascii "content-type") h, Http.erase (ascii "content-type") h)
      else (ascii "text/html; charset=utf-8", h)
    let (code, reason, h) := statusOf h
    let h := Http.set (ascii "Content-Type") contentType h
    .ok ⟨(1, 1), code, reason, h.foldl (fun g e => Http.set e.1 e.2 g) [], rest⟩

/-- What the server knows besides the request: the address of the client, its own port, the version of the library. -/
structure Place where
  remoteAddr : Str
  remotePort : Nat
  port : Nat
  version : Str

/-- `str_to_upper`, `/repo/src/network/cgi/server.cpp:228-234`. -/
def strToUpper (s : Str) : Str := s.map toupper

/-- Lines 252-254 of `process`, `/repo/src/network/cgi/server.cpp:252-254`. -/
def envOfHeader (h : Header) : Env := h.foldl (fun env e => upsert env (ascii "HTTP_" ++ strToUpper e.1) e.2) []

/-- Lines 250-273 of `process`, `/repo/src/network/cgi/server.cpp:250-273`. -/
def envOf (at_ : Place) (r : GotRequest) : Env :=
  let env := envOfHeader r.header
  let env := upsert env (ascii "REQUEST_METHOD") r.method
  let env := upsert env (ascii "REQUEST_URI") r.uri.path
  let env := if r.uri.query ≠ [] then upsert env (ascii "REQUEST_URI") ((find env (ascii "REQUEST_URI")).getD [] ++ ([63] ++ r.uri.query)) else env
  let env := upsert env (ascii "SCRIPT_NAME") r.uri.path
  let env := upsert env (ascii "QUERY_STRING") r.uri.query
  let env := upsert env (ascii "REMOTE_ADDR") at_.remoteAddr
  let env := upsert env (ascii "REMOTE_PORT") (Lexical.stringOfInt at_.remotePort)
  let env := upsert env (ascii "SERVER_PORT") (Lexical.stringOfInt at_.port)
  let env := upsert env (ascii "SERVER_NAME") (ascii "localhost")
  let env := upsert env (ascii "SERVER_PROTOCOL") (ascii "HTTP/1.1")
  let env := upsert env (ascii "SERVER_SIGNATURE") (ascii "pficommon/" ++ at_.version ++ ascii " standalone web server")
  let env := upsert env (ascii "SERVER_SOFTWARE") (ascii "pficommon/" ++ at_.version)
  let cl := Http.get contentLength r.header
  let env := upsert env (ascii "CONTENT_LENGTH") cl.1
  upsert env (ascii "CONTENT_TYPE") (Http.get (ascii "Content-Type") cl.2).1

/-- `uflow` of a body, `/repo/src/network/http/base.cpp:241-245` and 345-349, `/repo/src/network/iostream.h:119-131`. -/
def Body.take (fuel : Nat) : Body → Prog (Except Err (Option UInt8 × Body))
  | .chunked b => (b.uflow fuel).bind fun r => .ret (r.map fun (c, b) => (c, .chunked b))
  | .fixed b => b.uflow.bind fun (c, b) => .ret (.ok (c, .fixed b))
  | .raw buf => (rawStep .take buf).bind fun (c, b) => .ret (.ok (c, .raw b))

/-- `in.read(&dat[0], len)`, `/repo/src/network/cgi/base.cpp:89-90`: the characters that are read, and whether an exception stopped it. The exception
does not leave `read`; it makes the stream bad, but `eof` (line 91) says nothing of that. -/
def readBody (fuel : Nat) : Nat → Body → Prog (Str × Bool)
  | 0, _ => .ret ([], false)
  | n + 1, b => (Body.take fuel b).bind fun r =>
    match r with
    | .error _ => .ret ([], true)
    | .ok (none, _) => .ret ([], false)
    | .ok (some c, b) => (readBody fuel n b).bind fun (d, bad) => .ret (c :: d, bad)

/-- How many characters `exec` reads, `/repo/src/network/cgi/base.cpp:76-90`. -/
def wanted (env : Cgi.Env) (max : Nat) : Nat :=
  if env.method = ascii "POST" ∧ Cgi.contentLength env.contentLength ≤ max then Cgi.contentLength env.contentLength else 0

/-- What `exec` finds in `dat`, `/repo/src/network/cgi/base.cpp:89-91`: after an exception the rest keeps the 0 characters of its beginning. -/
def inputOf (n : Nat) (r : Str × Bool) : Str := if r.2 then r.1 ++ List.replicate (n - r.1.length) 0 else r.1

/-- What becomes of a connection: the answer is sent, or sending it fails, or there is none. -/
inductive Outcome where
  | sent
  | failed (e : SendErr)
  | none
  deriving DecidableEq

/-- `process` for one connection, `/repo/src/network/cgi/server.cpp:246-281`: every exception ends it, and the next connection is accepted. -/
def process {σ : Type} (p : Program σ) (at_ : Place) (fuel : Nat) (st : σ) : Prog (σ × Outcome) :=
  (recvRequest fuel).bind fun r =>
    match r with
    | .error _ => .ret (st, .none)
    | .ok req =>
      let env := envOf at_ req
      let n := wanted (formEnv env) p.maxLength
      (readBody fuel n req.body).bind fun d =>
        match exec p st env (inputOf n d) with
        | (st, none) => .ret (st, .none)
        | (st, some out) =>
          match genResp out with
          | .error _ => .ret (st, .none)
          | .ok resp => (sendResponse resp).bind fun r =>
            .ret (st, match r with | .ok () => .sent | .error e => .failed e)

/-- The loop of `process`, `/repo/src/network/cgi/server.cpp:239-282`, over the connections that come, each with what its kernel does and what the
client sends: what each client gets. When the socket is destroyed, it is flushed once more (`/repo/src/network/socket.cpp:87`). Every line takes a
character from the stream, so their number is fuel enough. -/
def serve {σ : Type} (p : Program σ) : σ → List (Place × Kernel × Str) → List Str
  | _, [] => []
  | st, (at_, k, incoming) :: cs =>
    let r := (process p at_ (incoming.length + 2) st).run (step k) { opened := true, connected := true, incoming := incoming }
    (Socket.flush k r.2).2.wire :: serve p r.1.1 cs

end Verif.CgiServer
