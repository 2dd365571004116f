import Verif.CgiServer.Model
/-!
# Programs under CGI and FastCGI

`/repo/src/network/cgi/util.cpp`, `/repo/src/network/cgi/cgi.cpp` and `/repo/src/network/cgi/fcgi.cpp`, on top of the model of `cgi::exec`. Standard input and
output are as `std::cin` and `std::cout` give them. The library of FastCGI is given by what its functions say: `FCGX_GetChar` gives the next byte of the
request, or -1 at its end; `FCGX_PutChar` and `FCGX_PutStr` send bytes, or give -1 if the web server does not take them any more. `istream::read`, `ostream::put`
and the output of strings use a stream buffer without areas as the standard says.
-/
namespace Verif.CgiRun
open Verif Verif.AssocMap Verif.Http Verif.CgiServer
open Verif.Socket (Str)

/-! ### Variables -/

/-- `get_env`, `/repo/src/network/cgi/util.cpp:42-51`: one string of the environment, `strchr(s,'=')`, lines 46-48. -/
def addVar (env : Env) (s : Str) : Env :=
  match s.findIdx? (· = 61) with
  | some i => upsert env (s.take i) (s.drop (i + 1))
  | none => env

/-- `get_env`, `/repo/src/network/cgi/util.cpp:42-51`. -/
def getEnv (envi : List Str) : Env := envi.foldl addVar []

/-- `env[k]` for a variable that need not be there. -/
def touch (k : String) (env : Env) : Env := if (find env (ascii k)).isSome then env else upsert env (ascii k) []

/-- The variables after `exec` has looked at them, `/repo/src/network/cgi/base.cpp:74-97`; `input` is what it could read. -/
def touched (max : Nat) (env : Env) (input : Str) : Env :=
  let env := touch "REQUEST_METHOD" env
  let method := (formEnv env).method
  if method = ascii "GET" then touch "QUERY_STRING" env
  else if method = ascii "POST" then
    let env := touch "CONTENT_LENGTH" env
    let len := Cgi.contentLength (formEnv env).contentLength
    if max < len ∨ input.length < len then env else touch "CONTENT_TYPE" env
  else env

/-- `exec` up to its output, `/repo/src/network/cgi/base.cpp:57-128`: `none` if there is an exception. -/
def answer {σ : Type} (p : Program σ) (st : σ) (env : Env) (input : Str) : σ × Option (Header × Str) :=
  match (Cgi.exec (formEnv env) p.maxLength input).1 with
  | .error _ => (st, none)
  | .ok (.run f) => p.run st ⟨(find (touched p.maxLength env input) (ascii "REQUEST_METHOD")).getD [], touched p.maxLength env input, f⟩ startHeader
  | .ok (.page m) => (st, some (Http.set (ascii "Status") (ascii "500 Internal Server Error") startHeader, p.page m))

/-! ### CGI -/

/-- `run_cgi::run`, `/repo/src/network/cgi/cgi.cpp:56-59`: the state of the program, and what it writes; `none` if it ends with an exception. -/
def runCgi {σ : Type} (p : Program σ) (st : σ) (environ : List Str) (stdin : Str) : σ × Option Str :=
  let r := answer p st (getEnv environ) stdin
  (r.1, r.2.map fun r => output r.1 r.2)

/-! ### The stream buffer -/

/-- `FCGX_GetChar`. -/
def getChar : Str → Int × Str
  | [] => (-1, [])
  | c :: s => (c.toNat, s)

/-- A buffer for reading, `/repo/src/network/cgi/fcgi.cpp:53-61`. -/
structure InBuf where
  p : Str
  buf : Int := -1

/-- `underflow`, `/repo/src/network/cgi/fcgi.cpp:81-87`. -/
def InBuf.underflow (b : InBuf) : Int × InBuf :=
  let b := if b.buf = -1 then
      let (c, s) := getChar b.p
      ⟨s, if c < 0 then -1 else c⟩
    else b
  (b.buf, b)

/-- `uflow`, `/repo/src/network/cgi/fcgi.cpp:75-79`. -/
def InBuf.uflow (b : InBuf) : Int × InBuf :=
  let (ret, b) := b.underflow
  (ret, { b with buf := -1 })

/-- `in.read(…, n)`, through `xsgetn`: `uflow` until there is enough or it gives -1. -/
def read : Nat → InBuf → Str × InBuf
  | 0, b => ([], b)
  | n + 1, b =>
    let (c, b) := b.uflow
    if c = -1 then ([], b)
    else
      let (s, b) := read n b
      (UInt8.ofNat c.toNat :: s, b)

/-- A connection for writing: what was sent, and how much the web server will still take. -/
structure Out where
  sent : Str := []
  room : Nat

/-- `FCGX_PutStr`, with a length that is an `int`. `none`: undefined, as the length is negative. -/
def putStr (s : Str) (n : Int) (o : Out) : Option (Int × Out) :=
  if n < 0 then none
  else if n ≤ o.room then some (n, ⟨o.sent ++ s.take n.toNat, o.room - n.toNat⟩)
  else some (-1, ⟨o.sent ++ s.take o.room, 0⟩)

/-- `FCGX_PutChar`. -/
def putChar (c : Int) (o : Out) : Int × Out :=
  if 0 < o.room then (c % 256, ⟨o.sent ++ [UInt8.ofNat (c % 256).toNat], o.room - 1⟩) else (-1, o)

/-- `xsputn`, `/repo/src/network/cgi/fcgi.cpp:63-67`; the length becomes an `int`. -/
def xsputn (s : Str) (o : Out) : Option (Int × Out) := do
  let (res, o) ← putStr s (toInt s.length) o
  some (if res < 0 then 0 else res, o)

/-- `overflow`, `/repo/src/network/cgi/fcgi.cpp:69-73`. -/
def overflow (c : Int) (o : Out) : Int × Out :=
  let (res, o) := putChar c o
  (if res < 0 then -1 else 0, o)

/-- What `exec` writes to `out`: a string, or `endl`. -/
inductive Piece where
  | str (s : Str)
  | endl

/-- `out<<s` and `out<<endl`; the stream is bad once the buffer has refused something. -/
def write (st : Bool × Out) : Piece → Option (Bool × Out)
  | .str s =>
    if st.1 then some st
    else do
      let (res, o) ← xsputn s st.2
      some (res ≠ s.length, o)
  | .endl =>
    if st.1 then some st
    else
      let (res, o) := overflow 10 st.2
      some (res = -1, o)

/-- The end of `exec`, `/repo/src/network/cgi/base.cpp:130-135`. -/
def pieces (h : Header) (body : Str) : List Piece :=
  (h.map fun e => [.str e.1, .str (ascii ": "), .str e.2, .endl]).flatten ++ [.endl] ++ [.str body]

/-! ### FastCGI -/

/-- A request as `FCGX_Accept` gives it, with how much of the answer the web server will take. -/
structure Request where
  params : List Str
  input : Str
  room : Nat

/-- How `run` ends: `FCGX_Accept` fails; an exception leaves it; or something undefined happens. -/
inductive End where
  | done
  | exception
  | undefined
  deriving DecidableEq

/-- `exec` on the streams of a request, `/repo/src/network/cgi/fcgi.cpp:127-129`. -/
def execF {σ : Type} (p : Program σ) (st : σ) (r : Request) : σ × Except End Str :=
  let env := getEnv r.params
  let input := (read (wanted (formEnv env) p.maxLength) ⟨r.input, -1⟩).1
  match answer p st env input with
  | (st, none) => (st, .error .exception)
  | (st, some (h, body)) =>
    match (pieces h body).foldlM write (false, ⟨[], r.room⟩) with
    | none => (st, .error .undefined)
    | some (_, o) => (st, .ok o.sent)

/-- The loop of `run_fcgi::run`, `/repo/src/network/cgi/fcgi.cpp:120-132`: the answers that were finished, and how it ends. -/
def loop {σ : Type} (p : Program σ) : σ → List Request → List Str × End
  | _, [] => ([], .done)
  | st, r :: rs =>
    match execF p st r with
    | (_, .error e) => ([], e)
    | (st, .ok out) => let l := loop p st rs; (out :: l.1, l.2)

end Verif.CgiRun
