import Verif.Sysstat.Model
/-!
# Starting the web server from the command line

`/repo/src/network/cgi/server.cpp:54-188` and `:285-315`. `getopt_long` is that of GNU, with its variables as at the start of the program and without
`POSIXLY_CORRECT`: options may stand between other words, and long names may be abbreviated. The words are those after the name of the program. `strtod` is
left open: a time is given by its text.
-/
namespace Verif.ServerOpts
open Verif.Sysstat (Str ascii ato)

/-! ### `getopt_long` -/

/-- The long options, `/repo/src/network/cgi/server.cpp:68-75`: name, whether there is an argument, and the letter. -/
def longs : List (Str × Bool × UInt8) :=
  [(ascii "port", true, 112), (ascii "thread", true, 116), (ascii "timeout", true, 111), (ascii "help", false, 104), (ascii "server", false, 115)]

/-- The short options, `/repo/src/network/cgi/server.cpp:79`: whether there is an argument. -/
def shorts (c : UInt8) : Option Bool :=
  if c = 112 ∨ c = 116 ∨ c = 111 then some true else if c = 104 ∨ c = 115 then some false else none

/-- What `getopt_long` gives: a letter and `optarg`, or `?`. -/
inductive Event where
  | opt (c : UInt8) (optarg : Str)
  | bad
  deriving DecidableEq

/-- The option that a long name stands for: one with this name, or the only one with this beginning. -/
def longOpt (name : Str) : Option (Bool × UInt8) :=
  match longs.find? (·.1 = name) with
  | some o => some o.2
  | none =>
    match longs.filter (name.isPrefixOf ·.1) with
    | [o] => some o.2
    | _ => none

/-- A word that begins with `--`: what it gives, and the words after it. -/
def long (w : Str) (ws : List Str) : Event × List Str :=
  let name := w.takeWhile (· ≠ 61)
  let value := if name.length < w.length then some (w.drop (name.length + 1)) else none
  match longOpt name with
  | none => (.bad, ws)
  | some (false, c) => (if value.isSome then .bad else .opt c [], ws)
  | some (true, c) =>
    match value, ws with
    | some v, ws => (.opt c v, ws)
    | none, v :: ws => (.opt c v, ws)
    | none, [] => (.bad, [])

/-- A word that begins with a single `-`: what its letters give, and the words after it. -/
def cluster : Str → List Str → List Event × List Str
  | [], ws => ([], ws)
  | c :: cs, ws =>
    match shorts c with
    | none => let r := cluster cs ws; (.bad :: r.1, r.2)
    | some false => let r := cluster cs ws; (.opt c [] :: r.1, r.2)
    | some true =>
      if cs ≠ [] then ([.opt c cs], ws)
      else match ws with
        | [] => ([.bad], [])
        | a :: ws => ([.opt c a], ws)

/-- All that `getopt_long` gives, one call after the other; as many turns as there are words are enough. -/
def getopt : Nat → List Str → List Event
  | 0, _ => []
  | _, [] => []
  | n + 1, w :: ws =>
    match w with
    | [45, 45] => []
    | 45 :: 45 :: w => let r := long w ws; r.1 :: getopt n r.2
    | 45 :: c :: w => let r := cluster (c :: w) ws; r.1 ++ getopt n r.2
    | _ => getopt n ws

/-! ### The constructor -/

/-- What the server listens with; the time is 10 if no text was given. -/
structure Conf where
  port : Nat := 8080
  threads : Nat := 1
  timeout : Option Str := none
  deriving DecidableEq

/-- How the constructor ends: it listens, or ends the program with a status, or does something undefined (`atoi`). -/
inductive Outcome where
  | listen (c : Conf)
  | exit (status : Nat)
  | undefined
  deriving DecidableEq

/-- The loop of the constructor, `/repo/src/network/cgi/server.cpp:77-122`. -/
def handle : List Event → Conf → Outcome
  | [], c => .listen c
  | .bad :: es, c => handle es c
  | .opt o a :: es, c =>
    if o = 112 then
      match ato 32 a with
      | none => .undefined
      | some p => if 1 ≤ p ∧ p ≤ 0xFFFF then handle es { c with port := p.toNat } else .exit 0
    else if o = 116 then
      match ato 32 a with
      | none => .undefined
      | some t => if 1 ≤ t ∧ t ≤ 1024 then handle es { c with threads := t.toNat } else .exit 0
    else if o = 111 then handle es { c with timeout := some a }
    else if o = 104 then .exit 0
    else handle es c

/-- `run_server::run_server`, `/repo/src/network/cgi/server.cpp:61-125`. -/
def start (args : List Str) : Outcome := handle (getopt args.length args) {}

/-- What `run_server_or_cgi` does. -/
inductive Mode where
  | server (o : Outcome)
  | usage
  | cgi
  deriving DecidableEq

/-- `run_server_or_cgi::run`, `/repo/src/network/cgi/server.cpp:290-315`. -/
def serverOrCgi (args : List Str) : Mode :=
  if args.any fun a => a = ascii "-s" || a = ascii "--server" then .server (start args)
  else if args.any fun a => a = ascii "-h" || a = ascii "--help" then .usage
  else .cgi

/-! ### Running -/

/-- The object, `/repo/src/network/cgi/server.h:64-67`: whether there is a socket, the number of threads, and for each thread object whether its thread runs. -/
structure Server where
  sock : Bool
  threadNum : Int
  ths : List Bool := []

/-- How a call ends; `never`: it does not. -/
inductive End where
  | returns
  | lengthError
  | startError
  | never
  deriving DecidableEq

/-- `join` (and the destructor), `/repo/src/network/cgi/server.cpp:134-137` and `:183-188`. The worker, `:236-283`, is a loop without an end, so it never ends;
the join of a thread that was not started returns at once (`/repo/src/concurrent/thread.cpp:151`). -/
def join (s : Server) : End × Server := if s.ths.any id then (.never, s) else (.returns, { s with ths := [] })

/-- The loop that starts the threads, `/repo/src/network/cgi/server.cpp:170-177`; `creates i`: the system lets the i-th thread be made. -/
def startAll (creates : Nat → Bool) : Nat → List Bool → Bool × List Bool
  | 0, ths => (true, ths)
  | n + 1, ths => if creates ths.length then startAll creates n (ths ++ [true]) else (false, ths ++ [false])

/-- `run`, `/repo/src/network/cgi/server.cpp:156-181`. A negative number is a huge size for the vector of line 165. -/
def run (creates : Nat → Bool) (sync : Bool) (s : Server) : End × Server :=
  if !s.sock then (.returns, s)
  else if s.threadNum < 0 then (.lengthError, { s with ths := [] })
  else
    match startAll creates s.threadNum.toNat [] with
    | (false, ths) => (.startError, { s with ths := ths })
    | (true, ths) => if sync then join { s with ths := ths } else (.returns, { s with ths := ths })

/-- `run_server(…).run();`, as in `/repo/src/network/cgi/server.cpp:299`: the object is destroyed when `run` has returned or thrown. -/
def runTemporary (creates : Nat → Bool) (s : Server) : End :=
  match run creates true s with
  | (.never, _) => .never
  | (e, s) => match (join s).1 with
    | .never => .never
    | _ => e

end Verif.ServerOpts
