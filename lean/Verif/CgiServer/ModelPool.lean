import Verif.CgiServer.Model
/-!
# The web server with several threads

Source: `/repo/src/network/cgi/server.cpp:156-181` (`run_server::run`) and `236-283` (`run_server::process`), on top of
the model of one thread. Each thread has a copy of the program that was made before
any of them is started, and takes one connection at a time.

Simplified: what a thread does with a connection is one step, as the threads share nothing but the listening socket; programs with
data outside of their objects (globals, files) are not modelled. Any thread may take the connection that is next. Threads that cannot be started
(line 172) and numbers of threads below 0 are not modelled.
-/
namespace Verif.CgiServer.Pool
open Verif Verif.Socket Verif.HttpMsg Verif.CgiServer

/-- A connection: where it comes from, what its kernel does and what its client sends (`/repo/src/network/cgi/server.cpp:240`). -/
abbrev Conn := Place × Kernel × Str

/-- A thread, with the state of its copy of the program and the connection that it has (`/repo/src/network/cgi/server.cpp:236-240`). -/
structure Worker (σ : Type) where
  st : σ
  busy : Option Conn

/-- The threads, and what clients got: from which thread, for what (`/repo/src/network/cgi/server.cpp:156-181`). -/
structure State (σ : Type) where
  workers : List (Worker σ)
  log : List (Nat × Conn × Str)

/-- `run`: each thread has a copy, `c.clone()` (`/repo/src/network/cgi/server.cpp:165-176`). -/
def start {σ : Type} (n : Nat) (st : σ) : State σ := ⟨List.replicate n ⟨st, none⟩, []⟩

/-- Thread `w` takes a connection (`/repo/src/network/cgi/server.cpp:240`), or is done with the one it has (line 282). -/
inductive Ev
  | take (w : Nat) (c : Conn)
  | finish (w : Nat)

/-- What a thread does with a connection, `/repo/src/network/cgi/server.cpp:246-281`: the state of its program after that, and what the client got. -/
def handle {σ : Type} (p : Program σ) (st : σ) (c : Conn) : σ × Str :=
  let r := (process p c.1 (c.2.2.length + 2) st).run (Socket.step c.2.1) { opened := true, connected := true, incoming := c.2.2 }
  (r.1.1, (Socket.flush c.2.1 r.2).2.wire)

/-- One event of the loop, `/repo/src/network/cgi/server.cpp:239-282`. -/
def step {σ : Type} (p : Program σ) (s : State σ) : Ev → Option (State σ)
  | .take w c =>
    match s.workers[w]? with
    | some ⟨st, none⟩ => some { s with workers := s.workers.set w ⟨st, some c⟩ }
    | _ => none
  | .finish w =>
    match s.workers[w]? with
    | some ⟨st, some c⟩ =>
      let r := handle p st c
      some ⟨s.workers.set w ⟨r.1, none⟩, s.log ++ [(w, c, r.2)]⟩
    | _ => none

/-- A history of the threads (`/repo/src/network/cgi/server.cpp:239-282`). -/
def run {σ : Type} (p : Program σ) (s : State σ) : List Ev → Option (State σ)
  | [] => some s
  | e :: es => (step p s e).bind fun s => run p s es

end Verif.CgiServer.Pool
