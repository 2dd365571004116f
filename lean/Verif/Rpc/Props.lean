import Verif.Rpc.Lemmas
import Verif.Util
/-!
# C54: remote calls
-/
namespace Verif.Rpc.Props
open Verif.Rpc Verif.Rpc.Spec Verif.Rpc.Lemmas Verif.Serial Verif.Serial.Spec

/-- A single call: it gives what is expected, the server invokes the function exactly once, or not at all if there is none or the versions
differ, and the client can go on. -/
theorem call_expected {E : Encoder} {sv : Server} {version : BitVec 32} {q : Request} {w : World} {a : Answer (Val q.res)} {l : List Call}
    (hq : Sound q) (hw : Ready w.conn) (h : Expects sv version q a l) :
    ∃ c, Ready c ∧ call E sv true version q.name q.arg q.val q.res w = .ok (a, ⟨c, w.log ++ l⟩) := by
  have hl := hq.name
  cases h with
  | value hf hv hr hwf =>
    subst hv
    exact ⟨some idle, fun _ => ⟨rfl, fun _ => rfl⟩, call_value hw (by omega) hq.free hq.val hf hr hwf⟩
  | notFound hf =>
    refine ⟨some ⟨[], [], false, true⟩, fun _ => ⟨rfl, fun h => (by cases h)⟩, ?_⟩
    rw [call_notFound hw hl hq.free hf, word_self _ (fun c hc => isSpace_false (hq.noSpace c hc)), List.append_nil]
  | mismatch hf hv =>
    refine ⟨some ⟨[], [], false, true⟩, fun _ => ⟨rfl, fun h => (by cases h)⟩, ?_⟩
    rw [call_mismatch hw (by omega) hq.free hf hv, List.append_nil]

/-- C54, partial: all calls a client makes give what is expected, in spite of connections that the server closes in between, and the server
invokes exactly the functions asked for, in order. Missing: names with white space (`space_in_name`), names that are messages of the protocol
(`ping_is_no_name`, `exit_is_no_name`), functions that throw an `rpc_error` (`throwing_hangs`), and requests that are cut off
(`cut_request_runs`). -/
theorem session_partial {sv : Server} {version : BitVec 32} (qs : List (Encoder × Request)) {w : World} {as : List AnyAnswer} {l : List Call}
    (hq : ∀ p ∈ qs, Sound p.2) (hw : Ready w.conn) (h : ExpectsAll sv version (qs.map (·.2)) as l) :
    ∃ c, Ready c ∧ session sv version qs w = .ok (as, ⟨c, w.log ++ l⟩) := by
  induction qs generalizing w as l with
  | nil =>
    cases h
    exact ⟨w.conn, hw, by rw [session, List.append_nil]⟩
  | cons p qs ih =>
    obtain ⟨E, q⟩ := p
    cases h with
    | @cons _ _ a as l1 l2 h1 h2 =>
      obtain ⟨c, hc, e⟩ := call_expected (E := E) (hq _ (List.mem_cons_self ..)) hw h1
      obtain ⟨c', hc', e'⟩ := ih (w := ⟨c, w.log ++ l1⟩) (fun p hp => hq p (List.mem_cons_of_mem _ hp)) hc h2
      refine ⟨c', hc', ?_⟩
      rw [List.append_assoc] at e'
      simp only [session, bind, Except.bind] at e ⊢
      rw [e]
      simp only [e']

/-- A server with one function, `add`. -/
def adder : Server := Server.add ⟨7, []⟩ [97, 100, 100]
  ⟨some (.pair (.prim 4 true) (.prim 4 true)), .prim 4 true, fun (p : BitVec 32 × BitVec 32) => .ret (p.1 + p.2)⟩

/-- `add(2, 3)`, and a call of `sub`, which is not there. -/
def askAdd : Request := ⟨[97, 100, 100], some (.pair (.prim 4 true) (.prim 4 true)), ((2 : BitVec 32), (3 : BitVec 32)), .prim 4 true⟩
def askSub : Request := ⟨[115, 117, 98], none, (), .str⟩

/-- Bytes can be chosen for all values. -/
noncomputable def someEncoder : Encoder := ⟨fun t v => (Serial.Props.writable t v).choose, fun t v => (Serial.Props.writable t v).choose_spec⟩

/-- The hypotheses of `session_partial` are met: three calls, of which the second makes the server close the connection, -/
example : ∃ c, Ready c ∧ session adder 7 [(someEncoder, askAdd), (someEncoder, askSub), (someEncoder, askAdd)] ⟨none, []⟩ =
    .ok ([⟨.prim 4 true, .value (5 : BitVec 32)⟩, ⟨.str, .notFound [115, 117, 98]⟩, ⟨.prim 4 true, .value (5 : BitVec 32)⟩],
      ⟨c, [⟨askAdd.name, askAdd.arg, askAdd.val⟩, ⟨askAdd.name, askAdd.arg, askAdd.val⟩]⟩) := by
  have ha : Expects adder 7 askAdd (.value (5 : BitVec 32)) [⟨askAdd.name, askAdd.arg, askAdd.val⟩] :=
    .value (f := fun (p : BitVec 32 × BitVec 32) => .ret (p.1 + p.2)) rfl rfl rfl trivial
  have sa : Sound askAdd := ⟨by decide, ⟨by decide, by decide⟩, by decide, ⟨trivial, trivial⟩⟩
  have ss : Sound askSub := ⟨by decide, ⟨by decide, by decide⟩, by decide, trivial⟩
  refine session_partial _ ?_ trivial (.cons ha (.cons (.notFound rfl) (.cons ha .nil)))
  intro p hp
  simp only [List.mem_cons, List.not_mem_nil, or_false] at hp
  rcases hp with rfl | rfl | rfl <;> assumption

/-- and one of a client of another version. -/
example : ∃ c, Ready c ∧ call someEncoder adder true 0xffffffff askAdd.name askAdd.arg askAdd.val askAdd.res ⟨none, []⟩ =
    .ok (.mismatch 7 (-1), ⟨c, []⟩) :=
  call_expected (q := askAdd) ⟨by decide, ⟨by decide, by decide⟩, by decide, ⟨trivial, trivial⟩⟩ trivial (.mismatch rfl (by decide))

/-- There is always something to expect of a request whose types are those of the function, if the function ends with a result of proper
size. -/
theorem expected_exists (sv : Server) (version : BitVec 32) (q : Request)
    (h : ∀ f, AssocMap.find sv.funcs q.name = some f → ∃ run : Arg q.arg → Outcome (Val q.res), f = ⟨q.arg, q.res, run⟩ ∧
      ∃ r, run q.val = .ret r ∧ WF q.res r) : ∃ a l, Expects sv version q a l := by
  cases hf : AssocMap.find sv.funcs q.name with
  | none => exact ⟨_, _, .notFound hf⟩
  | some f =>
    obtain ⟨run, rfl, r, hr, hwf⟩ := h f hf
    by_cases hv : version = sv.version
    · exact ⟨_, _, .value hf hv hr hwf⟩
    · exact ⟨_, _, .mismatch hf hv⟩

/-- A function is found under the name it was registered with last. -/
theorem add_find (sv : Server) (name name' : Str) (f : Fn) :
    AssocMap.find (sv.add name f).funcs name' = if name' = name then some f else AssocMap.find sv.funcs name' :=
  AssocMap.find_upsert ..

/-- Requests that arrive together are all served, in order. -/
theorem all_served (E : Encoder) (sv : Server) (qs : List ((q : Request) × Val q.res)) (fuel : Nat) (c : Conn) (log : List Call)
    (hn : qs.length < fuel) (hup : c.up = true) (hin : c.inbox = qs.flatMap fun p => encStr p.1.name ++ toLE 4 sv.version.toNat ++ E.arg p.1.arg p.1.val)
    (hq : ∀ p ∈ qs, Sound p.1 ∧ ∃ f, AssocMap.find sv.funcs p.1.name = some ⟨p.1.arg, p.1.res, f⟩ ∧ f p.1.val = .ret p.2) :
    serve E sv fuel c log = .ok ({ c with inbox := [], outbox := c.outbox ++ qs.flatMap fun p => encStr okMsg ++ E.enc p.1.res p.2 },
      log ++ qs.map fun p => ⟨p.1.name, p.1.arg, p.1.val⟩) := by
  obtain ⟨inbox, outbox, up, good⟩ := c
  simp only at hup hin
  subst hup hin
  induction qs generalizing fuel outbox log with
  | nil =>
    obtain ⟨n, rfl⟩ : ∃ n, fuel = n + 1 := ⟨fuel - 1, by simp at hn; omega⟩
    simp [serve, round_nil]
  | cons p qs ih =>
    obtain ⟨n, rfl⟩ : ∃ n, fuel = n + 1 := ⟨fuel - 1, by simp at hn; omega⟩
    obtain ⟨hs, f, hf, hr⟩ := hq p (List.mem_cons_self ..)
    have hl := hs.name
    have h2 := round_value E sv false p.1 (qs.flatMap fun p => encStr p.1.name ++ toLE 4 sv.version.toNat ++ E.arg p.1.arg p.1.val)
      (by omega) hs.free hf hs.val
    rw [hr, ← List.append_assoc] at h2
    simp only [List.length_cons] at hn
    simp only [serve, List.flatMap_cons, h2, answer, Bool.not_true, Bool.false_eq_true, if_false]
    rw [ih n _ (by omega) (fun p hp => hq p (List.mem_cons_of_mem _ hp))]
    simp
example : ∃ c, serve someEncoder adder 3 ⟨(encStr [97, 100, 100] ++ toLE 4 7 ++ someEncoder.arg askAdd.arg askAdd.val) ++
    ((encStr [97, 100, 100] ++ toLE 4 7 ++ someEncoder.arg askAdd.arg askAdd.val) ++ []), [], true, true⟩ [] =
    .ok (c, [⟨askAdd.name, askAdd.arg, askAdd.val⟩, ⟨askAdd.name, askAdd.arg, askAdd.val⟩]) := by
  refine ⟨_, all_served someEncoder adder [⟨askAdd, (5 : BitVec 32)⟩, ⟨askAdd, (5 : BitVec 32)⟩] 3 _ [] (by decide) rfl rfl ?_⟩
  intro p hp
  simp only [List.mem_cons, List.not_mem_nil, or_false] at hp
  rcases hp with rfl | rfl <;>
    exact ⟨⟨by decide, ⟨by decide, by decide⟩, by decide, ⟨trivial, trivial⟩⟩, fun (p : BitVec 32 × BitVec 32) => .ret (p.1 + p.2), rfl, rfl⟩

/-- If the server cannot be reached, the call says so, and nothing is called. -/
theorem unreachable (E : Encoder) (sv : Server) (version : BitVec 32) (q : Request) (w : World) (hw : Ready w.conn)
    (h : ∀ c, w.conn = some c → c.good = false ∨ c.up = false) :
    call E sv false version q.name q.arg q.val q.res w = .ok (.noConnection, ⟨none, w.log⟩) := by
  have g : getConn E sv false 2 w.conn w.log = .ok (none, w.log) := by
    cases hc : w.conn with
    | none => rfl
    | some c =>
      obtain ⟨inbox, outbox, up, good⟩ := c
      rw [hc] at hw
      have := h _ hc
      cases good with
      | false => rfl
      | true =>
        obtain ⟨rfl, _⟩ := hw rfl
        simp only [Bool.true_eq_false, false_or] at this
        subst this
        have e : current false (some ⟨inbox, [], false, true⟩) = some ⟨inbox, [], false, true⟩ := rfl
        rw [getConn]
        simp only [e, ping_closed, bind, Except.bind]
        rfl
  simp only [call, g, bind, Except.bind]

example (E : Encoder) : call E adder false 7 askAdd.name askAdd.arg askAdd.val askAdd.res ⟨some ⟨[], [], false, true⟩, []⟩ =
    .ok (.noConnection, ⟨none, []⟩) :=
  unreachable E adder 7 askAdd _ (fun _ => ⟨rfl, fun h => (by cases h)⟩) (fun c hc => by cases hc; exact .inr rfl)

/-- A request that breaks off does not run a function that has arguments. -/
theorem cut_request_not_run (E : Encoder) (sv : Server) (name : Str) (t : Ty) (v : Val t) (f : Fn) (p q : List UInt8)
    (hl : name.length < 2 ^ 32) (hf : Free name) (hfun : AssocMap.find sv.funcs name = some f) (hft : f.arg = some t) (ht : Safe t)
    (hv : WF t v) (h : p ++ q = encStr name ++ toLE 4 sv.version.toNat ++ E.enc t v) (hq : q ≠ []) :
    round E sv true p = .closed [] ∨ ∃ rest, round E sv true p = .next [] rest [] := by
  obtain ⟨arg, res, run⟩ := f
  simp only at hft
  subst hft
  rw [List.append_assoc] at h
  rcases prefix_split h with ⟨x, hx, e⟩ | ⟨y, rfl, h'⟩
  · left
    have := Serial.Props.truncation_detected .str name [] (encStr name) p x hl trivial rfl e hx
    simp only [archive] at this
    simp [round, this]
  right
  simp only [round, read_str name [] _ hl, Bool.not_true, Bool.false_eq_true, if_false, if_neg hf.1, if_neg hf.2, hfun, Bool.and_false]
  clear h
  rcases prefix_split h' with ⟨x, hx, e⟩ | ⟨z, rfl, h⟩
  · have g := Serial.Props.truncation_detected (.prim 4 true) sv.version 0 (toLE 4 sv.version.toNat) y x trivial trivial rfl e hx
    simp only [archive] at g
    simp only [g, Bool.false_and, Bool.false_eq_true, if_false, invoke]
    have g2 := Serial.Props.failure_sticky t (dflt t) _ g
    have u := Serial.Lemmas.noUb_read t ht (dflt t) (Serial.read (.prim 4 true) 0 ⟨y, true, false⟩).2
    have u' := Serial.Lemmas.noUb_read (.prim 4 true) trivial 0 ⟨y, true, false⟩
    have g3 := u.trans u'
    simp only [Bool.not_true, Bool.and_false, Bool.false_eq_true, if_false]
    rw [if_neg (by rw [g3]; exact Bool.false_ne_true), if_pos (by rw [g2]; rfl)]
    exact ⟨_, rfl⟩
  · simp only [read_int, Bool.true_and, ne_eq, not_true_eq_false, decide_false, Bool.false_eq_true, if_false, invoke]
    have g := Serial.Props.truncation_detected t v (dflt t) (E.enc t v) z q hv (Serial.Lemmas.shape_dflt t) (E.ok t v) h.symm hq
    have u := Serial.Props.any_bytes_defined t ht (dflt t) z
    simp only [archive] at g u
    simp [g, u]

/-- One without arguments is run even if the request breaks off behind its name: the version is compared only if it arrives. -/
theorem cut_request_runs (E : Encoder) (sv : Server) (name : Str) (res : Ty) (run : Unit → Outcome (Val res)) (p : List UInt8) (r : Val res)
    (hl : name.length < 2 ^ 32) (hf : Free name) (hfun : AssocMap.find sv.funcs name = some ⟨none, res, run⟩) (hr : run () = .ret r)
    (hp : p.length < 4) :
    ∃ out rest, round E sv true (encStr name ++ p) = .next out rest [⟨name, none, ()⟩] := by
  have g : (Serial.read (.prim 4 true) 0 ⟨p, true, false⟩).2 = ⟨[], false, false⟩ := by
    have : ¬ 4 ≤ p.length := by omega
    simp [Serial.read, readPrim, readN, this]
  simp only [round, read_str name [] _ hl, Bool.not_true, Bool.false_eq_true, if_false, if_neg hf.1, if_neg hf.2, hfun, Bool.and_false, g,
    Bool.false_and, invoke, hr, answer]
  exact ⟨_, _, rfl⟩

/-- The hypotheses are met by requests to `adder` that end in the middle of the arguments, and by one that ends with the name of a function
without arguments. -/
example (q : List UInt8) (hq : q ≠ []) (p : List UInt8)
    (h : p ++ q = encStr [97, 100, 100] ++ toLE 4 (7 : BitVec 32).toNat ++ someEncoder.enc (.pair (.prim 4 true) (.prim 4 true)) (2, 3)) :
    round someEncoder adder true p = .closed [] ∨ ∃ rest, round someEncoder adder true p = .next [] rest [] :=
  cut_request_not_run someEncoder adder [97, 100, 100] (.pair (.prim 4 true) (.prim 4 true)) (2, 3) _ p q (by decide)
    ⟨by decide, by decide⟩ rfl rfl ⟨trivial, trivial⟩ ⟨trivial, trivial⟩ h hq

example (E : Encoder) : ∃ out rest, round E ⟨7, [([120], ⟨none, .str, fun _ => .ret []⟩)]⟩ true (encStr [120] ++ []) =
    .next out rest [⟨[120], none, ()⟩] :=
  cut_request_runs E _ [120] .str (fun _ => .ret []) [] [] (by decide) ⟨by decide, by decide⟩ rfl rfl (by decide)

/-- A function that throws an `rpc_error` leaves its caller waiting for ever: nothing is sent back, and the server waits for the next
request. -/
theorem throwing_hangs {E : Encoder} {sv : Server} {q : Request} {w : World} {f : Arg q.arg → Outcome (Val q.res)}
    (hq : Sound q) (hw : Ready w.conn) (h : AssocMap.find sv.funcs q.name = some ⟨q.arg, q.res, f⟩) (hr : f q.val = .rpcError) :
    call E sv true sv.version q.name q.arg q.val q.res w = .error .hangs := by
  have h1 := getConn_ready E sv w.conn w.log hw
  have hl := hq.name
  have h2 := round_value E sv false q [] (by omega) hq.free h hq.val
  rw [List.append_nil, hr, answer] at h2
  have h3 := send_idle_next (log := w.log) (by simp [encStr_ne_nil]) h2
  have h4 : recv .str [] ⟨[], [], true, true⟩ = .error .hangs := rfl
  simp only [call, h1, bind, Except.bind, h3, h4]

example (E : Encoder) : call E ⟨7, [([120], ⟨none, .str, fun _ => .rpcError⟩)]⟩ true 7 [120] none () .str ⟨none, []⟩ = .error .hangs :=
  throwing_hangs (q := ⟨[120], none, (), .str⟩) (w := ⟨none, []⟩) (f := fun _ => .rpcError)
    ⟨by decide, ⟨by decide, by decide⟩, by decide, trivial⟩ trivial rfl rfl

/-- The exception for an unknown function names only the first word of the name. -/
theorem space_in_name (E : Encoder) (sv : Server) (version : BitVec 32) (pre s rest : Str) (arg : Option Ty) (val : Arg arg) (res : Ty)
    (w : World) (hw : Ready w.conn) (hl : (pre ++ s ++ rest).length + 9 < 2 ^ 32) (hp : ∀ c ∈ pre, c ∈ White) (hs : ∀ c ∈ s, c ∉ White)
    (hn : s ≠ []) (hr : ∀ c, rest.head? = some c → c ∈ White) (hf : Free (pre ++ s ++ rest))
    (h : AssocMap.find sv.funcs (pre ++ s ++ rest) = none) :
    ∃ w', call E sv true version (pre ++ s ++ rest) arg val res w = .ok (.notFound s, w') := by
  have := call_notFound (E := E) (sv := sv) (version := version) (q := ⟨pre ++ s ++ rest, arg, val, res⟩) (w := w) hw hl hf h
  rw [word_between pre s rest hp hs hn hr] at this
  exact ⟨_, this⟩

example (E : Encoder) : ∃ w, call E ⟨0, []⟩ true 0 [32, 103, 101, 116, 9, 120] none () .str ⟨none, []⟩ = .ok (.notFound [103, 101, 116], w) :=
  space_in_name E ⟨0, []⟩ 0 [32] [103, 101, 116] [9, 120] none () .str ⟨none, []⟩ trivial (by decide) (by decide) (by decide) (by decide)
    (by decide) ⟨by decide, by decide⟩ rfl

/-- A server with a function `() -> int` that returns 42. -/
def answering (name : Str) : Server := ⟨0, [(name, ⟨none, .prim 4 true, fun _ => .ret 42⟩)]⟩

/-- A function registered as `<<<PING>>>` cannot be called; -/
theorem ping_is_no_name (E : Encoder) : ∃ w, call E (answering pingMsg) true 0 pingMsg none () (.prim 4 true) ⟨none, []⟩ =
    .ok (.error pongMsg, w) ∧ w.log = [] := by
  have h1 := getConn_ready E (answering pingMsg) none [] trivial
  have h2 := round_ping E (answering pingMsg) false [0, 0, 0, 0]
  have h3 : round E (answering pingMsg) false [0, 0, 0, 0] = .closed (encStr (notFoundMsg ++ [32])) :=
    round_notFound E _ false [] [] (by decide) ⟨by decide, by decide⟩ rfl
  have e : encStr pingMsg ++ toLE 4 (0 : BitVec 32).toNat ++ E.arg none () = encStr pingMsg ++ [0, 0, 0, 0] := List.append_nil _
  have l : (encStr pingMsg ++ [0, 0, 0, 0]).length = 18 := by decide +kernel
  have h4 : send E (answering pingMsg) (encStr pingMsg ++ toLE 4 (0 : BitVec 32).toNat ++ E.arg none ()) idle [] =
      .ok (⟨[], encStr pongMsg ++ encStr (notFoundMsg ++ [32]), false, true⟩, []) := by
    simp only [e, send, l, idle, List.length_nil, List.nil_append, Nat.zero_add, serve, h2, h3, Bool.not_true, Bool.false_eq_true, if_false,
      List.append_nil]
  have h5 := recv_str pongMsg [] [] (encStr (notFoundMsg ++ [32])) false (by decide)
  refine ⟨⟨some ⟨[], encStr (notFoundMsg ++ [32]), false, true⟩, []⟩, ?_, rfl⟩
  simp only [call, h1, bind, Except.bind, h4, h5]
  rfl

/-- and one registered as `<<<EXIT>>>` returns 1 without being called. -/
theorem exit_is_no_name (E : Encoder) : ∃ w, call E (answering exitMsg) true 0 exitMsg none () (.prim 4 true) ⟨none, []⟩ =
    .ok (.value 1, w) ∧ w.log = [] := by
  have h1 := getConn_ready E (answering exitMsg) none [] trivial
  have h2 := round_exit E (answering exitMsg) false (toLE 4 (0 : BitVec 32).toNat ++ E.arg none ())
  rw [← List.append_assoc] at h2
  have h3 := send_idle_closed (log := []) h2
  have h4 := recv_str okMsg [] [] (encStr [49]) false (by decide)
  have h5 : recv (.prim 4 true) (dflt (.prim 4 true)) ⟨[], encStr [49], false, true⟩ = .ok (1, ⟨[], [49], false, true⟩) := by decide +kernel
  refine ⟨⟨some ⟨[], [49], false, true⟩, []⟩, ?_, rfl⟩
  simp only [call, h1, bind, Except.bind, h3, h4, h5]
  rfl

/-- The words of the protocol as text: those that are no names of functions, and those with which a server answers. -/
theorem words : [pingMsg, pongMsg, exitMsg, okMsg, notFoundMsg, mismatchMsg] =
    ["<<<PING>>>", "<<<PONG>>>", "<<<EXIT>>>", "OK", "NotFound", "VersionMismatch"].map (·.toUTF8.toList) := by decide +kernel

end Verif.Rpc.Props
