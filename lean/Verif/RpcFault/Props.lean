import Verif.RpcFault.Lemmas
import Verif.Rpc.Props
/-! # Property C92: remote calls through connections that break -/
namespace Verif.RpcFault.Props
open Verif.RpcFault Verif.RpcFault.Spec Verif.RpcFault.Lemmas
open Verif.Serial Verif.Serial.Spec
open Verif.Rpc (Str Encoder Server Call Fn Arg Stop Answer Outcome encStr okMsg mismatchMsg showInt genException)
open Verif.Rpc.Spec (Request WFArg Free AnyAnswer)
open Verif.Rpc.Props (adder askAdd askSub someEncoder)

/-- Wherever the connections break: the function is called at most once, a result is the result of that one call, and what the client is told
about a call that was not made is true. Afterwards the client is ready for the next call. -/
theorem at_most_once {E : Encoder} {sv : Server} {timeout : Bool} {p₁ p₂ : Plan} {stuck : Bool} {version : BitVec 32} {q : Request} {w w' : World}
    {a : Answer (Val q.res)} (hq : Sound sv q) (hw : Ready w.conn)
    (h : call E sv timeout p₁ p₂ stuck version q.name q.arg q.val q.res w = .ok (a, w')) :
    Ready w'.conn ∧ ∃ l, w'.log = w.log ++ l ∧ Explains sv version q a l := by
  have hc := call_came E timeout p₁ p₂ stuck version hq hw
  rw [h] at hc
  cases hc with
  | answer h1 h2 h3 => exact ⟨h1, _, h2, h3⟩

/-- A call has no other end than an answer, unless the versions differ, or the function throws an `rpc_error` and the server has no timeout. -/
theorem ends {E : Encoder} {sv : Server} {timeout : Bool} {p₁ p₂ : Plan} {stuck : Bool} {version : BitVec 32} {q : Request} {w : World} {e : Stop}
    (hq : Sound sv q) (hw : Ready w.conn) (h : call E sv timeout p₁ p₂ stuck version q.name q.arg q.val q.res w = .error e) :
    (e = .undefined ∧ version ≠ sv.version) ∨
    (e = .hangs ∧ timeout = false ∧ ∃ f, AssocMap.find sv.funcs q.name = some ⟨q.arg, q.res, f⟩ ∧ f q.val = .rpcError) := by
  have hc := call_came E timeout p₁ p₂ stuck version hq hw
  rw [h] at hc
  cases hc with
  | hangs h1 h2 => exact .inr ⟨rfl, h1, h2⟩
  | undefined hv => exact .inl ⟨rfl, hv⟩

/-- A server that closes a connection leaves a client ready. -/
theorem expire_ready {E : Encoder} {sv : Server} {w : World} (hw : Ready w.conn) : ∃ w', expire E sv w = .ok w' ∧ Ready w'.conn ∧ w'.log = w.log := by
  obtain ⟨c, log⟩ := w
  cases c with
  | none => exact ⟨_, rfl, trivial, rfl⟩
  | some l =>
    cases hu : l.up with
    | false =>
      refine ⟨⟨some l, log⟩, ?_, hw, rfl⟩
      simp only [expire, finish_down E sv l log hu, bind, Except.bind]
    | true =>
      cases hg : l.good with
      | false => rw [hw.2 hg] at hu; cases hu
      | true =>
        have hi := (hw.1 hg).2 hu
        refine ⟨⟨some { l with up := false }, log⟩, ?_, ⟨fun _ => ⟨(hw.1 hg).1, fun h => (by cases h)⟩, fun _ => rfl⟩, rfl⟩
        simp only [expire, finish_empty E sv l log hi, bind, Except.bind]

theorem before_ready {sv : Server} (s : Step) {w : World} (hw : Ready w.conn) : ∃ w', before s sv w = .ok w' ∧ Ready w'.conn ∧ w'.log = w.log := by
  unfold before
  cases s.idle with
  | false => exact ⟨w, rfl, hw, rfl⟩
  | true => exact expire_ready hw

/-- In a session over connections that break and that the server closes, each answer belongs to its own request, and the functions are called
in the order of the requests, each at most once for each request. -/
theorem session_explained {sv : Server} {timeout : Bool} {version : BitVec 32} (ss : List Step) {w w' : World} {as : List AnyAnswer}
    (hq : ∀ s ∈ ss, Sound sv s.q) (hw : Ready w.conn) (h : session sv timeout version ss w = .ok (as, w')) :
    Ready w'.conn ∧ ∃ l, w'.log = w.log ++ l ∧ ExplainsAll sv version (ss.map (·.q)) as l := by
  induction ss generalizing w as with
  | nil =>
    cases h
    exact ⟨hw, [], (List.append_nil _).symm, .nil⟩
  | cons s ss ih =>
    have hx := before_ready s hw (sv := sv)
    obtain ⟨w₀, e₀, hw₀, hl₀⟩ := hx
    simp only [session, e₀, bind, Except.bind] at h
    cases hc : call s.E sv timeout s.p₁ s.p₂ s.stuck version s.q.name s.q.arg s.q.val s.q.res w₀ with
    | error e => rw [hc] at h; cases h
    | ok r =>
      obtain ⟨a, w₁⟩ := r
      rw [hc] at h
      obtain ⟨hw₁, l, hl, hex⟩ := at_most_once (hq s (List.mem_cons_self ..)) hw₀ hc
      simp only at h
      cases hs : session sv timeout version ss w₁ with
      | error e => rw [hs] at h; cases h
      | ok r =>
        obtain ⟨as', w₂⟩ := r
        rw [hs] at h
        cases h
        obtain ⟨hw₂, ls, hls, hexs⟩ := ih (fun s hs => hq s (List.mem_cons_of_mem _ hs)) hw₁ hs
        exact ⟨hw₂, l ++ ls, by rw [hls, hl, hl₀, List.append_assoc], .cons hex hexs⟩

/-- With a timeout, or functions that throw no `rpc_error`, and equal versions, every session ends, whatever breaks. -/
theorem session_ends {sv : Server} {timeout : Bool} (ss : List Step) {w : World} (hq : ∀ s ∈ ss, Sound sv s.q) (hw : Ready w.conn)
    (ht : timeout = true ∨ ∀ s ∈ ss, ∀ f, AssocMap.find sv.funcs s.q.name = some ⟨s.q.arg, s.q.res, f⟩ → f s.q.val ≠ .rpcError) :
    ∃ as w', session sv timeout sv.version ss w = .ok (as, w') := by
  induction ss generalizing w with
  | nil => exact ⟨_, _, rfl⟩
  | cons s ss ih =>
    have hx := before_ready s hw (sv := sv)
    obtain ⟨w₀, e₀, hw₀, _⟩ := hx
    cases hc : call s.E sv timeout s.p₁ s.p₂ s.stuck sv.version s.q.name s.q.arg s.q.val s.q.res w₀ with
    | error e =>
      rcases ends (hq s (List.mem_cons_self ..)) hw₀ hc with ⟨_, h⟩ | ⟨_, h1, f, h2, h3⟩
      · exact absurd rfl h
      · rcases ht with ht | ht
        · rw [h1] at ht; cases ht
        · exact absurd h3 (ht s (List.mem_cons_self ..) f h2)
    | ok r =>
      obtain ⟨a, w₁⟩ := r
      have hw₁ := (at_most_once (hq s (List.mem_cons_self ..)) hw₀ hc).1
      obtain ⟨as, w₂, h⟩ := ih (fun s hs => hq s (List.mem_cons_of_mem _ hs)) hw₁
        (ht.imp id fun h s hs => h s (List.mem_cons_of_mem _ hs))
      refine ⟨⟨s.q.res, a⟩ :: as, w₂, ?_⟩
      simp only [session, e₀, bind, Except.bind, hc, h]

/-- A client gets over a connection that the server has closed, that is unusable or that is refused at first: if the connection it then has
carries the request and the answer, behind the ping of 14 bytes and its answer, the result arrives. -/
theorem recovers {E : Encoder} {sv : Server} {timeout : Bool} {p₁ p₂ : Plan} {q : Request} (hq : Sound sv q) {w : World} (hw : Ready w.conn)
    {f : Arg q.arg → Outcome (Val q.res)} {r : Val q.res} (hf : AssocMap.find sv.funcs q.name = some ⟨q.arg, q.res, f⟩) (hr : f q.val = .ret r) {a b : Nat}
    (h : Gets w.conn p₁ p₂ a b) (ha : 14 + (encStr q.name ++ toLE 4 sv.version.toNat ++ E.arg q.arg q.val).length ≤ a)
    (hb : 14 + (6 + (E.enc q.res r).length) ≤ b) :
    ∃ c, call E sv timeout p₁ p₂ false sv.version q.name q.arg q.val q.res w = .ok (.value r, ⟨c, w.log ++ [asked q]⟩) :=
  ⟨_, call_value hq hw hf hr h ha hb⟩

/-! ### The hypotheses are met -/

theorem sound_add : Sound adder askAdd := by
  refine ⟨by decide, ⟨by decide, by decide⟩, ⟨trivial, trivial⟩, ⟨trivial, trivial⟩, trivial, fun f hf => ?_⟩
  refine ⟨fun (p : BitVec 32 × BitVec 32) => .ret (p.1 + p.2), ?_, fun h => (by cases h), fun r _ => trivial⟩
  cases hf
  rfl

/-- Four calls: with no connection, over one that breaks in the request, over one that breaks in the answer, and over the one just made when
the server has closed it. -/
example (E : Encoder) (a b : Nat) : ∃ as w, session adder false 7 [⟨E, askAdd, false, none, none, false⟩, ⟨E, askAdd, false, some (20, 100), none, false⟩,
    ⟨E, askAdd, false, some (a, 22), some (100, b), false⟩, ⟨E, askAdd, true, none, some (100, 100), false⟩] ⟨none, []⟩ = .ok (as, w) :=
  session_ends _ (by simp [sound_add]) trivial (.inr (by
    intro s hs f hf h
    simp only [List.mem_cons, List.not_mem_nil, or_false] at hs
    rcases hs with rfl | rfl | rfl | rfl <;> (cases hf; cases h)))

/-- The idle connection of a client has been closed; -/
example (E : Encoder) (he : ∀ t v, (E.enc t v).length < 1000) : ∃ c, call E adder false none (some (2000, 2000)) false 7 askAdd.name askAdd.arg askAdd.val askAdd.res
    ⟨some ⟨[], [], false, true, 5, 5⟩, []⟩ = .ok (.value (5 : BitVec 32), ⟨c, [asked askAdd]⟩) :=
  recovers (sv := adder) (q := askAdd) (w := ⟨some ⟨[], [], false, true, 5, 5⟩, []⟩) (f := fun (p : BitVec 32 × BitVec 32) => .ret (p.1 + p.2)) (r := (5 : BitVec 32)) sound_add
    ⟨fun _ => ⟨rfl, fun h => (by cases h)⟩, fun _ => rfl⟩ rfl rfl (.expired rfl rfl)
    (by
      have := he (.pair (.prim 4 true) (.prim 4 true)) ((2 : BitVec 32), (3 : BitVec 32))
      have e : (encStr askAdd.name ++ toLE 4 adder.version.toNat).length = 11 := by decide
      rw [List.length_append, e]
      show 14 + (11 + (E.enc (.pair (.prim 4 true) (.prim 4 true)) ((2 : BitVec 32), (3 : BitVec 32))).length) ≤ 2000
      omega)
    (by have := he (.prim 4 true) (5 : BitVec 32); exact (show 14 + (6 + (E.enc (.prim 4 true) (5 : BitVec 32)).length) ≤ 2000 by omega))

/-! ### What does not hold -/

/-- A server with a function `() -> int` called `x`. -/
def single (version : BitVec 32) (f : Outcome (BitVec 32)) : Server := ⟨version, [([120], ⟨none, .prim 4 true, fun _ => f⟩)]⟩

/-- The request for it. -/
def askX : Request := ⟨[120], none, (), .prim 4 true⟩

theorem sound_x (version : BitVec 32) (r : BitVec 32) : Sound (single version (.ret r)) askX := by
  refine ⟨by decide, ⟨by decide, by decide⟩, trivial, trivial, trivial, fun f hf => ?_⟩
  refine ⟨fun _ => .ret r, ?_, fun h => (by cases h), fun r _ => trivial⟩
  cases hf
  rfl

theorem bytes_x (E : Encoder) (version : BitVec 32) : bytes E version askX = encStr [120] ++ toLE 4 version.toNat := List.append_nil _

theorem length_x (version : BitVec 32) : (encStr [120] ++ toLE 4 version.toNat).length = 9 := by
  rw [List.length_append, Serial.Lemmas.length_toLE]
  rfl

/-- An error does not tell whether the function was called: here it was, -/
theorem error_after_call (E : Encoder) : ∃ w, call E (single 7 (.ret 42)) false (some (100, 14)) none false 7 askX.name askX.arg askX.val askX.res ⟨none, []⟩ =
    .ok (.error [], w) ∧ w.log = [asked askX] := by
  have hr := Verif.Rpc.Lemmas.round_value E (single 7 (.ret 42)) false askX [] (by decide) (sound_x 7 42).free (f := fun _ => .ret (42 : BitVec 32)) rfl trivial
  rw [List.append_nil] at hr
  have hrun := run_next (log := []) 8 hr
  obtain ⟨l, h1, h2, h3, h4, h5, _⟩ := call_first (E := E) (sv := single 7 (.ret 42)) (timeout := false) (a := 100) (b := 14) (version := 7) (q := askX) (by decide) (by decide)
    (by
      have hl : (bytes E 7 askX).length = 9 := by rw [bytes_x]; exact length_x 7
      rw [List.take_of_length_le (by rw [hl]; decide), hl, decide_eq_false (by decide)]
      exact hrun)
  have h4 : l.outbox = [] := by rw [h4]; rfl
  obtain ⟨c, hc⟩ := (receive_text (E := E) (sv := single 7 (.ret 42)) (timeout := false) (res := .prim 4 true) (log := [asked askX]) h2 h3 (by rw [h4]; rfl) (by decide)
    (.inr (.inl (h5 (by rw [List.length_append, ok_len]; omega)))) (code := []) (rest := []) (g := false)).2 _ gen_nil
  exact ⟨_, h1.trans hc, rfl⟩

/-- and here it was not. -/
theorem error_without_call (E : Encoder) : ∃ w, call E (single 7 (.ret 42)) false (some (14, 100)) none false 7 askX.name askX.arg askX.val askX.res ⟨none, []⟩ =
    .ok (.error [], w) ∧ w.log = [] := by
  refine ⟨_, rfl, rfl⟩

/-- A function without arguments is called, and its result returned, although the versions differ, if the connection breaks behind the name of
the function but still carries the answer. -/
theorem version_unchecked (E : Encoder) {b : Nat} (hb : 20 + (E.enc (.prim 4 true) (42 : BitVec 32)).length ≤ b) :
    ∃ w, call E (single 7 (.ret 42)) false (some (20, b)) none false 8 askX.name askX.arg askX.val askX.res ⟨none, []⟩ =
    .ok (.value (42 : BitVec 32), w) ∧ w.log = [asked askX] := by
  have hr : Verif.Rpc.round E (single 7 (.ret 42)) true (encStr [120] ++ [8]) = .next (encStr okMsg ++ E.enc (.prim 4 true) (42 : BitVec 32)) [] [asked askX] := rfl
  have hrun := run_next (log := []) 5 hr
  obtain ⟨l, h1, h2, h3, h4, h5, _⟩ := call_first (E := E) (sv := single 7 (.ret 42)) (timeout := false) (a := 20) (b := b) (version := 8) (q := askX) (by decide) (by omega)
    (by
      rw [bytes_x, length_x, decide_eq_true (by decide)]
      exact hrun)
  have hlen : (encStr okMsg ++ E.enc (.prim 4 true) (42 : BitVec 32)).length = 6 + (E.enc (.prim 4 true) (42 : BitVec 32)).length := by rw [List.length_append, ok_len]
  rw [List.take_of_length_le (by omega)] at h4
  have hcode := Verif.Rpc.Lemmas.read_str okMsg [] (E.enc (.prim 4 true) (42 : BitVec 32)) (by decide)
  have hv := Verif.Rpc.Lemmas.read_enc E (.prim 4 true) (42 : BitVec 32) (dflt (.prim 4 true)) [] trivial trivial
  rw [List.append_nil] at hv
  rcases recv_cases (E := E) (sv := single 7 (.ret 42)) (timeout := false) (log := [asked askX]) (t := .str) (old := []) h2 h3 (by rw [h4]; exact hcode) with
    ⟨_, _, _, h⟩ | ⟨l2, k1, k2, k3, k4, _⟩
  · cases h
  rcases recv_cases (E := E) (sv := single 7 (.ret 42)) (timeout := false) (log := [asked askX]) k2 k4 (by rw [k3]; exact hv) with
    ⟨_, _, _, h⟩ | ⟨l3, j1, j2, j3, j4, _⟩
  · cases h
  refine ⟨⟨some l3, [asked askX]⟩, h1.trans ?_, rfl⟩
  have hnocode : ¬ (okMsg ≠ okMsg) := fun h => h rfl
  have j1 : recv E (single 7 (.ret 42)) false askX.res (dflt askX.res) l2 [asked askX] = .ok ((42 : BitVec 32), l3, [asked askX]) := j1
  simp only [receive, List.nil_append, k1, j1, bind, Except.bind, if_neg hnocode, j4, Bool.not_true, Bool.false_eq_true, if_false]

/-- The server reports that its version is 1 and that of the client 34; of that, `b` bytes arrive. -/
theorem told (E : Encoder) {b : Nat} (hb : 14 ≤ b) (hb' : b < 38) :
    ∃ l, call E (single 1 (.ret 42)) false (some (100, b)) none false 34 askX.name askX.arg askX.val askX.res ⟨none, []⟩ = receive E (single 1 (.ret 42)) false askX.res l [] ∧
      l.inbox = [] ∧ l.good = true ∧ l.up = false ∧
      l.outbox = (encStr (mismatchMsg ++ [32, 49, 32, 51, 52])).take (b - 14) := by
  have hr := Verif.Rpc.Lemmas.round_mismatch E (single 1 (.ret 42)) false [120] 34 _ [] (by decide) (sound_x 1 42).free rfl (by decide)
  rw [List.append_nil] at hr
  have hrun := run_closed (log := []) 9 hr
  obtain ⟨l, h1, h2, h3, h4, h5, _⟩ := call_first (E := E) (sv := single 1 (.ret 42)) (timeout := false) (a := 100) (b := b) (version := 34) (q := askX) (by decide) hb
    (by
      rw [bytes_x, length_x, List.take_of_length_le (by rw [length_x]; decide), length_x, decide_eq_false (by decide)]
      exact hrun)
  have e : mismatchMsg ++ 32 :: showInt (single 1 (.ret 42)).version.toInt ++ 32 :: showInt (34 : BitVec 32).toInt = mismatchMsg ++ [32, 49, 32, 51, 52] := by
    decide +kernel
  have el : (encStr (mismatchMsg ++ [32, 49, 32, 51, 52])).length = 24 := by decide
  rw [e] at h4 h5
  exact ⟨l, h1, h2, h3, h5 (by omega), h4⟩

/-- If the report about versions is cut off, the client is told wrong versions: 1 and 3 where the server has 1 and the client has 34, -/
theorem wrong_version (E : Encoder) : ∃ w, call E (single 1 (.ret 42)) false (some (100, 37)) none false 34 askX.name askX.arg askX.val askX.res ⟨none, []⟩ =
    .ok (.mismatch 1 3, w) := by
  obtain ⟨l, h1, h2, h3, h4, h5⟩ := told E (b := 37) (by decide) (by decide)
  have hr : read .str [] ⟨l.outbox, true, false⟩ = (mismatchMsg ++ [32, 49, 32, 51, 0], ⟨[], false, false⟩) := by
    rw [h5]; decide +kernel
  have hgen : genException (α := Val askX.res) (mismatchMsg ++ [32, 49, 32, 51, 0]) = some (.mismatch 1 3) := by rfl
  obtain ⟨c, hc⟩ := (receive_text (E := E) (sv := single 1 (.ret 42)) (timeout := false) (res := askX.res) (log := []) h2 h3 hr (by decide) (.inr (.inl h4))).2 _ hgen
  exact ⟨_, h1.trans hc⟩

/-- or the behaviour is undefined: the versions to be reported are never set. -/
theorem undefined_version (E : Encoder) : call E (single 1 (.ret 42)) false (some (100, 34)) none false 34 askX.name askX.arg askX.val askX.res ⟨none, []⟩ =
    .error .undefined := by
  obtain ⟨l, h1, h2, h3, h4, h5⟩ := told E (b := 34) (by decide) (by decide)
  have hr : read .str [] ⟨l.outbox, true, false⟩ = (mismatchMsg ++ [32, 0, 0, 0, 0], ⟨[], false, false⟩) := by
    rw [h5]; decide +kernel
  have hgen : genException (α := Val askX.res) (mismatchMsg ++ [32, 0, 0, 0, 0]) = none := by rfl
  exact h1.trans ((receive_text (E := E) (sv := single 1 (.ret 42)) (timeout := false) (res := askX.res) (log := []) h2 h3 hr (by decide) (.inr (.inl h4))).1 hgen)

/-- A function throws an `rpc_error`: nothing is written. -/
theorem thrown (E : Encoder) (timeout : Bool) :
    ∃ l, call E (single 7 .rpcError) timeout (some (100, 100)) none false 7 askX.name askX.arg askX.val askX.res ⟨none, []⟩ =
      receive E (single 7 .rpcError) timeout askX.res l [asked askX] ∧ l.inbox = [] ∧ l.good = true ∧ l.up = true ∧ l.outbox = [] := by
  have hr := Verif.Rpc.Lemmas.round_value E (single 7 .rpcError) false askX [] (by decide) (sound_x 7 42).free (f := fun _ => .rpcError) rfl trivial
  rw [List.append_nil] at hr
  have hrun := run_next (log := []) 8 hr
  obtain ⟨l, h1, h2, h3, h4, _, h6⟩ := call_first (E := E) (sv := single 7 .rpcError) (timeout := timeout) (a := 100) (b := 100) (version := 7) (q := askX) (by decide) (by decide)
    (by
      have hl : (bytes E 7 askX).length = 9 := by rw [bytes_x]; exact length_x 7
      rw [List.take_of_length_le (by rw [hl]; decide), hl, decide_eq_false (by decide)]
      exact hrun)
  exact ⟨l, h1, h2, h3, h6 (by simp), by rw [h4]; rfl⟩

/-- It leaves its caller waiting for ever if the server has no timeout; -/
theorem throwing_hangs (E : Encoder) : call E (single 7 .rpcError) false (some (100, 100)) none false 7 askX.name askX.arg askX.val askX.res ⟨none, []⟩ =
    .error .hangs := by
  obtain ⟨l, h1, h2, h3, h4, h5⟩ := thrown E false
  have hr : read .str [] ⟨[], true, false⟩ = ([], ⟨[], false, false⟩) := rfl
  refine h1.trans ?_
  simp [receive, recv, h3, h5, hr, h4, bind, Except.bind]

/-- if it has one, the caller gets an empty error when the time is up. -/
theorem throwing_times_out (E : Encoder) : ∃ w, call E (single 7 .rpcError) true (some (100, 100)) none false 7 askX.name askX.arg askX.val askX.res ⟨none, []⟩ =
    .ok (.error [], w) ∧ w.log = [asked askX] := by
  obtain ⟨l, h1, h2, h3, h4, h5⟩ := thrown E true
  obtain ⟨c, hc⟩ := (receive_text (E := E) (sv := single 7 .rpcError) (timeout := true) (res := askX.res) (log := [asked askX]) h2 h3 (by rw [h5]; rfl) (by decide)
    (.inr (.inr rfl)) (code := []) (rest := []) (g := false)).2 _ gen_nil
  exact ⟨_, h1.trans hc, rfl⟩

end Verif.RpcFault.Props
