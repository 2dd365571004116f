import Verif.RpcFault.Spec
import Verif.Rpc.Lemmas
import Verif.Util
/-! # Lemmas: calls through connections that break -/
namespace Verif.RpcFault.Lemmas
open Verif.RpcFault Verif.RpcFault.Spec
open Verif.Serial Verif.Serial.Spec
open Verif.Rpc (Str Encoder Server Call Fn Arg Stop Answer Outcome Round round encStr pingMsg pongMsg okMsg notFoundMsg mismatchMsg showInt genException
  answer invoke word isSpace)
open Verif.Rpc.Spec (Request WFArg Free AnyAnswer)
open Verif.Rpc.Lemmas (read_enc read_str read_int prefix_split encStr_ne_nil)

/-! ### A reader that fails has taken everything -/

/-- Good or empty. -/
def Dry (s : Strm) : Prop := s.good = true ∨ s.rest = []

def Keeps {α : Type} (f : α → Strm → α × Strm) : Prop := ∀ old s, Dry s → Dry (f old s).2

theorem keeps_prim (n : Nat) : Keeps (readPrim n) := by
  intro old s h
  simp only [readPrim, readN]
  by_cases h1 : s.good = true
  · by_cases h2 : n ≤ s.rest.length
    · simp only [h1, h2, if_true]; exact .inl rfl
    · simp only [h1, h2, if_true, if_false]; exact .inr rfl
  · simp only [h1]; exact h

theorem keeps_bool : Keeps readBool := by
  intro old s h
  simp only [readBool, readN]
  by_cases h1 : s.good = true
  · by_cases h2 : 1 ≤ s.rest.length
    · simp only [h1, h2, if_true]
      split <;> exact .inl rfl
    · simp only [h1, h2, if_true, if_false]; exact .inr rfl
  · simp only [h1]; exact h

theorem keeps_inPlace {α : Type} {f : α → Strm → α × Strm} (h : Keeps f) : Keeps (readInPlace f) := by
  intro l
  induction l with
  | nil => intro s hs; exact hs
  | cons x xs ih => intro s hs; exact ih _ (h x s hs)

theorem keeps_push {α : Type} {f : α → Strm → α × Strm} (h : Keeps f) (d : α) (n : Nat) : ∀ s, Dry s → Dry (readPush f d n s).2 := by
  induction n with
  | zero => intro s hs; exact hs
  | succ n ih => intro s hs; exact ih _ (h d s hs)

theorem keeps_insert {α : Type} {f : α → Strm → α × Strm} (h : Keeps f) (d : α) (lt : α → α → Bool) (junk : Bool) (n : Nat) :
    ∀ acc s, Dry s → Dry (readInsert f d lt junk n acc s).2 := by
  induction n with
  | zero => intro acc s hs; exact hs
  | succ n ih =>
    intro acc s hs
    refine ih _ _ ?_
    have := h d s hs
    split
    · exact this
    · exact this

theorem keeps_seq {α : Type} {f : α → Strm → α × Strm} (h : Keeps f) (d : α) : Keeps (readSeq f d) :=
  fun _ s hs => keeps_push h d _ _ (keeps_inPlace h _ _ (keeps_prim 4 _ s hs))

theorem keeps_assoc {α : Type} {f : α → Strm → α × Strm} (h : Keeps f) (d : α) (lt : α → α → Bool) (junk : Bool) : Keeps (readAssoc f d lt junk) :=
  fun _ s hs => keeps_insert h d lt junk _ _ _ (keeps_prim 4 _ s hs)

theorem keeps_pair {α β : Type} {f : α → Strm → α × Strm} {g : β → Strm → β × Strm} (h : Keeps f) (h' : Keeps g) : Keeps (readPair f g) :=
  fun _ s hs => h' _ _ (h _ s hs)

theorem keeps_char : Keeps (fun (c : UInt8) s => let r := readPrim 1 c.toNat s; (UInt8.ofNat r.1, r.2)) := fun _ s hs => keeps_prim 1 _ s hs

theorem keeps_str : Keeps readStr := fun _ s hs => keeps_inPlace keeps_char _ _ (keeps_prim 4 _ s hs)

theorem keeps_read : ∀ t, Keeps (read t)
  | .prim n _ => fun _ s hs => keeps_prim n _ s hs
  | .bool => keeps_bool
  | .str => keeps_str
  | .arr _ t => keeps_inPlace (keeps_read t)
  | .vec t => keeps_seq (keeps_read t) _
  | .deque t => keeps_seq (keeps_read t) _
  | .list t => keeps_seq (keeps_read t) _
  | .pair a b => keeps_pair (keeps_read a) (keeps_read b)
  | .map k v => keeps_assoc (keeps_pair (keeps_read k) (keeps_read v)) _ _ _
  | .set t => keeps_assoc (keeps_read t) _ _ _
  | .umap k v => keeps_assoc (keeps_pair (keeps_read k) (keeps_read v)) _ _ _
  | .uset t => keeps_assoc (keeps_read t) _ _ _

/-- Nothing is left behind a value that could not be read. -/
theorem failed_empty (t : Ty) (old : Val t) (p : List UInt8) (h : (read t old ⟨p, true, false⟩).2.good = false) :
    (read t old ⟨p, true, false⟩).2.rest = [] := by
  rcases keeps_read t old ⟨p, true, false⟩ (.inl rfl) with h' | h'
  · rw [h] at h'; cases h'
  · exact h'

/-! ### The server on what arrives of a request -/

/-- What the server may write and call when a request arrives in whole or in part. -/
inductive Out (E : Encoder) (sv : Server) (version : BitVec 32) (q : Request) : List UInt8 → List Call → Prop
  | nothing : Out E sv version q [] []
  | silent {f} : AssocMap.find sv.funcs q.name = some ⟨q.arg, q.res, f⟩ → f q.val = .rpcError → (q.arg ≠ none → version = sv.version) →
      Out E sv version q [] [asked q]
  | value {f r} : AssocMap.find sv.funcs q.name = some ⟨q.arg, q.res, f⟩ → f q.val = .ret r → (q.arg ≠ none → version = sv.version) →
      Out E sv version q (encStr okMsg ++ E.enc q.res r) [asked q]
  | notFound : AssocMap.find sv.funcs q.name = none → Out E sv version q (encStr (notFoundMsg ++ 32 :: q.name)) []
  | mismatch : version ≠ sv.version →
      Out E sv version q (encStr (mismatchMsg ++ 32 :: showInt sv.version.toInt ++ 32 :: showInt version.toInt)) []

/-- The function throws an `rpc_error`. -/
def Throws (sv : Server) (q : Request) : Prop := ∃ f, AssocMap.find sv.funcs q.name = some ⟨q.arg, q.res, f⟩ ∧ f q.val = .rpcError

theorem round_eof_nil (E : Encoder) (sv : Server) : round E sv true [] = .closed [] := by
  simp only [round]
  rfl

theorem run_closed {E : Encoder} {sv : Server} {eof : Bool} {p o : List UInt8} {log : List Call} (n : Nat) (h : round E sv eof p = .closed o) :
    run E sv eof (n + 1) p [] log = .ok (false, [], o, log) := by
  simp [run, h]

theorem run_next {E : Encoder} {sv : Server} {eof : Bool} {p o : List UInt8} {calls log : List Call} (n : Nat)
    (h : round E sv eof p = .next o [] calls) : run E sv eof (n + 2) p [] log = .ok (!eof, [], o, log ++ calls) := by
  cases eof with
  | true => simp [run, h, round_eof_nil]
  | false => simp [run, h, Verif.Rpc.Lemmas.round_nil]

/-- The bytes of a request. -/
def bytes (E : Encoder) (version : BitVec 32) (q : Request) : List UInt8 := encStr q.name ++ toLE 4 version.toNat ++ E.arg q.arg q.val

theorem run_request {E : Encoder} {sv : Server} {version : BitVec 32} {q : Request} (hq : Sound sv q) {p x : List UInt8} (h : p ++ x = bytes E version q)
    {eof : Bool} (he : eof = true ↔ x ≠ []) (log : List Call) :
    ∃ up out l, run E sv eof (p.length + 1) p [] log = .ok (up, [], out, log ++ l) ∧ Out E sv version q out l ∧
      (up = true → out = [] → Throws sv q) := by
  have hl : q.name.length < 2 ^ 32 := by have := hq.name; omega
  unfold bytes at h
  rw [List.append_assoc] at h
  rcases prefix_split h with ⟨y, hy, e⟩ | ⟨y, rfl, h'⟩
  · -- cut in the name
    have g := Serial.Props.truncation_detected .str q.name [] (encStr q.name) p y hl trivial rfl e hy
    simp only [archive] at g
    have hx : eof = true := by
      refine he.2 (fun hx => ?_)
      subst hx
      rw [List.append_nil, e, List.append_assoc] at h
      have := congrArg List.length h
      simp only [List.length_append] at this
      have : y.length = 0 := by omega
      exact hy (List.length_eq_zero_iff.1 this)
    subst hx
    have hr : round E sv true p = .closed [] := by simp [round, g]
    exact ⟨false, [], [], by rw [run_closed _ hr, List.append_nil], .nothing, fun h => (by cases h)⟩
  have hlen : ∃ n, (encStr q.name ++ y).length + 1 = n + 2 := by
    refine ⟨(encStr q.name ++ y).length - 1, ?_⟩
    have : (encStr q.name).length ≠ 0 := fun h => encStr_ne_nil _ (List.length_eq_zero_iff.1 h)
    simp only [List.length_append]
    omega
  cases hf : AssocMap.find sv.funcs q.name with
  | none =>
    have hr := Verif.Rpc.Lemmas.round_notFound E sv eof q.name y hl hq.free hf
    exact ⟨false, _, [], by rw [run_closed _ hr, List.append_nil], .notFound hf, fun h => (by cases h)⟩
  | some fn =>
    obtain ⟨f, rfl, hno, hwf⟩ := hq.typed fn hf
    rcases prefix_split h' with ⟨z, hz, e⟩ | ⟨z, rfl, h2⟩
    · -- cut in the version
      have hx : eof = true := by
        refine he.2 (fun hx => ?_)
        subst hx
        rw [List.append_nil, e, List.append_assoc] at h'
        have := congrArg List.length h'
        simp only [List.length_append] at this
        have : z.length = 0 := by omega
        exact hz (List.length_eq_zero_iff.1 this)
      subst hx
      have g := Serial.Props.truncation_detected (.prim 4 true) version 0 (toLE 4 version.toNat) y z trivial trivial rfl e hz
      have u' := Serial.Lemmas.noUb_read (.prim 4 true) trivial (0 : BitVec 32) ⟨y, true, false⟩
      have d' := failed_empty (.prim 4 true) (0 : BitVec 32) y g
      simp only [archive] at g
      generalize hs : (Serial.read (.prim 4 true) (0 : BitVec 32) ⟨y, true, false⟩).2 = s at g u' d'
      have hround : round E sv true (encStr q.name ++ y) = invoke E true q.name ⟨q.arg, q.res, f⟩ s := by
        simp only [round, read_str q.name [] _ hl, Bool.not_true, Bool.false_eq_true, if_false, if_neg hq.free.1, if_neg hq.free.2, hf, Bool.and_false,
          hs, g, Bool.false_and]
      obtain ⟨n, hn⟩ := hlen
      obtain ⟨name, arg, val, res⟩ := q
      cases arg with
      | none =>
        have : round E sv true (encStr name ++ y) = answer E res [] ⟨name, none, ()⟩ (f ()) := by
          rw [hround]; simp only [invoke, d']
        cases hfv : f () with
        | ret r =>
          rw [hfv] at this
          rw [hn]
          exact ⟨_, _, _, run_next n this, .value hf hfv (fun h => absurd rfl h), fun h => (by cases h)⟩
        | rpcError =>
          rw [hfv] at this
          rw [hn]
          exact ⟨_, _, _, run_next n this, .silent hf hfv (fun h => absurd rfl h), fun h => (by cases h)⟩
        | other => exact absurd hfv hno
      | some t =>
        have ht : NoJunk t := hq.arg
        have g2 := Serial.Props.failure_sticky t (dflt t) s g
        have u := (Serial.Lemmas.tame_read t ht (dflt t)).calm s g
        have d : (Serial.read t (dflt t) s).2.rest = [] := by
          rcases keeps_read t (dflt t) s (.inr d') with h' | h'
          · rw [g2] at h'; cases h'
          · exact h'
        have : round E sv true (encStr name ++ y) = .next [] [] [] := by
          rw [hround]
          simp only [invoke, g2, u, u', d, Bool.not_true, Bool.and_false, Bool.false_eq_true, if_false, Bool.not_false, if_true]
        rw [hn]
        exact ⟨_, _, _, run_next n this, .nothing, fun h => (by cases h)⟩
    · -- the version has arrived
      by_cases hv : version = sv.version
      swap
      · have hr := Verif.Rpc.Lemmas.round_mismatch E sv eof q.name version ⟨q.arg, q.res, f⟩ z hl hq.free hf hv
        rw [List.append_assoc] at hr
        exact ⟨false, _, [], by rw [run_closed _ hr, List.append_nil], .mismatch hv, fun h => (by cases h)⟩
      subst hv
      obtain ⟨n, hn⟩ := hlen
      by_cases hx : x = []
      · -- all has arrived
        subst hx
        have : eof = false := by
          cases eof with
          | false => rfl
          | true => exact absurd rfl (he.1 rfl)
        subst this
        rw [List.append_nil] at h2
        have hr := Verif.Rpc.Lemmas.round_value E sv false q [] hl hq.free hf hq.val
        rw [List.append_nil, ← h2, List.append_assoc] at hr
        rw [hn]
        cases hfv : f q.val with
        | ret r =>
          rw [hfv] at hr
          refine ⟨_, _, _, run_next n hr, .value hf hfv (fun _ => rfl), fun _ h => ?_⟩
          have := congrArg List.length h
          simp only [List.length_append, List.length_nil] at this
          exact absurd (List.length_eq_zero_iff.1 (by omega)) (encStr_ne_nil okMsg)
        | rpcError =>
          rw [hfv] at hr
          exact ⟨_, _, _, run_next n hr, .silent hf hfv (fun _ => rfl), fun _ _ => ⟨f, hf, hfv⟩⟩
        | other => exact absurd hfv hno
      · -- cut in the arguments
        have : eof = true := he.2 hx
        subst this
        obtain ⟨name, arg, val, res⟩ := q
        cases arg with
        | none =>
          have := congrArg List.length h2
          simp only [Encoder.arg, List.length_append, List.length_nil] at this
          exact absurd (List.length_eq_zero_iff.1 (by omega)) hx
        | some t =>
          have ht : NoJunk t := hq.arg
          have g := Serial.Props.truncation_detected t val (dflt t) (E.enc t val) z x hq.val (Serial.Lemmas.shape_dflt t) (E.ok t val) h2.symm hx
          have u := Serial.Props.prefix_defined t ht val (dflt t) (E.enc t val) z x hq.val (Serial.Lemmas.shape_dflt t) (E.ok t val) h2.symm
          have d := failed_empty t (dflt t) z g
          simp only [archive] at g u
          have : round E sv true (encStr name ++ (toLE 4 sv.version.toNat ++ z)) = .next [] [] [] := by
            simp only [round, read_str name [] _ hl, Bool.not_true, Bool.false_eq_true, if_false, if_neg hq.free.1, if_neg hq.free.2, hf, Bool.and_false,
              read_int, ne_eq, not_true_eq_false, decide_false, invoke, g, u, d, Bool.not_false, if_true]
          rw [hn]
          exact ⟨_, _, _, run_next n this, .nothing, fun h => (by cases h)⟩

/-! ### Sending -/

/-- A connection on which everything has been read. -/
def idle (a b : Nat) : Link := ⟨[], [], true, true, a, b⟩

theorem finish_empty (E : Encoder) (sv : Server) (l : Link) (log : List Call) (h : l.inbox = []) :
    finish E sv l log = .ok ({ l with up := false }, log) := by
  obtain ⟨inbox, outbox, up, good, a, b⟩ := l
  simp only at h
  subst h
  cases up with
  | false => rfl
  | true => simp [finish, run_closed 0 (round_eof_nil E sv), bind, Except.bind]

theorem finish_down (E : Encoder) (sv : Server) (l : Link) (log : List Call) (h : l.up = false) : finish E sv l log = .ok (l, log) := by
  simp [finish, h]

/-- Sending a message of which the server makes something, if something arrives. -/
theorem send_idle {E : Encoder} {sv : Server} {msg : List UInt8} {a b : Nat} {log log' : List Call} {up : Bool} {out : List UInt8}
    (h : run E sv (decide (a < msg.length)) ((msg.take a).length + 1) (msg.take a) [] log = .ok (up, [], out, log')) :
    ∃ l', send E sv msg (idle a b) log = .ok (l', log') ∧ l'.inbox = [] ∧ l'.good = true ∧ l'.outbox = out.take b ∧
      (b < out.length → l'.up = false) ∧ (out.length ≤ b → l'.up = up) ∧ l'.toServer = a - msg.length ∧ l'.toClient = b - out.length := by
  have e : ∀ l' : Link, send E sv msg (idle a b) log =
      if b < out.length then finish E sv ⟨[], out.take b, up, true, a - (msg.take a).length, b - out.length⟩ log'
      else .ok (⟨[], out.take b, up, true, a - (msg.take a).length, b - out.length⟩, log') := by
    intro _
    have e : idle a b = ⟨[], [], true, true, a, b⟩ := rfl
    rw [e]
    simp only [send, if_true, List.length_nil, Nat.zero_add, List.nil_append, bind, Except.bind]
    rw [h]
  have ha : a - (msg.take a).length = a - msg.length := by
    rw [List.length_take]; omega
  rw [e (idle a b), ha]
  by_cases hb : b < out.length
  · rw [if_pos hb, finish_empty _ _ _ _ rfl]
    exact ⟨_, rfl, rfl, rfl, rfl, fun _ => rfl, fun h => by omega, rfl, rfl⟩
  · rw [if_neg hb]
    exact ⟨_, rfl, rfl, rfl, rfl, fun h => absurd h hb, fun _ => rfl, rfl, rfl⟩

theorem eof_iff (msg : List UInt8) (a : Nat) : decide (a < msg.length) = true ↔ msg.drop a ≠ [] := by
  rw [decide_eq_true_eq, ne_eq, List.drop_eq_nil_iff]
  omega

theorem send_request {E : Encoder} {sv : Server} {version : BitVec 32} {q : Request} (hq : Sound sv q) (a b : Nat) (log : List Call) :
    ∃ l' calls out, send E sv (bytes E version q) (idle a b) log = .ok (l', log ++ calls) ∧ Out E sv version q out calls ∧
      l'.inbox = [] ∧ l'.good = true ∧ l'.outbox = out.take b ∧ (l'.outbox ≠ out → l'.up = false) ∧ (l'.up = true → out = [] → Throws sv q) := by
  obtain ⟨up, out, calls, h1, h2, h3⟩ := run_request hq (List.take_append_drop a (bytes E version q)) (eof_iff _ a) log
  obtain ⟨l', h4, h5, h6, h7, h8, h9, _⟩ := send_idle (b := b) h1
  refine ⟨l', calls, out, h4, h2, h5, h6, h7, fun h => ?_, fun h e => ?_⟩
  · by_cases hb : b < out.length
    · exact h8 hb
    · rw [h7, List.take_of_length_le (by omega)] at h
      exact absurd rfl h
  · subst e
    rw [h9 (by simp)] at h
    exact h3 h rfl

/-! ### Receiving -/

theorem recv_cases {E : Encoder} {sv : Server} {timeout : Bool} {t : Ty} {old : Val t} {l : Link} {log : List Call} {v : Val t} {rest : List UInt8} {g : Bool}
    (hi : l.inbox = []) (hg : l.good = true) (h : read t old ⟨l.outbox, true, false⟩ = (v, ⟨rest, g, false⟩)) :
    (recv E sv timeout t old l log = .error .hangs ∧ timeout = false ∧ l.up = true ∧ g = false) ∨
    ∃ l', recv E sv timeout t old l log = .ok (v, l', log) ∧ l'.inbox = [] ∧ l'.outbox = rest ∧ l'.good = g ∧ (g = false → l'.up = false) ∧
      (g = true → l' = { l with outbox := rest }) := by
  obtain ⟨inbox, outbox, up, good, a, b⟩ := l
  simp only at hi hg h
  subst hi hg
  cases g with
  | true =>
    right
    refine ⟨⟨[], rest, up, true, a, b⟩, ?_, rfl, rfl, rfl, fun h => (by cases h), fun _ => rfl⟩
    simp [recv, h]
  | false =>
    cases up with
    | false =>
      right
      refine ⟨⟨[], rest, false, false, a, b⟩, ?_, rfl, rfl, rfl, fun _ => rfl, fun h => (by cases h)⟩
      simp [recv, h]
    | true =>
      cases timeout with
      | false =>
        left
        refine ⟨?_, rfl, rfl, rfl⟩
        simp [recv, h]
      | true =>
        right
        refine ⟨⟨[], rest, false, false, a, b⟩, ?_, rfl, rfl, rfl, fun _ => rfl, fun h => (by cases h)⟩
        simp [recv, h, finish_empty, bind, Except.bind]

theorem read_str_ub (p : List UInt8) : (read .str [] ⟨p, true, false⟩).2.ub = false := Serial.Lemmas.noUb_read .str trivial [] ⟨p, true, false⟩

theorem read_str_form (p : List UInt8) : ∃ v rest g, read .str [] ⟨p, true, false⟩ = (v, ⟨rest, g, false⟩) := by
  have h := read_str_ub p
  generalize read .str [] ⟨p, true, false⟩ = r at h
  obtain ⟨v, rest, g, u⟩ := r
  simp only at h
  subst h
  exact ⟨v, rest, g, rfl⟩

/-! ### Getting a connection -/

theorem pong_cut : ∀ n : Fin 14, (read .str [] ⟨(encStr pongMsg).take n.val, true, false⟩).1 ≠ pongMsg := by decide +kernel

theorem pong_len : (encStr pongMsg).length = 14 := by decide

theorem run_ping (E : Encoder) (sv : Server) (a : Nat) (log : List Call) :
    (a < (encStr pingMsg).length ∧ run E sv (decide (a < (encStr pingMsg).length)) (((encStr pingMsg).take a).length + 1) ((encStr pingMsg).take a) [] log =
      .ok (false, [], [], log)) ∨
    ((encStr pingMsg).length ≤ a ∧ run E sv (decide (a < (encStr pingMsg).length)) (((encStr pingMsg).take a).length + 1) ((encStr pingMsg).take a) [] log =
      .ok (true, [], encStr pongMsg, log)) := by
  by_cases h : a < (encStr pingMsg).length
  · left
    refine ⟨h, ?_⟩
    have g := Serial.Props.truncation_detected .str pingMsg [] (encStr pingMsg) ((encStr pingMsg).take a) ((encStr pingMsg).drop a)
      (show pingMsg.length < 2 ^ 32 by decide) trivial rfl
      (List.take_append_drop _ _).symm (by rw [ne_eq, List.drop_eq_nil_iff]; omega)
    simp only [archive] at g
    rw [decide_eq_true h]
    exact run_closed _ (by simp [round, g])
  · right
    refine ⟨by omega, ?_⟩
    rw [decide_eq_false h, List.take_of_length_le (by omega)]
    have hr := Verif.Rpc.Lemmas.round_ping E sv false []
    rw [List.append_nil] at hr
    have := run_next (log := log) 13 hr
    have hlen : (encStr pingMsg).length + 1 = 13 + 2 := by decide
    rw [hlen, this, List.append_nil]
    rfl

/-- A ping on a connection that is up, or that the server has closed: it is answered and all is as before, with fewer bytes to go, or the connection is given up. -/
theorem attempt {E : Encoder} {sv : Server} {timeout : Bool} {l : Link} {ps : List Plan} {log : List Call} (hg : l.good = true) (ho : l.outbox = [])
    (hi : l.up = true → l.inbox = []) {p : Plan} {c : Option Link} (hc : current p c = some l) :
    getConn E sv timeout (p :: ps) c log = .ok (some (idle (l.toServer - 14) (l.toClient - 14)), log) ∨
    (getConn E sv timeout (p :: ps) c log = getConn E sv timeout ps none log ∧ (l.up = false ∨ l.toServer < 14 ∨ l.toClient < 14)) := by
  obtain ⟨inbox, outbox, up, good, a, b⟩ := l
  simp only at hg ho hi
  subst hg ho
  cases up with
  | false =>
    right
    refine ⟨?_, .inl rfl⟩
    rw [getConn, hc]
    have e1 : send E sv (encStr pingMsg) ⟨inbox, [], false, true, a, b⟩ log = .ok (⟨inbox, [], false, true, a, b⟩, log) := by simp [send]
    have e2 : recv E sv timeout .str [] ⟨inbox, [], false, true, a, b⟩ log = .ok ([], ⟨inbox, [], false, false, a, b⟩, log) := by
      have : read .str [] ⟨[], true, false⟩ = ([], ⟨[], false, false⟩) := rfl
      simp [recv, this]
    have e3 : ([] : Str) ≠ pongMsg := by decide
    have e4 : finish E sv ⟨inbox, [], false, false, a, b⟩ log = .ok (⟨inbox, [], false, false, a, b⟩, log) := finish_down _ _ _ _ rfl
    simp only [e1, e2, bind, Except.bind, if_pos e3, e4]
  | true =>
    cases hi rfl
    have give : ∀ l' : Link, send E sv (encStr pingMsg) (idle a b) log = .ok (l', log) → l'.inbox = [] → l'.good = true → l'.up = false →
        (read .str [] ⟨l'.outbox, true, false⟩).1 ≠ pongMsg → getConn E sv timeout (p :: ps) c log = getConn E sv timeout ps none log := by
      intro l' e1 e2 e3 e4 e5
      obtain ⟨v, rest, g, hr⟩ := read_str_form l'.outbox
      rw [hr] at e5
      have e1 : send E sv (encStr pingMsg) ⟨[], [], true, true, a, b⟩ log = .ok (l', log) := e1
      rw [getConn, hc]
      rcases recv_cases (E := E) (sv := sv) (timeout := timeout) (log := log) e2 e3 hr with ⟨_, _, h, _⟩ | ⟨l2, h1, h2, _, _, _, _⟩
      · rw [e4] at h; cases h
      · simp only [e1, h1, bind, Except.bind, if_pos e5, finish_empty _ _ _ _ h2]
    have hlen : (encStr pingMsg).length = 14 := by decide
    rcases run_ping E sv a log with ⟨ha, hr⟩ | ⟨_, hr⟩
    · right
      refine ⟨?_, .inr (.inl (by simpa only [hlen] using ha))⟩
      obtain ⟨l', h1, h2, h3, h4, _, h6, _⟩ := send_idle (b := b) hr
      refine give l' h1 h2 h3 (h6 (by simp)) ?_
      rw [h4, List.take_nil]
      decide
    · obtain ⟨l', h1, h2, h3, h4, h5, h6, h7, h8⟩ := send_idle (b := b) hr
      by_cases hb : b < (encStr pongMsg).length
      · right
        refine ⟨?_, .inr (.inr (by simpa only [pong_len] using hb))⟩
        refine give l' h1 h2 h3 (h5 hb) ?_
        rw [h4]
        rw [pong_len] at hb
        exact pong_cut ⟨b, hb⟩
      · left
        show getConn E sv timeout (p :: ps) c log = .ok (some (idle (a - (encStr pingMsg).length) (b - (encStr pongMsg).length)), log)
        have hread := read_str pongMsg [] [] (by decide)
        rw [List.append_nil] at hread
        have hob : l'.outbox = encStr pongMsg := by rw [h4, List.take_of_length_le (by omega)]
        have e1 : send E sv (encStr pingMsg) ⟨[], [], true, true, a, b⟩ log = .ok (l', log) := h1
        rw [getConn, hc]
        rcases recv_cases (E := E) (sv := sv) (timeout := timeout) (log := log) (t := .str) (old := []) h2 h3 (by rw [hob]; exact hread) with
          ⟨_, _, _, h⟩ | ⟨l2, k1, _, _, _, _, k2⟩
        · cases h
        · have k2 := k2 rfl
          have e3 : ¬ (pongMsg ≠ pongMsg) := fun h => h rfl
          simp only [e1, k1, bind, Except.bind, if_neg e3]
          obtain ⟨i, o, u, g, a', b'⟩ := l'
          simp only at h2 h3 h4 h7 h8 h6
          subst h2 h3 h7 h8
          rw [h6 (by omega)] at k2
          rw [k2]
          rfl

theorem getConn_cases {E : Encoder} {sv : Server} {timeout : Bool} (ps : List Plan) {c : Option Link} (log : List Call) (hc : Ready c) (hn : ps ≠ []) :
    getConn E sv timeout ps c log = .ok (none, log) ∨ ∃ a b, getConn E sv timeout ps c log = .ok (some (idle a b), log) := by
  have fresh : ∀ ps : List Plan, getConn E sv timeout ps none log = .ok (none, log) ∨ ∃ a b, getConn E sv timeout ps none log = .ok (some (idle a b), log) := by
    intro ps
    induction ps with
    | nil => exact .inl rfl
    | cons p ps ih =>
      cases p with
      | none => exact ih
      | some p =>
        rcases attempt (E := E) (sv := sv) (timeout := timeout) (ps := ps) (log := log) (p := some p) (c := none) (l := idle p.1 p.2) rfl rfl (fun _ => rfl) rfl with h | ⟨h, _⟩
        · exact .inr ⟨_, _, h⟩
        · rw [h]; exact ih
  cases ps with
  | nil => exact absurd rfl hn
  | cons p ps =>
    cases c with
    | none => exact fresh _
    | some l =>
      cases hg : l.good with
      | false =>
        have e : getConn E sv timeout (p :: ps) (some l) log = getConn E sv timeout (p :: ps) none log := by
          simp only [getConn, current, hg, Bool.false_eq_true, if_false]
        rw [e]
        exact fresh _
      | true =>
        have hr := hc.1 hg
        rcases attempt (E := E) (sv := sv) (timeout := timeout) (ps := ps) (log := log) (p := p) (c := some l) (l := l) hg hr.1 hr.2
          (by simp only [current, hg, if_true]) with h | ⟨h, _⟩
        · exact .inr ⟨_, _, h⟩
        · rw [h]; exact fresh ps

/-! ### What the client makes of the answer -/

theorem gen_not_value {α : Type} {s : Str} {a : Answer α} (h : genException s = some a) : (∀ r, a ≠ .value r) ∧ a ≠ .noConnection := by
  unfold genException at h
  dsimp only at h
  split at h
  · cases h; exact ⟨fun _ h => (by cases h), fun h => (by cases h)⟩
  · split at h
    · split at h
      · cases h
      · split at h
        · cases h
        · cases h; exact ⟨fun _ h => (by cases h), fun h => (by cases h)⟩
    · cases h; exact ⟨fun _ h => (by cases h), fun h => (by cases h)⟩

theorem gen_words {α : Type} {s : Str} {a : Answer α} (h : genException s = some a) :
    (∀ n, a = .notFound n → (word s).1 = notFoundMsg) ∧ (∀ i j, a = .mismatch i j → (word s).1 = mismatchMsg) := by
  unfold genException at h
  dsimp only at h
  split at h
  · rename_i e; cases h; exact ⟨fun _ _ => e, fun _ _ h => (by cases h)⟩
  · split at h
    · rename_i e
      split at h
      · cases h
      · split at h
        · cases h
        · cases h; exact ⟨fun _ h => (by cases h), fun _ _ _ => e⟩
    · cases h; exact ⟨fun _ h => (by cases h), fun _ _ h => (by cases h)⟩

theorem gen_none {α : Type} {s : Str} (h : genException (α := α) s = none) : (word s).1 = mismatchMsg := by
  unfold genException at h
  dsimp only at h
  split at h
  · cases h
  · split at h
    · rename_i e; exact e
    · cases h

theorem word_head {c : UInt8} {s : Str} (hc : isSpace c = false) : (word (c :: s)).1.head? = some c := by
  simp [word, hc]

/-- What is read of a text that is cut off: nothing, or a text that begins with a zero or as the text does. -/
theorem read_cut {s p x : Str} (hs : s.length < 2 ^ 32) (h : p ++ x = encStr s) :
    (read .str [] ⟨p, true, false⟩).1 = [] ∨ ∃ c t, (read .str [] ⟨p, true, false⟩).1 = c :: t ∧ (c = 0 ∨ s.head? = some c) := by
  unfold encStr at h
  have hsz : (sizeField s.length).length = 4 := Serial.Lemmas.length_toLE _ _
  rw [Nat.mod_eq_of_lt hs, List.take_length] at h
  rcases prefix_split h with ⟨y, hy, e⟩ | ⟨y, rfl, h'⟩
  · left
    have : ¬ 4 ≤ p.length := by
      have := congrArg List.length e
      simp only [List.length_append] at this
      have : y.length ≠ 0 := fun h => hy (List.length_eq_zero_iff.1 h)
      omega
    simp [Serial.read, readStr, readPrim, readN, this, readInPlace]
  · have hp := Serial.Lemmas.readPrim_size s.length 0 y false
    rw [Nat.mod_eq_of_lt hs] at hp
    have e : (read .str [] ⟨sizeField s.length ++ y, true, false⟩).1 =
        (readInPlace (fun c s => let r := readPrim 1 c.toNat s; (UInt8.ofNat r.1, r.2)) (List.replicate s.length (0 : UInt8)) ⟨y, true, false⟩).1 := by
      simp only [Serial.read, readStr, List.length_nil, Nat.zero_mod, hp, List.take_nil, List.nil_append, Nat.sub_zero]
    rw [e]
    cases s with
    | nil => left; rfl
    | cons c s =>
      right
      simp only [List.length_cons, List.replicate_succ, readInPlace]
      refine ⟨_, _, rfl, ?_⟩
      cases y with
      | nil => left; decide
      | cons d y =>
        right
        simp only [List.cons_append, List.cons.injEq] at h'
        obtain ⟨rfl, _⟩ := h'
        simp [readPrim, readN, ofLE]

theorem ok_cut : ∀ n : Fin 6, (read .str [] ⟨(encStr okMsg).take n.val, true, false⟩).1 ≠ okMsg ∧
    (word (read .str [] ⟨(encStr okMsg).take n.val, true, false⟩).1).1 ≠ notFoundMsg ∧
    (word (read .str [] ⟨(encStr okMsg).take n.val, true, false⟩).1).1 ≠ mismatchMsg := by decide +kernel

theorem ok_len : (encStr okMsg).length = 6 := by decide

/-- The first word of a text of which something was cut off is not another message. -/
theorem word_cut {s p x m : Str} (hs : s.length < 2 ^ 32) (h : p ++ x = encStr s) (hm : m ≠ []) (hm0 : m.head? ≠ some 0) (hsm : s.head? ≠ m.head?)
    (hsp : ∀ c, s.head? = some c → isSpace c = false) : (word (read .str [] ⟨p, true, false⟩).1).1 ≠ m := by
  rcases read_cut hs h with e | ⟨c, t, e, hc⟩
  · rw [e]; exact fun h => hm h.symm
  · rw [e]
    intro hw
    have hsc : isSpace c = false := by
      rcases hc with rfl | hc
      · decide
      · exact hsp c hc
    have hh := word_head (s := t) hsc
    rw [hw] at hh
    rcases hc with rfl | hc
    · exact hm0 hh
    · exact hsm (hc.trans hh.symm)

/-! ### Calls -/

theorem explains_error {E : Encoder} {sv : Server} {version : BitVec 32} {q : Request} {out : List UInt8} {calls : List Call} (m : Str)
    (h : Out E sv version q out calls) : Explains sv version q (.error m) calls := by
  refine ⟨?_, ?_, ?_, fun _ h => (by cases h), fun h => (by cases h), fun _ h => (by cases h), fun _ _ h => (by cases h)⟩
  · cases h
    · exact .inl rfl
    · exact .inr rfl
    · exact .inr rfl
    · exact .inl rfl
    · exact .inl rfl
  · intro e
    cases h
    · cases e
    · exact ⟨_, by assumption⟩
    · exact ⟨_, by assumption⟩
    · cases e
    · cases e
  · intro e
    cases h
    · cases e
    · assumption
    · assumption
    · cases e
    · cases e

theorem explains_nothing {sv : Server} {version : BitVec 32} {q : Request} {a : Answer (Val q.res)} (h1 : ∀ r, a ≠ .value r)
    (h2 : ∀ n, a = .notFound n → AssocMap.find sv.funcs q.name = none) (h3 : ∀ i j, a = .mismatch i j → version ≠ sv.version) :
    Explains sv version q a [] :=
  ⟨.inl rfl, fun h => (by cases h), fun h => (by cases h), fun r h => absurd h (h1 r), fun _ => rfl, fun n h => ⟨rfl, h2 n h⟩, fun i j h => ⟨rfl, h3 i j h⟩⟩

theorem gen_nil {α : Type} : genException (α := α) [] = some (.error []) := rfl

/-- What may come of a call. -/
inductive Came (sv : Server) (timeout : Bool) (version : BitVec 32) (q : Request) (w : World) : Except Stop (Answer (Val q.res) × World) → Prop
  | answer {a w' l} : Ready w'.conn → w'.log = w.log ++ l → Explains sv version q a l → Came sv timeout version q w (.ok (a, w'))
  | hangs : timeout = false → Throws sv q → Came sv timeout version q w (.error .hangs)
  | undefined : version ≠ sv.version → Came sv timeout version q w (.error .undefined)

/-- A text that is no result and not a cut result is passed to `gen_exception`. -/
theorem came_text {E : Encoder} {sv : Server} {timeout : Bool} {version : BitVec 32} {q : Request} {w : World} {log : List Call} {l : Link}
    {code : Str} {rest : List UInt8} {g : Bool}
    (hi : l.inbox = []) (hg : l.good = true) (hr : read .str [] ⟨l.outbox, true, false⟩ = (code, ⟨rest, g, false⟩)) (hrest : g = true → rest = [])
    (hlog : ∃ calls, log = w.log ++ calls ∧ ∀ a : Answer (Val q.res), genException code = some a → Explains sv version q a calls)
    (hcode : code ≠ okMsg) (hhang : g = false → l.up = true → Throws sv q) (hund : (word code).1 = mismatchMsg → version ≠ sv.version) :
    Came sv timeout version q w (receive E sv timeout q.res l log) := by
  unfold receive
  obtain ⟨calls, rfl, hex⟩ := hlog
  rcases recv_cases (E := E) (sv := sv) (timeout := timeout) (log := w.log ++ calls) hi hg hr with ⟨h1, h2, h3, h4⟩ | ⟨l', h1, h2, h3, h4, h5, h6⟩
  · simp only [h1, bind, Except.bind]
    exact .hangs h2 (hhang h4 h3)
  · simp only [h1, bind, Except.bind, if_pos hcode]
    cases hgen : genException (α := Val q.res) code with
    | none => exact .undefined (hund (gen_none hgen))
    | some a =>
      refine .answer ⟨fun h => ?_, fun h => ?_⟩ rfl (hex a hgen)
      · exact ⟨h3.trans (hrest (h4.symm.trans h)), fun _ => h2⟩
      · exact h5 (h4.symm.trans h)

theorem read_whole (s : Str) (hs : s.length < 2 ^ 32) : read .str [] ⟨encStr s, true, false⟩ = (s, ⟨[], true, false⟩) := by
  have := read_str s [] [] hs
  rwa [List.append_nil] at this

/-- What is read of the part of a text that has arrived: if the reader succeeds, nothing is left. -/
theorem read_part {s : Str} (hs : s.length < 2 ^ 32) {p x : List UInt8} (h : p ++ x = encStr s) {code : Str} {rest : List UInt8} {g : Bool}
    (hr : read .str [] ⟨p, true, false⟩ = (code, ⟨rest, g, false⟩)) : g = true → rest = [] ∧ x = [] := by
  intro hg
  subst hg
  by_cases hx : x = []
  · subst hx
    rw [List.append_nil] at h
    subst h
    rw [read_whole s hs] at hr
    cases hr
    exact ⟨rfl, rfl⟩
  · have g := Serial.Props.truncation_detected .str s [] (encStr s) p x hs trivial rfl h.symm hx
    simp only [archive] at g
    rw [hr] at g
    cases g

theorem call_came (E : Encoder) {sv : Server} (timeout : Bool) (p₁ p₂ : Plan) (stuck : Bool) (version : BitVec 32) {q : Request} (hq : Sound sv q)
    {w : World} (hw : Ready w.conn) :
    Came sv timeout version q w (call E sv timeout p₁ p₂ stuck version q.name q.arg q.val q.res w) := by
  unfold call
  rcases getConn_cases (E := E) (sv := sv) (timeout := timeout) [p₁, p₂] w.log hw (by simp) with h | ⟨a, b, h⟩
  · simp only [h, bind, Except.bind]
    exact .answer (l := []) trivial (List.append_nil _).symm
      (explains_nothing (fun _ h => (by cases h)) (fun _ h => (by cases h)) (fun _ _ h => (by cases h)))
  · obtain ⟨l, calls, out, h1, h2, h3, h4, h5, h6, h7⟩ := send_request (E := E) (version := version) hq a b w.log
    unfold bytes at h1
    simp only [h, h1, bind, Except.bind]
    cases stuck with
    | true =>
      simp only [if_true, finish_empty _ _ _ _ h3]
      exact .answer ⟨fun h => (by cases h), fun _ => rfl⟩ rfl (explains_error _ h2)
    | false =>
      simp only [Bool.false_eq_true, if_false]
      have hsplit : l.outbox ++ out.drop b = out := by rw [h5]; exact List.take_append_drop ..
      have hcut : out.drop b ≠ [] → l.up = false := by
        intro hx
        refine h6 (fun e => hx ?_)
        rw [e] at hsplit
        exact List.append_right_eq_self.1 hsplit
      generalize out.drop b = x at hsplit hcut
      clear h5 h6
      obtain ⟨code, rest, g, hr⟩ := read_str_form l.outbox
      by_cases hout : out = []
      · -- nothing was written
        rw [hout] at hsplit
        have e' := (List.append_eq_nil_iff.1 hsplit).1
        have hr' : read .str [] ⟨l.outbox, true, false⟩ = ([], ⟨[], false, false⟩) := by rw [e']; rfl
        exact came_text (E := E) (timeout := timeout) h3 h4 hr' (fun _ => rfl)
          ⟨calls, rfl, fun a ha => by
            rw [gen_nil] at ha
            cases ha
            exact explains_error _ h2⟩ (by decide) (fun _ hu => h7 hu hout) (fun h => absurd h (by decide))
      cases h2 with
      | nothing => exact absurd rfl hout
      | silent _ _ _ => exact absurd rfl hout
      | notFound hf =>
        have hs : (notFoundMsg ++ 32 :: q.name).length < 2 ^ 32 := by
          have := hq.name
          simp only [List.length_append, List.length_cons]
          have : notFoundMsg.length = 8 := by decide
          omega
        have hpart := read_part hs hsplit hr
        have hm := word_cut (m := mismatchMsg) hs hsplit (by decide) (by decide) (by simp [notFoundMsg, mismatchMsg]) (by
          intro c hc
          have : c = 78 := by simpa [notFoundMsg] using hc.symm
          subst this; decide)
        have hok : code ≠ okMsg := by
          have := word_cut (m := okMsg) hs hsplit (by decide) (by decide) (by simp [notFoundMsg, okMsg]) (by
            intro c hc
            have : c = 78 := by simpa [notFoundMsg] using hc.symm
            subst this; decide)
          rw [hr] at this
          intro e
          exact this (by rw [e]; rfl)
        rw [hr] at hm
        refine came_text (E := E) (timeout := timeout) h3 h4 hr (fun hg => (hpart hg).1) ⟨[], rfl, fun a ha => ?_⟩ hok ?_ (fun h => absurd h hm)
        · exact explains_nothing (gen_not_value ha).1 (fun _ _ => hf) (fun i j e => absurd ((gen_words ha).2 i j e) hm)
        · intro hg hu
          by_cases hx : x = []
          · subst hx
            rw [List.append_nil] at hsplit
            rw [hsplit, read_whole _ hs] at hr
            cases hr; cases hg
          · rw [hcut hx] at hu; cases hu
      | mismatch hv =>
        have hs : (mismatchMsg ++ 32 :: showInt sv.version.toInt ++ 32 :: showInt version.toInt).length < 2 ^ 32 := by
          have a := Verif.Rpc.Lemmas.showInt_length sv.version
          have b := Verif.Rpc.Lemmas.showInt_length version
          simp only [List.length_append, List.length_cons]
          have : mismatchMsg.length = 15 := by decide
          omega
        have hpart := read_part hs hsplit hr
        have hsp : ∀ c, (mismatchMsg ++ 32 :: showInt sv.version.toInt ++ 32 :: showInt version.toInt).head? = some c → isSpace c = false := by
          intro c hc
          have : c = 86 := by simpa [mismatchMsg] using hc.symm
          subst this; decide
        have hm := word_cut (m := notFoundMsg) hs hsplit (by decide) (by decide) (by simp [notFoundMsg, mismatchMsg]) hsp
        have hok : code ≠ okMsg := by
          have := word_cut (m := okMsg) hs hsplit (by decide) (by decide) (by simp [mismatchMsg, okMsg]) hsp
          rw [hr] at this
          intro e
          exact this (by rw [e]; rfl)
        rw [hr] at hm
        refine came_text (E := E) (timeout := timeout) h3 h4 hr (fun hg => (hpart hg).1) ⟨[], rfl, fun a ha => ?_⟩ hok ?_ (fun _ => hv)
        · exact explains_nothing (gen_not_value ha).1 (fun n e => absurd ((gen_words ha).1 n e) hm) (fun _ _ _ => hv)
        · intro hg hu
          by_cases hx : x = []
          · subst hx
            rw [List.append_nil] at hsplit
            rw [hsplit, read_whole _ hs] at hr
            cases hr; cases hg
          · rw [hcut hx] at hu; cases hu
      | @value f r hf hfv hver =>
        have hwf : WF q.res r := by
          obtain ⟨f', e, _, hwf⟩ := hq.typed _ hf
          simp only [Fn.mk.injEq, heq_eq_eq, true_and] at e
          subst e
          exact hwf r hfv
        rcases prefix_split hsplit with ⟨y, hy, e⟩ | ⟨y, e, h'⟩
        · -- cut in the code
          have hx : x ≠ [] := by
            intro hx
            subst hx
            rw [List.append_nil, e, List.append_assoc] at hsplit
            have := congrArg List.length hsplit
            simp only [List.length_append] at this
            exact hy (List.length_eq_zero_iff.1 (by omega))
          have hn : l.outbox.length < 6 := by
            have := congrArg List.length e
            rw [ok_len, List.length_append] at this
            have : y.length ≠ 0 := fun h => hy (List.length_eq_zero_iff.1 h)
            omega
          have ht : (encStr okMsg).take l.outbox.length = l.outbox := by rw [e, List.take_left']; rfl
          have hc := ok_cut ⟨_, hn⟩
          dsimp only at hc
          rw [ht, hr] at hc
          refine came_text (E := E) (timeout := timeout) h3 h4 hr (fun hg => ?_) ⟨_, rfl, fun a ha => ?_⟩ hc.1
            (fun _ hu => by rw [hcut hx] at hu; cases hu) (fun h => absurd h hc.2.2)
          · have := read_part (s := okMsg) (by decide) e.symm hr hg
            exact this.1
          · have w1 := gen_words ha
            have w2 := gen_not_value ha
            cases a with
            | error m => exact explains_error (E := E) m (.value hf hfv hver)
            | value r => exact absurd rfl (w2.1 r)
            | noConnection => exact absurd rfl w2.2
            | notFound n => exact absurd (w1.1 n rfl) hc.2.1
            | mismatch i j => exact absurd (w1.2 i j rfl) hc.2.2
        · -- the code has arrived
          have hcode := read_str okMsg [] y (by decide)
          have hnocode : ¬ (okMsg ≠ okMsg) := fun h => h rfl
          rcases recv_cases (E := E) (sv := sv) (timeout := timeout) (log := w.log ++ [asked q]) (t := .str) (old := []) h3 h4 (by rw [e]; exact hcode) with
            ⟨_, _, _, h⟩ | ⟨l2, k1, k2, k3, k4, k5, k6⟩
          · cases h
          · have k6 := k6 rfl
            have hup : l2.up = l.up := by rw [k6]
            simp only [receive, k1, bind, Except.bind, if_neg hnocode]
            by_cases hx : x = []
            · subst hx
              rw [List.append_nil] at h'
              have hv := read_enc E q.res r (dflt q.res) [] hwf (Serial.Lemmas.shape_dflt _)
              rw [List.append_nil, ← h', ← k3] at hv
              rcases recv_cases (E := E) (sv := sv) (timeout := timeout) (log := w.log ++ [asked q]) k2 k4 hv with
                ⟨_, _, _, h⟩ | ⟨l3, j1, j2, j3, j4, _, _⟩
              · cases h
              · simp only [j1, j4, Bool.not_true, Bool.false_eq_true, if_false]
                refine .answer ⟨fun _ => ⟨j3, fun _ => j2⟩, fun h => ?_⟩ rfl ⟨.inr rfl, fun _ => ⟨_, hf⟩, fun _ => hver, fun r' e => ?_, fun h => (by cases h),
                  fun _ h => (by cases h), fun _ _ h => (by cases h)⟩
                · rw [j4] at h; cases h
                · cases e
                  exact ⟨rfl, f, hf, hfv⟩
            · have g2 := Serial.Props.truncation_detected q.res r (dflt q.res) (E.enc q.res r) y x hwf (Serial.Lemmas.shape_dflt _) (E.ok _ _) h'.symm hx
              have u2 := Serial.Props.prefix_defined q.res hq.res r (dflt q.res) (E.enc q.res r) y x hwf (Serial.Lemmas.shape_dflt _) (E.ok _ _) h'.symm
              simp only [archive] at g2 u2
              rw [← k3] at g2 u2
              have hv : ∃ v rest, read q.res (dflt q.res) ⟨l2.outbox, true, false⟩ = (v, ⟨rest, false, false⟩) := by
                generalize read q.res (dflt q.res) ⟨l2.outbox, true, false⟩ = r at g2 u2
                obtain ⟨v, rest, g, u⟩ := r
                simp only at g2 u2
                subst g2 u2
                exact ⟨v, rest, rfl⟩
              obtain ⟨v, rest', hv⟩ := hv
              rcases recv_cases (E := E) (sv := sv) (timeout := timeout) (log := w.log ++ [asked q]) k2 k4 hv with
                ⟨_, _, h, _⟩ | ⟨l3, j1, j2, j3, j4, j5, _⟩
              · rw [hup, hcut hx] at h; cases h
              · simp only [j1, j4, Bool.not_false, if_true]
                refine .answer ⟨fun h => ?_, fun _ => j5 rfl⟩ rfl (explains_error (E := E) _ (.value hf hfv hver))
                rw [j4] at h; cases h

/-! ### Calls on connections that hold -/

theorem getConn_gets {E : Encoder} {sv : Server} {timeout : Bool} {c : Option Link} {p₁ p₂ : Plan} {a b : Nat} (log : List Call) (hc : Ready c)
    (h : Gets c p₁ p₂ a b) (ha : 14 ≤ a) (hb : 14 ≤ b) : getConn E sv timeout [p₁, p₂] c log = .ok (some (idle (a - 14) (b - 14)), log) := by
  have fresh : ∀ ps, getConn E sv timeout (some (a, b) :: ps) none log = .ok (some (idle (a - 14) (b - 14)), log) := by
    intro ps
    rcases attempt (E := E) (sv := sv) (timeout := timeout) (ps := ps) (log := log) (p := some (a, b)) (c := none) (l := idle a b) rfl rfl (fun _ => rfl) rfl with
      h | ⟨_, h | h | h⟩
    · exact h
    · cases h
    · exact absurd h (by simp only [idle]; omega)
    · exact absurd h (by simp only [idle]; omega)
  have unusable : ∀ ps, (∀ l, c = some l → l.good = false) → getConn E sv timeout (p₁ :: ps) c log = getConn E sv timeout (p₁ :: ps) none log := by
    intro ps h
    cases c with
    | none => rfl
    | some l => simp only [getConn, current, h l rfl, Bool.false_eq_true, if_false]
  cases h with
  | kept hg hu e1 e2 =>
    rename_i l
    rcases attempt (E := E) (sv := sv) (timeout := timeout) (ps := [p₂]) (log := log) (p := p₁) (c := some l) (l := l) hg (hc.1 hg).1 (hc.1 hg).2
      (by simp only [current, hg, if_true]) with h | ⟨_, h | h | h⟩
    · rw [h, e1, e2]
    · rw [hu] at h; cases h
    · omega
    · omega
  | expired hg hu =>
    rename_i l
    rcases attempt (E := E) (sv := sv) (timeout := timeout) (ps := [some (a, b)]) (log := log) (p := p₁) (c := some l) (l := l) hg (hc.1 hg).1 (hc.1 hg).2
      (by simp only [current, hg, if_true]) with h | ⟨h, _⟩
    · have e : send E sv (encStr pingMsg) l log = .ok (l, log) := by simp [send, hu]
      have e2 : ∃ l', recv E sv timeout .str [] l log = .ok ([], l', log) ∧ l'.up = false := by
        have : read .str [] ⟨[], true, false⟩ = ([], ⟨[], false, false⟩) := rfl
        refine ⟨{ l with outbox := [], good := false }, ?_, hu⟩
        simp [recv, hg, (hc.1 hg).1, hu, this]
      obtain ⟨l', e2, e3⟩ := e2
      have e4 : ([] : Str) ≠ pongMsg := by decide
      have e5 : current p₁ (some l) = some l := by simp only [current, hg, if_true]
      rw [getConn, e5]
      simp only [e, e2, bind, Except.bind, if_pos e4, finish_down _ _ _ _ e3]
      exact fresh []
    · rw [h]; exact fresh []
  | first h => rw [unusable _ h]; exact fresh _
  | second h =>
    rw [unusable _ h]
    exact fresh []

theorem call_value {E : Encoder} {sv : Server} {timeout : Bool} {p₁ p₂ : Plan} {q : Request} (hq : Sound sv q) {w : World} (hw : Ready w.conn)
    {f : Arg q.arg → Outcome (Val q.res)} {r : Val q.res} (hf : AssocMap.find sv.funcs q.name = some ⟨q.arg, q.res, f⟩) (hr : f q.val = .ret r) {a b : Nat}
    (h : Gets w.conn p₁ p₂ a b) (ha : 14 + (bytes E sv.version q).length ≤ a) (hb : 14 + (6 + (E.enc q.res r).length) ≤ b) :
    call E sv timeout p₁ p₂ false sv.version q.name q.arg q.val q.res w =
      .ok (.value r, ⟨some (idle (a - 14 - (bytes E sv.version q).length) (b - 14 - (6 + (E.enc q.res r).length))), w.log ++ [asked q]⟩) := by
  have hl : q.name.length < 2 ^ 32 := by have := hq.name; omega
  have hwf : WF q.res r := by
    obtain ⟨f', e, _, hwf⟩ := hq.typed _ hf
    simp only [Fn.mk.injEq, heq_eq_eq, true_and] at e
    subst e
    exact hwf r hr
  have hround := Verif.Rpc.Lemmas.round_value E sv false q [] hl hq.free hf hq.val
  rw [List.append_nil, hr] at hround
  have hne : ∃ n, (bytes E sv.version q).length + 1 = n + 2 := by
    refine ⟨(bytes E sv.version q).length - 1, ?_⟩
    have : (encStr q.name).length ≠ 0 := fun h => encStr_ne_nil _ (List.length_eq_zero_iff.1 h)
    simp only [bytes, List.length_append]
    omega
  obtain ⟨n, hn⟩ := hne
  have hrun := run_next (log := w.log) n hround
  have hlo : (encStr okMsg ++ E.enc q.res r).length = 6 + (E.enc q.res r).length := by rw [List.length_append, ok_len]
  have hrun' : run E sv (decide (a - 14 < (bytes E sv.version q).length)) (((bytes E sv.version q).take (a - 14)).length + 1) ((bytes E sv.version q).take (a - 14)) [] w.log =
      .ok (true, [], encStr okMsg ++ E.enc q.res r, w.log ++ [asked q]) := by
    rw [List.take_of_length_le (by omega), decide_eq_false (by omega), hn]
    exact hrun
  obtain ⟨l, h1, h2, h3, h4, _, h6, h7, h8⟩ := send_idle (b := b - 14) hrun'
  rw [List.take_of_length_le (by omega)] at h4
  have hup : l.up = true := h6 (by omega)
  clear h6
  have hcode := read_str okMsg [] (E.enc q.res r) (by decide)
  have hv := read_enc E q.res r (dflt q.res) [] hwf (Serial.Lemmas.shape_dflt _)
  rw [List.append_nil] at hv
  unfold bytes at h1
  unfold call
  simp only [getConn_gets (E := E) (sv := sv) (timeout := timeout) w.log hw h (by omega) (by omega), h1, bind, Except.bind, Bool.false_eq_true, if_false]
  rcases recv_cases (E := E) (sv := sv) (timeout := timeout) (log := w.log ++ [asked q]) (t := .str) (old := []) h2 h3 (by rw [h4]; exact hcode) with
    ⟨_, _, _, h⟩ | ⟨l2, k1, k2, k3, k4, _, k6⟩
  · cases h
  have k6 := k6 rfl
  rcases recv_cases (E := E) (sv := sv) (timeout := timeout) (log := w.log ++ [asked q]) k2 k4 (by rw [k3]; exact hv) with
    ⟨_, _, _, h⟩ | ⟨l3, j1, j2, j3, j4, _, j6⟩
  · cases h
  have j6 := j6 rfl
  have hnocode : ¬ (okMsg ≠ okMsg) := fun h => h rfl
  simp only [receive, k1, j1, bind, Except.bind, if_neg hnocode, j4, Bool.not_true, Bool.false_eq_true, if_false]
  obtain ⟨i, o, u, g, a', b'⟩ := l
  simp only at h2 h3 h4 hup h7 h8
  subst h2 h3 h7 h8
  rw [j6, k6, hup, hlo]
  rfl

/-! ### Single calls over new connections -/

theorem call_first {E : Encoder} {sv : Server} {timeout : Bool} {a b : Nat} {version : BitVec 32} {q : Request} (ha : 14 ≤ a) (hb : 14 ≤ b) {up : Bool}
    {out : List UInt8} {calls : List Call} (h : run E sv (decide (a - 14 < (bytes E version q).length)) (((bytes E version q).take (a - 14)).length + 1)
      ((bytes E version q).take (a - 14)) [] [] = .ok (up, [], out, calls)) :
    ∃ l, call E sv timeout (some (a, b)) none false version q.name q.arg q.val q.res ⟨none, []⟩ = receive E sv timeout q.res l calls ∧
      l.inbox = [] ∧ l.good = true ∧ l.outbox = out.take (b - 14) ∧ (b - 14 < out.length → l.up = false) ∧ (out.length ≤ b - 14 → l.up = up) := by
  have g := getConn_gets (E := E) (sv := sv) (timeout := timeout) (c := none) (p₁ := some (a, b)) (p₂ := none) [] trivial (.first (fun _ h => (by cases h))) ha hb
  obtain ⟨l, h1, h2, h3, h4, h5, h6, _⟩ := send_idle (b := b - 14) h
  refine ⟨l, ?_, h2, h3, h4, h5, h6⟩
  unfold bytes at h1
  unfold call
  simp only [g, h1, bind, Except.bind, Bool.false_eq_true, if_false]

/-- The client turns a text into an exception. -/
theorem receive_text {E : Encoder} {sv : Server} {timeout : Bool} {res : Ty} {l : Link} {log : List Call} {code : Str} {rest : List UInt8} {g : Bool}
    (hi : l.inbox = []) (hg : l.good = true) (hr : read .str [] ⟨l.outbox, true, false⟩ = (code, ⟨rest, g, false⟩)) (hc : code ≠ okMsg)
    (hu : g = true ∨ l.up = false ∨ timeout = true) :
    (genException (α := Val res) code = none → receive E sv timeout res l log = .error .undefined) ∧
    ∀ a, genException code = some a → ∃ c, receive E sv timeout res l log = .ok (a, ⟨c, log⟩) := by
  rcases recv_cases (E := E) (sv := sv) (timeout := timeout) (log := log) hi hg hr with ⟨_, h1, h2, h3⟩ | ⟨l', h1, _⟩
  · rcases hu with hu | hu | hu
    · rw [hu] at h3; cases h3
    · rw [hu] at h2; cases h2
    · rw [hu] at h1; cases h1
  · constructor
    · intro h
      simp only [receive, h1, bind, Except.bind, if_pos hc, h]
    · intro a h
      refine ⟨some l', ?_⟩
      simp only [receive, h1, bind, Except.bind, if_pos hc, h]

end Verif.RpcFault.Lemmas
