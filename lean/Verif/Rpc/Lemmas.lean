import Verif.Rpc.Spec
import Verif.Serial.Props
/-!
# Lemmas for C54
-/
namespace Verif.Rpc.Lemmas
open Verif.Rpc Verif.Rpc.Spec Verif.Serial Verif.Serial.Spec

/-! ### Reading what was written -/

theorem read_enc (E : Encoder) (t : Ty) (v old : Val t) (tail : List UInt8) (hv : WF t v) (ho : Shape t old) :
    read t old ⟨E.enc t v ++ tail, true, false⟩ = (v, ⟨tail, true, false⟩) :=
  Serial.Props.round_trip t v old _ tail hv ho (E.ok t v)

theorem read_str (s old : Str) (tail : List UInt8) (h : s.length < 2 ^ 32) :
    read .str old ⟨encStr s ++ tail, true, false⟩ = (s, ⟨tail, true, false⟩) :=
  Serial.Props.round_trip .str s old (encStr s) tail h trivial rfl

theorem read_int (v old : BitVec 32) (tail : List UInt8) :
    read (.prim 4 true) old ⟨toLE 4 v.toNat ++ tail, true, false⟩ = (v, ⟨tail, true, false⟩) :=
  Serial.Props.round_trip (.prim 4 true) v old _ tail trivial trivial rfl

/-! ### One turn of the server -/

theorem round_nil (E : Encoder) (sv : Server) : round E sv false [] = .blocked := by
  simp only [round]
  rfl

theorem round_ping (E : Encoder) (sv : Server) (eof : Bool) (rest : List UInt8) :
    round E sv eof (encStr pingMsg ++ rest) = .next (encStr pongMsg) rest [] := by
  simp only [round, read_str pingMsg [] rest (by decide)]
  rfl

theorem round_exit (E : Encoder) (sv : Server) (eof : Bool) (rest : List UInt8) :
    round E sv eof (encStr exitMsg ++ rest) = .closed (encStr okMsg ++ encStr [49]) := by
  simp only [round, read_str exitMsg [] rest (by decide)]
  rfl

theorem round_notFound (E : Encoder) (sv : Server) (eof : Bool) (name : Str) (rest : List UInt8) (hl : name.length < 2 ^ 32) (hf : Free name)
    (h : AssocMap.find sv.funcs name = none) :
    round E sv eof (encStr name ++ rest) = .closed (encStr (notFoundMsg ++ 32 :: name)) := by
  simp only [round, read_str name [] rest hl, Bool.not_true, Bool.false_eq_true, if_false, if_neg hf.1, if_neg hf.2, h]

theorem round_mismatch (E : Encoder) (sv : Server) (eof : Bool) (name : Str) (version : BitVec 32) (f : Fn) (rest : List UInt8)
    (hl : name.length < 2 ^ 32) (hf : Free name) (h : AssocMap.find sv.funcs name = some f) (hv : version ≠ sv.version) :
    round E sv eof (encStr name ++ toLE 4 version.toNat ++ rest) =
      .closed (encStr (mismatchMsg ++ 32 :: showInt sv.version.toInt ++ 32 :: showInt version.toInt)) := by
  simp only [round, List.append_assoc, read_str name [] _ hl, Bool.not_true, Bool.false_eq_true, if_false, if_neg hf.1, if_neg hf.2, h,
    read_int, Bool.false_and, Bool.true_and, decide_eq_true_eq, ne_eq, hv, not_false_eq_true, if_true]

theorem round_value (E : Encoder) (sv : Server) (eof : Bool) (q : Request) (rest : List UInt8) {f : Arg q.arg → Outcome (Val q.res)}
    (hl : q.name.length < 2 ^ 32) (hf : Free q.name) (h : AssocMap.find sv.funcs q.name = some ⟨q.arg, q.res, f⟩) (hv : WFArg q.arg q.val) :
    round E sv eof (encStr q.name ++ toLE 4 sv.version.toNat ++ (E.arg q.arg q.val ++ rest)) =
      answer E q.res rest ⟨q.name, q.arg, q.val⟩ (f q.val) := by
  obtain ⟨name, arg, val, res⟩ := q
  simp only [round, List.append_assoc, read_str name [] _ hl, Bool.not_true, Bool.false_eq_true, if_false, if_neg hf.1, if_neg hf.2, h,
    read_int, Bool.false_and, Bool.true_and, decide_eq_true_eq, ne_eq, not_true_eq_false]
  cases arg with
  | none => rfl
  | some t =>
    simp only [invoke, Encoder.arg, read_enc E t val (dflt t) rest hv (Serial.Lemmas.shape_dflt t), Bool.not_true, Bool.false_and,
      Bool.false_eq_true, if_false]

/-! ### Messages -/

/-- A connection on which everything has been read. -/
def idle : Conn := ⟨[], [], true, true⟩

theorem send_idle_next {E : Encoder} {sv : Server} {msg out : List UInt8} {calls log : List Call} (hm : msg ≠ [])
    (h : round E sv false msg = .next out [] calls) :
    send E sv msg idle log = .ok (⟨[], out, true, true⟩, log ++ calls) := by
  obtain ⟨b, bs, rfl⟩ := List.exists_cons_of_ne_nil hm
  simp only [send, idle, List.nil_append, List.length_nil, Nat.zero_add, List.length_cons, serve, h, Bool.not_true, Bool.false_eq_true,
    if_false, round_nil]

theorem send_idle_closed {E : Encoder} {sv : Server} {msg out : List UInt8} {log : List Call}
    (h : round E sv false msg = .closed out) :
    send E sv msg idle log = .ok (⟨[], out, false, true⟩, log) := by
  simp only [send, idle, List.nil_append, serve, h, Bool.not_true, Bool.false_eq_true, if_false]

theorem recv_str (s old : Str) (inbox tail : List UInt8) (up : Bool) (h : s.length < 2 ^ 32) :
    recv .str old ⟨inbox, encStr s ++ tail, up, true⟩ = .ok (s, ⟨inbox, tail, up, true⟩) := by
  simp only [recv, read_str s old tail h]
  rfl

theorem recv_enc (E : Encoder) (t : Ty) (v : Val t) (inbox : List UInt8) (up : Bool) (hv : WF t v) :
    recv t (dflt t) ⟨inbox, E.enc t v, up, true⟩ = .ok (v, ⟨inbox, [], up, true⟩) := by
  have := read_enc E t v (dflt t) [] hv (Serial.Lemmas.shape_dflt t)
  rw [List.append_nil] at this
  simp only [recv, this]
  rfl

theorem encStr_ne_nil (s : Str) : encStr s ≠ [] := by
  simp [encStr, sizeField, toLE]

/-! ### Getting a connection -/

theorem ping_idle (E : Encoder) (sv : Server) (log : List Call) : ping E sv idle log = .ok (some idle, log) := by
  have h := send_idle_next (E := E) (sv := sv) (log := log) (encStr_ne_nil pingMsg) (by
    have := round_ping E sv false []
    rwa [List.append_nil] at this)
  have h2 := recv_str pongMsg [] [] [] true (by decide)
  rw [List.append_nil] at h2
  simp only [ping, h, bind, Except.bind, h2, List.append_nil]
  rfl

/-- A connection that the server has closed gives no answer. -/
theorem ping_closed (E : Encoder) (sv : Server) (inbox : List UInt8) (log : List Call) :
    ping E sv ⟨inbox, [], false, true⟩ log = .ok (none, log) := by
  have hs : send E sv (encStr pingMsg) ⟨inbox, [], false, true⟩ log = .ok (⟨inbox ++ encStr pingMsg, [], false, true⟩, log) := by
    simp [send, serve]
  have hr : recv .str [] ⟨inbox ++ encStr pingMsg, [], false, true⟩ = .ok ([], ⟨inbox ++ encStr pingMsg, [], false, false⟩) := by
    simp only [recv]
    rfl
  simp only [ping, hs, bind, Except.bind, hr]
  rfl

theorem getConn_ready (E : Encoder) (sv : Server) (c : Option Conn) (log : List Call) (h : Ready c) :
    getConn E sv true 2 c log = .ok (some idle, log) := by
  have fresh : ∀ n c, current true c = some idle → getConn E sv true (n + 1) c log = .ok (some idle, log) := by
    intro n c hc
    simp only [getConn, hc, ping_idle, bind, Except.bind]
  cases c with
  | none => exact fresh 1 none rfl
  | some c =>
    obtain ⟨inbox, outbox, up, good⟩ := c
    cases good with
    | false => exact fresh 1 _ rfl
    | true =>
      obtain ⟨rfl, h2⟩ := h rfl
      cases up with
      | true =>
        cases h2 rfl
        exact fresh 1 _ rfl
      | false =>
        have e : current true (some ⟨inbox, [], false, true⟩) = some ⟨inbox, [], false, true⟩ := rfl
        rw [getConn]
        simp only [e, ping_closed, bind, Except.bind]
        exact fresh 0 none rfl

/-! ### Texts -/

theorem isSpace_iff (c : UInt8) : isSpace c = true ↔ c ∈ White := by
  have h : ∀ i : Fin 256, isSpace (UInt8.ofNat i.1) = true ↔ UInt8.ofNat i.1 ∈ White := by decide +kernel
  have e : c = UInt8.ofNat c.toNat := by simp
  rw [e]
  exact h ⟨c.toNat, c.toNat_lt⟩

theorem isSpace_false {c : UInt8} (h : c ∉ White) : isSpace c = false := by
  cases hc : isSpace c with
  | false => rfl
  | true => exact absurd ((isSpace_iff c).1 hc) h

theorem word_append (s rest : Str) (hs : ∀ c ∈ s, isSpace c = false) (hn : s ≠ []) (hr : rest.head?.all isSpace = true) :
    word (s ++ rest) = (s, rest) := by
  have hd : (s ++ rest).dropWhile isSpace = s ++ rest := by
    obtain ⟨b, bs, rfl⟩ := List.exists_cons_of_ne_nil hn
    rw [List.cons_append, List.dropWhile_cons_of_neg]
    simp [hs b (List.mem_cons_self ..)]
  have hp : ∀ c ∈ s, (!isSpace c) = true := fun c hc => by simp [hs c hc]
  simp only [word, hd, List.takeWhile_append_of_pos hp, List.dropWhile_append_of_pos hp]
  cases rest with
  | nil => simp
  | cons b r =>
    have : isSpace b = true := by simpa using hr
    rw [List.takeWhile_cons_of_neg (by simp [this]), List.dropWhile_cons_of_neg (by simp [this]), List.append_nil]

theorem word_space (s : Str) : word (32 :: s) = word s := by
  have : (32 :: s).dropWhile isSpace = s.dropWhile isSpace := List.dropWhile_cons_of_pos (by decide)
  simp only [word, this]

theorem word_self (s : Str) (hs : ∀ c ∈ s, isSpace c = false) : (word s).1 = s := by
  cases s with
  | nil => rfl
  | cons b bs =>
    have := word_append (b :: bs) [] hs (by simp) rfl
    rw [List.append_nil] at this
    rw [this]

/-- White space, a word, and nothing or something that begins with white space. -/
theorem word_between (pre s rest : Str) (hp : ∀ c ∈ pre, c ∈ White) (hs : ∀ c ∈ s, c ∉ White) (hn : s ≠ [])
    (hr : ∀ c, rest.head? = some c → c ∈ White) : (word (pre ++ s ++ rest)).1 = s := by
  induction pre with
  | nil =>
    rw [List.nil_append, word_append s rest (fun c hc => isSpace_false (hs c hc)) hn]
    cases rest with
    | nil => rfl
    | cons b r => simpa using (isSpace_iff b).2 (hr b rfl)
  | cons b pre ih =>
    have hb : isSpace b = true := (isSpace_iff b).2 (hp b (List.mem_cons_self ..))
    have e : word (b :: pre ++ s ++ rest) = word (pre ++ s ++ rest) := by
      simp only [word, List.cons_append, List.dropWhile_cons_of_pos hb]
    rw [e]
    exact ih (fun c hc => hp c (List.mem_cons_of_mem _ hc))

theorem digit_head (n : Nat) : ∃ b bs, Decimal.digits n = b :: bs ∧ Decimal.isDigit b = true := by
  obtain ⟨h1, h2, _⟩ := Decimal.digits_spec n
  obtain ⟨b, bs, e⟩ := List.exists_cons_of_ne_nil h1
  exact ⟨b, bs, e, h2 b (by rw [e]; exact List.mem_cons_self ..)⟩

theorem digit_other {b : UInt8} (h : Decimal.isDigit b = true) : isSpace b = false ∧ b ≠ 45 ∧ b ≠ 43 := by
  have key : ∀ i : Fin 256, Decimal.isDigit (UInt8.ofNat i.1) = true →
      isSpace (UInt8.ofNat i.1) = false ∧ UInt8.ofNat i.1 ≠ 45 ∧ UInt8.ofNat i.1 ≠ 43 := by decide +kernel
  have := key ⟨b.toNat, b.toNat_lt⟩
  simp only [UInt8.ofNat_toNat] at this
  exact this h

theorem readInt_show (i : Int) (rest : Str) (h1 : -2 ^ 31 ≤ i) (h2 : i < 2 ^ 31) (hr : rest.head?.all (fun c => !Decimal.isDigit c) = true) :
    readInt (32 :: showInt i ++ rest) = some (i, rest) := by
  have hd : (32 :: showInt i ++ rest).dropWhile isSpace = (showInt i ++ rest).dropWhile isSpace := List.dropWhile_cons_of_pos (by decide)
  obtain ⟨t1, t2⟩ := Decimal.takeWhile_digits i.natAbs rest hr
  obtain ⟨n1, _, n3⟩ := Decimal.digits_spec i.natAbs
  unfold readInt
  rw [hd]
  unfold showInt
  by_cases hi : i < 0
  · have e : (45 :: Decimal.digits i.natAbs ++ rest).dropWhile isSpace = 45 :: (Decimal.digits i.natAbs ++ rest) :=
      List.dropWhile_cons_of_neg (by decide)
    have hv : -(i.natAbs : Int) = i := by omega
    simp only [if_pos hi, e, List.head?_cons, if_true, true_or, List.tail_cons, t1, t2, n3, hv]
    rw [if_neg (by simp only [n1, false_or, not_or]; omega)]
  · obtain ⟨b, bs, hb, hdig⟩ := digit_head i.natAbs
    obtain ⟨g1, g2, g3⟩ := digit_other hdig
    have e : (Decimal.digits i.natAbs ++ rest).dropWhile isSpace = Decimal.digits i.natAbs ++ rest := by
      rw [hb, List.cons_append, List.dropWhile_cons_of_neg (by simp [g1])]
    have hh : (Decimal.digits i.natAbs ++ rest).head? = some b := by rw [hb]; rfl
    have hv : (i.natAbs : Int) = i := by omega
    simp only [if_neg hi, e, hh, Option.some.injEq, g2, g3, or_self, if_false, t1, t2, n3, hv]
    rw [if_neg (by simp only [n1, false_or, not_or]; omega)]

theorem gen_notFound {α : Type} (name : Str) : genException (α := α) (notFoundMsg ++ 32 :: name) = some (.notFound (word name).1) := by
  simp only [genException, word_append notFoundMsg (32 :: name) (by decide) (by decide) rfl, word_space, if_true]

theorem gen_mismatch {α : Type} (s c : BitVec 32) :
    genException (α := α) (mismatchMsg ++ 32 :: showInt s.toInt ++ 32 :: showInt c.toInt) = some (.mismatch s.toInt c.toInt) := by
  have hs : -2 ^ 31 ≤ s.toInt ∧ s.toInt < 2 ^ 31 := ⟨BitVec.le_toInt s, BitVec.toInt_lt⟩
  have hc : -2 ^ 31 ≤ c.toInt ∧ c.toInt < 2 ^ 31 := ⟨BitVec.le_toInt c, BitVec.toInt_lt⟩
  have e1 := readInt_show s.toInt (32 :: showInt c.toInt) hs.1 hs.2 rfl
  have e2 := readInt_show c.toInt [] hc.1 hc.2 rfl
  rw [List.append_nil] at e2
  have w := word_append mismatchMsg (32 :: showInt s.toInt ++ 32 :: showInt c.toInt) (by decide) (by decide) rfl
  rw [List.append_assoc]
  simp only [genException, w, e1, e2]
  rfl

theorem digits_length : ∀ k n, n < 10 ^ (k + 1) → (Decimal.digits n).length ≤ k + 1 := by
  intro k
  induction k with
  | zero =>
    intro n h
    rw [Decimal.digits, if_pos (by simpa using h)]
    simp
  | succ k ih =>
    intro n h
    rw [Decimal.digits]
    split
    · simp
    · have := ih (n / 10) (by rw [Nat.pow_succ] at h; omega)
      simp only [List.length_append, List.length_singleton]
      omega

theorem showInt_length (b : BitVec 32) : (showInt b.toInt).length ≤ 11 := by
  have h1 : -2 ^ 31 ≤ b.toInt := BitVec.le_toInt b
  have h2 : b.toInt < 2 ^ 31 := BitVec.toInt_lt
  have := digits_length 9 b.toInt.natAbs (by omega)
  unfold showInt
  split
  · simp only [List.length_cons]
    omega
  · omega

/-! ### A call -/

theorem call_value {E : Encoder} {sv : Server} {q : Request} {w : World} {f : Arg q.arg → Outcome (Val q.res)} {r : Val q.res}
    (hw : Ready w.conn) (hl : q.name.length < 2 ^ 32) (hf : Free q.name) (hv : WFArg q.arg q.val)
    (h : AssocMap.find sv.funcs q.name = some ⟨q.arg, q.res, f⟩) (hr : f q.val = .ret r) (hwf : WF q.res r) :
    call E sv true sv.version q.name q.arg q.val q.res w = .ok (.value r, ⟨some idle, w.log ++ [⟨q.name, q.arg, q.val⟩]⟩) := by
  have h1 := getConn_ready E sv w.conn w.log hw
  have h2 := round_value E sv false q [] hl hf h hv
  rw [List.append_nil, hr, answer] at h2
  have h3 := send_idle_next (log := w.log) (by simp [encStr_ne_nil]) h2
  have h4 := recv_str okMsg [] [] (E.enc q.res r) true (by decide)
  have h5 := recv_enc E q.res r [] true hwf
  simp only [call, h1, bind, Except.bind, h3, h4, h5]
  rfl

theorem call_notFound {E : Encoder} {sv : Server} {version : BitVec 32} {q : Request} {w : World}
    (hw : Ready w.conn) (hl : q.name.length + 9 < 2 ^ 32) (hf : Free q.name) (h : AssocMap.find sv.funcs q.name = none) :
    call E sv true version q.name q.arg q.val q.res w = .ok (.notFound (word q.name).1, ⟨some ⟨[], [], false, true⟩, w.log⟩) := by
  have h1 := getConn_ready E sv w.conn w.log hw
  have h2 := round_notFound E sv false q.name (toLE 4 version.toNat ++ E.arg q.arg q.val) (by omega) hf h
  rw [← List.append_assoc] at h2
  have h3 := send_idle_closed (log := w.log) h2
  have h4 := recv_str (notFoundMsg ++ 32 :: q.name) [] [] [] false (by
    simp only [List.length_append, List.length_cons]
    have : notFoundMsg.length = 8 := rfl
    omega)
  rw [List.append_nil] at h4
  have h5 : notFoundMsg ++ 32 :: q.name ≠ okMsg := by
    simp [notFoundMsg, okMsg]
  simp only [call, h1, bind, Except.bind, h3, h4, if_pos h5, gen_notFound]

theorem call_mismatch {E : Encoder} {sv : Server} {version : BitVec 32} {q : Request} {w : World} {f : Fn}
    (hw : Ready w.conn) (hl : q.name.length < 2 ^ 32) (hf : Free q.name) (h : AssocMap.find sv.funcs q.name = some f)
    (hv : version ≠ sv.version) :
    call E sv true version q.name q.arg q.val q.res w =
      .ok (.mismatch sv.version.toInt version.toInt, ⟨some ⟨[], [], false, true⟩, w.log⟩) := by
  have h1 := getConn_ready E sv w.conn w.log hw
  have h2 := round_mismatch E sv false q.name version f (E.arg q.arg q.val) hl hf h hv
  have h3 := send_idle_closed (log := w.log) h2
  have h4 := recv_str (mismatchMsg ++ 32 :: showInt sv.version.toInt ++ 32 :: showInt version.toInt) [] [] [] false (by
    have a := showInt_length sv.version
    have b := showInt_length version
    have : mismatchMsg.length = 15 := rfl
    simp only [List.length_append, List.length_cons]
    omega)
  rw [List.append_nil] at h4
  have h5 : mismatchMsg ++ 32 :: showInt sv.version.toInt ++ 32 :: showInt version.toInt ≠ okMsg := by
    simp [mismatchMsg, okMsg]
  simp only [call, h1, bind, Except.bind, h3, h4, if_pos h5, gen_mismatch]

/-! ### Requests that break off -/

theorem prefix_split {p q a b : List UInt8} (h : p ++ q = a ++ b) :
    (∃ x, x ≠ [] ∧ a = p ++ x) ∨ (∃ y, p = a ++ y ∧ y ++ q = b) := by
  rcases List.append_eq_append_iff.1 h with ⟨x, h1, h2⟩ | ⟨y, h1, h2⟩
  · by_cases hx : x = []
    · subst hx
      exact .inr ⟨[], by simpa using h1.symm, by simpa using h2⟩
    · exact .inl ⟨x, hx, h1⟩
  · exact .inr ⟨y, h1, h2.symm⟩

end Verif.Rpc.Lemmas
