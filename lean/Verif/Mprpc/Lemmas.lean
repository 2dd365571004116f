import Verif.Mprpc.Spec
import Verif.Mprpc.MsgPackLemmas
/-! # Lemmas on MessagePack-RPC -/
namespace Verif.Mprpc.Lemmas
open Verif.Mprpc Verif.Mprpc.Spec

/-- The bytes of the request of call `i`, and of the response to it. -/
def reqBytes (cs : Calls) (i : Nat) : Str :=
  match cs[i]? with
  | some c => pack (reqObj (BitVec.ofNat 32 i) c.1 c.2)
  | none => []

def respBytes (fs : Funcs) (cs : Calls) (i : Nat) : Str :=
  match cs[i]? with
  | some c =>
    match handle fs c.1 c.2 with
    | .reply e r _ => pack (respObj (BitVec.ofNat 32 i) e r)
    | _ => []
  | none => []

/-- Call `i` has the response `e`, `r`. -/
def Replies (fs : Funcs) (cs : Calls) (i : Nat) (e r : Obj) : Prop := ∃ n p l, cs[i]? = some (n, p) ∧ handle fs n p = .reply e r l

def Silent (fs : Funcs) (cs : Calls) (i : Nat) : Prop := ∃ n p l, cs[i]? = some (n, p) ∧ handle fs n p = .silent l

/-- What has been written of the request being written. -/
def written (s : State) : Str :=
  match s.phase with
  | .writing _ rest => (reqBytes s.calls (s.calls.length - 1)).take ((reqBytes s.calls (s.calls.length - 1)).length - rest.length)
  | _ => []

structure Inv (fs : Funcs) (s : State) : Prop where
  seq : s.seq = BitVec.ofNat 32 s.calls.length
  fit : ∀ c ∈ s.calls, ReqFits c.1 c.2
  sorted : (s.pending ++ s.queue).Pairwise (· < ·)
  bound : ∀ i ∈ s.pending ++ s.queue, i < s.calls.length ∧ s.calls.length ≤ i + 2 ^ 32
  writing : ∀ id rest, s.phase = .writing id rest → s.calls ≠ [] ∧ id = BitVec.ofNat 32 (s.calls.length - 1) ∧ rest ≠ [] ∧
    (∃ w, w ++ rest = reqBytes s.calls (s.calls.length - 1)) ∧ (∀ i ∈ s.pending ++ s.queue, i < s.calls.length - 1)
  waiting : ∀ id, s.phase = .waiting id → s.calls ≠ [] ∧ id = BitVec.ofNat 32 (s.calls.length - 1)
  inb : s.up = true → s.sbuf ++ s.toServer = s.queue.flatMap (reqBytes s.calls) ++ written s
  outb : s.cbuf ++ s.toClient = s.pending.flatMap (respBytes fs s.calls)
  rep : ∀ i ∈ s.pending, ∃ e r, Replies fs s.calls i e r
  res : ∀ x ∈ s.results, Replies fs s.calls x.1 x.2.1 x.2.2
  resSorted : s.results.Pairwise (fun x y => x.1 < y.1)
  resBound : ∀ x ∈ s.results, x.1 < s.calls.length ∧ (s.phase ≠ .idle → x.1 < s.calls.length - 1)
  log : ∃ hs : List Nat, hs.Pairwise (· < ·) ∧ (∀ i ∈ hs, ∀ j ∈ s.queue, i < j) ∧
    (∀ i ∈ hs, i < s.calls.length ∧ ∀ id rest, s.phase = .writing id rest → i < s.calls.length - 1) ∧
    s.log = hs.flatMap (invoked fs s.calls) ∧ (∀ i ∈ s.pending, i ∈ hs) ∧ ∀ x ∈ s.results, x.1 ∈ hs
  fate : s.up = true → ∀ id, s.phase = .waiting id → s.calls.length - 1 ∈ s.queue ∨ s.calls.length - 1 ∈ s.pending ∨
    s.calls.length - 1 ∈ s.lost ∨ Silent fs s.calls (s.calls.length - 1)

/-! ### Messages -/

theorem message_req (id : BitVec 32) (name : Str) (param : Obj) : message (reqObj id name param) = some ⟨0, id, .raw name, param⟩ := by
  have h : (id.setWidth 64).toNat < 2 ^ 32 := by simp only [BitVec.toNat_setWidth]; have := id.isLt; omega
  have e : (id.setWidth 64).setWidth 32 = id := by simp
  simp only [message, reqObj]
  rw [if_pos ⟨by decide, h⟩, e]
  rfl

theorem message_resp (id : BitVec 32) (e r : Obj) : message (respObj id e r) = some ⟨1, id, e, r⟩ := by
  have h : (id.setWidth 64).toNat < 2 ^ 32 := by simp only [BitVec.toNat_setWidth]; have := id.isLt; omega
  have e : (id.setWidth 64).setWidth 32 = id := by simp
  simp only [message, respObj]
  rw [if_pos ⟨by decide, h⟩, e]
  rfl

theorem fits_req {id : BitVec 32} {name : Str} {param : Obj} (h : ReqFits name param) : Fits depth (reqObj id name param) := by
  refine ⟨show 4 < 2 ^ 32 by decide, ?_⟩
  intro o ho
  simp only [List.mem_cons, List.not_mem_nil, or_false] at ho
  rcases ho with rfl | rfl | rfl | rfl
  · trivial
  · trivial
  · exact h.1
  · exact h.2

theorem fits_resp {id : BitVec 32} {e r : Obj} (he : Fits (depth - 1) e) (hr : Fits (depth - 1) r) : Fits depth (respObj id e r) := by
  refine ⟨show 4 < 2 ^ 32 by decide, ?_⟩
  intro o ho
  simp only [List.mem_cons, List.not_mem_nil, or_false] at ho
  rcases ho with rfl | rfl | rfl | rfl
  · trivial
  · trivial
  · exact he
  · exact hr

theorem handle_fits {fs : Funcs} (hf : FuncsFit fs) {name : Str} {param : Obj} (h : ReqFits name param) {e r : Obj} {l : List Call}
    (hh : handle fs name param = .reply e r l) : Fits (depth - 1) e ∧ Fits (depth - 1) r := by
  unfold handle at hh
  split at hh
  · cases hh
    exact ⟨trivial, h.1⟩
  · rename_i f hfn
    split at hh
    · cases hh
      exact ⟨trivial, trivial⟩
    · cases hh
    · rename_i as has
      split at hh
      · rename_i r' hr
        cases hh
        exact ⟨trivial, (hf name f hfn param as h.2 has).1 r' hr⟩
      · cases hh
      · rename_i what hw
        cases hh
        exact ⟨(hf name f hfn param as h.2 has).2 what hw, trivial⟩
      · cases hh

theorem reqBytes_append {cs : Calls} {i : Nat} (h : i < cs.length) (l : Calls) : reqBytes (cs ++ l) i = reqBytes cs i := by
  simp only [reqBytes, List.getElem?_append_left h]

theorem respBytes_append {fs : Funcs} {cs : Calls} {i : Nat} (h : i < cs.length) (l : Calls) :
    respBytes fs (cs ++ l) i = respBytes fs cs i := by
  simp only [respBytes, List.getElem?_append_left h]

theorem invoked_append {fs : Funcs} {cs : Calls} {i : Nat} (h : i < cs.length) (l : Calls) : invoked fs (cs ++ l) i = invoked fs cs i := by
  simp only [invoked, List.getElem?_append_left h]

theorem replies_append {fs : Funcs} {cs : Calls} {i : Nat} {e r : Obj} (h : Replies fs cs i e r) (l : Calls) :
    Replies fs (cs ++ l) i e r := by
  obtain ⟨n, p, c, h1, h2⟩ := h
  have := (List.getElem?_eq_some_iff.1 h1).1
  exact ⟨n, p, c, by rw [List.getElem?_append_left this, h1], h2⟩

theorem flatMap_congr {α β : Type} {l : List α} {f g : α → List β} (h : ∀ x ∈ l, f x = g x) : l.flatMap f = l.flatMap g := by
  induction l with
  | nil => rfl
  | cons x l ih =>
    rw [List.flatMap_cons, List.flatMap_cons, h x (List.mem_cons_self ..), ih fun y hy => h y (List.mem_cons_of_mem _ hy)]

theorem flatMap_congr' {α : Type} {β : Type 1} {l : List α} {f g : α → List β} (h : ∀ x ∈ l, f x = g x) : l.flatMap f = l.flatMap g := by
  induction l with
  | nil => rfl
  | cons x l ih =>
    rw [List.flatMap_cons, List.flatMap_cons, h x (List.mem_cons_self ..), ih fun y hy => h y (List.mem_cons_of_mem _ hy)]

theorem id_inj {i n : Nat} (h1 : i ≤ n) (h2 : n < i + 2 ^ 32) (h : BitVec.ofNat 32 i = BitVec.ofNat 32 n) : i = n := by
  have := congrArg BitVec.toNat h
  simp only [BitVec.toNat_ofNat] at this
  omega

/-! ### Events -/

theorem inv_new (fs : Funcs) : Inv fs new := by
  constructor
  case log => exact ⟨[], by simp [new]⟩
  all_goals simp [new, written]

theorem inv_call {fs : Funcs} {s s' : State} {name : Str} {param : Obj} (h : Inv fs s) (hc : Clean s (.call name param))
    (hs : step fs s (.call name param) = some s') : Inv fs s' := by
  simp only [step] at hs
  split at hs
  case h_2 => cases hs
  rename_i hp
  cases hs
  have hlen : (s.calls ++ [(name, param)]).length = s.calls.length + 1 := by simp
  have hreq : reqBytes (s.calls ++ [(name, param)]) s.calls.length = pack (reqObj s.seq name param) := by
    simp [reqBytes, h.seq]
  have hq : ∀ i ∈ s.pending ++ s.queue, i < s.calls.length := fun i hi => (h.bound i hi).1
  constructor
  · simp [h.seq, BitVec.ofNat_add]
  · intro c hc'
    rcases List.mem_append.1 hc' with hc' | hc'
    · exact h.fit c hc'
    · cases List.mem_singleton.1 hc'
      exact hc.1
  · exact h.sorted
  · intro i hi
    have := hc.2 i hi
    have := (h.bound i hi).1
    simp only [hlen]
    omega
  · intro id rest e
    cases e
    simp only [hlen, Nat.add_sub_cancel, hreq, h.seq, true_and]
    exact ⟨by simp, pack_ne_nil depth _ (fits_req hc.1), ⟨[], rfl⟩, hq⟩
  · intro id e
    cases e
  · intro hup
    have := h.inb hup
    simp only [written, hp, List.append_nil] at this
    simp only [written, hlen, Nat.add_sub_cancel, hreq, Nat.sub_self, List.take_zero, List.append_nil, this]
    exact flatMap_congr fun i hi => (reqBytes_append (hq i (List.mem_append_right _ hi)) _).symm
  · rw [h.outb]
    exact flatMap_congr fun i hi => (respBytes_append (hq i (List.mem_append_left _ hi)) _).symm
  · intro i hi
    obtain ⟨e, r, h'⟩ := h.rep i hi
    exact ⟨e, r, replies_append h' _⟩
  · intro x hx
    exact replies_append (h.res x hx) _
  · exact h.resSorted
  · intro x hx
    have := (h.resBound x hx).1
    simp only [hlen]
    omega
  · obtain ⟨hs, h1, h2, h3, h4, h5, h6⟩ := h.log
    refine ⟨hs, h1, h2, ?_, ?_, h5, h6⟩
    · intro i hi
      have := (h3 i hi).1
      simp only [hlen]
      refine ⟨by omega, fun _ _ _ => by omega⟩
    · rw [h4]
      exact flatMap_congr' fun i hi => (invoked_append (h3 i hi).1 _).symm
  · intro _ id e
    cases e

theorem inv_write {fs : Funcs} {s s' : State} {n : Nat} (h : Inv fs s) (hs : step fs s (.write n) = some s') : Inv fs s' := by
  simp only [step] at hs
  split at hs
  case h_2 => cases hs
  rename_i id rest hp
  obtain ⟨w1, w2, w3, ⟨w, w4⟩, w5⟩ := h.writing id rest hp
  have hlt : s.calls.length - 1 < s.calls.length := by
    have := List.length_pos_iff.2 w1
    omega
  have hwr : written s = w := by
    simp only [written, hp, ← w4, List.length_append, Nat.add_sub_cancel, List.take_left']
  split at hs
  · cases hs
  · rename_i hn
    split at hs
    · rename_i hn2
      cases hs
      refine ⟨h.seq, h.fit, h.sorted, h.bound, ?_, ?_, ?_, h.outb, h.rep, h.res, h.resSorted, ?_, ?_, ?_⟩
      · intro id' rest' e
        cases e
        refine ⟨w1, w2, ?_, ⟨w ++ rest.take n, ?_⟩, w5⟩
        · simp only [ne_eq, List.drop_eq_nil_iff]
          omega
        · rw [List.append_assoc, List.take_append_drop, w4]
      · intro id' e
        cases e
      · intro hup
        have := h.inb hup
        rw [hwr] at this
        have e : written { s with phase := .writing id (rest.drop n), toServer := s.toServer ++ rest.take n } = w ++ rest.take n := by
          simp only [written, ← w4]
          have : (w ++ rest).length - (rest.drop n).length = w.length + n := by simp; omega
          rw [this, List.take_append, List.take_of_length_le (by omega), Nat.add_sub_cancel_left]
        rw [e, ← List.append_assoc, this, List.append_assoc]
      · intro x hx
        have := h.resBound x hx
        rw [hp] at this
        exact ⟨this.1, fun _ => this.2 (by simp)⟩
      · obtain ⟨hs, h1, h2, h3, h4, h5, h6⟩ := h.log
        exact ⟨hs, h1, h2, fun i hi => ⟨(h3 i hi).1, fun _ _ _ => (h3 i hi).2 _ _ hp⟩, h4, h5, h6⟩
      · intro _ id e
        cases e
    · rename_i hn2
      cases hs
      refine ⟨h.seq, h.fit, ?_, ?_, ?_, ?_, ?_, h.outb, h.rep, h.res, h.resSorted, ?_, ?_, ?_⟩
      · simp only [← List.append_assoc]
        rw [List.pairwise_append]
        refine ⟨h.sorted, by simp, ?_⟩
        intro a ha b hb
        cases List.mem_singleton.1 hb
        exact w5 a ha
      · intro i hi
        simp only [← List.append_assoc] at hi
        rcases List.mem_append.1 hi with hi | hi
        · exact h.bound i hi
        · cases List.mem_singleton.1 hi
          simp only
          omega
      · intro id' rest' e
        cases e
      · intro id' e
        cases e
        exact ⟨w1, w2⟩
      · intro hup
        have := h.inb hup
        rw [hwr] at this
        simp only [written, List.append_nil, List.flatMap_append, List.flatMap_cons, List.flatMap_nil, ← w4]
        rw [← List.append_assoc, this, List.append_assoc]
      · intro x hx
        have := h.resBound x hx
        rw [hp] at this
        exact ⟨this.1, fun _ => this.2 (by simp)⟩
      · obtain ⟨hs, h1, h2, h3, h4, h5, h6⟩ := h.log
        refine ⟨hs, h1, ?_, fun i hi => ⟨(h3 i hi).1, fun _ _ e => by cases e⟩, h4, h5, h6⟩
        intro i hi j hj
        rcases List.mem_append.1 hj with hj | hj
        · exact h2 i hi j hj
        · cases List.mem_singleton.1 hj
          exact (h3 i hi).2 _ _ hp
      · intro _ _ _
        left
        simp

/-- The client goes idle. -/
theorem inv_idle {fs : Funcs} {s : State} (h : Inv fs s) (hw : written s = []) : Inv fs { s with phase := .idle } := by
  refine ⟨h.seq, h.fit, h.sorted, h.bound, ?_, ?_, ?_, h.outb, h.rep, h.res, h.resSorted, ?_, ?_, ?_⟩
  · intro _ _ e
    cases e
  · intro _ e
    cases e
  · intro hup
    have := h.inb hup
    rw [hw] at this
    exact this
  · intro x hx
    exact ⟨(h.resBound x hx).1, fun e => absurd rfl e⟩
  · obtain ⟨hs, h1, h2, h3, h4, h5, h6⟩ := h.log
    exact ⟨hs, h1, h2, fun i hi => ⟨(h3 i hi).1, fun _ _ e => by cases e⟩, h4, h5, h6⟩
  · intro _ _ e
    cases e

theorem inv_cut {fs : Funcs} {s s' : State} (h : Inv fs s) (hc : Clean s .cut) (hs : step fs s .cut = some s') : Inv fs s' := by
  simp only [step] at hs
  split at hs
  case h_2 => cases hs
  rename_i id rest hp
  cases hs
  apply inv_idle h
  obtain ⟨c, c1, c2⟩ := hc id rest hp
  obtain ⟨w1, w2, w3, ⟨w, w4⟩, w5⟩ := h.writing id rest hp
  rw [List.getLast?_eq_getElem?] at c1
  have : reqBytes s.calls (s.calls.length - 1) = rest := by
    simp only [reqBytes, c1, c2, w2]
  simp [written, hp, this]

theorem inv_sclose {fs : Funcs} {s s' : State} (h : Inv fs s) (hs : step fs s .sclose = some s') : Inv fs s' := by
  simp only [step] at hs
  cases hs
  exact ⟨h.seq, h.fit, h.sorted, h.bound, h.writing, h.waiting, (fun e => by cases e), h.outb, h.rep, h.res, h.resSorted, h.resBound, h.log,
    (fun e => by cases e)⟩

theorem inv_timeout {fs : Funcs} {s s' : State} (h : Inv fs s) (hs : step fs s .timeout = some s') : Inv fs s' := by
  simp only [step] at hs
  split at hs
  case h_2 => cases hs
  rename_i id hp
  split at hs
  · cases hs
  · cases hs
    exact inv_idle h (by simp [written, hp])

theorem inv_eof {fs : Funcs} {s s' : State} (h : Inv fs s) (hs : step fs s .eof = some s') : Inv fs s' := by
  simp only [step] at hs
  split at hs
  case h_2 => cases hs
  rename_i id hp
  split at hs
  · cases hs
  · cases hs
    exact inv_idle h (by simp [written, hp])

theorem inv_arrive {fs : Funcs} {s s' : State} {n : Nat} (h : Inv fs s) (hs : step fs s (.arrive n) = some s') : Inv fs s' := by
  simp only [step] at hs
  split at hs
  case h_2 => cases hs
  split at hs
  · cases hs
  · cases hs
    refine ⟨h.seq, h.fit, h.sorted, h.bound, h.writing, h.waiting, h.inb, ?_, h.rep, h.res, h.resSorted, h.resBound, h.log, h.fate⟩
    rw [List.append_assoc, List.take_append_drop]
    exact h.outb

theorem inv_sarrive {fs : Funcs} {s s' : State} {n : Nat} (h : Inv fs s) (hs : step fs s (.sarrive n) = some s') : Inv fs s' := by
  simp only [step] at hs
  split at hs
  · cases hs
  · cases hs
    refine ⟨h.seq, h.fit, h.sorted, h.bound, h.writing, h.waiting, ?_, h.outb, h.rep, h.res, h.resSorted, h.resBound, h.log, h.fate⟩
    intro hup
    rw [List.append_assoc, List.take_append_drop]
    exact h.inb hup

/-- The unpacker finds the first message of the stream, or waits. -/
theorem unpack_stream {o : Obj} (h : Fits depth o) {buf net rest : Str} (e : buf ++ net = pack o ++ rest) :
    (unpack depth buf = .more ∧ ∃ x, x ≠ [] ∧ net = x ++ rest) ∨ ∃ y, buf = pack o ++ y ∧ y ++ net = rest ∧ unpack depth buf = .ok o y := by
  rcases List.append_eq_append_iff.1 e with ⟨x, h1, h2⟩ | ⟨y, h1, h2⟩
  · by_cases hx : x = []
    · subst hx
      right
      refine ⟨[], by simp [h1], by simp [h2], ?_⟩
      have := unpack_pack depth o h []
      rw [List.append_nil] at this h1
      rw [← h1, this]
    · left
      exact ⟨unpack_prefix h h1.symm hx, x, hx, h2⟩
  · right
    exact ⟨y, h1, h2.symm, by rw [h1, unpack_pack depth o h]⟩

theorem inv_take {fs : Funcs} (hf : FuncsFit fs) {s s' : State} (h : Inv fs s) (hs : step fs s .take = some s') : Inv fs s' := by
  simp only [step] at hs
  split at hs
  case h_2 => cases hs
  rename_i id hp
  obtain ⟨w1, w2⟩ := h.waiting id hp
  have hout := h.outb
  cases hpe : s.pending with
  | nil =>
    rw [hpe, List.flatMap_nil, List.append_eq_nil_iff] at hout
    rw [hout.1, unpack_nil] at hs
    cases hs
  | cons i ps =>
    obtain ⟨e, r, n, p, l, h1, h2⟩ := h.rep i (by simp [hpe])
    have hrf : ReqFits n p := h.fit (n, p) (List.mem_of_getElem? h1)
    obtain ⟨f1, f2⟩ := handle_fits hf hrf h2
    rw [hpe, List.flatMap_cons] at hout
    have hb : respBytes fs s.calls i = pack (respObj (BitVec.ofNat 32 i) e r) := by simp only [respBytes, h1, h2]
    rw [hb] at hout
    rcases unpack_stream (fits_resp f1 f2) hout with ⟨hu, -⟩ | ⟨y, -, hy, hu⟩
    · rw [hu] at hs
      cases hs
    · have hsort := h.sorted
      have hbound := h.bound
      rw [hpe] at hsort hbound
      simp only [List.cons_append, List.pairwise_cons] at hsort
      obtain ⟨b1, b2⟩ := hbound i (by simp)
      have hlast : BitVec.ofNat 32 i = id → i = s.calls.length - 1 := by
        intro e
        rw [w2] at e
        exact id_inj (by omega) (by omega) e
      have base : Inv fs { s with cbuf := y, pending := s.pending.tail, phase := .idle } := by
        refine ⟨h.seq, h.fit, ?_, ?_, ?_, ?_, ?_, ?_, ?_, h.res, h.resSorted, ?_, ?_, ?_⟩
        · simp only [hpe, List.tail_cons]
          exact hsort.2
        · intro j hj
          simp only [hpe, List.tail_cons] at hj
          exact hbound j (List.mem_cons_of_mem _ hj)
        · intro _ _ e
          cases e
        · intro _ e
          cases e
        · intro hup
          have := h.inb hup
          simp only [written, hp] at this
          exact this
        · simp only [hpe, List.tail_cons]
          exact hy
        · intro j hj
          exact h.rep j (List.mem_of_mem_tail hj)
        · intro x hx
          exact ⟨(h.resBound x hx).1, fun e => absurd rfl e⟩
        · obtain ⟨hs, h1, h2, h3, h4, h5, h6⟩ := h.log
          exact ⟨hs, h1, h2, fun i hi => ⟨(h3 i hi).1, fun _ _ e => by cases e⟩, h4, fun j hj => h5 j (List.mem_of_mem_tail hj), h6⟩
        · intro _ _ e
          cases e
      rw [hu] at hs
      simp only [message_resp] at hs
      rw [if_neg (by decide)] at hs
      split at hs
      · rename_i hne
        cases hs
        refine ⟨h.seq, h.fit, base.sorted, base.bound, ?_, ?_, h.inb, base.outb, base.rep, h.res, h.resSorted, h.resBound, ?_, ?_⟩
        · intro id' rest' e
          simp only [hp] at e
          cases e
        · exact h.waiting
        · obtain ⟨hs, h1, h2, h3, h4, h5, h6⟩ := h.log
          exact ⟨hs, h1, h2, h3, h4, fun j hj => h5 j (List.mem_of_mem_tail hj), h6⟩
        · intro hup id' e
          have := h.fate hup id' e
          rw [hpe] at this
          simp only [hpe, List.tail_cons]
          rcases this with this | this | this | this
          · exact .inl this
          · rcases List.mem_cons.1 this with this | this
            · exfalso
              apply hne
              rw [w2, this]
            · exact .inr (.inl this)
          · exact .inr (.inr (.inl this))
          · exact .inr (.inr (.inr this))
      · rename_i hne
        have hi := hlast (by simpa using hne)
        cases hs
        refine ⟨h.seq, h.fit, base.sorted, base.bound, ?_, ?_, base.inb, base.outb, base.rep, ?_, ?_, ?_, ?_, ?_⟩
        · intro _ _ e
          cases e
        · intro _ e
          cases e
        · intro x hx
          rcases List.mem_append.1 hx with hx | hx
          · exact h.res x hx
          · cases List.mem_singleton.1 hx
            rw [← hi]
            exact ⟨n, p, l, h1, h2⟩
        · simp only
          rw [List.pairwise_append]
          refine ⟨h.resSorted, by simp, ?_⟩
          intro a ha b hb
          cases List.mem_singleton.1 hb
          exact (h.resBound a ha).2 (by simp [hp])
        · intro x hx
          refine ⟨?_, fun e => absurd rfl e⟩
          rcases List.mem_append.1 hx with hx | hx
          · exact (h.resBound x hx).1
          · cases List.mem_singleton.1 hx
            simp only
            omega
        · obtain ⟨hs, h1, h2, h3, h4, h5, h6⟩ := h.log
          refine ⟨hs, h1, h2, fun i hi => ⟨(h3 i hi).1, fun _ _ e => by cases e⟩, h4, fun j hj => h5 j (List.mem_of_mem_tail hj), ?_⟩
          intro x hx
          rcases List.mem_append.1 hx with hx | hx
          · exact h6 x hx
          · cases List.mem_singleton.1 hx
            simp only
            rw [← hi]
            exact h5 i (by simp [hpe])
        · intro _ _ e
          cases e

theorem inv_down {fs : Funcs} {s : State} (h : Inv fs s) (buf : Str) (f : Option Fault) :
    Inv fs { s with sbuf := buf, up := false, fault := f } :=
  ⟨h.seq, h.fit, h.sorted, h.bound, h.writing, h.waiting, (fun e => by cases e), h.outb, h.rep, h.res, h.resSorted, h.resBound, h.log,
    (fun e => by cases e)⟩

/-- What the server finds in its unpacker: the first request that was written, or nothing yet. -/
theorem server_reads {fs : Funcs} {s : State} (h : Inv fs s) (hup : s.up = true) :
    unpack depth s.sbuf = .more ∨ ∃ j qs n p y, s.queue = j :: qs ∧ s.calls[j]? = some (n, p) ∧ ReqFits n p ∧
      y ++ s.toServer = qs.flatMap (reqBytes s.calls) ++ written s ∧ unpack depth s.sbuf = .ok (reqObj (BitVec.ofNat 32 j) n p) y := by
  have hin := h.inb hup
  cases hq : s.queue with
  | nil =>
    left
    rw [hq, List.flatMap_nil, List.nil_append] at hin
    by_cases hw : ∃ id rest, s.phase = .writing id rest
    · obtain ⟨id, rest, hp⟩ := hw
      obtain ⟨w1, w2, w3, ⟨w, w4⟩, w5⟩ := h.writing id rest hp
      have hwr : written s = w := by
        simp only [written, hp, ← w4, List.length_append, Nat.add_sub_cancel, List.take_left']
      have hlt : s.calls.length - 1 < s.calls.length := by
        have := List.length_pos_iff.2 w1
        omega
      have hc : s.calls[s.calls.length - 1]? = some s.calls[s.calls.length - 1] := List.getElem?_eq_getElem hlt
      have hb : reqBytes s.calls (s.calls.length - 1) =
          pack (reqObj (BitVec.ofNat 32 (s.calls.length - 1)) s.calls[s.calls.length - 1].1 s.calls[s.calls.length - 1].2) := by
        simp only [reqBytes, hc]
      refine unpack_prefix (q := s.toServer ++ rest) (fits_req (id := BitVec.ofNat 32 (s.calls.length - 1)) (h.fit _ (List.getElem_mem hlt))) ?_ (by simp [w3])
      rw [← hb, ← w4, ← hwr, ← hin, List.append_assoc]
    · have hwr : written s = [] := by
        unfold written
        split
        · rename_i id rest hp
          exact absurd ⟨id, rest, hp⟩ hw
        · rfl
      rw [hwr, List.append_eq_nil_iff] at hin
      rw [hin.1, unpack_nil]
  | cons j qs =>
    obtain ⟨b1, b2⟩ := h.bound j (by simp [hq])
    have hc : s.calls[j]? = some s.calls[j] := List.getElem?_eq_getElem b1
    have hb : reqBytes s.calls j = pack (reqObj (BitVec.ofNat 32 j) s.calls[j].1 s.calls[j].2) := by
      simp only [reqBytes, hc]
    have hr := h.fit _ (List.getElem_mem b1)
    rw [hq, List.flatMap_cons, hb, List.append_assoc] at hin
    rcases unpack_stream (fits_req hr) hin with ⟨hu, -⟩ | ⟨y, -, hy, hu⟩
    · exact .inl hu
    · exact .inr ⟨j, qs, s.calls[j].1, s.calls[j].2, y, rfl, hc, hr, hy, hu⟩

/-- Call `j` has been handled, with a response or without. -/
theorem inv_handled {fs : Funcs} {s : State} (h : Inv fs s) {j : Nat} {qs : List Nat} {y out : Str} {ps ls : List Nat}
    (hup : s.up = true) (hq : s.queue = j :: qs) (hy : y ++ s.toServer = qs.flatMap (reqBytes s.calls) ++ written s)
    (hout : (ps = s.pending ∧ out = s.toClient ∧ (j ∈ ls ∨ Silent fs s.calls j)) ∨
      (ps = s.pending ++ [j] ∧ out = s.toClient ++ respBytes fs s.calls j ∧ ∃ e r, Replies fs s.calls j e r))
    (hls : ∀ i ∈ s.lost, i ∈ ls) :
    Inv fs { s with sbuf := y, toClient := out, queue := qs, pending := ps, lost := ls, log := s.log ++ invoked fs s.calls j } := by
  have hsort := h.sorted
  have hbound := h.bound
  rw [hq] at hsort hbound
  have hsub : ∀ i, i ∈ ps ++ qs → i ∈ s.pending ++ j :: qs := by
    intro i hi
    rcases hout with ⟨rfl, -⟩ | ⟨rfl, -⟩ <;> simp only [List.mem_append, List.mem_cons, List.mem_singleton] at hi ⊢ <;> grind
  have hjq : ∀ i ∈ qs, j < i := by
    rw [List.pairwise_append, List.pairwise_cons] at hsort
    exact hsort.2.1.1
  have hqq : qs.Pairwise (· < ·) := by
    rw [List.pairwise_append, List.pairwise_cons] at hsort
    exact hsort.2.1.2
  refine ⟨h.seq, h.fit, ?_, ?_, ?_, h.waiting, ?_, ?_, ?_, h.res, h.resSorted, h.resBound, ?_, ?_⟩
  · rcases hout with ⟨rfl, -⟩ | ⟨rfl, -⟩
    · refine hsort.sublist ?_
      exact (List.sublist_cons_self _ _).append_left _
    · simpa using hsort
  · intro i hi
    exact hbound i (hsub i hi)
  · intro id rest hp
    obtain ⟨w1, w2, w3, w4, w5⟩ := h.writing id rest hp
    refine ⟨w1, w2, w3, w4, fun i hi => w5 i ?_⟩
    rw [hq]
    exact hsub i hi
  · intro _
    exact hy
  · have := h.outb
    rcases hout with ⟨rfl, rfl, -⟩ | ⟨rfl, rfl, -⟩
    · exact this
    · simp only [List.flatMap_append, List.flatMap_cons, List.flatMap_nil, List.append_nil, ← List.append_assoc, this]
  · intro i hi
    rcases hout with ⟨rfl, -⟩ | ⟨rfl, -, hr⟩
    · exact h.rep i hi
    · rcases List.mem_append.1 hi with hi | hi
      · exact h.rep i hi
      · cases List.mem_singleton.1 hi
        exact hr
  · obtain ⟨hs, h1, h2, h3, h4, h5, h6⟩ := h.log
    refine ⟨hs ++ [j], ?_, ?_, ?_, ?_, ?_, ?_⟩
    · rw [List.pairwise_append]
      refine ⟨h1, by simp, ?_⟩
      intro a ha b hb
      cases List.mem_singleton.1 hb
      exact h2 a ha j (by simp [hq])
    · intro i hi k hk
      rcases List.mem_append.1 hi with hi | hi
      · exact h2 i hi k (by simp [hq, show k ∈ qs from hk])
      · cases List.mem_singleton.1 hi
        exact hjq k hk
    · intro i hi
      rcases List.mem_append.1 hi with hi | hi
      · exact h3 i hi
      · cases List.mem_singleton.1 hi
        refine ⟨(hbound j (by simp)).1, fun id rest hp => ?_⟩
        exact (h.writing id rest hp).2.2.2.2 j (by simp [hq])
    · simp [h4]
    · intro i hi
      rcases hout with ⟨rfl, -⟩ | ⟨rfl, -⟩
      · exact List.mem_append_left _ (h5 i hi)
      · rcases List.mem_append.1 hi with hi | hi
        · exact List.mem_append_left _ (h5 i hi)
        · exact List.mem_append_right _ hi
    · intro x hx
      exact List.mem_append_left _ (h6 x hx)
  · intro _ id hp
    have := h.fate hup id hp
    rw [hq] at this
    simp only
    rcases this with this | this | this | this
    · rcases List.mem_cons.1 this with this | this
      · rw [this]
        rcases hout with ⟨-, -, hj | hj⟩ | ⟨rfl, -⟩
        · exact .inr (.inr (.inl hj))
        · exact .inr (.inr (.inr hj))
        · exact .inr (.inl (by simp))
      · exact .inl this
    · right; left
      rcases hout with ⟨rfl, -⟩ | ⟨rfl, -⟩
      · exact this
      · exact List.mem_append_left _ this
    · exact .inr (.inr (.inl (hls _ this)))
    · exact .inr (.inr (.inr this))

theorem inv_stake {fs : Funcs} {s s' : State} {k : Option Nat} (h : Inv fs s) (hc : Clean s (.stake k))
    (hs : step fs s (.stake k) = some s') : Inv fs s' := by
  simp only [step] at hs
  cases hup : s.up with
  | false =>
    rw [hup, if_pos (by rfl)] at hs
    cases hs
  | true =>
    rw [hup, if_neg (by decide)] at hs
    rcases server_reads h hup with hu | ⟨j, qs, n, p, y, hq, hcall, hfit, hy, hu⟩
    · rw [hu] at hs
      cases hs
    · rw [hu] at hs
      simp only [message_req] at hs
      cases hs
      simp only [serve, ne_eq, not_true_eq_false, if_false]
      cases hh : handle fs n p with
      | reply e r l =>
        have hinv : invoked fs s.calls j = l := by simp only [invoked, hcall, hh]
        have hresp : respBytes fs s.calls j = pack (respObj (BitVec.ofNat 32 j) e r) := by simp only [respBytes, hcall, hh]
        cases k with
        | none =>
          have := inv_handled (ls := s.lost) h hup hq hy (.inr ⟨rfl, rfl, e, r, n, p, l, hcall, hh⟩) (fun _ hi => hi)
          rw [hinv, hresp] at this
          simpa only [hup, hq, List.head?_cons, Option.toList_some, List.tail_cons] using this
        | some k =>
          have hk : k = 0 := hc
          subst hk
          have := inv_handled (ls := s.lost ++ [j]) h hup hq hy (.inl ⟨rfl, rfl, .inl (by simp)⟩) (fun _ hi => List.mem_append_left _ hi)
          rw [hinv] at this
          simpa only [hup, hq, List.head?_cons, Option.toList_some, List.tail_cons, List.take_zero, List.append_nil] using this
      | silent l =>
        have hinv : invoked fs s.calls j = l := by simp only [invoked, hcall, hh]
        have := inv_handled (ls := s.lost) h hup hq hy (.inl ⟨rfl, rfl, .inr ⟨n, p, l, hcall, hh⟩⟩) (fun _ hi => hi)
        rw [hinv] at this
        simpa only [hup, hq, List.tail_cons] using this
      | crash => exact inv_down h y _
      | undefined => exact inv_down h y _

theorem inv_step {fs : Funcs} (hf : FuncsFit fs) {s s' : State} {e : Event} (h : Inv fs s) (hc : Clean s e) (hs : step fs s e = some s') :
    Inv fs s' := by
  cases e with
  | call name param => exact inv_call h hc hs
  | write n => exact inv_write h hs
  | cut => exact inv_cut h hc hs
  | arrive n => exact inv_arrive h hs
  | take => exact inv_take hf h hs
  | timeout => exact inv_timeout h hs
  | eof => exact inv_eof h hs
  | sarrive n => exact inv_sarrive h hs
  | stake k => exact inv_stake h hc hs
  | sclose => exact inv_sclose h hs

theorem inv_reach {fs : Funcs} (hf : FuncsFit fs) {s : State} (h : Reach fs s) : Inv fs s := by
  induction h with
  | new => exact inv_new fs
  | step _ hc hs ih => exact inv_step hf ih hc hs

/-- Too many arrays in one another are an error. -/
theorem unpack_nested (d : Nat) (s : Str) : unpack d (List.replicate (d + 1) 0x91 ++ s) = .bad := by
  induction d generalizing s with
  | zero => rfl
  | succ d ih =>
    have h0 : ∀ t, head (0x91 :: t) = .ok (.arr 1) t := fun _ => rfl
    have h : ∀ t, unpack (d + 1) (0x91 :: t) = (many (unpack d) 1 t).bind fun l s => .ok (.arr l) s := fun t => by
      simp only [unpack, h0, Res.bind]
    rw [List.replicate_succ, List.cons_append, h]
    simp only [many, ih, Res.bind]

end Verif.Mprpc.Lemmas
