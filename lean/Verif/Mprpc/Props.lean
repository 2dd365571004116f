import Verif.Mprpc.Lemmas
/-!
# C55: replies match requests
-/
namespace Verif.Mprpc.Props
open Verif.Mprpc Verif.Mprpc.Spec Verif.Mprpc.Lemmas

/-- C55, partial: whatever was delayed, given up after a timeout or refused before, what call `i` returns is the response to call `i`. Missing:
messages of which only a part was written before a timeout (`cut_request_misread`, `cut_reply_misread`). That fewer than 2^32 ids are
outstanding is needed (`ids_wrap`). -/
theorem own_reply_partial {fs : Funcs} (hf : FuncsFit fs) {s : State} (h : Reach fs s) {i : Nat} {e r : Obj} (hr : (i, e, r) ∈ s.results) :
    ∃ name param l, s.calls[i]? = some (name, param) ∧ handle fs name param = .reply e r l :=
  (inv_reach hf h).res _ hr

theorem unpack_args (ts : List Ty) (as : Args ts) (h : ∀ t ∈ ts, Lawful t) : unpackArgs ts (packArgs ts as) = .ok as := by
  induction ts with
  | nil => rfl
  | cons t ts ih =>
    obtain ⟨a, as⟩ := as
    simp only [packArgs, unpackArgs, h t (List.mem_cons_self ..) a, ih as fun t ht => h t (List.mem_cons_of_mem _ ht)]
    rfl

/-- So a call of a registered function gives to its caller what the function gives for the arguments of the call, -/
theorem answer_expected {fs : Funcs} (hf : FuncsFit fs) {s : State} (h : Reach fs s) {i : Nat} {e r : Obj} (hr : (i, e, r) ∈ s.results)
    {name : Str} {f : Fn} {as : Args f.args} (hc : s.calls[i]? = some (name, .arr (packArgs f.args as))) (hn : fs name = some f)
    (ht : ∀ t ∈ f.args, Lawful t) (hres : Lawful f.res) : Expects f as (answer f.res e r) := by
  obtain ⟨n, p, l, h1, h2⟩ := own_reply_partial hf h hr
  rw [hc] at h1
  cases h1
  simp only [handle, hn, paramAs, unpack_args f.args as ht] at h2
  cases hrun : f.run as with
  | ret a =>
    rw [hrun] at h2
    cases h2
    simp only [answer, hres a]
    exact .value hrun
  | rpcError =>
    rw [hrun] at h2
    cases h2
  | exc what =>
    rw [hrun] at h2
    cases h2
    exact .exc hrun
  | other =>
    rw [hrun] at h2
    cases h2

/-- a call of one that is not registered reports its name, -/
theorem answer_notFound {fs : Funcs} (hf : FuncsFit fs) {s : State} (h : Reach fs s) {i : Nat} {e r : Obj} (hr : (i, e, r) ∈ s.results)
    {name : Str} {param : Obj} (hc : s.calls[i]? = some (name, param)) (hn : fs name = none) (t : Ty) :
    answer t e r = .notFound name := by
  obtain ⟨n, p, l, h1, h2⟩ := own_reply_partial hf h hr
  rw [hc] at h1
  cases h1
  simp only [handle, hn] at h2
  cases h2
  rfl

/-- and one with an argument that cannot be converted reports that. -/
theorem answer_mismatch {fs : Funcs} (hf : FuncsFit fs) {s : State} (h : Reach fs s) {i : Nat} {e r : Obj} (hr : (i, e, r) ∈ s.results)
    {name : Str} {f : Fn} {param : Obj} (hc : s.calls[i]? = some (name, param)) (hn : fs name = some f)
    (hp : paramAs f.args param = .error .mismatch) : answer f.res e r = .typeError := by
  obtain ⟨n, p, l, h1, h2⟩ := own_reply_partial hf h hr
  rw [hc] at h1
  cases h1
  simp only [handle, hn, hp] at h2
  cases h2
  rfl

/-- A call returns once at most. -/
theorem one_result {fs : Funcs} (hf : FuncsFit fs) {s : State} (h : Reach fs s) : (s.results.map (·.1)).Nodup := by
  have := (inv_reach hf h).resSorted
  rw [List.Nodup, List.pairwise_map]
  exact this.imp fun h => Nat.ne_of_lt h

/-- The server runs functions in the order of the calls, at most once for each call, and before the call returns: what was run is what some of
the calls ask for, among them all that have returned. -/
theorem in_order {fs : Funcs} (hf : FuncsFit fs) {s : State} (h : Reach fs s) :
    ∃ hs : List Nat, hs.Pairwise (· < ·) ∧ (∀ i ∈ hs, i < s.calls.length) ∧ (∀ x ∈ s.results, x.1 ∈ hs) ∧
      s.log = hs.flatMap (invoked fs s.calls) := by
  obtain ⟨hs, h1, h2, h3, h4, h5, h6⟩ := (inv_reach hf h).log
  exact ⟨hs, h1, fun i hi => (h3 i hi).1, h6, h4⟩

/-- No response is lost under way: if a call waits, and nothing is under way or left to be read, then its function has thrown an `rpc_error`, or
the server could not write the response. -/
theorem waits_for_nothing {fs : Funcs} (hf : FuncsFit fs) {s : State} (h : Reach fs s) {id : BitVec 32} (hp : s.phase = .waiting id)
    (hup : s.up = true) (hq : Quiet s) :
    s.calls.length - 1 ∈ s.lost ∨ ∃ name param l, s.calls.getLast? = some (name, param) ∧ handle fs name param = .silent l := by
  have hi := inv_reach hf h
  obtain ⟨q1, q2, q3, q4⟩ := hq
  rcases hi.fate hup id hp with hm | hm | hm | ⟨n, p, l, h1, h2⟩
  · exfalso
    have hin := hi.inb hup
    rw [q1, List.append_nil] at hin
    have hw : written s = [] := by simp [written, hp]
    rw [hw, List.append_nil] at hin
    cases hqe : s.queue with
    | nil =>
      rw [hqe] at hm
      cases hm
    | cons j qs =>
      obtain ⟨b1, b2⟩ := hi.bound j (by simp [hqe])
      have hc : s.calls[j]? = some s.calls[j] := List.getElem?_eq_getElem b1
      have hb : reqBytes s.calls j = pack (reqObj (BitVec.ofNat 32 j) s.calls[j].1 s.calls[j].2) := by
        simp only [reqBytes, hc]
      rw [hqe, List.flatMap_cons, hb] at hin
      rw [hin] at q3
      simp only [hungry, unpack_pack depth _ (fits_req (hi.fit _ (List.getElem_mem b1)))] at q3
      cases q3
  · exfalso
    have hout := hi.outb
    rw [q2, List.append_nil] at hout
    cases hpe : s.pending with
    | nil =>
      rw [hpe] at hm
      cases hm
    | cons j ps =>
      obtain ⟨e, r, n, p, l, h1, h2⟩ := hi.rep j (by simp [hpe])
      obtain ⟨f1, f2⟩ := handle_fits hf (hi.fit (n, p) (List.mem_of_getElem? h1)) h2
      have hb : respBytes fs s.calls j = pack (respObj (BitVec.ofNat 32 j) e r) := by simp only [respBytes, h1, h2]
      rw [hpe, List.flatMap_cons, hb] at hout
      rw [hout] at q4
      simp only [hungry, unpack_pack depth _ (fits_resp f1 f2)] at q4
      cases q4
  · exact .inl hm
  · right
    refine ⟨n, p, l, ?_, h2⟩
    rw [List.getLast?_eq_getElem?, h1]

/-- The client never gets a new stream (`rpc_client.cpp:50`): once the server has closed the connection, no call begun later returns a
response. -/
theorem dead_stays {fs : Funcs} (hf : FuncsFit fs) {s s' : State} (h : Reach fs s) (hup : s.up = false) (hl : Later fs s s') :
    ∀ x ∈ s'.results, x.1 < s.calls.length := by
  have key : Reach fs s' ∧ s'.up = false ∧ (∀ i ∈ s'.pending, i < s.calls.length) ∧ ∀ x ∈ s'.results, x.1 < s.calls.length := by
    induction hl with
    | refl =>
      have hi := inv_reach hf h
      exact ⟨h, hup, fun i hi' => (hi.bound i (List.mem_append_left _ hi')).1, fun x hx => (hi.resBound x hx).1⟩
    | @step s1 s2 e hl hc hs ih =>
      obtain ⟨r, u, p, q⟩ := ih
      refine ⟨.step r hc hs, ?_⟩
      cases e with
      | take =>
        have hi := inv_reach hf r
        have hi' := inv_step hf hi hc hs
        simp only [step] at hs
        split at hs
        case h_2 => cases hs
        rename_i id hp
        obtain ⟨w1, w2⟩ := hi.waiting id hp
        have hout := hi.outb
        cases hpe : s1.pending with
        | nil =>
          rw [hpe, List.flatMap_nil, List.append_eq_nil_iff] at hout
          rw [hout.1, unpack_nil] at hs
          cases hs
        | cons i ps =>
          obtain ⟨e, r', n, pp, l, h1, h2⟩ := hi.rep i (by simp [hpe])
          obtain ⟨f1, f2⟩ := handle_fits hf (hi.fit (n, pp) (List.mem_of_getElem? h1)) h2
          rw [hpe, List.flatMap_cons] at hout
          have hb : respBytes fs s1.calls i = pack (respObj (BitVec.ofNat 32 i) e r') := by simp only [respBytes, h1, h2]
          rw [hb] at hout
          rcases unpack_stream (fits_resp f1 f2) hout with ⟨hu, -⟩ | ⟨y, -, hy, hu⟩
          · rw [hu] at hs
            cases hs
          · obtain ⟨b1, b2⟩ := hi.bound i (by simp [hpe])
            rw [hu] at hs
            simp only [message_resp] at hs
            rw [if_neg (by decide)] at hs
            split at hs
            · cases hs
              exact ⟨u, fun j hj => p j (List.mem_of_mem_tail hj), q⟩
            · rename_i hne
              have hlast : i = s1.calls.length - 1 := by
                have e : BitVec.ofNat 32 i = id := by simpa using hne
                rw [w2] at e
                exact id_inj (by omega) (by omega) e
              cases hs
              refine ⟨u, fun j hj => p j (List.mem_of_mem_tail hj), ?_⟩
              intro x hx
              rcases List.mem_append.1 hx with hx | hx
              · exact q x hx
              · cases List.mem_singleton.1 hx
                simp only
                rw [← hlast]
                exact p i (by simp [hpe])
      | stake k =>
        simp only [step, u] at hs
        cases hs
      | sarrive n =>
        simp only [step, u, Bool.not_false, true_or, if_true] at hs
        cases hs
      | _ =>
        simp only [step] at hs
        repeat' split at hs
        all_goals first
          | cases hs; done
          | (cases hs; first | exact ⟨u, p, q⟩ | exact ⟨rfl, p, q⟩)
  exact key.2.2.2

/-! ### Where the code falls short, and examples -/

/-- Strings, and unsigned numbers of 32 bits. -/
def strTy : Ty := ⟨Str, .raw, objString, some []⟩
def intTy : Ty := ⟨BitVec 32, fun n => .uint (n.setWidth 64), fun | .uint n => if n.toNat < 2 ^ 32 then some (n.setWidth 32) else none | _ => none, none⟩

/-- A server with the functions `e`, which returns its argument, `d`, which doubles a number, and `t`, which throws an `rpc_error`. -/
def table : Funcs := add (add (add (fun _ => none) [101] ⟨[strTy], strTy, fun a => .ret a.1⟩)
  [100] ⟨[intTy], intTy, fun (a : BitVec 32 × Unit) => .ret (show BitVec 32 from a.1 + a.1)⟩) [116] ⟨[], strTy, fun _ => .rpcError⟩

theorem lawful_str : Lawful strTy := fun _ => rfl

theorem lawful_int : Lawful intTy := by
  intro (n : BitVec 32)
  have h : (n.setWidth 64).toNat < 2 ^ 32 := by simp only [BitVec.toNat_setWidth]; have := n.isLt; omega
  show (if (n.setWidth 64).toNat < 2 ^ 32 then some ((n.setWidth 64).setWidth 32) else none) = some n
  rw [if_pos h]
  simp

/-- The functions invoked, with their arguments packed. -/
def shown (s : State) : List (Str × Str) := s.log.map fun c => (c.name, packs (packArgs c.args c.val))

/-- The call `e(c)`. -/
def ask (c : UInt8) : Event := .call [101] (.arr [.raw [c]])

/-- A call that times out, and whose response arrives during the next call: the next call passes it over. -/
def late : List Event := [ask 97, .write 8, .sarrive 8, .timeout, .stake none, ask 98, .write 3, .write 5, .sarrive 8, .stake none,
  .arrive 9, .take, .arrive 3, .take]

example : (run table new late).map (fun s => (shown s, s.results.map fun x => (x.1, pack x.2.2))) =
    some ([([101], [0xa1, 97]), ([101], [0xa1, 98])], [(1, [0xa1, 98])]) := by decide +kernel

/-- Events other than writes that are given up half-way. -/
def Whole (e : Event) : Prop := e ≠ .cut ∧ ∀ n, e ≠ .stake (some n)

theorem fits_ask (c : UInt8) : ReqFits [101] (.arr [.raw [c]]) := by
  refine ⟨by decide, show 1 < 2 ^ 32 by decide, ?_⟩
  intro o ho
  cases List.mem_singleton.1 ho
  show 1 < 2 ^ 32
  decide

theorem table_fits : FuncsFit table := by
  intro name f hf param as hp has
  simp only [table, add] at hf
  split at hf
  · cases hf
    exact ⟨fun r h => (by cases h), fun w h => (by cases h)⟩
  · split at hf
    · cases hf
      exact ⟨fun r h => trivial, fun w h => (by cases h)⟩
    · split at hf
      · cases hf
        refine ⟨fun r h => ?_, fun w h => (by cases h)⟩
        cases h
        cases param with
        | arr l =>
          cases l with
          | nil =>
            cases has
            show 0 < 2 ^ 32
            decide
          | cons o l =>
            cases o with
            | raw s =>
              cases has
              exact hp.2 (.raw s) (List.mem_cons_self ..)
            | _ => cases has
        | _ => cases has
      · cases hf

/-- With fewer than 2^32 events all is well as long as no write is given up. -/
theorem small_reach {fs : Funcs} {s s' : State} {es : List Event} (h : Reach fs s) (hr : run fs s es = some s')
    (hw : ∀ e ∈ es, Whole e) (hc : ∀ n p, .call n p ∈ es → ReqFits n p) (hl : s.calls.length + es.length < 2 ^ 32) : Reach fs s' := by
  induction es generalizing s with
  | nil =>
    cases hr
    exact h
  | cons e es ih =>
    simp only [run] at hr
    cases he : step fs s e with
    | none =>
      rw [he] at hr
      cases hr
    | some s1 =>
      rw [he] at hr
      simp only [List.length_cons] at hl
      have hlen : s1.calls.length ≤ s.calls.length + 1 := by
        cases e with
        | stake k =>
          simp only [step] at he
          repeat' split at he
          all_goals cases he
          all_goals simp only [serve]
          all_goals repeat' split
          all_goals simp
        | _ =>
          simp only [step] at he
          repeat' split at he
          all_goals cases he
          all_goals simp
      refine ih (.step h ?_ he) hr (fun e he => hw e (List.mem_cons_of_mem _ he)) (fun n p hm => hc n p (List.mem_cons_of_mem _ hm)) (by omega)
      have hwe := hw e (List.mem_cons_self ..)
      cases e with
      | call n p => exact ⟨hc n p (List.mem_cons_self ..), fun i _ => by omega⟩
      | cut => exact absurd rfl hwe.1
      | stake k =>
        cases k with
        | none => trivial
        | some k => exact absurd rfl (hwe.2 k)
      | _ => trivial

/-- The hypotheses of the theorems above are met by `late`. -/
example : ∃ s, Reach table s ∧ s.results.map (·.1) = [1] := by
  cases h : run table new late with
  | none => exact absurd h (by decide +kernel)
  | some s =>
    refine ⟨s, small_reach .new h ?_ ?_ (by decide), ?_⟩
    · intro e he
      simp only [late, ask, List.mem_cons, List.not_mem_nil, or_false] at he
      rcases he with rfl | rfl | rfl | rfl | rfl | rfl | rfl | rfl | rfl | rfl | rfl | rfl | rfl | rfl <;> simp [Whole]
    · intro n p he
      simp only [late, ask, List.mem_cons, List.not_mem_nil, or_false, Event.call.injEq, reduceCtorEq, false_or] at he
      rcases he with ⟨rfl, rfl⟩ | ⟨rfl, rfl⟩ <;> exact fits_ask _
    · have : (run table new late).map (fun s => s.results.map (·.1)) = some [1] := by decide +kernel
      rw [h] at this
      exact Option.some.inj this

/-- The first request is cut off, and the next one taken for the rest of its argument: the server runs a function with an argument that no call
has, and the second call waits for ever. -/
theorem cut_request_misread : (run table new [.call [101] (.arr [.raw [97, 97, 97, 97, 97, 97, 97, 97, 97]]), .write 8, .cut, ask 98,
    .write 8, .sarrive 16, .stake none, .arrive 14, .take]).map
      (fun s => (shown s, s.phase, s.up, [s.toServer, s.sbuf, s.toClient, s.cbuf])) =
    some ([([101], [0xa9, 97, 0x94, 0, 1, 0xa1, 101, 0x91, 0xa1, 98])], .waiting 1, true, [[], [], [], []]) := by decide +kernel

/-- Only a part of the first response is written: the second call waits for more, although its response has arrived. -/
theorem cut_reply_misread : (run table new [ask 97, .write 8, .sarrive 8, .stake (some 1), .timeout, ask 98, .write 8, .sarrive 8, .stake none,
    .arrive 7]).map (fun s => (shown s, s.phase, [s.up, hungry s.cbuf], [s.toServer, s.sbuf, s.toClient])) =
    some ([([101], [0xa1, 97]), ([101], [0xa1, 98])], .waiting 1, [true, true], [[], [], []]) := by decide +kernel

/-! The ids come round: -/

/-- The bytes of a request and of the response to it. -/
def askBytes (id : BitVec 32) (c : UInt8) : Str := pack (reqObj id [101] (.arr [.raw [c]]))
def sayBytes (id : BitVec 32) (c : UInt8) : Str := pack (respObj id .nil (.raw [c]))

/-- A call that times out although the server responds. -/
def missed (id : BitVec 32) (c : UInt8) : List Event :=
  [ask c, .write (askBytes id c).length, .sarrive (askBytes id c).length, .stake none, .timeout]

/-- A stream on which every call so far was missed. -/
structure Missed (s : State) (n : Nat) (out : Str) : Prop where
  seq : s.seq = BitVec.ofNat 32 n
  phase : s.phase = .idle
  up : s.up = true
  toServer : s.toServer = []
  sbuf : s.sbuf = []
  cbuf : s.cbuf = []
  queue : s.queue = []
  toClient : s.toClient = out
  calls : s.calls.length = n
  results : s.results = []

theorem run_append (fs : Funcs) (s : State) (es fs' : List Event) : run fs s (es ++ fs') = (run fs s es).bind fun s => run fs s fs' := by
  induction es generalizing s with
  | nil => rfl
  | cons e es ih =>
    simp only [List.cons_append, run]
    cases step fs s e with
    | none => rfl
    | some s => exact ih s

theorem missed_run {s : State} {n : Nat} {out : Str} (h : Missed s n out) (c : UInt8) :
    ∃ s', run table s (missed (BitVec.ofNat 32 n) c) = some s' ∧ Missed s' (n + 1) (out ++ sayBytes (BitVec.ofNat 32 n) c) := by
  obtain ⟨h1, h2, h3, h4, h5, h6, h7, h8, h9, h10⟩ := h
  have hne : (pack (reqObj (BitVec.ofNat 32 n) [101] (.arr [.raw [c]]))).length ≠ 0 := by
    intro e
    exact pack_ne_nil depth _ (fits_req (fits_ask c)) (List.length_eq_zero_iff.1 e)
  have hu : unpack depth (pack (reqObj (BitVec.ofNat 32 n) [101] (.arr [.raw [c]]))) = .ok (reqObj (BitVec.ofNat 32 n) [101] (.arr [.raw [c]])) [] := by
    have := unpack_pack depth _ (fits_req (id := BitVec.ofNat 32 n) (fits_ask c)) []
    rwa [List.append_nil] at this
  have hh : handle table [101] (.arr [.raw [c]]) = .reply .nil (.raw [c]) [⟨[101], [strTy], ([c], ())⟩] := rfl
  have hun : hungry [] = true := rfl
  simp only [missed, run, ask, step, h1, h2, h3, h4, h5, h6, h7, Option.bind_some, Nat.lt_irrefl, if_false, List.nil_append, hun, hne, false_or,
    askBytes, Bool.not_true, Bool.false_eq_true, List.take_length, List.drop_length, hu, message_req, serve, hh, or_false,
    ne_eq, not_true_eq_false]
  refine ⟨_, rfl, ?_, rfl, rfl, rfl, rfl, rfl, rfl, ?_, ?_, h10⟩
  · simp [BitVec.ofNat_add]
  · rw [h8]
    rfl
  · simp [h9]

theorem missed_many (n : Nat) : ∃ es s rest, run table new es = some s ∧ (∀ e ∈ es, Whole e) ∧ Missed s (n + 1) (sayBytes 0 97 ++ rest) := by
  have whole : ∀ id c, ∀ e ∈ missed id c, Whole e := by
    intro id c e he
    simp only [missed, ask, List.mem_cons, List.not_mem_nil, or_false] at he
    rcases he with rfl | rfl | rfl | rfl | rfl <;> simp [Whole]
  induction n with
  | zero =>
    obtain ⟨s, h1, h2⟩ := missed_run (s := new) (n := 0) (out := []) ⟨rfl, rfl, rfl, rfl, rfl, rfl, rfl, rfl, rfl, rfl⟩ 97
    exact ⟨_, s, [], h1, whole _ _, by simpa using h2⟩
  | succ n ih =>
    obtain ⟨es, s, rest, h1, h2, h3⟩ := ih
    obtain ⟨s', h4, h5⟩ := missed_run h3 98
    refine ⟨es ++ missed (BitVec.ofNat 32 (n + 1)) 98, s', rest ++ sayBytes (BitVec.ofNat 32 (n + 1)) 98, ?_, ?_, ?_⟩
    · rw [run_append, h1]
      exact h4
    · intro e he
      rcases List.mem_append.1 he with he | he
      · exact h2 e he
      · exact whole _ _ e he
    · rw [← List.append_assoc]
      exact h5

/-- after 2^32 calls that have timed out, with all their responses unread, the call `e("b")` returns the response to the first one, `e("a")`. -/
theorem ids_wrap : ∃ es s, run table new es = some s ∧ (∀ e ∈ es, Whole e) ∧ s.calls[2 ^ 32]? = some ([101], .arr [.raw [98]]) ∧
    s.results = [(2 ^ 32, .nil, .raw [97])] := by
  obtain ⟨es, s, rest, h1, h2, h3⟩ := missed_many (2 ^ 32 - 1)
  have e : 2 ^ 32 - 1 + 1 = 2 ^ 32 := by decide
  rw [e] at h3
  obtain ⟨k1, k2, k3, k4, k5, k6, k7, k8, k9, k10⟩ := h3
  have k1' : s.seq = 0 := by rw [k1]; rfl
  have hne : (pack (reqObj 0 [101] (.arr [.raw [98]]))).length ≠ 0 := by
    intro e
    exact pack_ne_nil depth _ (fits_req (fits_ask 98)) (List.length_eq_zero_iff.1 e)
  have hf : Fits depth (respObj 0 .nil (.raw [97])) := fits_resp trivial (show 1 < 2 ^ 32 by decide)
  have hne' : (sayBytes 0 97).length ≠ 0 := by
    intro e
    exact pack_ne_nil depth _ hf (List.length_eq_zero_iff.1 e)
  have hu : unpack depth (sayBytes 0 97) = .ok (respObj 0 .nil (.raw [97])) [] := by
    have := unpack_pack depth _ hf []
    rwa [List.append_nil] at this
  have hun : hungry [] = true := rfl
  have hle : ¬ (sayBytes 0 97 ++ rest).length < (sayBytes 0 97).length := by simp
  have last : ∃ s', run table s [ask 98, .write (askBytes 0 98).length, .arrive (sayBytes 0 97).length, .take] = some s' ∧
      s'.calls = s.calls ++ [([101], .arr [.raw [98]])] ∧ s'.results = [(2 ^ 32, .nil, .raw [97])] := by
    simp only [run, ask, step, k1', k2, k6, k8, Option.bind_some, Nat.lt_irrefl, if_false, List.nil_append, hun, hne, hne', false_or,
      askBytes, Bool.not_true, Bool.false_eq_true, List.take_left', hu, message_resp, or_false, ne_eq, not_true_eq_false, hle]
    refine ⟨_, rfl, rfl, ?_⟩
    simp [k9, k10]
  obtain ⟨s', h4, h5, h6⟩ := last
  refine ⟨es ++ [ask 98, .write (askBytes 0 98).length, .arrive (sayBytes 0 97).length, .take], s', by rw [run_append, h1]; exact h4, ?_, ?_, h6⟩
  · intro e he
    rcases List.mem_append.1 he with he | he
    · exact h2 e he
    · simp only [ask, List.mem_cons, List.not_mem_nil, or_false] at he
      rcases he with rfl | rfl | rfl | rfl <;> simp [Whole]
  · rw [h5, List.getElem?_append_right (by omega), k9]
    rfl

/-- Any client can bring the server down: by a request whose method is not a string, as the exception thrown in `rpc_server.cpp:169` is outside of
the `try` block, -/
theorem bad_method_crashes (fs : Funcs) (s : State) (hup : s.up = true) (i : BitVec 32) (o p : Obj) (ho : Fits (depth - 1) o)
    (hp : Fits (depth - 1) p) (hne : ∀ n, o ≠ .raw n) (hs : s.sbuf = pack (.arr [.uint 0, .uint (i.setWidth 64), o, p])) (k : Option Nat) :
    ∃ s', step fs s (.stake k) = some s' ∧ s'.fault = some .crash := by
  have hu := unpack_pack depth (.arr [.uint 0, .uint (i.setWidth 64), o, p]) ⟨show 4 < 2 ^ 32 by decide, by
    intro x hx
    simp only [List.mem_cons, List.not_mem_nil, or_false] at hx
    rcases hx with rfl | rfl | rfl | rfl
    · trivial
    · trivial
    · exact ho
    · exact hp⟩ []
  rw [List.append_nil] at hu
  have hlt : (i.setWidth 64).toNat < 2 ^ 32 := by simp only [BitVec.toNat_setWidth]; have := i.isLt; omega
  have hm : message (.arr [.uint 0, .uint (i.setWidth 64), o, p]) = some ⟨0, i, o, p⟩ := by
    have e : (i.setWidth 64).setWidth 32 = i := by simp
    simp only [message]
    rw [if_pos ⟨by decide, hlt⟩, e]
    rfl
  simp only [step, hup, hs, hu, hm, Bool.not_true, Bool.false_eq_true, if_false, serve, ne_eq, not_true_eq_false]
  exact ⟨_, rfl, rfl⟩

example : ∃ s', step table { new with sbuf := pack (.arr [.uint 0, .uint 7, .nil, .nil]) } (.stake none) = some s' ∧ s'.fault = some .crash :=
  bad_method_crashes table _ rfl 7 .nil .nil trivial trivial (fun _ h => by cases h) rfl none

/-- and by bytes that are not MessagePack, as `unpack_error` is not caught. -/
theorem garbage_crashes (fs : Funcs) (s : State) (hup : s.up = true) (hs : unpack depth s.sbuf = .bad) (k : Option Nat) :
    ∃ s', step fs s (.stake k) = some s' ∧ s'.fault = some .crash := by
  simp only [step, hup, hs, Bool.not_true, Bool.false_eq_true, if_false]
  exact ⟨_, rfl, rfl⟩

example : unpack depth [0xc1] = .bad := rfl

/-- A message nested too deep is garbage as well, whatever follows: 33 bytes bring the server down. -/
theorem nested_crashes (fs : Funcs) (s : State) (hup : s.up = true) (rest : Str) (hs : s.sbuf = List.replicate 33 0x91 ++ rest) (k : Option Nat) :
    ∃ s', step fs s (.stake k) = some s' ∧ s'.fault = some .crash :=
  garbage_crashes fs s hup (hs ▸ unpack_nested 32 rest) k

/-- One array less is only a message that has not arrived. -/
example : (match unpack depth (List.replicate 32 0x91) with | .more => true | _ => false) = true := by decide +kernel

/-- The code of an error is cut to 32 bits: what a server sends as the error 2^32 + 1 the caller sees as a missing method. A code other than these
two, and an error of any other kind, comes to the caller as the server sent it. -/
theorem error_codes (res : Ty) (n : BitVec 64) (result : Obj) :
    (n.toNat % 2 ^ 32 = 1 → answer res (.uint n) result = .notFound ((objString result).getD [])) ∧
    (n.toNat % 2 ^ 32 = 2 → answer res (.uint n) result = .typeError) ∧
    (n.toNat % 2 ^ 32 ≠ 1 → n.toNat % 2 ^ 32 ≠ 2 → answer res (.uint n) result = .error (.uint n)) := by
  have e : ∀ k : BitVec 32, n.setWidth 32 = k ↔ n.toNat % 2 ^ 32 = k.toNat := fun k => by
    rw [← BitVec.toNat_inj, BitVec.toNat_setWidth]
  refine ⟨fun h => ?_, fun h => ?_, fun h1 h2 => ?_⟩
  · simp only [answer]
    rw [if_pos ((e 1).2 h)]
  · simp only [answer]
    rw [if_neg (fun h' => by have := (e 1).1 h'; rw [h] at this; cases this), if_pos ((e 2).2 h)]
  · simp only [answer]
    rw [if_neg (fun h' => h1 ((e 1).1 h')), if_neg (fun h' => h2 ((e 2).1 h'))]

example : answer strTy (.uint (2 ^ 32 + 1)) (.raw [97]) = .notFound [97] := (error_codes strTy (2 ^ 32 + 1) (.raw [97])).1 rfl

/-- A call with too few arguments is not refused: the function gets the default value of the types, and an indeterminate one if there is none.
Further arguments are ignored. -/
theorem few_arguments : handle table [101] (.arr []) = .reply .nil (.raw []) [⟨[101], [strTy], ([], ())⟩] ∧
    handle table [100] (.arr []) = .undefined ∧ ∀ a o, handle table [101] (.arr [.raw a, o]) = .reply .nil (.raw a) [⟨[101], [strTy], (a, ())⟩] :=
  ⟨rfl, rfl, fun _ _ => rfl⟩

/-- A function that throws an `rpc_error` leaves its caller waiting for ever. -/
theorem throwing_hangs : (run table new [.call [116] (.arr []), .write 6, .sarrive 6, .stake none]).map
    (fun s => (shown s, s.phase, [s.up, hungry s.cbuf], [s.toServer, s.sbuf, s.toClient])) =
    some ([([116], [])], .waiting 0, [true, true], [[], [], []]) := by decide +kernel

end Verif.Mprpc.Props
