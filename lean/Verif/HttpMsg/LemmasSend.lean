import Verif.HttpMsg.LemmasRecv
/-! Lemmas about sending messages. -/

namespace Verif.HttpMsg.Lemmas
open Verif.Socket Verif.Http Verif.HttpMsg Verif.HttpMsg.Spec

theorem run_append (k : Kernel) : ∀ (a b : List Op) (s : St), (Socket.run k (a ++ b) s).2 = (Socket.run k b (Socket.run k a s).2).2
  | [], _, _ => rfl
  | o :: a, b, s => run_append k a b (step k o s).2

theorem run_cons (k : Kernel) (o : Op) (b : List Op) (s : St) : (Socket.run k (o :: b) s).2 = (Socket.run k b (step k o s).2).2 := rfl

theorem written_append (a b : List Op) : Socket.Spec.written (a ++ b) = Socket.Spec.written a ++ Socket.Spec.written b := by
  induction a with
  | nil => rfl
  | cons o a ih =>
    rw [List.cons_append, Socket.Lemmas.written_cons, ih, Socket.Lemmas.written_cons o a, List.append_assoc]

theorem puts_run (k : Kernel) (d : Str) (s : St) : (puts d).run (step k) s = (Socket.puts k d s) := by
  unfold puts Prog.run Prog.run step
  rfl

theorem flush_run (k : Kernel) (s : St) : flush.run (step k) s = Socket.flush k s := by
  unfold flush Prog.run Prog.run step
  rfl

/-- What a program has done when it comes to an end early or late: some of the calls, all of them if it succeeds. -/
def Did (k : Kernel) (s s' : St) (ops : List Op) (ok : Prop) : Prop :=
  ∃ done, done <+: ops ∧ s' = (Socket.run k done s).2 ∧ (ok → done = ops)

theorem fields_run (k : Kernel) : ∀ (h : Header) (s : St),
    Did k s ((sendFields h).run (step k) s).2 (sendOps h) (((sendFields h).run (step k) s).1 = .ok ()) := by
  intro h
  induction h with
  | nil =>
    intro s
    refine ⟨[.puts [13, 10]], List.prefix_refl _, rfl, fun _ => rfl⟩
  | cons e h ih =>
    intro s
    have hs : sendOps (e :: h) = .puts (fieldText e) :: sendOps h := rfl
    unfold sendFields
    rw [Prog.run_bind', puts_run, hs]
    cases hb : (Socket.puts k (fieldText e) s).1 with
    | true =>
      obtain ⟨done, h1, h2, h3⟩ := ih (Socket.puts k (fieldText e) s).2
      refine ⟨.puts (fieldText e) :: done, ?_, ?_, ?_⟩
      · rw [List.cons_prefix_cons]; exact ⟨rfl, h1⟩
      · exact h2
      · intro hk; rw [h3 hk]
    | false =>
      refine ⟨[.puts (fieldText e)], ?_, rfl, ?_⟩
      · rw [List.cons_prefix_cons]; exact ⟨rfl, List.nil_prefix⟩
      · intro hk
        exact absurd hk (by simp [Prog.run])

/-- The calls of `send`. -/
def fullOps (line : Str) (h : Header) (dat : Str) : List Op :=
  [.puts line] ++ (sendOps (withLength h dat) ++ ((if dat = [] then [] else [.puts dat]) ++ [.flush]))

theorem body_sent (k : Kernel) (dat : Str) (s : St) :
    Did k s ((sendBody dat).run (step k) s).2 ((if dat = [] then [] else [.puts dat]) ++ [.flush]) (((sendBody dat).run (step k) s).1 = .ok ()) := by
  unfold sendBody
  by_cases hd : dat = []
  · subst hd
    exact ⟨[.flush], List.prefix_refl _, rfl, fun _ => rfl⟩
  · have hl : dat.length > 0 := List.length_pos_iff.2 hd
    rw [if_pos hl, if_neg hd, Prog.run_bind', puts_run]
    cases hb : (Socket.puts k dat s).1 with
    | true => exact ⟨[.puts dat, .flush], List.prefix_refl _, rfl, fun _ => rfl⟩
    | false =>
      refine ⟨[.puts dat], ⟨[.flush], rfl⟩, rfl, ?_⟩
      intro hk
      exact absurd hk (by simp [Prog.run])

theorem message_sent (k : Kernel) (line : Str) (h : Header) (dat : Str) (s : St) :
    Did k s ((sendMessage line h dat).run (step k) s).2 (fullOps line h dat) (((sendMessage line h dat).run (step k) s).1 = .ok ()) := by
  unfold sendMessage fullOps
  rw [Prog.run_bind', puts_run]
  cases hb : (Socket.puts k line s).1 with
  | false =>
    refine ⟨[.puts line], ⟨_, rfl⟩, rfl, ?_⟩
    intro hk
    exact absurd hk (by simp [Prog.run])
  | true =>
    simp only [not_true_eq_false, if_false]
    obtain ⟨done, h1, h2, h3⟩ := fields_run k (withLength h dat) (Socket.puts k line s).2
    rw [Prog.run_bind']
    cases hf : ((sendFields (withLength h dat)).run (step k) (Socket.puts k line s).2).1 with
    | error e =>
      refine ⟨.puts line :: done, ?_, h2, ?_⟩
      · rw [List.singleton_append, List.cons_prefix_cons]
        exact ⟨rfl, h1.trans (List.prefix_append _ _)⟩
      · intro hk
        exact absurd hk (by simp [Prog.run])
    | ok u =>
      rw [hf] at h3
      have h3 := h3 rfl
      subst h3
      obtain ⟨done', g1, g2, g3⟩ := body_sent k dat ((sendFields (withLength h dat)).run (step k) (Socket.puts k line s).2).2
      refine ⟨.puts line :: (sendOps (withLength h dat) ++ done'), ?_, ?_, ?_⟩
      · rw [List.singleton_append, List.cons_prefix_cons]
        exact ⟨rfl, (List.prefix_append_right_inj _).2 g1⟩
      · dsimp only
        rw [g2, run_cons, run_append, h2]
        rfl
      · intro hk
        rw [g3 hk]
        rfl

theorem written_full (line : Str) (h : Header) (dat : Str) :
    Socket.Spec.written (fullOps (line ++ [13, 10]) h dat) = wire line h dat := by
  unfold fullOps wire
  rw [written_append, written_append, written_append, Http.Lemmas.written_sendOps, withLength_eq]
  by_cases hd : dat = []
  · simp [hd, Socket.Spec.written]
  · simp [hd, Socket.Spec.written]

theorem writing_full (line : Str) (h : Header) (dat : Str) : ∀ o ∈ fullOps line h dat, Socket.Spec.Writing o := by
  intro o ho
  unfold fullOps at ho
  simp only [List.mem_append, List.mem_singleton] at ho
  rcases ho with rfl | ho | ho | rfl
  · trivial
  · exact Http.Lemmas.writing_sendOps _ o ho
  · split at ho
    · simp at ho
    · rw [List.mem_singleton.1 ho]; trivial
  · trivial

/-- On any connection the other side has got a beginning of the message. -/
theorem sent_beginning (k : Kernel) (line : Str) (h : Header) (dat : Str) (incoming : Str) :
    ((sendMessage (line ++ [13, 10]) h dat).run (step k) (Socket.Spec.fresh incoming)).2.wire <+: wire line h dat := by
  obtain ⟨done, h1, h2, _⟩ := message_sent k (line ++ [13, 10]) h dat (Socket.Spec.fresh incoming)
  rw [h2, ← written_full]
  obtain ⟨r, hr⟩ := h1
  rw [← hr, written_append]
  exact (Socket.Props.output_prefix k incoming done).trans (List.prefix_append _ _)

/-- The buffer has room before the flush. -/
theorem run_room (k : Kernel) (ops : List Op) (incoming : Str) : (Socket.run k ops (Socket.Spec.fresh incoming)).2.wr.length < Socket.bufSize :=
  (Socket.Lemmas.run_output k ops _ (Socket.Props.fresh_room incoming)).1

/-- After all calls on a connection that is still there, the message has been sent. -/
theorem sent_alive (k : Kernel) (line : Str) (h : Header) (dat : Str) (incoming : Str)
    (hc : (Socket.run k (fullOps (line ++ [13, 10]) h dat) (Socket.Spec.fresh incoming)).2.connected = true) :
    (Socket.run k (fullOps (line ++ [13, 10]) h dat) (Socket.Spec.fresh incoming)).2.wire = wire line h dat := by
  obtain ⟨_, h1⟩ := Socket.Props.output_alive k incoming _ hc
  rw [written_full] at h1
  have hw : (Socket.run k (fullOps (line ++ [13, 10]) h dat) (Socket.Spec.fresh incoming)).2.wr = [] := by
    unfold fullOps
    rw [← List.append_assoc, ← List.append_assoc, run_append]
    obtain ⟨n, _, _, h2, _⟩ := Socket.Lemmas.flush_spec k
      (Socket.run k ([Op.puts (line ++ [13, 10])] ++ sendOps (withLength h dat) ++ if dat = [] then [] else [Op.puts dat]) (Socket.Spec.fresh incoming)).2
    exact h2
  rw [hw, List.append_nil] at h1
  exact h1

/-- With a body, success means that the connection is still there. -/
theorem sent_connected (k : Kernel) (line : Str) (h : Header) (dat : Str) (incoming : Str) (hd : dat ≠ [])
    (hk : ((sendMessage line h dat).run (step k) (Socket.Spec.fresh incoming)).1 = .ok ()) :
    (Socket.run k (fullOps line h dat) (Socket.Spec.fresh incoming)).2.connected = true := by
  have hroom := run_room k ([.puts line] ++ sendOps (withLength h dat)) incoming
  have hl : dat.length > 0 := List.length_pos_iff.2 hd
  -- the state before the body
  obtain ⟨done, _, h2, h3⟩ := fields_run k (withLength h dat) (Socket.puts k line (Socket.Spec.fresh incoming)).2
  unfold sendMessage at hk
  rw [Prog.run_bind', puts_run] at hk
  cases hb : (Socket.puts k line (Socket.Spec.fresh incoming)).1 with
  | false => rw [hb] at hk; exact absurd hk (by simp [Prog.run])
  | true =>
    rw [hb] at hk
    simp only [not_true_eq_false, if_false] at hk
    rw [Prog.run_bind'] at hk
    cases hf : ((sendFields (withLength h dat)).run (step k) (Socket.puts k line (Socket.Spec.fresh incoming)).2).1 with
    | error e => rw [hf] at hk; exact absurd hk (by simp [Prog.run])
    | ok u =>
      rw [hf] at h3 hk
      have h3 := h3 rfl
      subst h3
      dsimp only at hk
      have e0 : (Socket.run k ([.puts line] ++ sendOps (withLength h dat)) (Socket.Spec.fresh incoming)).2
          = ((sendFields (withLength h dat)).run (step k) (Socket.puts k line (Socket.Spec.fresh incoming)).2).2 := by
        rw [h2, run_append]; rfl
      have e1 : (Socket.run k (fullOps line h dat) (Socket.Spec.fresh incoming)).2
          = (Socket.flush k (Socket.write k dat (Socket.run k ([.puts line] ++ sendOps (withLength h dat)) (Socket.Spec.fresh incoming)).2).2).2 := by
        unfold fullOps
        rw [if_neg hd, ← List.append_assoc, run_append]
        rfl
      rw [e1]
      rw [← e0] at hk
      generalize (Socket.run k ([.puts line] ++ sendOps (withLength h dat)) (Socket.Spec.fresh incoming)).2 = s at hk hroom
      unfold sendBody at hk
      rw [if_pos hl, Prog.run_bind', puts_run] at hk
      cases hp : (Socket.puts k dat s).1 with
      | false => rw [hp] at hk; exact absurd hk (by simp [Prog.run])
      | true =>
        rw [hp] at hk
        simp only [not_true_eq_false, if_false] at hk
        rw [Prog.run_bind', flush_run] at hk
        have hs2 : (Socket.puts k dat s).2 = (Socket.write k dat s).2 := rfl
        rw [hs2] at hk
        have hfl : ¬ (Socket.flush k (Socket.write k dat s).2).1 ≥ 0 := by
          intro hge
          rw [if_pos hge] at hk
          exact absurd hk (by simp [Prog.run])
        obtain ⟨_, _, _, w4, n, w5, w6, w7, w8⟩ := Socket.Lemmas.write_spec k dat s hroom
        have hn : n = dat.length := by
          have : (Socket.write k dat s).1 = dat.length := by
            have : decide ((Socket.write k dat s).1 = dat.length) = true := hp
            simpa using this
          omega
        obtain ⟨w9, w10⟩ := w7 hn
        obtain ⟨m, f1, _, _, _, f5, f6, f7⟩ := Socket.Lemmas.flush_spec k (Socket.write k dat s).2
        have hm : m = (Socket.write k dat s).2.wr.length := by
          rcases Nat.lt_or_ge m (Socket.write k dat s).2.wr.length with h | h
          · exact absurd (f6 h).1 (by omega)
          · omega
        rw [(f5 hm).2, w10]
        cases hc : s.connected with
        | true => rfl
        | false =>
          exfalso
          rw [w10] at f7
          have h0 := f7 hc
          rw [w4 hc] at w9
          have : (Socket.write k dat s).2.wr = [] := List.length_eq_zero_iff.1 (by omega)
          rw [this, List.append_nil, List.append_assoc] at w9
          have := congrArg List.length w9
          simp only [List.length_append] at this
          omega

theorem sent_ok_body (k : Kernel) (line : Str) (h : Header) (dat : Str) (incoming : Str) (hd : dat ≠ [])
    (hk : ((sendMessage (line ++ [13, 10]) h dat).run (step k) (Socket.Spec.fresh incoming)).1 = .ok ()) :
    ((sendMessage (line ++ [13, 10]) h dat).run (step k) (Socket.Spec.fresh incoming)).2.wire = wire line h dat := by
  obtain ⟨done, _, h2, h3⟩ := message_sent k (line ++ [13, 10]) h dat (Socket.Spec.fresh incoming)
  rw [h2, h3 hk]
  exact sent_alive k line h dat incoming (sent_connected k _ h dat incoming hd hk)

/-! ### A kernel that accepts -/

theorem puts_accepts (k : Kernel) (hk : Socket.Spec.Accepts k) (d : Str) (s : St) (hr : s.wr.length < Socket.bufSize) (hc : s.connected = true) :
    (Socket.puts k d s).1 = true ∧ (Socket.puts k d s).2.wr.length < Socket.bufSize ∧ (Socket.puts k d s).2.connected = true := by
  have h1 := Socket.Lemmas.step_output k (.puts d) s hr
  have h2 := Socket.Lemmas.step_accepts k hk (.puts d) trivial s hc
  have h3 : (step k (.puts d) s).1 = .bool true := h1.2.2.2.2.2 h2
  have h4 : (step k (.puts d) s).1 = .bool (Socket.puts k d s).1 := rfl
  rw [h4] at h3
  exact ⟨by simpa using h3, h1.1, h2⟩

theorem fields_accepts (k : Kernel) (hk : Socket.Spec.Accepts k) : ∀ (h : Header) (s : St), s.wr.length < Socket.bufSize → s.connected = true →
    ((sendFields h).run (step k) s).1 = .ok () ∧ ((sendFields h).run (step k) s).2.wr.length < Socket.bufSize
      ∧ ((sendFields h).run (step k) s).2.connected = true := by
  intro h
  induction h with
  | nil =>
    intro s hr hc
    obtain ⟨_, h2, h3⟩ := puts_accepts k hk [13, 10] s hr hc
    exact ⟨rfl, h2, h3⟩
  | cons e h ih =>
    intro s hr hc
    obtain ⟨h1, h2, h3⟩ := puts_accepts k hk (fieldText e) s hr hc
    unfold sendFields
    rw [Prog.run_bind', puts_run, h1]
    exact ih _ h2 h3

theorem flush_accepts (k : Kernel) (hk : Socket.Spec.Accepts k) (s : St) (hr : s.wr.length < Socket.bufSize) (hc : s.connected = true) :
    (Socket.flush k s).1 = -1 := by
  have h1 := Socket.Lemmas.step_output k .flush s hr
  have h2 := Socket.Lemmas.step_accepts k hk .flush trivial s hc
  have h3 : (step k .flush s).1 = .int (-1) := h1.2.2.2.2.2 h2
  have h4 : (step k .flush s).1 = .int (Socket.flush k s).1 := rfl
  rw [h4] at h3
  simpa using h3

theorem message_accepts (k : Kernel) (hk : Socket.Spec.Accepts k) (line : Str) (h : Header) (dat : Str) (incoming : Str) :
    ((sendMessage line h dat).run (step k) (Socket.Spec.fresh incoming)).1 = .ok () := by
  obtain ⟨h1, h2, h3⟩ := puts_accepts k hk line _ (Socket.Props.fresh_room incoming) rfl
  obtain ⟨g1, g2, g3⟩ := fields_accepts k hk (withLength h dat) _ h2 h3
  unfold sendMessage
  rw [Prog.run_bind', puts_run, h1]
  simp only [not_true_eq_false, if_false]
  rw [Prog.run_bind', g1]
  dsimp only
  unfold sendBody
  by_cases hd : dat = []
  · subst hd
    have := flush_accepts k hk _ g2 g3
    rw [if_neg (by simp), Prog.run_bind']
    simp only [Prog.run, not_true_eq_false, if_false]
    rw [Prog.run_bind', flush_run, this]
    rfl
  · obtain ⟨p1, p2, p3⟩ := puts_accepts k hk dat _ g2 g3
    have := flush_accepts k hk _ p2 p3
    rw [if_pos (List.length_pos_iff.2 hd), Prog.run_bind', puts_run, p1]
    simp only [not_true_eq_false, if_false]
    rw [Prog.run_bind', flush_run, this]
    rfl

theorem sent_accepts (k : Kernel) (hk : Socket.Spec.Accepts k) (line : Str) (h : Header) (dat : Str) (incoming : Str) :
    ((sendMessage (line ++ [13, 10]) h dat).run (step k) (Socket.Spec.fresh incoming)).1 = .ok ()
      ∧ ((sendMessage (line ++ [13, 10]) h dat).run (step k) (Socket.Spec.fresh incoming)).2.wire = wire line h dat := by
  have hok := message_accepts k hk (line ++ [13, 10]) h dat incoming
  refine ⟨hok, ?_⟩
  obtain ⟨done, _, h2, h3⟩ := message_sent k (line ++ [13, 10]) h dat (Socket.Spec.fresh incoming)
  rw [h2, h3 hok]
  exact sent_alive k line h dat incoming (Socket.Lemmas.run_accepts k hk _ (writing_full _ h dat) _ (Socket.Props.fresh_room incoming) rfl)

/-! ### A message that is lost -/

/-- The kernel refuses everything. -/
def refuses : Kernel := ⟨fun _ => -1, fun _ => -1⟩

theorem write_small (k : Kernel) (d : Str) (s : St) (h : s.wr.length + d.length < Socket.bufSize) :
    Socket.puts k d s = (true, { s with wr := s.wr ++ d }) := by
  have h1 : d.take (Socket.bufSize - s.wr.length) = d := List.take_of_length_le (by omega)
  have h2 : d.drop (Socket.bufSize - s.wr.length) = [] := List.drop_of_length_le (by omega)
  unfold Socket.puts Socket.write Socket.writeAt Socket.writeRest
  simp only [h1, h2, List.length_append, List.length_nil, List.append_nil]
  have hb : (0 : Nat) < Socket.bufSize := by decide
  simp only [if_neg (show ¬ s.wr.length + d.length = Socket.bufSize by omega), if_neg (show ¬ 0 ≥ Socket.bufSize by omega)]
  simp

theorem flush_refused (s : St) (hc : s.connected = true) (hw : s.wr ≠ []) :
    (Socket.flush refuses s).1 = 0 ∧ (Socket.flush refuses s).2.wr = [] ∧ (Socket.flush refuses s).2.wire = s.wire := by
  obtain ⟨c, w, e⟩ := List.exists_cons_of_ne_nil hw
  have hpos : s.wr.length > 0 := List.length_pos_iff.2 hw
  have hs : (Socket.sendAll refuses s.wr s).1 = 0 ∧ (Socket.sendAll refuses s.wr s).2.wire = s.wire := by
    unfold Socket.sendAll
    rw [e, List.length_cons]
    unfold Socket.sendLoop
    rw [if_neg (by simp)]
    unfold Socket.send
    rw [if_neg (by simp [hc])]
    have hm : min (refuses.send s.calls) ((c :: w).length : Int) = -1 := by
      show min (-1 : Int) _ = -1
      omega
    simp only [hm]
    simp [close]
  unfold Socket.flush
  rw [if_pos hpos]
  dsimp only
  rw [hs.1, if_neg (by omega)]
  exact ⟨rfl, rfl, hs.2⟩

theorem puts_refused (d : Str) (s : St) (hc : s.connected = true) (hr : s.wr.length < Socket.bufSize) (h : Socket.bufSize ≤ s.wr.length + d.length) :
    (Socket.puts refuses d s).2.wr = [] ∧ (Socket.puts refuses d s).2.wire = s.wire := by
  have hl : (s.wr ++ d.take (Socket.bufSize - s.wr.length)).length = Socket.bufSize := by
    simp only [List.length_append, List.length_take]
    omega
  have hb : (0 : Nat) < Socket.bufSize := by decide
  obtain ⟨h1, h2, h3⟩ := flush_refused { s with wr := s.wr ++ d.take (Socket.bufSize - s.wr.length) } hc
    (fun h0 => by simp only at h0; rw [h0] at hl; simp at hl; omega)
  unfold Socket.puts Socket.write Socket.writeAt
  simp only [if_pos hl, h1]
  simp only [if_pos (show (0 : Int) ≥ 0 by decide)]
  exact ⟨h2, h3⟩

/-- The bytes of the fields. -/
def fieldsText (h : Header) : Str := (h.map fieldText).flatten

theorem text_fields (h : Header) : Http.Spec.text h = fieldsText h ++ [13, 10] := by
  induction h with
  | nil => rfl
  | cons e h ih =>
    obtain ⟨n, v⟩ := e
    rw [Http.Spec.text, ih]
    simp [fieldsText, fieldText]

theorem fields_refused : ∀ (h : Header) (s : St), s.connected = true → s.wire = [] → s.wr.length + (fieldsText h).length < Socket.bufSize →
    Socket.bufSize ≤ s.wr.length + (fieldsText h).length + 2 →
    ((sendFields h).run (step refuses) s).1 = .ok () ∧ ((sendFields h).run (step refuses) s).2.wr = []
      ∧ ((sendFields h).run (step refuses) s).2.wire = [] := by
  intro h
  induction h with
  | nil =>
    intro s hc hw h1 h2
    simp only [fieldsText, List.map_nil, List.flatten_nil, List.length_nil] at h1 h2
    obtain ⟨g1, g2⟩ := puts_refused [13, 10] s hc (by omega) (by simpa using h2)
    exact ⟨rfl, g1, g2.trans hw⟩
  | cons e h ih =>
    intro s hc hw h1 h2
    have e1 : (fieldsText (e :: h)).length = (fieldText e).length + (fieldsText h).length := by simp [fieldsText]
    rw [e1] at h1 h2
    unfold sendFields
    rw [Prog.run_bind', puts_run, write_small refuses (fieldText e) s (by omega)]
    exact ih _ hc hw (by simp only [List.length_append]; omega) (by simp only [List.length_append]; omega)

theorem message_lost (line : Str) (h : Header) (incoming : Str)
    (h1 : Socket.bufSize ≤ (wire line h []).length) (h2 : (wire line h []).length < Socket.bufSize + 2) :
    ((sendMessage (line ++ [13, 10]) h []).run (step refuses) (Socket.Spec.fresh incoming)).1 = .ok ()
      ∧ ((sendMessage (line ++ [13, 10]) h []).run (step refuses) (Socket.Spec.fresh incoming)).2.wire = [] := by
  have e : sentHeader h [] = h := by unfold sentHeader; rw [if_pos (.inl rfl)]
  have hl : (wire line h []).length = line.length + 2 + (fieldsText h).length + 2 := by
    unfold wire
    rw [e, text_fields]
    simp only [List.length_append, List.length_cons, List.length_nil]
    omega
  rw [hl] at h1 h2
  have hp := write_small refuses (line ++ [13, 10]) (Socket.Spec.fresh incoming) (by
    show 0 + _ < _
    simp only [List.length_append, List.length_cons, List.length_nil]
    omega)
  have hs1 : ({ Socket.Spec.fresh incoming with wr := (Socket.Spec.fresh incoming).wr ++ (line ++ [13, 10]) } : St).wr.length = line.length + 2 := by
    simp [Socket.Spec.fresh]
  obtain ⟨g1, g2, g3⟩ := fields_refused h { Socket.Spec.fresh incoming with wr := (Socket.Spec.fresh incoming).wr ++ (line ++ [13, 10]) } rfl rfl
    (by rw [hs1]; omega) (by rw [hs1]; omega)
  have hwl : withLength h [] = h := by rw [withLength_eq, e]
  unfold sendMessage
  rw [Prog.run_bind', puts_run, hp, hwl]
  simp only [not_true_eq_false, if_false]
  rw [Prog.run_bind', g1]
  dsimp only
  unfold sendBody
  rw [if_neg (by simp), Prog.run_bind']
  simp only [Prog.run, not_true_eq_false, if_false]
  rw [Prog.run_bind', flush_run]
  have hf : ∀ s : St, s.wr = [] → Socket.flush refuses s = (-1, s) := by
    intro s hs
    unfold Socket.flush
    rw [if_neg (by simp [hs])]
  rw [hf _ g2]
  exact ⟨rfl, g3⟩

end Verif.HttpMsg.Lemmas
