import Verif.Socket.Lemmas
/-! Properties C49, C50 and C62: the two byte streams of a stream socket. -/

namespace Verif.Socket.Props
open Verif.Socket Verif.Socket.Spec Verif.Socket.Lemmas

/-! ### C49: output -/

theorem fresh_room (incoming : Str) : (fresh incoming).wr.length < bufSize := (by decide : 0 < bufSize)

/-- Whatever the kernel does and whatever is called: if no call reported a failure, the bytes sent and then the bytes still in the buffer
are the bytes written, in order. -/
theorem output_stream (k : Kernel) (incoming : Str) (ops : List Op)
    (hg : ∀ x ∈ ops.zip (run k ops (fresh incoming)).1, Good x.1 x.2) :
    (run k ops (fresh incoming)).2.wire ++ (run k ops (fresh incoming)).2.wr = written ops := by
  have := (run_output k ops (fresh incoming) (fresh_room incoming)).2.2.2.2.1 hg
  simpa [fresh] using this

/-- If a flush ends such calls, with success, everything written has been sent. -/
theorem output_flushed (k : Kernel) (incoming : Str) (ops : List Op)
    (hg : ∀ x ∈ (ops ++ [Op.flush]).zip (run k (ops ++ [Op.flush]) (fresh incoming)).1, Good x.1 x.2) :
    (run k (ops ++ [Op.flush]) (fresh incoming)).2.wire = written ops := by
  have h := output_stream k incoming (ops ++ [Op.flush]) hg
  have hwr : (run k (ops ++ [Op.flush]) (fresh incoming)).2.wr = [] := by
    have : ∀ ops s, (run k (ops ++ [Op.flush]) s).2.wr = [] := by
      intro ops
      induction ops with
      | nil =>
        intro s
        obtain ⟨n, _, _, h, _⟩ := flush_spec k s
        exact h
      | cons o os ih => intro s; exact ih (step k o s).2
    exact this ops _
  have hw : written (ops ++ [Op.flush]) = written ops := by
    clear h hg hwr
    induction ops with
    | nil => rfl
    | cons o os ih => rw [List.cons_append, written_cons, ih, ← written_cons]
  rw [hwr, List.append_nil, hw] at h
  exact h

/-- A connection that is still alive has not failed: every call reported success. -/
theorem output_alive (k : Kernel) (incoming : Str) (ops : List Op)
    (hc : (run k ops (fresh incoming)).2.connected = true) :
    (∀ x ∈ ops.zip (run k ops (fresh incoming)).1, Good x.1 x.2)
      ∧ (run k ops (fresh incoming)).2.wire ++ (run k ops (fresh incoming)).2.wr = written ops := by
  have h := (run_output k ops (fresh incoming) (fresh_room incoming)).2.2.2.2.2 hc
  exact ⟨h, output_stream k incoming ops h⟩

/-- However short the sends are: if none of them fails, no writing call fails. -/
theorem output_accepts (k : Kernel) (hk : Accepts k) (incoming : Str) (ops : List Op) (ho : ∀ o ∈ ops, Writing o) :
    (∀ x ∈ ops.zip (run k ops (fresh incoming)).1, Good x.1 x.2)
      ∧ (run k ops (fresh incoming)).2.wire ++ (run k ops (fresh incoming)).2.wr = written ops :=
  output_alive k incoming ops (run_accepts k hk ops ho _ (fresh_room incoming) rfl)

/-- After a failure too, what the peer got is a beginning of what was written: nothing is sent twice, out of order or with a gap. -/
theorem output_prefix (k : Kernel) (incoming : Str) (ops : List Op) :
    (run k ops (fresh incoming)).2.wire <+: written ops := by
  have := (run_output k ops (fresh incoming) (fresh_room incoming)).2.2.2.1
  simpa [fresh] using this

/-- The write buffer never overflows. -/
theorem output_fits (k : Kernel) (incoming : Str) (ops : List Op) :
    (run k ops (fresh incoming)).2.wr.length < bufSize :=
  (run_output k ops (fresh incoming) (fresh_room incoming)).1

/-- A `write` that gives less than the size of its argument: the connection is closed, and exactly as many bytes of the argument as
the result says have been sent. -/
theorem write_short (k : Kernel) (incoming : Str) (ops : List Op) (d : Str)
    (hc : (run k ops (fresh incoming)).2.connected = true)
    (hn : (write k d (run k ops (fresh incoming)).2).1 ≠ d.length) :
    (write k d (run k ops (fresh incoming)).2).2.connected = false
      ∧ (write k d (run k ops (fresh incoming)).2).1
        = ((write k d (run k ops (fresh incoming)).2).2.wire.length - (written ops).length : Nat)
      ∧ (write k d (run k ops (fresh incoming)).2).2.wire
        = (written ops ++ d).take (write k d (run k ops (fresh incoming)).2).2.wire.length := by
  have hs := (output_alive k incoming ops hc).2
  obtain ⟨_, _, _, _, n, h5, h6, h7, h8⟩ := write_spec k d _ (output_fits k incoming ops)
  have hlt : n < d.length := by
    rcases Nat.lt_or_ge n d.length with h | h
    · exact h
    · exact absurd (h6.trans (by congr 1; omega)) hn
  obtain ⟨h9, h10⟩ := h8 hlt
  rw [hs] at h10
  refine ⟨h9, ?_, ?_⟩
  · rw [h6]
    rcases h10 with h | ⟨h, h'⟩
    · rw [h, List.length_append, List.length_take]; congr 1; omega
    · have := h'.length_le
      congr 1; omega
  · rcases h10 with h | ⟨_, h⟩
    · rw [h, List.length_append, List.length_take, Nat.min_eq_left (by omega), List.take_length_add_append]
    · exact List.prefix_iff_eq_take.1 (h.trans (List.prefix_append _ _))

/-- A kernel that sends at most 3 bytes a time. -/
def threes : Kernel := ⟨fun _ => 3, fun _ => 3⟩

/-- A kernel whose second call fails. -/
def second : Kernel := ⟨fun i => if i = 1 then -1 else 3, fun i => if i = 1 then -1 else 3⟩

example : run threes [.write [1, 2, 3, 4], .puts [5], .flush, .write [6]] (fresh [])
    = ([.int 4, .bool true, .int (-1), .int 1], { fresh [] with wire := [1, 2, 3, 4, 5], wr := [6], calls := 2 }) := by decide +kernel

example : Accepts threes := fun _ => (by decide : (0 : Int) < 3)

/-- Not a property one wants: after a failure of the connection `write` still takes bytes that nobody will send, and reports success;
if the flush reports the failure, a second flush reports success all the same. -/
theorem lost_silently :
    run second [.write [1, 2, 3, 4], .flush, .flush, .write [5]] (fresh [])
      = ([.int 4, .int 3, .int (-1), .int 1], { opened := false, connected := false, wire := [1, 2, 3], wr := [5], calls := 2 })
      ∧ written [.write [1, 2, 3, 4], .flush, .flush, .write [5]] = [1, 2, 3, 4, 5] := by decide +kernel

/-! ### C50: input -/

/-- For every kernel and every mix of calls there is a beginning of the incoming stream such that the reading calls give what they would
give on a stream that consists of it: bytes in order, none twice, none left out; the lines are the lines of that stream. -/
theorem input_stream (k : Kernel) (incoming : Str) (ops : List Op) :
    ∃ p, p <+: incoming
      ∧ (readRun (reads ops (run k ops (fresh incoming)).1).1 p).1 = (reads ops (run k ops (fresh incoming)).1).2 := by
  obtain ⟨t, h1, h2⟩ := run_input k ops (fresh incoming) (fresh_room incoming)
  obtain ⟨⟨q, h3, h4, _⟩, h5⟩ := h2 ((run k ops (fresh incoming)).2.rd) ⟨[], by simp, List.nil_prefix, fun _ => rfl⟩
  refine ⟨t ++ (run k ops (fresh incoming)).2.rd, ?_, by rw [h5]⟩
  rw [h3]
  exact h4

/-- If the connection is alive afterwards, the beginning may be taken to be the whole stream. -/
theorem input_alive (k : Kernel) (incoming : Str) (ops : List Op) (hc : (run k ops (fresh incoming)).2.connected = true) :
    (readRun (reads ops (run k ops (fresh incoming)).1).1 incoming).1 = (reads ops (run k ops (fresh incoming)).1).2 := by
  obtain ⟨t, h1, h2⟩ := run_input k ops (fresh incoming) (fresh_room incoming)
  obtain ⟨_, h5⟩ := h2 _ ⟨(run k ops (fresh incoming)).2.incoming, rfl, List.prefix_refl _, fun h => by rw [hc] at h; simp at h⟩
  rw [← h1] at h5
  simp only [fresh, List.nil_append] at h5 ⊢
  rw [h5]

/-- However the kernel cuts the incoming data into pieces: reading calls give exactly what they would give on the whole stream, and `EOF`
only at its end. -/
theorem input_delivers (k : Kernel) (hk : Delivers k) (incoming : Str) (ops : List Op) (ho : ∀ o ∈ ops, Reading o) :
    (run k ops (fresh incoming)).1 = (readRun ops incoming).1 := by
  obtain ⟨h3, h4⟩ := run_delivers k hk ops ho (fresh incoming) (fun h => by simp [fresh] at h)
  obtain ⟨t, h1, h2⟩ := run_input k ops (fresh incoming) (fresh_room incoming)
  obtain ⟨_, h5⟩ := h2 _ ⟨(run k ops (fresh incoming)).2.incoming, rfl, List.prefix_refl _, h3⟩
  rw [← h1, h4] at h5
  simp only [fresh, List.nil_append] at h5 ⊢
  rw [h5]

/-- `nextLine` takes apart a stream that has a line end: the line, with or without a carriage return, then the rest. -/
theorem nextLine_newline (l rest : Str) (h : 10 ∉ l) :
    nextLine none (l ++ 10 :: rest) = (some (dropCR l), rest) := by
  have ht : (l ++ 10 :: rest).takeWhile (· ≠ 10) = l := by
    rw [List.takeWhile_append_of_pos (by intro a ha; simp only [ne_eq, decide_eq_true_eq]; rintro rfl; exact h ha)]
    simp
  unfold nextLine
  dsimp only
  rw [ht, if_neg (by simp), if_pos (by simp)]
  congr 1
  rw [List.drop_append, List.drop_eq_nil_iff.2 (by omega)]
  simp

example : run threes [.getline (-1), .getline 2, .read 3, .getc, .getline (-1), .getline (-1)]
      (fresh [65, 13, 10, 66, 67, 68, 10, 255, 69, 70])
    = ([.line (some [65]), .line (some [66, 67]), .bytes [68, 10, 255], .char (some 69), .line (some [70]), .line none],
       { opened := false, connected := false, calls := 5 }) := by decide +kernel

example : Delivers threes := fun _ => (by decide : (0 : Int) < 3)

example : ¬ Delivers second := fun h => absurd (h 1) (by decide)

example : run second [.read 4, .write [1], .getc] (fresh [65, 66, 67, 68])
    = ([.bytes [65, 66, 67], .int 1, .char none], { opened := false, connected := false, wr := [1], incoming := [68], calls := 2 }) := by
  decide +kernel

example : nextLine none [65, 66, 13, 10, 67] = (some [65, 66], [67]) := by decide +kernel

/-! ### C62: connections -/

/-- The first connection of a socket starts with empty buffers. -/
theorem connect_fresh_partial (net : Net) (h : net.answers = true) : connect net new = (true, fresh net.incoming) := by
  simp [connect, new, dial, h, fresh]

/-- A later one does if the buffers were empty before. -/
theorem reconnect_fresh_partial (net : Net) (s : St) (hw : s.wr = []) (hr : s.rd = []) (h : (connect net s).1 = true) :
    ∃ n, (connect net s).2 = { fresh net.incoming with calls := n } := by
  obtain ⟨opened, connected, rd, wr, incoming, wire, calls⟩ := s
  simp only at hw hr
  subst hw hr
  refine ⟨calls, ?_⟩
  revert h
  unfold connect dial openSock close fresh
  cases opened <;> cases connected <;> cases net.closeOk <;> cases net.openOk <;> cases net.answers <;> simp

/-- The bytes that one connection left in the write buffer are sent to the peer of the next one. -/
theorem stale_output :
    let s := (run threes [.write [1, 2]] (fresh [])).2
    let s' := (connect {} s).2
    (connect {} s).1 = true ∧ (run threes [.write [3], .flush] s').1 = [.int 1, .int (-1)]
      ∧ (run threes [.write [3], .flush] s').2.wire = [1, 2, 3] := by decide +kernel

/-- The bytes that one connection left in the read buffer are read as if the peer of the next one had sent them. -/
theorem stale_input :
    let s := (run threes [.getc] (fresh [65, 66, 67])).2
    let s' := (connect { incoming := [97, 98] } s).2
    (connect { incoming := [97, 98] } s).1 = true ∧ (run threes [.read 4] s').1 = [.bytes [66, 67, 97, 98]] := by decide +kernel

/-- A socket whose connection broke never connects again: neither `shutdown` nor `connect` opens a new one. -/
theorem broken_forever (s : St) (h : s.opened = false) (net : Net) :
    connect net s = (false, s) ∧ shutdown net s = (false, s) := by
  simp [connect, shutdown, h]

example : (run second [.read 4] (fresh [65, 66, 67, 68])).2.opened = false := by decide +kernel

end Verif.Socket.Props
