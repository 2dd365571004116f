import Verif.SockStream.Lemmas
/-! C77: a `socketstream` behaves like a stream in memory: it reads what the peer sends, in order, and the peer gets what is written to it. -/

namespace Verif.SockStream.Props
open Verif.Socket Verif.Socket.Spec Verif.SockStream Verif.SockStream.Spec Verif.SockStream.Lemmas

/-- A stream on a new connection whose peer sends `incoming`. -/
def onConnection (incoming : Str) : Stream := Stream.new.setsock (some (fresh incoming))

/-- When no system call fails, however the kernel cuts the data into pieces, then any operations give what they give on a stream in memory; the stream has the same
state; what is not read yet is left; and when the stream is flushed or its socket is released, the peer has got all that was written. -/
theorem like_memory {k : Kernel} (hd : Delivers k) (ha : Accepts k) (incoming : Str) (ops : List SockStream.Op) (fuel : Nat) (hf : incoming.length < fuel) :
    ∃ io s, Stream.run k fuel ops (onConnection incoming) = some ((memRun ops ⟨{}, incoming, []⟩).1, ⟨io, .live s⟩)
      ∧ io.bits = (memRun ops ⟨{}, incoming, []⟩).2.bits
      ∧ io.buf.toList ++ s.rd ++ s.incoming = (memRun ops ⟨{}, incoming, []⟩).2.input
      ∧ s.wire ++ s.wr = (memRun ops ⟨{}, incoming, []⟩).2.output
      ∧ (io.bits.good = true → (release k s).wire = (memRun ops ⟨{}, incoming, []⟩).2.output) := by
  obtain ⟨h1, h2⟩ := run_exact hd ha ops (sound_fresh incoming) hf (fuel := fuel)
  refine ⟨_, _, (stream_run k fuel ops {} (fresh incoming)).trans ?_, h2.bits.symm, ?_, h2.output, fun hg => ?_⟩
  · rw [← h1]
  · rw [List.append_assoc]
    exact h2.input
  · rw [release_spec]
    have hc := Socket.Lemmas.step_accepts k ha .flush trivial _ (h2.conn hg)
    have hgood := (Socket.Lemmas.step_output k .flush _ h2.room).2.2.2.2
    have h3 := hgood.1 (hgood.2 hc)
    obtain ⟨n, _, _, h4, _⟩ := Socket.Lemmas.flush_spec k (go k (runProg fuel ops {}) (fresh incoming)).2
    have h3 : (flush k (go k (runProg fuel ops {}) (fresh incoming)).2).2.wire ++ (flush k (go k (runProg fuel ops {}) (fresh incoming)).2).2.wr
        = (go k (runProg fuel ops {}) (fresh incoming)).2.wire ++ (go k (runProg fuel ops {}) (fresh incoming)).2.wr ++ [] := h3
    rw [h4, List.append_nil, List.append_nil] at h3
    rw [h3]
    exact h2.output

/-- When only sending may fail, reading is still like reading from memory. -/
theorem reads_like_memory {k : Kernel} (hd : Delivers k) (incoming : Str) (ops : List SockStream.Op) (ho : ∀ op ∈ ops, SockStream.Spec.Reading op)
    (fuel : Nat) (hf : incoming.length < fuel) :
    ∃ io s, Stream.run k fuel ops (onConnection incoming) = some ((memRun ops ⟨{}, incoming, []⟩).1, ⟨io, .live s⟩)
      ∧ io.bits = (memRun ops ⟨{}, incoming, []⟩).2.bits
      ∧ io.buf.toList ++ s.rd ++ s.incoming = (memRun ops ⟨{}, incoming, []⟩).2.input ∧ s.wire = [] := by
  obtain ⟨h1, h2⟩ := Prog.socket_eq_flat k hd (reads_run fuel ops ho {}) incoming
  obtain ⟨b, p, h3, h4⟩ := flat_run (fuel := fuel) ops ho {} incoming [] hf
  rw [h3] at h1 h2
  refine ⟨(go k (runProg fuel ops {}) (fresh incoming)).1.2, (go k (runProg fuel ops {}) (fresh incoming)).2,
    (stream_run k fuel ops {} (fresh incoming)).trans ?_, ?_, ?_, ?_⟩
  · exact congrArg some (Prod.ext (congrArg (fun r : List SockStream.Res × Io => r.1) h1) rfl)
  · exact congrArg (fun r : List SockStream.Res × Io => r.2.bits) h1
  · have e : (go k (runProg fuel ops {}) (fresh incoming)).1.2.buf = b := congrArg (fun r : List SockStream.Res × Io => r.2.buf) h1
    rw [List.append_assoc, e, h2]
    exact h4
  · exact (reads_frame k (reads_run fuel ops ho {}) (fresh incoming)).2.1

/-- Whatever the kernel does, what is read is what would be read from some beginning of what the peer sends: nothing is invented, doubled, left out or put in another
order. -/
theorem reads_beginning (k : Kernel) (incoming : Str) (ops : List SockStream.Op) (ho : ∀ op ∈ ops, SockStream.Spec.Reading op)
    (fuel : Nat) (hf : incoming.length < fuel) :
    ∃ q, q <+: incoming ∧ ∃ st, Stream.run k fuel ops (onConnection incoming) = some ((memRun ops ⟨{}, q, []⟩).1, st)
      ∧ st.io.bits = (memRun ops ⟨{}, q, []⟩).2.bits := by
  obtain ⟨q, hq, h1⟩ := Prog.socket_prefix k (reads_run fuel ops ho {}) incoming
  obtain ⟨b, p, h3, h4⟩ := flat_run (fuel := fuel) ops ho {} q [] (Nat.lt_of_le_of_lt hq.length_le hf)
  rw [h3] at h1
  refine ⟨q, hq, ⟨(go k (runProg fuel ops {}) (fresh incoming)).1.2, .live (go k (runProg fuel ops {}) (fresh incoming)).2⟩,
    (stream_run k fuel ops {} (fresh incoming)).trans (congrArg some (Prod.ext (congrArg (fun r : List SockStream.Res × Io => r.1) h1) rfl)), ?_⟩
  exact congrArg (fun r : List SockStream.Res × Io => r.2.bits) h1

/-- Whatever the kernel does: as long as the stream says that it is good, all results were those of a stream in memory, all that was written has been sent or waits in
the buffer, in order; and after a flush all of it has been sent. -/
theorem good_means_done (k : Kernel) (incoming : Str) (ops : List SockStream.Op) (fuel : Nat) (hf : incoming.length < fuel) :
    ∃ rs io s, Stream.run k fuel ops (onConnection incoming) = some (rs, ⟨io, .live s⟩)
      ∧ (io.bits.good = true →
          rs = (memRun ops ⟨{}, incoming, []⟩).1
          ∧ (memRun ops ⟨{}, incoming, []⟩).2.bits.good = true
          ∧ io.buf.toList ++ s.rd ++ s.incoming = (memRun ops ⟨{}, incoming, []⟩).2.input
          ∧ s.wire ++ s.wr = (memRun ops ⟨{}, incoming, []⟩).2.output
          ∧ (∀ ops', ops = ops' ++ [.flush] → s.wire = (memRun ops ⟨{}, incoming, []⟩).2.output)) := by
  refine ⟨_, _, _, stream_run k fuel ops {} (fresh incoming), fun hg => ?_⟩
  obtain ⟨h1, h2, h3⟩ := run_good ops (sound_fresh incoming).toRel hf (fuel := fuel) hg
  refine ⟨h1, ?_, ?_, h2.output, fun ops' e => ?_⟩
  · rw [h2.bits]
    exact hg
  · rw [List.append_assoc]
    exact h2.input
  · have h4 := h2.output
    rw [h3 ops' e, List.append_nil] at h4
    exact h4

/-- Whatever the kernel does, the peer gets a beginning of what the stream was asked to write, also when the socket is released. -/
theorem sends_beginning (k : Kernel) (incoming : Str) (ops : List SockStream.Op) (fuel : Nat) :
    ∃ rs io s, Stream.run k fuel ops (onConnection incoming) = some (rs, ⟨io, .live s⟩) ∧ s.wire <+: asked ops ∧ (release k s).wire <+: asked ops := by
  refine ⟨_, _, _, stream_run k fuel ops {} (fresh incoming), ?_⟩
  obtain ⟨os, h1, h2⟩ := run_trace (k := k) (fuel := fuel) ops {} (fresh incoming)
  have hroom : (fresh incoming).wr.length < bufSize := (by decide : 0 < bufSize)
  constructor
  · have h3 := (Socket.Lemmas.run_output k os (fresh incoming) hroom).2.2.2.1
    rw [← h2]
    exact List.IsPrefix.trans h3 h1
  · have h3 := (Socket.Lemmas.run_output k (os ++ [.flush]) (fresh incoming) hroom).2.2.2.1
    rw [written_append, run_append, h2] at h3
    rw [release_spec]
    refine List.IsPrefix.trans h3 ?_
    show written os ++ [] <+: asked ops
    rw [List.append_nil]
    exact h1

/-- A stream that is not good leaves the socket alone. -/
theorem refuses (k : Kernel) (fuel : Nat) (ops : List SockStream.Op) (io : Io) (s : St) (h : io.bits.good = false) :
    ∃ io', Stream.run k fuel ops ⟨io, .live s⟩ = some (ops.map Op.refused, ⟨io', .live s⟩) ∧ io'.bits.good = false ∧ io'.buf = io.buf := by
  induction ops generalizing io with
  | nil => exact ⟨io, rfl, h, rfl⟩
  | cons op ops ih =>
    have hb : ({ io.bits with fail := true } : Bits).good = false := by
      cases io.bits with
      | mk e f d => cases e <;> cases f <;> cases d <;> rfl
    obtain ⟨io', h1, h2, h3⟩ := ih { io with bits := { io.bits with fail := true } } hb
    refine ⟨io', ?_, h2, h3⟩
    have e : Stream.op k fuel ⟨io, .live s⟩ op = some (op.refused, ⟨{ io with bits := { io.bits with fail := true } }, .live s⟩) := by
      show some ((go k (opProg fuel op io) s).1.1, (⟨(go k (opProg fuel op io) s).1.2, .live (go k (opProg fuel op io) s).2⟩ : Stream)) = _
      rw [op_bad h]
    unfold Stream.run
    rw [e]
    show (Stream.run k fuel ops _).map _ = _
    rw [h1]
    rfl

/-- A stream that gets another connection begins anew. Missing: when a byte of the old connection was peeked at, it is read from the new one, see `stale_byte`. -/
theorem begins_anew_partial (st : Stream) (h : st.io.buf = none) :
    (∀ s, st.setsock (some s) = ⟨{}, .live s⟩)
      ∧ (∀ net : Net, net.answers = true → st.connect net = ⟨{}, .live (fresh net.incoming)⟩)
      ∧ (∀ net : Net, net.answers = false → (st.connect net).io.bits.good = false ∧ (st.connect net).isConnected = some false) := by
  refine ⟨fun s => ?_, fun net ha => ?_, fun net ha => ?_⟩
  · show (⟨⟨{}, st.io.buf⟩, .live s⟩ : Stream) = _
    rw [h]
  · have e : Socket.connect net Socket.new = (true, fresh net.incoming) := by
      show dial net Socket.new = _
      unfold dial
      rw [if_pos ha]
      rfl
    unfold Stream.connect
    rw [e]
    show (⟨⟨{}, st.io.buf⟩, .live (fresh net.incoming)⟩ : Stream) = _
    rw [h]
  · have e : Socket.connect net Socket.new = (false, close Socket.new) := by
      show dial net Socket.new = _
      unfold dial
      rw [if_neg (by rw [ha]; exact fun e => by cases e)]
    unfold Stream.connect
    rw [e]
    refine ⟨?_, rfl⟩
    show ({ st.io.bits with fail := true } : Bits).good = false
    cases st.io.bits with
    | mk e f d => cases e <;> cases f <;> cases d <;> rfl

/-- A kernel that takes and gives as much as there is. -/
def plain : Kernel := ⟨fun _ => 8192, fun _ => 8192⟩

/-- The byte that was peeked at in the old connection is the first byte of the new connection: the peer sends "xy", and "Axy" is read. -/
theorem stale_byte : ∃ st, Stream.run plain 9 [.peek] (onConnection [65, 66]) = some ([.char (some 65)], st) ∧
    (Stream.run plain 9 [.read 3] (st.setsock (some (fresh [120, 121])))).map Prod.fst = some [.bytes [65, 120, 121]] ∧
    (Stream.run plain 9 [.read 3] (st.connect { incoming := [120, 121] })).map Prod.fst = some [.bytes [65, 120, 121]] :=
  ⟨⟨⟨{}, some 65⟩, .live { fresh [] with rd := [66], calls := 1 }⟩, by decide +kernel, by decide +kernel, by decide +kernel⟩

/-- A stream that was never given a socket follows a null pointer in every operation, and so does `is_connected()`. -/
theorem unset_undefined (k : Kernel) (fuel : Nat) (op : SockStream.Op) : Stream.new.op k fuel op = none ∧ Stream.new.isConnected = none := ⟨rfl, rfl⟩

/-- Given a null pointer to a socket, a stream without a byte left refuses what it is asked, and says so. Missing: `flush`, see `null_flush_undefined`. -/
theorem null_refuses_partial (k : Kernel) (fuel : Nat) (op : SockStream.Op) (h : op ≠ .flush) (h0 : op ≠ .read 0) (h1 : op ≠ .write []) :
    ∃ io, (Stream.new.setsock none).op k fuel op = some ((memOp op ⟨{}, [], []⟩).1, ⟨io, .null⟩) ∧ io.bits.good = false := by
  cases op with
  | get => exact ⟨_, rfl, rfl⟩
  | peek => exact ⟨_, rfl, rfl⟩
  | read n =>
    cases n with
    | zero => exact absurd rfl h0
    | succ n => cases n <;> exact ⟨_, rfl, rfl⟩
  | getline => exact ⟨_, rfl, rfl⟩
  | put c => exact ⟨_, rfl, rfl⟩
  | write d =>
    cases d with
    | nil => exact absurd rfl h1
    | cons c d => exact ⟨_, rfl, rfl⟩
  | flush => exact absurd rfl h

/-- A byte that was peeked at before the null pointer is given is still there: it is read like a stream in memory that holds that byte. -/
theorem null_reads (k : Kernel) (fuel : Nat) (op : SockStream.Op) (h : Reading op) (bits : Bits) (b : Option UInt8) :
    ∃ io, Stream.op k fuel ⟨⟨bits, b⟩, .null⟩ op = some ((memOp op ⟨bits, b.toList, []⟩).1, ⟨io, .null⟩) ∧
      io.bits = (memOp op ⟨bits, b.toList, []⟩).2.bits ∧ io.buf.toList = (memOp op ⟨bits, b.toList, []⟩).2.input := by
  unfold Stream.op nullOp memOp
  dsimp only
  cases hg : bits.good with
  | false => exact ⟨_, rfl, rfl, rfl⟩
  | true =>
  cases op with
  | get => cases b <;> exact ⟨_, rfl, rfl, rfl⟩
  | peek => cases b <;> exact ⟨_, rfl, rfl, rfl⟩
  | read n =>
    rcases n with _ | _ | n <;> cases b <;> refine ⟨_, rfl, ?_⟩ <;> simp
  | getline =>
    cases b with
    | none => exact ⟨_, rfl, rfl, rfl⟩
    | some c =>
      by_cases hc : c = 10
      · subst hc; exact ⟨_, rfl, rfl, rfl⟩
      · have : bits.fail = false := by revert hg; cases bits; simp [Bits.good]; exact fun _ h _ => h
        refine ⟨⟨{ bits with eof := true }, none⟩, ?_⟩
        simp [hc, Ne.symm hc, this]
  | put c => exact absurd h id
  | write d => exact absurd h id
  | flush => exact absurd h id

example : (Stream.op plain 9 ⟨⟨{}, some 65⟩, .null⟩ .getline).map Prod.fst = some (.line (some [65])) ∧ Reading .getline := ⟨by decide +kernel, trivial⟩

/-- `flush` with a null pointer to a socket follows it: `sync` is the only function of the buffer that does not look. -/
theorem null_flush_undefined (k : Kernel) (fuel : Nat) : (Stream.new.setsock none).op k fuel .flush = none := rfl

/-! Cases that meet the hypotheses. -/

/-- One byte is delivered and accepted by each call. -/
def slow : Kernel := ⟨fun _ => 1, fun _ => 1⟩

example : Delivers slow ∧ Accepts slow := ⟨fun _ => (by decide : (0 : Int) < 1), fun _ => (by decide : (0 : Int) < 1)⟩
example : (Stream.run slow 9 [.getline, .put 33, .peek, .write [1, 2], .get, .flush, .getline, .put 7] (onConnection [72, 10, 105, 10])).map Prod.fst =
    some [.line (some [72]), .done, .char (some 105), .done, .char (some 105), .done, .line (some []), .done] := by decide +kernel
example : memRun [.getline, .put 33, .peek, .write [1, 2], .get, .flush, .getline, .put 7] ⟨{}, [72, 10, 105, 10], []⟩ =
    ([.line (some [72]), .done, .char (some 105), .done, .char (some 105), .done, .line (some []), .done], ⟨{}, [], [33, 1, 2, 7]⟩) := by decide +kernel
/-- The peer breaks off after a byte. -/
def broken : Kernel := ⟨fun _ => 8192, fun i => if i = 0 then 1 else -1⟩
example : (Stream.run broken 9 [.read 2, .get] (onConnection [72, 105])).map (fun r => (r.1, r.2.io.bits)) =
    some ([.bytes [72], .char none], ⟨true, true, false⟩) := by decide +kernel
example : memRun [.read 2, .get] ⟨{}, [72], []⟩ = ([.bytes [72], .char none], ⟨⟨true, true, false⟩, [], []⟩) := by decide +kernel
/-- The peer does not take anything: the flush is reported. -/
def deaf : Kernel := ⟨fun _ => -1, fun _ => 8192⟩
example : (Stream.run deaf 9 [.write [1, 2], .flush, .write [3]] (onConnection [])).map (fun r => r.2.io.bits) = some ⟨false, true, true⟩ := by decide +kernel
example : (Stream.run deaf 9 [.write [1, 2]] (onConnection [])).map (fun r => r.2.io.bits.good) = some true := by decide +kernel
example : (⟨true, false, false⟩ : Bits).good = false := rfl
example : (onConnection [1]).io.buf = none := rfl
example : (SockStream.Op.put 3 ≠ .flush) ∧ (SockStream.Op.put 3 ≠ .read 0) ∧ (SockStream.Op.put 3 ≠ .write []) := by decide

end Verif.SockStream.Props
