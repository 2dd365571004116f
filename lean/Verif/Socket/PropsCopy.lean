import Verif.Socket.Copy
/-! C49, C50: what copies of a `stream_socket` do to the two streams. -/

namespace Verif.Socket.Props
open Verif.Socket Verif.Socket.Spec Verif.Socket.Lemmas

/-- What was in the output buffer when the socket was copied is sent twice, when both flush, as their destructors do: once by the original, once by the copy. -/
theorem copy_sends_twice (k : Kernel) (hk : Accepts k) (incoming : Str) (ops : List Op) (ho : ∀ o ∈ ops, Writing o) :
    let s := (run k ops (fresh incoming)).2
    (flush k s).2.wire = written ops ∧ (flush k (copyOf s (flush k s).2)).2.wire = written ops ++ s.wr := by
  have h0 : (fresh incoming).wr.length < bufSize := (by decide : 0 < bufSize)
  have hc := run_accepts k hk ops ho _ h0 rfl
  have ho := run_output k ops (fresh incoming) h0
  have hw := ho.2.2.2.2.1 (ho.2.2.2.2.2 hc)
  intro s
  have hw' : s.wire ++ s.wr = written ops := hw
  have key : ∀ t : St, t.connected = true → (flush k t).2.wire = t.wire ++ t.wr := fun t ht => by
    simp only [flush]
    split
    · rename_i hl
      have e := sendLoop_accepts k hk t.wr.length t.wr t (Nat.le_refl _) ht
      obtain ⟨_, _, _, h4, _⟩ := sendAll_spec k t.wr t
      have e' : (sendAll k t.wr t).1 = t.wr.length := e
      rw [e', List.take_length] at h4
      exact h4
    · rename_i hl
      have : t.wr = [] := List.length_eq_zero_iff.1 (by omega)
      simp [this]
  have h1 := key s hc
  refine ⟨h1.trans hw', ?_⟩
  have h2 := key (copyOf s (flush k s).2) hc
  rw [h2]
  show (flush k s).2.wire ++ s.wr = _
  rw [h1, hw']

example : (run ⟨fun _ => 8, fun _ => 8⟩ [.write [1, 2], .flush, .write [3, 4]] (fresh [])).2.wr = [3, 4] := by decide +kernel

/-- What was in the input buffer is read by both. -/
theorem copy_reads_twice (k : Kernel) (s : St) (c : UInt8) (rd : Str) (h : s.rd = c :: rd) :
    (getc k s).1 = some c ∧ (getc k (copyOf s (getc k s).2)).1 = some c := by
  have e : (copyOf s (getc k s).2).rd = c :: rd := h
  constructor
  · simp only [getc, h]
  · simp only [getc.eq_def k (copyOf s _), e]

/-- What is not in the buffer goes to the one that reads first: the other misses it. -/
theorem copy_splits : let s := fresh [1, 2, 3, 4]
    let k : Kernel := ⟨fun _ => 8, fun _ => 2⟩
    (getc k s).1 = some 1 ∧ (getc k (copyOf s (getc k s).2)).1 = some 3 := by decide +kernel

end Verif.Socket.Props
