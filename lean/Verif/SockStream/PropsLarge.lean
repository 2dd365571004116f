import Verif.SockStream.Large
/-! C49 and C77 for writes of any length. -/

namespace Verif.SockStream.PropsLarge
open Verif.Socket Verif.Socket.Lemmas Verif.Socket.Spec Verif.SockStream

theorem asInt_small (n : Nat) (h : n < 2 ^ 31) : asInt n = n := by
  unfold asInt; rw [Int.bmod_def]; omega

theorem asInt_cases (n : Nat) : (n % 2 ^ 32 < 2 ^ 31 ∧ asInt n = (n % 2 ^ 32 : Nat)) ∨ (2 ^ 31 ≤ n % 2 ^ 32 ∧ asInt n < 0) := by
  unfold asInt; rw [Int.bmod_def]; omega

/-- C49, C77. Below 2^31 bytes nothing changes: the calls are those of `Verif.Socket` and `Verif.SockStream`. -/
theorem small_same (k : Kernel) (d : Str) (s : St) (io : Io) (fuel : Nat) (h : d.length < 2 ^ 31) (hg : io.bits.good = true)
    (hr : s.wr.length < bufSize) :
    writeAny k d s = some (write k d s) ∧ putsAny k d s = some (puts k d s) ∧
      (writeStream k d io s).map (fun r => (Res.done, r.1, r.2)) =
        some (((opProg fuel (.write d) io).run (step k) s).1.1, ((opProg fuel (.write d) io).run (step k) s).1.2,
          ((opProg fuel (.write d) io).run (step k) s).2) := by
  have e : writeAny k d s = some (write k d s) := by
    unfold writeAny
    rw [asInt_small _ h, if_neg (by omega), Int.toNat_natCast, List.take_length]
  obtain ⟨-, -, -, -, n, hn, hw, -⟩ := write_spec k d s hr
  refine ⟨e, ?_, ?_⟩
  · unfold putsAny puts
    rw [e, asInt_small _ h]
    simp only [Option.map_some, hw]
    congr 2
  · unfold writeStream
    rw [e]
    simp only [Option.map_some, opProg, hg, if_true, xsputn, Prog.bind, Prog.run, step]
    have h0 : ¬ ((n : Int) < 0) := by omega
    have hr : (if (write k d s).1 < 0 then (0 : Int) else (write k d s).1) = n := by rw [hw, if_neg h0]
    have hr' : (if (write k d s).1 < 0 then 0 else (write k d s).1.toNat) = n := by rw [hw, if_neg h0, Int.toNat_natCast]
    have hs : ∀ {α : Type} (x y : α), (if (if (write k d s).1 < 0 then 0 else (write k d s).1.toNat) ≠ d.length then x else y)
        = if n = d.length then y else x := by
      intro α x y
      by_cases hne : n = d.length
      · rw [if_neg (fun hc => hc (hr'.trans hne)), if_pos hne]
      · rw [if_pos (fun hc => hne (hr'.symm.trans hc)), if_neg hne]
    have hs' : ∀ {α : Type} (x y : α), (if (if (write k d s).1 < 0 then (0 : Int) else (write k d s).1) ≠ d.length then x else y)
        = if n = d.length then y else x := by
      intro α x y
      by_cases hne : n = d.length
      · rw [if_neg (fun hc => hc (hr.trans (by rw [hne]))), if_pos hne]
      · rw [if_pos (fun hc => hne (by have := hr.symm.trans hc; omega)), if_neg hne]
    refine congrArg some ?_
    refine Prod.ext rfl (Prod.ext ?_ rfl)
    refine (hs' _ _).trans ?_
    have hx := hs { io.bits with bad := true } io.bits
    refine Eq.trans ?_ (congrArg (fun b => (⟨b, io.buf⟩ : Io)) hx.symm)
    split <;> rfl

/-- C49, C77 fail: a length whose lower 32 bits are 2^31 or more arrives negative, and the call is undefined. -/
theorem large_undefined (k : Kernel) (d : Str) (s : St) (io : Io) (h : 2 ^ 31 ≤ d.length % 2 ^ 32) :
    writeAny k d s = none ∧ putsAny k d s = none ∧ writeStream k d io s = none := by
  have e : writeAny k d s = none := by
    unfold writeAny
    rcases asInt_cases d.length with h' | h'
    · omega
    · rw [if_pos h'.2]
  exact ⟨e, by simp [putsAny, e], by simp [writeStream, e]⟩

example : 2 ^ 31 ≤ (List.replicate (2 ^ 31) (0 : UInt8)).length % 2 ^ 32 := by rw [List.length_replicate]; decide

/-- C77. From 2^32 bytes on, as many bytes are sent as the lower 32 bits say, and the stream is bad: the loss is reported. -/
theorem large_stream_bad (k : Kernel) (d : Str) (s : St) (io io' : Io) (s' : St) (h : 2 ^ 31 ≤ d.length) (hr : s.wr.length < bufSize)
    (hw : writeStream k d io s = some (io', s')) :
    io'.bits.bad = true ∧ s' = (write k (d.take (d.length % 2 ^ 32)) s).2 := by
  unfold writeStream writeAny at hw
  rcases asInt_cases d.length with ⟨h1, h2⟩ | ⟨h1, h2⟩
  · rw [h2, if_neg (by omega), Int.toNat_natCast] at hw
    obtain ⟨-, -, -, -, n, hn, he, -⟩ := write_spec k (d.take (d.length % 2 ^ 32)) s hr
    simp only [Option.map_some, Option.some.injEq, Prod.mk.injEq, he] at hw
    refine ⟨?_, hw.2.symm⟩
    have hl : n < d.length := by
      rw [List.length_take] at hn
      omega
    rw [← hw.1, if_pos (by split <;> omega)]
  · rw [if_pos h2] at hw; simp at hw

/-- C49 fails: `puts` of 2^32 + m bytes sends m bytes and, if they are taken, reports success. -/
theorem large_puts_unreported (k : Kernel) (d : Str) (s : St) (h : 2 ^ 32 ≤ d.length) (hm : d.length % 2 ^ 32 < 2 ^ 31)
    (ht : (write k (d.take (d.length % 2 ^ 32)) s).1 = (d.length % 2 ^ 32 : Nat)) (hr : s.wr.length < bufSize) :
    putsAny k d s = some (true, (write k (d.take (d.length % 2 ^ 32)) s).2) ∧
      (write k (d.take (d.length % 2 ^ 32)) s).2.wire ++ (write k (d.take (d.length % 2 ^ 32)) s).2.wr = s.wire ++ s.wr ++ d.take (d.length % 2 ^ 32) ∧
      d.take (d.length % 2 ^ 32) ≠ d := by
  have hl : (d.take (d.length % 2 ^ 32)).length = d.length % 2 ^ 32 := by rw [List.length_take]; omega
  obtain ⟨-, -, -, -, n, hn, he, hf, -⟩ := write_spec k (d.take (d.length % 2 ^ 32)) s hr
  rcases asInt_cases d.length with ⟨h1, h2⟩ | ⟨h1, h2⟩
  · refine ⟨?_, ?_, ?_⟩
    · unfold putsAny writeAny
      rw [h2, if_neg (by omega), Int.toNat_natCast]
      simp only [Option.map_some, ht, beq_self_eq_true]
    · exact (hf (by rw [he] at ht; omega)).1
    · intro e; rw [e] at hl; omega
  · omega

/-- A string of 2^32 + 1 bytes, of which one is put into the buffer. -/
example (k : Kernel) : putsAny k (List.replicate (2 ^ 32 + 1) 7) (fresh []) = some (true, { fresh [] with wr := [7] }) := by
  have e : (List.replicate (2 ^ 32 + 1) (7 : UInt8)).length = 2 ^ 32 + 1 := List.length_replicate
  have t : (List.replicate (2 ^ 32 + 1) (7 : UInt8)).take ((2 ^ 32 + 1) % 2 ^ 32) = [7] := by rw [List.take_replicate]; rfl
  have := large_puts_unreported k (List.replicate (2 ^ 32 + 1) 7) (fresh []) (by rw [e]; decide) (by rw [e]; decide)
    (by rw [e, t]; rfl) (by decide)
  rw [this.1, e, t]; rfl

end Verif.SockStream.PropsLarge
