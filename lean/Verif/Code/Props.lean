import Verif.Code.Lemmas
/-!
# Properties of the bit codes (C17)
-/
namespace Verif.Code.Props
open Verif.Code Verif.Code.Spec Verif.Code.Lemmas

/-- **C17 (partial).** Any sequence of encoder calls with arguments in range
runs without undefined behaviour, and attaching the written stream and making
the matching decoder calls returns exactly the written values — provided
`byte` is only called at byte boundaries. (Missing: `byte` in the middle of a
byte, where the claim is false, see `byte_unaligned_fails`.) -/
theorem roundtrip_partial (ops : List Op) (hv : ∀ o ∈ ops, Valid o) (hal : BytesAligned 0 ops) :
    ∃ e, Enc.new.run ops = some e ∧
      Dec.run (attachStream e.flush.1) Dec.new ops = some (ops.map value) := by
  obtain ⟨e, he, -, -, -⟩ := run_spec ops at_new hv
  exact ⟨e, he, drun_spec ops at_new hv he hal ⟨by decide, rfl⟩⟩

example : ∃ ops : List Op, (∀ o ∈ ops, Valid o) ∧ BytesAligned 0 ops ∧ ops.length = 8 ∧
    ((Enc.new.run ops).bind fun e => Dec.run (attachStream e.bytes) Dec.new ops)
      = some [200, 5, 1000, 77, 4294967295, 300000, 0, 9] := by
  refine ⟨[.byte 200, .word 5 3, .gamma 1000, .rice 77 4, .delta 4294967295, .prefixCode 300000,
    .word 0 0, .byte 9], by decide, ?_, rfl, by decide +kernel⟩
  have g : groups 300000 = 3 := by
    rw [groups, if_neg (by decide), groups, if_neg (by decide), groups, if_pos (by decide)]
  simp [BytesAligned, after, roundUp, g]

/-- **C17.** Without `byte` there is no side condition: every sequence of
word, gamma, delta, Rice and prefix calls with arguments in range is read back
exactly. -/
theorem roundtrip_bits (ops : List Op) (hv : ∀ o ∈ ops, Valid o)
    (hb : ∀ v, Op.byte v ∉ ops) :
    ∃ e, Enc.new.run ops = some e ∧
      Dec.run (attachStream e.flush.1) Dec.new ops = some (ops.map value) := by
  refine roundtrip_partial ops hv ?_
  generalize 0 = P
  clear hv
  induction ops generalizing P with
  | nil => trivial
  | cons o os ih =>
    exact ⟨fun ⟨v, h⟩ => absurd (by simp [h]) (hb v),
      ih (fun v h => hb v (by simp [h])) _⟩

example : ∃ ops : List Op, (∀ o ∈ ops, Valid o) ∧ (∀ v, Op.byte v ∉ ops) ∧ ops.length = 3 :=
  ⟨[.gamma 7, .prefixCode 1000, .word 3 2], by decide, by simp, rfl⟩

/-- **C17, size.** The stream has exactly the number of bits the codes
prescribe, rounded up to whole bytes: a word takes its length, gamma takes
2⌊log₂ v⌋+1 bits, and so on. -/
theorem encoded_size (ops : List Op) (hv : ∀ o ∈ ops, Valid o) :
    ∃ e, Enc.new.run ops = some e ∧ 8 * e.flush.1.length = roundUp (endPos 0 ops) := by
  obtain ⟨e, he, ha, -, -⟩ := run_spec ops at_new hv
  exact ⟨e, he, ha.len⟩

example : (Enc.new.run [.gamma 5, .word 1 1]).map (fun e => e.flush.1) = some [0x2c] ∧
    roundUp (endPos 0 [.gamma 5, .word 1 1]) = 8 := by decide +kernel

/-- **C17, negation.** As stated for all call sequences the round trip is
false: a `byte` written after a partial byte is not read back, because the
encoder starts a new byte and the decoder does not. -/
theorem byte_unaligned_fails :
    ¬ ∀ ops : List Op, (∀ o ∈ ops, Valid o) →
      ∃ e, Enc.new.run ops = some e ∧
        Dec.run (attachStream e.flush.1) Dec.new ops = some (ops.map value) := by
  intro h
  obtain ⟨e, he, hd⟩ := h [.word 1 1, .byte 7] (by decide)
  have : Enc.new.run [.word 1 1, .byte 7] = some ⟨[1, 7], 0⟩ := by decide +kernel
  rw [this, Option.some.injEq] at he
  subst he
  revert hd
  decide +kernel

/-- **C17, negation.** Attaching the buffer itself instead of a stream reads
past its end: the decoder always loads eight bytes and `attach(unsigned
char*)` does not pad. -/
theorem attachBuf_overread :
    Enc.new.run [.word 1 1] = some ⟨[1], 1⟩ ∧
      Dec.run (attachBuf [1]) Dec.new [.word 1 1] = none := by
  decide +kernel

/-- **C17, negation.** Zero has no gamma code: the encoder evaluates
`__builtin_clz(0)`; and the Rice code with parameter 0 reaches the same for
the largest value. -/
theorem zero_undefined : Enc.new.gamma 0 = none ∧ Enc.new.delta 0 = none ∧
    Enc.new.rice (2 ^ 32 - 1) 0 = none := by
  decide +kernel

/-- **C17.** A word of 64 bits or more cannot be read, whatever is there: the mask is made with a shift as wide as the type. -/
theorem long_word_undefined (mem : List UInt8) (d : Dec) (len : Nat) (h : 64 ≤ len) : Dec.run mem d [.word 0 len] = none := by
  simp [Dec.run, Dec.step, Dec.word, h]

example : Dec.word (attachStream [255, 1]) Dec.new 63 = some (511, ⟨7, 7⟩) ∧ Dec.word (attachStream [255, 1]) Dec.new 64 = none := by decide +kernel

end Verif.Code.Props
