import Verif.Base64.Lemmas
/-! Properties C01 and C02. -/

namespace Verif.Base64.Props
open Verif.Base64 Verif.Base64.Spec

/-- C01. Decoding an encoded string gives the string back. -/
theorem base64_roundtrip (s : List UInt8) : decode (encode s) = .ok s := by
  have h : (encode s).length % 4 = 0 := by rw [length_encode]; omega
  unfold decode
  rw [if_neg (by omega)]
  exact decodeBlocks_encode s

-- "Ma" <-> "TWE="
example : encode [77, 97] = [84, 87, 69, 61] := by decide
example : decode [84, 87, 69, 61] = .ok [77, 97] := by decide

/-- C01. The encoding is well-formed padded base64 of length `4 * ceil(len / 3)`, and the digits carry exactly the bits
of the input, most significant first, followed by fewer than six zero bits. -/
theorem base64_encode_spec (s : List UInt8) :
    WellFormed (encode s) ∧ (encode s).length = 4 * ((s.length + 2) / 3) ∧
    ∃ k < 6, textBits (encode s) = byteBits s ++ List.replicate k false :=
  ⟨wellFormed_encode s, length_encode s, textBits_encode s⟩

/-- C02. Every well-formed text is accepted, and the result holds the bits of its digits
(fewer than eight trailing bits, which fill no byte, are dropped). -/
theorem base64_decode_wellFormed (s : List UInt8) (h : WellFormed s) :
    ∃ t r, decode s = .ok t ∧ r.length < 8 ∧ textBits s = byteBits t ++ r := by
  obtain ⟨t, r, h1, h2, h3⟩ := decodeBlocks_bits s h
  refine ⟨t, r, ?_, h2, h3⟩
  unfold decode
  rw [if_neg (by have := length_wellFormed s h; omega)]
  exact h1

example : WellFormed [84, 87, 69, 61] := .pad1 (by unfold IsDigit; decide) (by unfold IsDigit; decide) (by unfold IsDigit; decide)

/-- C02, the full statement: decoding succeeds only on well-formed texts. -/
def RejectsMalformed : Prop := ∀ s t, decode s = .ok t → WellFormed s

/-- C02 fails: `AA=?` (and any text with rubbish after a `=`) is accepted. -/
theorem base64_rejectsMalformed_fails : ¬ RejectsMalformed := by
  intro h
  have h1 : WellFormed [65, 65, 61, 63] := h _ [0] (by decide)
  cases h1 with
  | group _ _ h => revert h; unfold IsDigit; decide

/-- C02, exact acceptance: decoding succeeds exactly on the `Tolerated` texts whose length is divisible by four. -/
theorem base64_accepts_iff (s : List UInt8) : (∃ t, decode s = .ok t) ↔ s.length % 4 = 0 ∧ Tolerated s := by
  unfold decode
  constructor
  · rintro ⟨t, h⟩
    split at h
    · simp at h
    · rename_i h4
      exact ⟨by omega, decodeBlocks_ok s (by omega) t h⟩
  · rintro ⟨h4, h⟩
    rw [if_neg (by omega)]
    exact decodeBlocks_tolerated s h

/-- C02, what holds: a malformed text without `=` (wrong length or a foreign character anywhere) is rejected. Missing from
the full property: malformed texts in which the malformation comes after a `=`. -/
theorem base64_rejects_partial (s : List UInt8) (hp : 61 ∉ s) (hs : ¬ WellFormed s) : ∃ e, decode s = .error e := by
  cases h : decode s with
  | error e => exact ⟨e, rfl⟩
  | ok t =>
    have := (base64_accepts_iff s).mp ⟨t, h⟩
    exact absurd (wellFormed_of_tolerated s this.2 hp) hs

example : (61 : UInt8) ∉ ([65, 66, 67, 33] : List UInt8) ∧ ¬ WellFormed [65, 66, 67, 33] := by
  refine ⟨by decide, ?_⟩
  intro h
  cases h with
  | group _ _ _ h => revert h; unfold IsDigit; decide

end Verif.Base64.Props
