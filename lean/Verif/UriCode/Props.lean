import Verif.UriCode.Lemmas
/-! Property C45: percent-encoding. -/

namespace Verif.UriCode.Props
open Verif.UriCode Verif.UriCode.Spec Verif.UriCode.Lemmas

/-- C45: `uri_decode(uri_encode(s)) = s` for every byte string. -/
theorem decode_encode (s : Str) : decode (encode s) = s := decode_encodes (encode_encodes s)

example : encode [97, 32, 43, 255, 0] = [97, 43, 37, 50, 66, 37, 70, 70, 37, 48, 48] := by decide +kernel
example : decode [97, 43, 37, 50, 66, 37, 70, 70, 37, 48, 48] = [97, 32, 43, 255, 0] := by decide +kernel

/-- C45: `uri_decode` decodes every form encoding, whoever made it: with capital or small digits, with more escapes than needed. -/
theorem decode_any (t s : Str) (h : Encodes t s) : decode t = s := decode_encodes h

example : Encodes [37, 50, 98, 37, 54, 49, 43] [43, 97, 32] := by
  refine .escape 50 98 2 11 43 ⟨2, rfl, by decide, Or.inl (by decide +kernel)⟩ ⟨11, rfl, by decide, Or.inr (by decide +kernel)⟩ (by decide) ?_
  refine .escape 54 49 6 1 97 ⟨6, rfl, by decide, Or.inl (by decide +kernel)⟩ ⟨1, rfl, by decide, Or.inl (by decide +kernel)⟩ (by decide) ?_
  exact .space .nil

/-- C45: `uri_encode` gives a form encoding made of unreserved characters, plus signs and escapes, escaping no more than needed. -/
theorem encode_correct (s : Str) : Encodes (encode s) s ∧ Normal (encode s) := ⟨encode_encodes s, encode_normal s⟩

/-- C45: different strings have different encodings. -/
theorem encode_injective (s t : Str) (h : encode s = encode t) : s = t := by rw [← decode_encode s, h, decode_encode]

/-- Finding: a `%` that two other characters follow is taken for an escape whatever they are; the text `%zz` becomes a 0 byte. -/
theorem decode_bad_escape : decode [37, 122, 122, 97] = [0, 97] := by decide +kernel

/-- A `%` in the last two places stands for itself. -/
theorem decode_short_escape (a : UInt8) : decode [37] = [37] ∧ (a ≠ 37 → a ≠ 43 → decode [37, a] = [37, a]) := by
  refine ⟨rfl, fun h1 h2 => ?_⟩
  have : decode [37, a] = 37 :: decode [a] := rfl
  rw [this, decode_plain a h1, if_neg h2]
  rfl

end Verif.UriCode.Props
