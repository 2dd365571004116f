import Verif.UriCode.Spec
/-! Auxiliary lemmas on percent-encoding (no claims). -/

namespace Verif.UriCode.Lemmas
open Verif.UriCode Verif.UriCode.Spec

theorem forall_byte {p : UInt8 → Prop} (h : ∀ i : Fin 256, p (UInt8.ofNat i.val)) (c : UInt8) : p c := by
  have := h ⟨c.toNat, c.toNat_lt⟩
  simpa using this

theorem unreserved_iff (c : UInt8) : (isalnum c || decide (c = 45) || decide (c = 95) || decide (c = 46) || decide (c = 126)) = true ↔
    Unreserved c := by
  unfold Unreserved
  revert c
  apply forall_byte
  decide +kernel

theorem tochar_hex (i : Nat) (h : i < 16) : ("0123456789ABCDEF".toList[i]?).map (·.toNat) = some (tochar i).toNat := by
  have : ∀ i : Fin 16, ("0123456789ABCDEF".toList[i.val]?).map (·.toNat) = some (tochar i.val).toNat := by decide +kernel
  exact this ⟨i, h⟩

theorem hexDigit_tochar (i : Nat) (h : i < 16) : HexDigit (tochar i) i := ⟨i, rfl, h, Or.inl (tochar_hex i h)⟩

theorem tohex_hexDigit {d : UInt8} {n : Nat} (h : HexDigit d n) : tohex d = n ∧ n < 16 := by
  obtain ⟨i, rfl, hi, h⟩ := h
  refine ⟨?_, hi⟩
  revert n d
  intro d n hi
  have : ∀ i : Fin 16, ∀ j : Fin 256, (("0123456789ABCDEF".toList[i.val]?).map (·.toNat) = some j.val ∨
      ("0123456789abcdef".toList[i.val]?).map (·.toNat) = some j.val) → tohex (UInt8.ofNat j.val) = i.val := by decide +kernel
  intro h
  have := this ⟨n, hi⟩ ⟨d.toNat, d.toNat_lt⟩ h
  simpa using this

theorem encode_encodes (s : Str) : Encodes (encode s) s := by
  induction s with
  | nil => exact .nil
  | cons c s ih =>
    rw [encode]
    split
    · rename_i h
      refine .plain c ?_ ?_ ih
      · rintro rfl; exact absurd h (by decide)
      · rintro rfl; exact absurd h (by decide)
    · split
      · rename_i h; subst h; exact .space ih
      · refine .escape _ _ (c.toNat / 16) (c.toNat % 16) c (hexDigit_tochar _ ?_) (hexDigit_tochar _ (Nat.mod_lt _ (by decide))) ?_ ih
        · have := c.toNat_lt; omega
        · omega

theorem encode_normal (s : Str) : Normal (encode s) := by
  induction s with
  | nil => exact .nil
  | cons c s ih =>
    rw [encode]
    split
    · rename_i h
      exact .plain c ((unreserved_iff c).mp h) ih
    · rename_i h
      split
      · exact .space ih
      · rename_i hs
        refine .escape c _ _ (fun hu => h ((unreserved_iff c).mpr hu)) hs (tochar_hex _ ?_) (tochar_hex _ (Nat.mod_lt _ (by decide))) ih
        have := c.toNat_lt; omega

theorem decode_plain (c : UInt8) (h : c ≠ 37) (s : Str) : decode (c :: s) = (if c = 43 then 32 else c) :: decode s := by
  rw [decode.eq_def]
  split
  · rename_i e; cases e
  · rename_i e
    simp only [List.cons.injEq] at e
    exact absurd e.1 h
  · rename_i e
    simp only [List.cons.injEq] at e
    rw [e.1, e.2]

theorem decode_encodes {t s : Str} (h : Encodes t s) : decode t = s := by
  induction h with
  | nil => rfl
  | plain c hp hq _ ih => rw [decode_plain c hp, if_neg hq, ih]
  | space _ ih => rw [decode_plain 43 (by decide), if_pos rfl, ih]
  | escape a b m n c ha hb hc _ ih =>
    rw [decode, ih, (tohex_hexDigit ha).1, (tohex_hexDigit hb).1]
    congr 1
    apply UInt8.toNat.inj
    rw [UInt8.toNat_ofNat', hc]
    have := c.toNat_lt
    omega

end Verif.UriCode.Lemmas
