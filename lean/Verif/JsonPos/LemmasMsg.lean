import Verif.JsonPos.Spec
import Verif.Json.LemmasParse
/-! The texts of the messages (no claims). -/

namespace Verif.JsonPos.Lemmas
open Verif.JsonPos Verif.JsonPos.Spec
open Verif.Json (Str)
open Verif.Json.Spec (utf8)
open Verif.Json.Lemmas (utf8_eq)
open Verif.Ustring (ucharToChars)
open Verif.Ustring.Spec (Scalar)

theorem hexDigit_hex : ∀ d < 16, Hex (hexDigit d) ∧ (if hexDigit d ≤ 57 then (hexDigit d).toNat - 48 else (hexDigit d).toNat - 55) = d ∧
    (d ≠ 0 → hexDigit d ≠ 48) := by
  unfold Hex
  decide

theorem hexNum_snoc (h : Str) (b : UInt8) : hexNum (h ++ [b]) = 16 * hexNum h + (if b ≤ 57 then b.toNat - 48 else b.toNat - 55) := by
  simp [hexNum, List.foldl_append]

theorem hexNum_zeros (k : Nat) : hexNum (List.replicate k 48) = 0 := by
  induction k with
  | zero => rfl
  | succ k ih => rw [List.replicate_succ', hexNum_snoc, ih]; rfl

theorem hexPad_spec (k n : Nat) : k ≤ (hexPad k n).length ∧ 0 < (hexPad k n).length ∧ (∀ b ∈ hexPad k n, Hex b) ∧ hexNum (hexPad k n) = n ∧
    (n ≠ 0 → k < (hexPad k n).length → (hexPad k n).head? ≠ some 48) := by
  fun_induction hexPad k n with
  | case1 k n h =>
    obtain ⟨h1, h2, h3⟩ := hexDigit_hex n h
    refine ⟨by simp; omega, by simp, ?_, ?_, ?_⟩
    · intro b hb
      simp only [List.mem_append, List.mem_replicate, List.mem_singleton] at hb
      rcases hb with ⟨_, rfl⟩ | rfl
      · unfold Hex; decide
      · exact h1
    · rw [hexNum_snoc, hexNum_zeros, h2]; omega
    · intro hn hk
      have : k = 0 := by simp at hk; omega
      subst this
      simpa using h3 hn
  | case2 k n h ih =>
    obtain ⟨i1, i0, i2, i3, i4⟩ := ih
    obtain ⟨h1, h2, h3⟩ := hexDigit_hex (n % 16) (Nat.mod_lt _ (by decide))
    refine ⟨by simp; omega, by simp, ?_, ?_, ?_⟩
    · intro b hb
      simp only [List.mem_append, List.mem_singleton] at hb
      rcases hb with hb | rfl
      · exact i2 b hb
      · exact h1
    · rw [hexNum_snoc, i3, h2]; omega
    · intro _ hk
      simp only [List.length_append, List.length_singleton] at hk
      have := i4 (by omega) (by omega)
      cases hp : hexPad (k - 1) (n / 16) with
      | nil => rw [hp] at i0; simp at i0
      | cons x xs => rw [hp] at this; simpa using this

theorem hexPad_len (j k n : Nat) (hk : k ≤ j) (hj : 0 < j) (hn : n < 16 ^ j) : (hexPad k n).length ≤ j := by
  induction j generalizing k n with
  | zero => omega
  | succ j ih =>
    rw [hexPad]
    split
    · simp; omega
    · rename_i h
      rw [Nat.pow_succ] at hn
      have hj : 0 < j := by
        rcases Nat.eq_zero_or_pos j with rfl | h'
        · simp at hn; omega
        · exact h'
      have := ih (k - 1) (n / 16) (by omega) hj (by omega)
      simpa using this

theorem hexPad_code (n : Nat) : CodePoint (hexPad 4 n) n := by
  obtain ⟨h1, _, h2, h3, h4⟩ := hexPad_spec 4 n
  refine ⟨h1, h2, h3, fun h => h4 ?_ h⟩
  rintro rfl
  have := hexPad_len 4 4 0 (by omega) (by omega) (by omega)
  omega

theorem cstr_eq {s : Str} (h : ∀ b ∈ s, b ≠ 0) : cstr s = s := by
  induction s with
  | nil => rfl
  | cons b s ih =>
    rw [cstr, List.takeWhile_cons_of_pos (by simpa using h b (by simp))]
    exact congrArg _ (ih fun x hx => h x (by simp [hx]))

theorem cstr_shown (c : Nat) (h : Scalar c) : cstr (ucharToChars c) = shown c := by
  unfold shown
  by_cases h0 : c = 0
  · subst h0; decide
  · rw [if_neg h0, utf8_eq h]
    refine cstr_eq ?_
    unfold Scalar at h
    have key : ∀ n : Nat, 0 < n → n < 256 → UInt8.ofNat n ≠ 0 := by
      intro n h1 h2 h3
      have := congrArg UInt8.toNat h3
      rw [UInt8.toNat_ofNat_of_lt' h2] at this
      simp at this
      omega
    unfold utf8 Verif.Ustring.Spec.enc
    repeat' split
    all_goals
      simp only [List.map_cons, List.map_nil, List.forall_mem_cons, List.not_mem_nil, false_implies, implies_true, and_true]
    · exact key _ (by omega) (by omega)
    · exact ⟨key _ (by omega) (by omega), key _ (by omega) (by omega)⟩
    · exact ⟨key _ (by omega) (by omega), key _ (by omega) (by omega), key _ (by omega) (by omega)⟩
    · exact ⟨key _ (by omega) (by omega), key _ (by omega) (by omega), key _ (by omega) (by omega), key _ (by omega) (by omega)⟩

theorem snprintf64_eq {s : Str} (h : s.length ≤ 63) : snprintf64 s = s := List.take_of_length_le h

theorem shown_len (c : Nat) : (cstr (ucharToChars c)).length ≤ 4 :=
  Nat.le_trans (List.Sublist.length_le (List.takeWhile_sublist _)) (Verif.Json.Lemmas.ucharToChars_len c)

theorem hexPad_len6 (c : Nat) (h : Scalar c) : (hexPad 4 c).length ≤ 6 := hexPad_len 6 4 c (by omega) (by omega) (by unfold Scalar at h; omega)
theorem hexPad_len4 (u : Nat) (h : u < 65536) : (hexPad 4 u).length ≤ 4 := hexPad_len 4 4 u (by omega) (by omega) (by omega)

theorem invalidMsg_eq (c : Nat) (h : Scalar c) :
    invalidMsg c = ascii "invalid char: '" ++ shown c ++ ascii "' (U+" ++ hexPad 4 c ++ ascii ")" := by
  have h1 := shown_len c
  have h2 := hexPad_len6 c h
  have e : ascii "invalid char" ++ ascii ": '" = ascii "invalid char: '" := by decide
  have e1 : (ascii "invalid char: '").length = 15 := by decide
  have e2 : (ascii "' (U+").length = 5 := by decide
  have e3 : (ascii ")").length = 1 := by decide
  rw [invalidMsg, charMsg, e, cstr_shown c h, snprintf64_eq]
  rw [cstr_shown c h] at h1
  simp only [List.length_append]
  omega

theorem unescapedMsg_eq (c : Nat) (h : Scalar c) :
    unescapedMsg c = ascii "unexpected unescaped char: '" ++ shown c ++ ascii "' (U+" ++ hexPad 4 c ++ ascii ")" := by
  have h1 := shown_len c
  have h2 := hexPad_len6 c h
  have e : ascii "unexpected unescaped char" ++ ascii ": '" = ascii "unexpected unescaped char: '" := by decide
  have e1 : (ascii "unexpected unescaped char: '").length = 28 := by decide
  have e2 : (ascii "' (U+").length = 5 := by decide
  have e3 : (ascii ")").length = 1 := by decide
  rw [unescapedMsg, charMsg, e, cstr_shown c h, snprintf64_eq]
  rw [cstr_shown c h] at h1
  simp only [List.length_append]
  omega

theorem lowMsg_eq (u : Nat) (h : u < 65536) : lowMsg u = ascii "unexpected low surrogate char: (U+" ++ hexPad 4 u ++ ascii ")" := by
  have h2 := hexPad_len4 u h
  have e1 : (ascii "unexpected low surrogate char: (U+").length = 34 := by decide
  have e3 : (ascii ")").length = 1 := by decide
  rw [lowMsg, snprintf64_eq]
  simp only [List.length_append]
  omega

theorem pairMsg_eq (l u : Nat) (hl : l < 65536) (h : u < 65536) :
    pairMsg l u = ascii "unexpected char(U+" ++ hexPad 4 l ++ ascii ") after high surrogate char: (U+" ++ hexPad 4 u ++ ascii ")" := by
  have h2 := hexPad_len4 u h
  have h1 := hexPad_len4 l hl
  have e1 : (ascii "unexpected char(U+").length = 18 := by decide
  have e2 : (ascii ") after high surrogate char: (U+").length = 32 := by decide
  have e3 : (ascii ")").length = 1 := by decide
  rw [pairMsg, snprintf64_eq]
  simp only [List.length_append]
  omega

theorem requiredMsg_eq (x c : Nat) (hx : x < 128) :
    requiredMsg x c = ascii "'" ++ utf8 x ++ ascii "' is required but got '" ++ [UInt8.ofNat (c % 256)] ++ ascii "'" := by
  rw [requiredMsg, Verif.Json.Lemmas.utf8_ascii hx]
  have : UInt8.ofNat (c % 256) = UInt8.ofNat c := by
    apply UInt8.toNat_inj.mp
    simp
  rw [this]

theorem hexMsg_eq (c : Nat) : hexMsg c = ascii "hex required but got '" ++ [UInt8.ofNat (c % 256)] ++ ascii "'" := by
  have : UInt8.ofNat (c % 256) = UInt8.ofNat c := by
    apply UInt8.toNat_inj.mp
    simp
  rw [hexMsg, this]

end Verif.JsonPos.Lemmas
