import Verif.Base64.Model
import Verif.Base64.Spec
import Verif.Util
/-! Helper lemmas for base64. -/

namespace Verif.Base64
open Spec

theorem toint_tochar (i : Nat) (h : i < 64) : toint (tochar i) = .ok (some i) := by
  have : ∀ i : Fin 64, toint (tochar i) = .ok (some i.val) := by decide
  exact this ⟨i, h⟩

theorem toint_pad : toint pad = .ok none := by decide

theorem digit_tochar (i : Nat) (h : i < 64) : IsDigit (tochar i) := by
  have : ∀ i : Fin 64, IsDigit (tochar i) := by unfold IsDigit; decide
  exact this ⟨i, h⟩

theorem digitValue_tochar (i : Nat) (h : i < 64) : digitValue (tochar i) = i := by
  have : ∀ i : Fin 64, digitValue (tochar i) = i.val := by decide
  exact this ⟨i, h⟩

theorem tochar_ne_pad (i : Nat) (h : i < 64) : tochar i ≠ 61 := by
  have : ∀ i : Fin 64, tochar i ≠ 61 := by decide
  exact this ⟨i, h⟩

theorem val3 (a b c : Nat) (hb : b < 256) (hc : c < 256) :
    (a <<< 16) ||| (b <<< 8) ||| c = a * 65536 + b * 256 + c := by
  rw [Nat.or_assoc, ← Nat.shiftLeft_add_eq_or_of_lt (b := c) (i := 8) (by omega),
    ← Nat.shiftLeft_add_eq_or_of_lt (i := 16) (by simp only [Nat.shiftLeft_eq]; omega)]
  simp only [Nat.shiftLeft_eq]; omega

theorem and63 (n : Nat) : n &&& 0x3f = n % 64 := Nat.and_two_pow_sub_one_eq_mod n 6
theorem and255 (n : Nat) : n &&& 0xff = n % 256 := Nat.and_two_pow_sub_one_eq_mod n 8

theorem or_shift (a b i : Nat) (h : b < 2 ^ i) : a <<< i ||| b = a * 2 ^ i + b := by
  rw [← Nat.shiftLeft_add_eq_or_of_lt h, Nat.shiftLeft_eq]

theorem index_lt (n : Nat) : n &&& 0x3f < 64 := by rw [and63]; omega

theorem index_lt18 (a b c : Nat) (ha : a < 256) (hb : b < 256) (hc : c < 256) :
    ((a <<< 16) ||| (b <<< 8) ||| c) >>> 18 < 64 := by
  rw [val3 a b c hb hc, Nat.shiftRight_eq_div_pow]; omega

theorem u8lt (a : UInt8) : a.toNat < 256 := a.toNat_lt

theorem ofNat_eq (a : UInt8) (n : Nat) (h : n = a.toNat) : UInt8.ofNat n = a := by
  subst h; simp


/-- The four indices computed from three bytes. -/
theorem idx1 (a b c : Nat) (hb : b < 256) (hc : c < 256) :
    ((a <<< 16) ||| (b <<< 8) ||| c) >>> 18 = a / 4 := by
  rw [val3 a b c hb hc, Nat.shiftRight_eq_div_pow]; omega
theorem idx2 (a b c : Nat) (hb : b < 256) (hc : c < 256) :
    ((a <<< 16) ||| (b <<< 8) ||| c) >>> 12 &&& 0x3f = (a % 4) * 16 + b / 16 := by
  rw [and63, val3 a b c hb hc, Nat.shiftRight_eq_div_pow]; omega
theorem idx3 (a b c : Nat) (hb : b < 256) (hc : c < 256) :
    ((a <<< 16) ||| (b <<< 8) ||| c) >>> 6 &&& 0x3f = (b % 16) * 4 + c / 64 := by
  rw [and63, val3 a b c hb hc, Nat.shiftRight_eq_div_pow]; omega
theorem idx4 (a b c : Nat) (hb : b < 256) (hc : c < 256) :
    ((a <<< 16) ||| (b <<< 8) ||| c) &&& 0x3f = c % 64 := by
  rw [and63, val3 a b c hb hc]; omega

theorem encode_cons3 (a b c : UInt8) (rest : List UInt8) :
    encode (a :: b :: c :: rest) =
      tochar (a.toNat / 4) :: tochar ((a.toNat % 4) * 16 + b.toNat / 16) ::
      tochar ((b.toNat % 16) * 4 + c.toNat / 64) :: tochar (c.toNat % 64) :: encode rest := by
  rw [encode]
  simp only [idx1 _ _ _ (u8lt b) (u8lt c), idx2 _ _ _ (u8lt b) (u8lt c), idx3 _ _ _ (u8lt b) (u8lt c),
    idx4 _ _ _ (u8lt b) (u8lt c)]

theorem encode_two (a b : UInt8) :
    encode [a, b] = [tochar (a.toNat / 4), tochar ((a.toNat % 4) * 16 + b.toNat / 16),
      tochar ((b.toNat % 16) * 4), pad] := by
  have h1 := idx1 a.toNat b.toNat 0 (u8lt b) (by omega)
  have h2 := idx2 a.toNat b.toNat 0 (u8lt b) (by omega)
  have h3 := idx3 a.toNat b.toNat 0 (u8lt b) (by omega)
  rw [Nat.or_zero] at h1 h2 h3
  rw [encode, h1, h2, h3, Nat.zero_div, Nat.add_zero]

theorem encode_one (a : UInt8) :
    encode [a] = [tochar (a.toNat / 4), tochar ((a.toNat % 4) * 16), pad, pad] := by
  have h1 := idx1 a.toNat 0 0 (by omega) (by omega)
  have h2 := idx2 a.toNat 0 0 (by omega) (by omega)
  rw [Nat.zero_shiftLeft, Nat.or_zero, Nat.or_zero] at h1 h2
  rw [encode, h1, h2, Nat.zero_div, Nat.add_zero]

theorem dec1 (v1 v2 : Nat) (h2 : v2 < 64) : (v1 <<< 2) ||| (v2 >>> 4) = v1 * 4 + v2 / 16 := by
  rw [Nat.shiftRight_eq_div_pow, or_shift _ _ _ (by omega)]
theorem dec2 (v2 v3 : Nat) (h3 : v3 < 64) :
    ((v2 <<< 4) ||| (v3 >>> 2)) &&& 0xff = (v2 * 16 + v3 / 4) % 256 := by
  rw [and255, Nat.shiftRight_eq_div_pow, or_shift _ _ _ (by omega)]
theorem dec3 (v3 v4 : Nat) (h4 : v4 < 64) :
    ((v3 <<< 6) ||| v4) &&& 0xff = (v3 * 64 + v4) % 256 := by
  rw [and255, or_shift _ _ _ (by omega)]

theorem decodeBlocks_encode (s : List UInt8) : decodeBlocks (encode s) = .ok s := by
  induction s using encode.induct with
  | case1 a b c rest ih =>
    have ha := u8lt a; have hb := u8lt b; have hc := u8lt c
    rw [encode_cons3, decodeBlocks, toint_tochar _ (by omega), toint_tochar _ (by omega),
      toint_tochar _ (by omega), toint_tochar _ (by omega), ih]
    simp only [bind, Except.bind, pure, Except.pure]
    rw [dec1 _ _ (by omega), dec2 _ _ (by omega), dec3 _ _ (by omega)]
    rw [ofNat_eq a _ (by omega), ofNat_eq b _ (by omega), ofNat_eq c _ (by omega)]
  | case2 a b =>
    have ha := u8lt a; have hb := u8lt b
    rw [encode_two, decodeBlocks, toint_tochar _ (by omega), toint_tochar _ (by omega),
      toint_tochar _ (by omega), toint_pad]
    simp only [bind, Except.bind, pure, Except.pure]
    rw [dec1 _ _ (by omega), dec2 _ _ (by omega)]
    rw [ofNat_eq a _ (by omega), ofNat_eq b _ (by omega)]
  | case3 a =>
    have ha := u8lt a
    rw [encode_one, decodeBlocks, toint_tochar _ (by omega), toint_tochar _ (by omega), toint_pad]
    simp only [bind, Except.bind, pure, Except.pure]
    rw [dec1 _ _ (by omega)]
    rw [ofNat_eq a _ (by omega)]
  | case4 => rfl

theorem length_encode (s : List UInt8) : (encode s).length = 4 * ((s.length + 2) / 3) := by
  induction s using encode.induct with
  | case1 a b c rest ih => rw [encode_cons3]; simp only [List.length_cons, ih]; omega
  | case2 a b => simp [encode]
  | case3 a => simp [encode]
  | case4 => rfl

theorem wellFormed_encode (s : List UInt8) : WellFormed (encode s) := by
  induction s using encode.induct with
  | case1 a b c rest ih =>
    have ha := u8lt a; have hb := u8lt b; have hc := u8lt c
    rw [encode_cons3]
    exact .group (digit_tochar _ (by omega)) (digit_tochar _ (by omega)) (digit_tochar _ (by omega))
      (digit_tochar _ (by omega)) ih
  | case2 a b =>
    have ha := u8lt a; have hb := u8lt b
    rw [encode_two]
    exact .pad1 (digit_tochar _ (by omega)) (digit_tochar _ (by omega)) (digit_tochar _ (by omega))
  | case3 a =>
    have ha := u8lt a
    rw [encode_one]
    exact .pad2 (digit_tochar _ (by omega)) (digit_tochar _ (by omega))
  | case4 => exact .nil

theorem testBit_div_pow (n k i : Nat) : (n / 2 ^ k).testBit i = n.testBit (k + i) := by
  rw [← Nat.shiftRight_eq_div_pow, Nat.testBit_shiftRight]

theorem testBit_lo (a b k i : Nat) (hb : b < 2 ^ k) :
    (a * 2 ^ k + b).testBit i = if i < k then b.testBit i else a.testBit (i - k) := by
  rw [Nat.mul_comm]; exact Nat.testBit_two_pow_mul_add a hb i

theorem bits_append (w k a b : Nat) (hb : b < 2 ^ k) : bits w a ++ bits k b = bits (w + k) (a * 2 ^ k + b) := by
  unfold bits
  have h : (List.range (w + k)).reverse = (List.range w).reverse.map (· + k) ++ (List.range k).reverse := by
    apply List.ext_getElem
    · simp
    · intro i h1 h2
      simp only [List.getElem_append, List.getElem_map, List.getElem_reverse, List.getElem_range,
        List.length_map, List.length_reverse, List.length_range] at *
      split <;> omega
  rw [h, List.map_append, List.map_map]
  congr 1
  · apply List.map_congr_left
    intro i _
    simp only [Function.comp, testBit_lo a b k _ hb, if_neg (by omega : ¬ (i + k < k)), Nat.add_sub_cancel]
  · apply List.map_congr_left
    intro i hi
    have : i < k := by simpa using hi
    simp [testBit_lo a b k _ hb, this]

theorem bits_split (w k n : Nat) : bits (w + k) n = bits w (n / 2 ^ k) ++ bits k (n % 2 ^ k) := by
  rw [bits_append w k _ _ (Nat.mod_lt _ (Nat.two_pow_pos k)), Nat.mul_comm, Nat.div_add_mod]

theorem group_bits (a b c : Nat) (hb : b < 256) (hc : c < 256) :
    bits 6 (a / 4) ++ (bits 6 ((a % 4) * 16 + b / 16) ++ (bits 6 ((b % 16) * 4 + c / 64) ++ bits 6 (c % 64)))
      = bits 8 a ++ (bits 8 b ++ bits 8 c) := by
  have h1 : (2:Nat)^6 = 64 := rfl
  have h2 : (2:Nat)^8 = 256 := rfl
  have h3 : (2:Nat)^(6+6) = 4096 := rfl
  have h4 : (2:Nat)^(6+(6+6)) = 262144 := rfl
  have h5 : (2:Nat)^(8+8) = 65536 := rfl
  rw [bits_append 6 6 _ _ (by omega), bits_append 6 (6+6) _ _ (by omega), bits_append 6 (6+(6+6)) _ _ (by omega),
    bits_append 8 8 _ _ (by omega), bits_append 8 (8+8) _ _ (by omega), h1, h2, h3, h4, h5]
  have : (a / 4 * 262144 + ((a % 4 * 16 + b / 16) * 4096 + ((b % 16 * 4 + c / 64) * 64 + c % 64))) =
    a * 65536 + (b * 256 + c) := by omega
  rw [this]


theorem toint_digit (c : UInt8) (h : IsDigit c) : toint c = .ok (some (digitValue c)) := by
  have : ∀ c : Fin 256, IsDigit (UInt8.ofNat c) → toint (UInt8.ofNat c) = .ok (some (digitValue (UInt8.ofNat c))) := by
    unfold IsDigit; decide +kernel
  have := this ⟨c.toNat, u8lt c⟩
  simp only [UInt8.ofNat_toNat] at this
  exact this h

theorem toint_some (c : UInt8) (v : Nat) (h : toint c = .ok (some v)) : IsDigit c ∧ v = digitValue c := by
  unfold toint at h
  unfold IsDigit digitValue
  split at h
  · simp only [Except.ok.injEq, Option.some.injEq] at h; split <;> (try split) <;> (try split) <;> (try split) <;> omega
  split at h
  · simp only [Except.ok.injEq, Option.some.injEq] at h; split <;> (try split) <;> (try split) <;> (try split) <;> omega
  split at h
  · simp only [Except.ok.injEq, Option.some.injEq] at h; split <;> (try split) <;> (try split) <;> (try split) <;> omega
  split at h
  · simp only [Except.ok.injEq, Option.some.injEq] at h; split <;> (try split) <;> (try split) <;> (try split) <;> omega
  split at h
  · simp only [Except.ok.injEq, Option.some.injEq] at h; split <;> (try split) <;> (try split) <;> (try split) <;> omega
  split at h <;> simp at h

theorem toint_none (c : UInt8) (h : toint c = .ok none) : c = 61 := by
  unfold toint at h
  repeat (split at h; · simp at h)
  split at h
  · apply UInt8.toNat_inj.mp; assumption
  · simp at h

theorem toint_pad' : toint 61 = .ok none := by decide

theorem digitValue_lt (c : UInt8) (h : IsDigit c) : digitValue c < 64 := by
  unfold IsDigit at h; unfold digitValue
  split <;> (try split) <;> (try split) <;> (try split) <;> omega

theorem digit_ne_pad (c : UInt8) (h : IsDigit c) : c ≠ 61 := by
  rintro rfl; revert h; unfold IsDigit; decide

theorem decodeBlocks_ok (s : List UInt8) (h4 : s.length % 4 = 0) (t : List UInt8) (h : decodeBlocks s = .ok t) : Tolerated s := by
  induction s using decodeBlocks.induct generalizing t with
  | case1 c1 c2 c3 c4 rest ih =>
    rw [decodeBlocks] at h
    simp only [bind, Except.bind, pure, Except.pure] at h
    cases h1 : toint c1 with
    | error e => simp [h1] at h
    | ok v1 =>
    cases h2 : toint c2 with
    | error e => simp [h1, h2] at h
    | ok v2 =>
    simp only [h1, h2] at h
    cases v1 with
    | none => simp [throw, throwThe, MonadExceptOf.throw] at h
    | some v1 =>
    cases v2 with
    | none => simp [throw, throwThe, MonadExceptOf.throw] at h
    | some v2 =>
    cases h3 : toint c3 with
    | error e => simp [h3] at h
    | ok v3 =>
    simp only [h3] at h
    cases v3 with
    | none =>
      obtain rfl := toint_none _ h3
      exact .stop2 (toint_some _ _ h1).1 (toint_some _ _ h2).1
    | some v3 =>
    cases h4' : toint c4 with
    | error e => simp [h4'] at h
    | ok v4 =>
    simp only [h4'] at h
    cases v4 with
    | none =>
      obtain rfl := toint_none _ h4'
      exact .stop1 (toint_some _ _ h1).1 (toint_some _ _ h2).1 (toint_some _ _ h3).1
    | some v4 =>
    cases hr : decodeBlocks rest with
    | error e => simp [hr] at h
    | ok tl =>
      exact .group (toint_some _ _ h1).1 (toint_some _ _ h2).1 (toint_some _ _ h3).1 (toint_some _ _ h4').1
        (ih (by simp only [List.length_cons] at h4; omega) _ hr)
  | case2 s hs =>
    match s, hs, h4 with
    | [], _, _ => exact .nil
    | [_], _, h4 => simp at h4
    | [_, _], _, h4 => simp at h4
    | [_, _, _], _, h4 => simp at h4
    | _ :: _ :: _ :: _ :: _, hs, _ => exact absurd rfl (hs _ _ _ _ _)

theorem decodeBlocks_tolerated (s : List UInt8) (h : Tolerated s) : ∃ t, decodeBlocks s = .ok t := by
  induction h with
  | nil => exact ⟨[], rfl⟩
  | @stop2 a b d s ha hb =>
    rw [decodeBlocks, toint_digit _ ha, toint_digit _ hb, toint_pad']
    exact ⟨_, rfl⟩
  | @stop1 a b c s ha hb hc =>
    rw [decodeBlocks, toint_digit _ ha, toint_digit _ hb, toint_digit _ hc, toint_pad']
    exact ⟨_, rfl⟩
  | @group a b c d s ha hb hc hd _ ih =>
    obtain ⟨t, ht⟩ := ih
    rw [decodeBlocks, toint_digit _ ha, toint_digit _ hb, toint_digit _ hc, toint_digit _ hd, ht]
    exact ⟨_, rfl⟩

theorem tolerated_of_wellFormed (s : List UInt8) (h : WellFormed s) : Tolerated s := by
  induction h with
  | nil => exact .nil
  | pad2 ha hb => exact .stop2 ha hb
  | pad1 ha hb hc => exact .stop1 ha hb hc
  | group ha hb hc hd _ ih => exact .group ha hb hc hd ih

theorem length_wellFormed (s : List UInt8) (h : WellFormed s) : s.length % 4 = 0 := by
  induction h with
  | nil => rfl
  | pad2 => simp
  | pad1 => simp
  | group _ _ _ _ _ ih => simp only [List.length_cons]; omega

theorem wellFormed_of_tolerated (s : List UInt8) (h : Tolerated s) (hp : 61 ∉ s) : WellFormed s := by
  induction h with
  | nil => exact .nil
  | stop2 => simp at hp
  | stop1 => simp at hp
  | group ha hb hc hd _ ih =>
    simp only [List.mem_cons, not_or] at hp
    exact .group ha hb hc hd (ih hp.2.2.2.2)

/-- Decoding a well-formed text keeps its bits: the text's bits are the result's bits and fewer than 8 further ones. -/
theorem decodeBlocks_bits (s : List UInt8) (h : WellFormed s) :
    ∃ t r, decodeBlocks s = .ok t ∧ r.length < 8 ∧ textBits s = byteBits t ++ r := by
  induction h with
  | nil => exact ⟨[], [], rfl, by decide, rfl⟩
  | @pad2 a b ha hb =>
    have h1 := digitValue_lt a ha
    have h2 := digitValue_lt b hb
    refine ⟨[UInt8.ofNat (digitValue a * 4 + digitValue b / 16)], bits 4 (digitValue b % 16), ?_, by simp [bits], ?_⟩
    · rw [decodeBlocks, toint_digit _ ha, toint_digit _ hb, toint_pad']
      simp only [bind, Except.bind, pure, Except.pure]
      rw [dec1 _ _ h2]
    · simp only [textBits, byteBits, List.filter, digit_ne_pad a ha, digit_ne_pad b hb, decide_not, decide_false,
        Bool.not_false, decide_true, Bool.not_true, List.flatMap_cons, List.flatMap_nil, List.append_nil, UInt8.toNat_ofNat']
      rw [Nat.mod_eq_of_lt (by omega : digitValue a * 4 + digitValue b / 16 < 2 ^ 8)]
      rw [bits_append 6 6 _ _ (by omega), bits_append 8 4 _ _ (by omega)]
      congr 1; omega
  | @pad1 a b c ha hb hc =>
    have h1 := digitValue_lt a ha
    have h2 := digitValue_lt b hb
    have h3 := digitValue_lt c hc
    refine ⟨[UInt8.ofNat (digitValue a * 4 + digitValue b / 16), UInt8.ofNat ((digitValue b * 16 + digitValue c / 4) % 256)],
      bits 2 (digitValue c % 4), ?_, by simp [bits], ?_⟩
    · rw [decodeBlocks, toint_digit _ ha, toint_digit _ hb, toint_digit _ hc, toint_pad']
      simp only [bind, Except.bind, pure, Except.pure]
      rw [dec1 _ _ h2, dec2 _ _ h3]
    · simp only [textBits, byteBits, List.filter, digit_ne_pad a ha, digit_ne_pad b hb, digit_ne_pad c hc, decide_not,
        decide_false, Bool.not_false, decide_true, Bool.not_true, List.flatMap_cons, List.flatMap_nil, List.append_nil,
        UInt8.toNat_ofNat', List.append_assoc]
      have e1 : (2:Nat)^8 = 256 := rfl
      rw [e1, Nat.mod_eq_of_lt (by omega : digitValue a * 4 + digitValue b / 16 < 256), Nat.mod_mod]
      rw [bits_append 6 6 _ _ (by omega), bits_append 6 (6+6) _ _ (by omega), bits_append 8 2 _ _ (by omega),
        bits_append 8 (8+2) _ _ (by omega)]
      have e2 : (2:Nat)^6 = 64 := rfl
      have e3 : (2:Nat)^(6+6) = 4096 := rfl
      have e4 : (2:Nat)^2 = 4 := rfl
      have e5 : (2:Nat)^(8+2) = 1024 := rfl
      rw [e2, e3, e4, e5]
      exact congrArg (bits 18) (by omega)
  | @group a b c d s ha hb hc hd _ ih =>
    obtain ⟨t, r, ht, hr, hbits⟩ := ih
    have h1 := digitValue_lt a ha
    have h2 := digitValue_lt b hb
    have h3 := digitValue_lt c hc
    have h4 := digitValue_lt d hd
    refine ⟨UInt8.ofNat (digitValue a * 4 + digitValue b / 16) :: UInt8.ofNat ((digitValue b * 16 + digitValue c / 4) % 256) ::
      UInt8.ofNat ((digitValue c * 64 + digitValue d) % 256) :: t, r, ?_, hr, ?_⟩
    · rw [decodeBlocks, toint_digit _ ha, toint_digit _ hb, toint_digit _ hc, toint_digit _ hd, ht]
      simp only [bind, Except.bind, pure, Except.pure]
      rw [dec1 _ _ h2, dec2 _ _ h3, dec3 _ _ h4]
    · have hf : textBits (a :: b :: c :: d :: s) =
          (bits 6 (digitValue a) ++ (bits 6 (digitValue b) ++ (bits 6 (digitValue c) ++ bits 6 (digitValue d)))) ++ textBits s := by
        simp [textBits, List.filter, digit_ne_pad a ha, digit_ne_pad b hb, digit_ne_pad c hc, digit_ne_pad d hd]
      rw [hf, hbits]
      simp only [byteBits, List.flatMap_cons, UInt8.toNat_ofNat']
      have e1 : (2:Nat)^8 = 256 := rfl
      rw [e1, Nat.mod_eq_of_lt (by omega : digitValue a * 4 + digitValue b / 16 < 256), Nat.mod_mod, Nat.mod_mod]
      have := group_bits (digitValue a * 4 + digitValue b / 16) ((digitValue b * 16 + digitValue c / 4) % 256)
        ((digitValue c * 64 + digitValue d) % 256) (by omega) (by omega)
      rw [show bits 8 (digitValue a * 4 + digitValue b / 16) ++ (bits 8 ((digitValue b * 16 + digitValue c / 4) % 256) ++
        (bits 8 ((digitValue c * 64 + digitValue d) % 256) ++ List.flatMap (fun c => bits 8 c.toNat) t)) =
        (bits 8 (digitValue a * 4 + digitValue b / 16) ++ (bits 8 ((digitValue b * 16 + digitValue c / 4) % 256) ++
        bits 8 ((digitValue c * 64 + digitValue d) % 256))) ++ List.flatMap (fun c => bits 8 c.toNat) t by simp, ← this,
        show (digitValue a * 4 + digitValue b / 16) / 4 = digitValue a by omega,
        show (digitValue a * 4 + digitValue b / 16) % 4 * 16 + (digitValue b * 16 + digitValue c / 4) % 256 / 16 = digitValue b by omega,
        show (digitValue b * 16 + digitValue c / 4) % 256 % 16 * 4 + (digitValue c * 64 + digitValue d) % 256 / 64 = digitValue c by omega,
        show (digitValue c * 64 + digitValue d) % 256 % 64 = digitValue d by omega]
      simp

theorem textBits_encode (s : List UInt8) :
    ∃ k < 6, textBits (encode s) = byteBits s ++ List.replicate k false := by
  induction s using encode.induct with
  | case1 a b c rest ih =>
    have ha := u8lt a; have hb := u8lt b; have hc := u8lt c
    obtain ⟨k, hk, h⟩ := ih
    refine ⟨k, hk, ?_⟩
    rw [encode_cons3]
    have hf : ∀ w x y z r, w < 64 → x < 64 → y < 64 → z < 64 → textBits (tochar w :: tochar x :: tochar y :: tochar z :: r) =
          (bits 6 w ++ (bits 6 x ++ (bits 6 y ++ bits 6 z))) ++ textBits r := by
      intro w x y z r hw hx hy hz
      simp [textBits, List.filter, tochar_ne_pad _ hw, tochar_ne_pad _ hx, tochar_ne_pad _ hy, tochar_ne_pad _ hz,
        digitValue_tochar _ hw, digitValue_tochar _ hx, digitValue_tochar _ hy, digitValue_tochar _ hz]
    rw [hf _ _ _ _ _ (by omega) (by omega) (by omega) (by omega), h, group_bits _ _ _ hb hc]
    simp [byteBits]
  | case2 a b =>
    have ha := u8lt a; have hb := u8lt b
    refine ⟨2, by omega, ?_⟩
    rw [encode_two]
    have hf : ∀ w x y, w < 64 → x < 64 → y < 64 → textBits [tochar w, tochar x, tochar y, pad] =
          bits 6 w ++ (bits 6 x ++ bits 6 y) := by
      intro w x y hw hx hy
      simp [textBits, List.filter, tochar_ne_pad _ hw, tochar_ne_pad _ hx, tochar_ne_pad _ hy, pad,
        digitValue_tochar _ hw, digitValue_tochar _ hx, digitValue_tochar _ hy]
    rw [hf _ _ _ (by omega) (by omega) (by omega)]
    have hz : List.replicate 2 false = bits 2 0 := by decide
    have e2 : (2:Nat)^6 = 64 := rfl
    have e3 : (2:Nat)^(6+6) = 4096 := rfl
    have e4 : (2:Nat)^2 = 4 := rfl
    have e5 : (2:Nat)^(8+2) = 1024 := rfl
    simp only [byteBits, List.flatMap_cons, List.flatMap_nil, List.append_nil, List.append_assoc]
    rw [hz, bits_append 6 6 _ _ (by omega), bits_append 6 (6+6) _ _ (by omega), bits_append 8 2 _ _ (by omega),
      bits_append 8 (8+2) _ _ (by omega), e2, e3, e4, e5]
    exact congrArg (bits 18) (by omega)
  | case3 a =>
    have ha := u8lt a
    refine ⟨4, by omega, ?_⟩
    rw [encode_one]
    have hf : ∀ w x, w < 64 → x < 64 → textBits [tochar w, tochar x, pad, pad] = bits 6 w ++ bits 6 x := by
      intro w x hw hx
      simp [textBits, List.filter, tochar_ne_pad _ hw, tochar_ne_pad _ hx, pad, digitValue_tochar _ hw, digitValue_tochar _ hx]
    rw [hf _ _ (by omega) (by omega)]
    have hz : List.replicate 4 false = bits 4 0 := by decide
    simp only [byteBits, List.flatMap_cons, List.flatMap_nil, List.append_nil]
    rw [hz, bits_append 6 6 _ _ (by omega), bits_append 8 4 _ _ (by omega)]
    congr 1; omega
  | case4 => exact ⟨0, by omega, rfl⟩

end Verif.Base64
