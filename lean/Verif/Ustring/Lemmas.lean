import Verif.Ustring.Model
import Verif.Ustring.Spec
/-! Helper lemmas for UTF-8. -/

namespace Verif.Ustring
open Spec

/-! ### Bit tests on one byte, over all 256 values -/

theorem and80 (n : Nat) (h : n < 256) : n &&& 0x80 = 0 ↔ n < 0x80 := by revert n; decide +kernel
theorem andC0 (n : Nat) (h : n < 256) : n &&& 0xC0 = 0x80 ↔ 0x80 ≤ n ∧ n ≤ 0xBF := by revert n; decide +kernel
theorem andC0' (n : Nat) (h : n < 256) : n &&& 0xC0 = 0xC0 ↔ 0xC0 ≤ n := by revert n; decide +kernel
theorem andE0 (n : Nat) (h : n < 256) : n &&& 0xE0 = 0xC0 ↔ 0xC0 ≤ n ∧ n ≤ 0xDF := by revert n; decide +kernel
theorem andF0 (n : Nat) (h : n < 256) : n &&& 0xF0 = 0xE0 ↔ 0xE0 ≤ n ∧ n ≤ 0xEF := by revert n; decide +kernel
theorem andF8 (n : Nat) (h : n < 256) : n &&& 0xF8 = 0xF0 ↔ 0xF0 ≤ n ∧ n ≤ 0xF7 := by revert n; decide +kernel
theorem andFC (n : Nat) (h : n < 256) : n &&& 0xFC = 0xF8 ↔ 0xF8 ≤ n ∧ n ≤ 0xFB := by revert n; decide +kernel
theorem andFE (n : Nat) (h : n < 256) : n &&& 0xFE = 0xFC ↔ 0xFC ≤ n ∧ n ≤ 0xFD := by revert n; decide +kernel
theorem andFF (n : Nat) (h : n < 256) : n &&& 0xFF = n := by revert n; decide +kernel
theorem and3F (n : Nat) : n &&& 0x3F = n % 64 := Nat.and_two_pow_sub_one_eq_mod n 6
theorem and1F (n : Nat) : n &&& 0x1F = n % 32 := Nat.and_two_pow_sub_one_eq_mod n 5
theorem and0F (n : Nat) : n &&& 0x0F = n % 16 := Nat.and_two_pow_sub_one_eq_mod n 4
theorem and07 (n : Nat) : n &&& 0x07 = n % 8 := Nat.and_two_pow_sub_one_eq_mod n 3

theorem shl6 (r b : Nat) : (r <<< 6) ||| (b &&& 0x3F) = r * 64 + b % 64 := by
  rw [and3F, ← Nat.shiftLeft_add_eq_or_of_lt (by omega : b % 64 < 2 ^ 6), Nat.shiftLeft_eq]

theorem or_c0 (n : Nat) (h : n < 32) : n ||| 0xc0 = 0xC0 + n := by revert n; decide +kernel
theorem or_80 (n : Nat) (h : n < 64) : n ||| 0x80 = 0x80 + n := by revert n; decide +kernel
theorem or_e0 (n : Nat) (h : n < 16) : n ||| 0xe0 = 0xE0 + n := by revert n; decide +kernel
theorem or_f0 (n : Nat) (h : n < 8) : n ||| 0xf0 = 0xF0 + n := by revert n; decide +kernel

theorem toNat_lt (b : UInt8) : b.toNat < 256 := UInt8.toNat_lt b

theorem len2 {α : Type} {l : List α} (h : l.length = 2) : ∃ x y, l = [x, y] := by
  match l, h with
  | [x, y], _ => exact ⟨x, y, rfl⟩

theorem len3 {α : Type} {l : List α} (h : l.length = 3) : ∃ x y z, l = [x, y, z] := by
  match l, h with
  | [x, y, z], _ => exact ⟨x, y, z, rfl⟩

/-! ### The encoder -/

theorem ucharToChars_eq (c : Nat) (h : Scalar c) : ucharToChars c = (enc c).map UInt8.ofNat := by
  have hc : c ≤ 0x10FFFF := by unfold Scalar at h; omega
  unfold ucharToChars enc
  by_cases h1 : c ≤ 0x7f
  · rw [if_pos h1, if_pos (by omega)]; rfl
  by_cases h2 : c ≤ 0x7ff
  · rw [if_neg h1, if_pos (by omega), if_neg (by omega), if_pos (by omega), Nat.shiftRight_eq_div_pow, and3F,
      or_c0 _ (by omega), or_80 _ (by omega)]
    rfl
  by_cases h3 : c ≤ 0xffff
  · rw [if_neg h1, if_neg (by omega), if_pos (by omega), if_neg (by omega), if_neg (by omega), if_pos (by omega),
      Nat.shiftRight_eq_div_pow, Nat.shiftRight_eq_div_pow, and3F, and3F, or_e0 _ (by omega), or_80 _ (by omega), or_80 _ (by omega)]
    rfl
  · rw [if_neg h1, if_neg (by omega), if_neg (by omega), if_pos (by omega), if_neg (by omega), if_neg (by omega), if_neg (by omega),
      Nat.shiftRight_eq_div_pow, Nat.shiftRight_eq_div_pow, Nat.shiftRight_eq_div_pow, and3F, and3F, and3F,
      or_f0 _ (by omega), or_80 _ (by omega), or_80 _ (by omega), or_80 _ (by omega)]
    rfl

theorem enc_lt (c : Nat) (h : Scalar c) : ∀ x ∈ enc c, x < 256 := by
  have hc : c ≤ 0x10FFFF := by unfold Scalar at h; omega
  unfold enc
  intro x hx
  split at hx
  · simp at hx; omega
  · split at hx
    · simp at hx; omega
    · split at hx <;> (simp at hx; omega)

theorem map_ofNat_toNat (l : List Nat) (h : ∀ x ∈ l, x < 256) : (l.map UInt8.ofNat).map UInt8.toNat = l := by
  induction l with
  | nil => rfl
  | cons x l ih =>
    have hx : x < 256 := h x (by simp)
    simp only [List.map_cons, ih (fun y hy => h y (by simp [hy]))]
    rw [UInt8.toNat_ofNat', Nat.mod_eq_of_lt (by simpa using hx)]

/-- The two presentations of RFC 3629 agree. -/
theorem char1_iff (p : List Nat) : Char1 p ↔ ∃ c, Scalar c ∧ p = enc c := by
  constructor
  · intro h
    cases h with
    | u1 a h => exact ⟨a, by unfold Scalar; omega, by rw [enc, if_pos (by omega)]⟩
    | u2 a b =>
      refine ⟨(a - 0xC0) * 64 + (b - 0x80), by unfold Scalar; omega, ?_⟩
      rw [enc, if_neg (by omega), if_pos (by omega)]
      simp only [List.cons.injEq, and_true]; omega
    | u3a b c =>
      refine ⟨(b - 0x80) * 64 + (c - 0x80), by unfold Scalar; omega, ?_⟩
      rw [enc, if_neg (by omega), if_neg (by omega), if_pos (by omega)]
      simp only [List.cons.injEq, and_true]; omega
    | u3b a b c =>
      refine ⟨(a - 0xE0) * 4096 + (b - 0x80) * 64 + (c - 0x80), by unfold Scalar; omega, ?_⟩
      rw [enc, if_neg (by omega), if_neg (by omega), if_pos (by omega)]
      simp only [List.cons.injEq, and_true]; omega
    | u3c b c =>
      refine ⟨13 * 4096 + (b - 0x80) * 64 + (c - 0x80), by unfold Scalar; omega, ?_⟩
      rw [enc, if_neg (by omega), if_neg (by omega), if_pos (by omega)]
      simp only [List.cons.injEq, and_true]; omega
    | u3d a b c =>
      refine ⟨(a - 0xE0) * 4096 + (b - 0x80) * 64 + (c - 0x80), by unfold Scalar; omega, ?_⟩
      rw [enc, if_neg (by omega), if_neg (by omega), if_pos (by omega)]
      simp only [List.cons.injEq, and_true]; omega
    | u4a b c d =>
      refine ⟨(b - 0x80) * 4096 + (c - 0x80) * 64 + (d - 0x80), by unfold Scalar; omega, ?_⟩
      rw [enc, if_neg (by omega), if_neg (by omega), if_neg (by omega)]
      simp only [List.cons.injEq, and_true]; omega
    | u4b a b c d =>
      refine ⟨(a - 0xF0) * 262144 + (b - 0x80) * 4096 + (c - 0x80) * 64 + (d - 0x80), by unfold Scalar; omega, ?_⟩
      rw [enc, if_neg (by omega), if_neg (by omega), if_neg (by omega)]
      simp only [List.cons.injEq, and_true]; omega
    | u4c b c d =>
      refine ⟨4 * 262144 + (b - 0x80) * 4096 + (c - 0x80) * 64 + (d - 0x80), by unfold Scalar; omega, ?_⟩
      rw [enc, if_neg (by omega), if_neg (by omega), if_neg (by omega)]
      simp only [List.cons.injEq, and_true]; omega
  · rintro ⟨c, hc, rfl⟩
    unfold Scalar at hc
    unfold enc
    split
    · exact .u1 _ (by omega)
    · split
      · exact .u2 _ _ (by omega) (by omega) (by omega) (by omega)
      · split
        · by_cases h0 : c / 4096 = 0
          · have e : 0xE0 + c / 4096 = 0xE0 := by omega
            rw [e]; exact .u3a _ _ (by omega) (by omega) (by omega) (by omega)
          · by_cases h1 : c / 4096 = 13
            · have e : 0xE0 + c / 4096 = 0xED := by omega
              rw [e]; exact .u3c _ _ (by omega) (by omega) (by omega) (by omega)
            · by_cases h2 : c / 4096 < 13
              · exact .u3b _ _ _ (by omega) (by omega) (by omega) (by omega) (by omega) (by omega)
              · exact .u3d _ _ _ (by omega) (by omega) (by omega) (by omega) (by omega) (by omega)
        · by_cases h0 : c / 262144 = 0
          · have e : 0xF0 + c / 262144 = 0xF0 := by omega
            rw [e]; exact .u4a _ _ _ (by omega) (by omega) (by omega) (by omega) (by omega) (by omega)
          · by_cases h1 : c / 262144 = 4
            · have e : 0xF0 + c / 262144 = 0xF4 := by omega
              rw [e]; exact .u4c _ _ _ (by omega) (by omega) (by omega) (by omega) (by omega) (by omega)
            · exact .u4b _ _ _ _ (by omega) (by omega) (by omega) (by omega) (by omega) (by omega) (by omega) (by omega)

/-! ### The decoder -/

/-- `decodeOne` on the octet values. -/
theorem contLoop_some (n ret : Nat) (bs : List UInt8) (r : Nat) (rest : List UInt8) :
    contLoop n ret bs = (some r, rest) ↔
      ∃ k : List UInt8, k.length = n ∧ bs = k ++ rest ∧ (∀ b ∈ k, 0x80 ≤ b.toNat ∧ b.toNat ≤ 0xBF) ∧
        r = k.foldl (fun a b => a * 64 + b.toNat % 64) ret := by
  induction n generalizing ret bs with
  | zero =>
    simp only [contLoop, Prod.mk.injEq, Option.some.injEq]
    constructor
    · rintro ⟨rfl, rfl⟩; exact ⟨[], rfl, rfl, by simp, rfl⟩
    · rintro ⟨k, hk, h1, _, h3⟩
      have := List.length_eq_zero_iff.mp hk; subst this
      exact ⟨h3.symm, h1⟩
  | succ n ih =>
    cases bs with
    | nil =>
      simp only [contLoop, Prod.mk.injEq, reduceCtorEq, false_and, false_iff]
      rintro ⟨k, hk, h1, _⟩
      have := congrArg List.length h1
      simp at this; omega
    | cons b bs =>
      rw [contLoop]
      have hb := andC0 b.toNat (toNat_lt b)
      by_cases hc : b.toNat &&& 0xC0 = 0x80
      · rw [if_neg (by simpa using hc), ih, shl6]
        constructor
        · rintro ⟨k, hk, h1, h2, h3⟩
          refine ⟨b :: k, by simp [hk], by simp [h1], ?_, by simpa using h3⟩
          intro x hx
          rcases List.mem_cons.mp hx with rfl | hx
          · exact hb.mp hc
          · exact h2 x hx
        · rintro ⟨k, hk, h1, h2, h3⟩
          cases k with
          | nil => simp at hk
          | cons y k =>
            simp only [List.cons_append, List.cons.injEq] at h1
            obtain ⟨rfl, h1⟩ := h1
            exact ⟨k, by simpa using hk, h1, fun x hx => h2 x (by simp [hx]), by simpa using h3⟩
      · rw [if_pos (by simpa using hc)]
        simp only [Prod.mk.injEq, reduceCtorEq, false_and, false_iff]
        rintro ⟨k, hk, h1, h2, _⟩
        cases k with
        | nil => simp at hk
        | cons y k =>
          simp only [List.cons_append, List.cons.injEq] at h1
          exact hc (hb.mpr (by rw [h1.1]; exact h2 y (by simp)))

theorem head_spec (c : Nat) (h1 : 0xC0 ≤ c) (h2 : c ≤ 0xFD) :
    (c ≤ 0xDF ∧ head c = (c - 0xC0, 2)) ∨ (0xE0 ≤ c ∧ c ≤ 0xEF ∧ head c = (c - 0xE0, 3)) ∨
    (0xF0 ≤ c ∧ c ≤ 0xF7 ∧ head c = (c - 0xF0, 4)) ∨ (0xF8 ≤ c ∧ 5 ≤ (head c).2) := by
  unfold head
  by_cases g1 : c ≤ 0xDF
  · left
    rw [if_pos ((andE0 c (by omega)).mpr ⟨h1, g1⟩), and1F]
    exact ⟨g1, by simp only [Prod.mk.injEq, and_true]; omega⟩
  rw [if_neg (by rw [andE0 c (by omega)]; omega)]
  by_cases g2 : c ≤ 0xEF
  · right; left
    rw [if_pos ((andF0 c (by omega)).mpr ⟨by omega, g2⟩), and0F]
    exact ⟨by omega, g2, by simp only [Prod.mk.injEq, and_true]; omega⟩
  rw [if_neg (by rw [andF0 c (by omega)]; omega)]
  by_cases g3 : c ≤ 0xF7
  · right; right; left
    rw [if_pos ((andF8 c (by omega)).mpr ⟨by omega, g3⟩), and07]
    exact ⟨by omega, g3, by simp only [Prod.mk.injEq, and_true]; omega⟩
  rw [if_neg (by rw [andF8 c (by omega)]; omega)]
  right; right; right
  refine ⟨by omega, ?_⟩
  by_cases g4 : c ≤ 0xFB
  · rw [if_pos ((andFC c (by omega)).mpr ⟨by omega, g4⟩)]; simp
  · rw [if_neg (by rw [andFC c (by omega)]; omega), if_pos ((andFE c (by omega)).mpr ⟨by omega, h2⟩)]; simp

theorem finish_some (n r c : Nat) : finish n r = some c ↔
    c = r ∧ n < 5 ∧ mins n ≤ r ∧ r ≤ maxs n ∧ Scalar r := by
  unfold finish Scalar
  split
  · simp; omega
  · split
    · simp; omega
    · split
      · simp; omega
      · split
        · simp; omega
        · simp only [Option.some.injEq]; omega

/-- A successful decode of a non-empty string consumed exactly the encoding of the scalar value it returns. -/
theorem decodeOne_sound (b : UInt8) (bs : List UInt8) (c : Nat) (rest : List UInt8) (h : decodeOne (b :: bs) = (some c, rest)) :
    Scalar c ∧ ∃ p, b :: bs = p ++ rest ∧ octets p = enc c := by
  have hb := toNat_lt b
  rw [decodeOne] at h
  split at h
  · rename_i h0
    have h0 := (and80 _ hb).mp h0
    simp only [Prod.mk.injEq, Option.some.injEq] at h
    obtain ⟨rfl, rfl⟩ := h
    refine ⟨by unfold Scalar; omega, [b], rfl, ?_⟩
    rw [enc, if_pos h0]; rfl
  · simp only [andFF _ hb] at h
    split at h
    · cases h
    · rename_i h0 h1
      split at h
      · cases h
      · rename_i ret rest' hl
        simp only [Prod.mk.injEq] at h
        obtain ⟨hf, rfl⟩ := h
        rw [finish_some] at hf
        obtain ⟨rfl, hn, hmin, hmax, hsc⟩ := hf
        obtain ⟨k, hk, e1, e2, e3⟩ := (contLoop_some _ _ _ _ _).mp hl
        refine ⟨hsc, b :: k, by rw [e1]; rfl, ?_⟩
        rcases head_spec b.toNat (by omega) (by omega) with ⟨g1, g2⟩ | ⟨g0, g1, g2⟩ | ⟨g0, g1, g2⟩ | ⟨g0, g1⟩
        · rw [g2] at hk hmin hmax e3
          simp only [mins, maxs] at hmin hmax hk
          obtain ⟨x, rfl⟩ := List.length_eq_one_iff.mp (by simpa using hk)
          have hx := e2 x (by simp)
          simp only [List.foldl_cons, List.foldl_nil] at e3
          rw [enc, if_neg (by simp at hmin; omega), if_pos (by simp at hmax; omega)]
          simp only [octets, List.map_cons, List.map_nil, List.cons.injEq, and_true]
          omega
        · rw [g2] at hk hmin hmax e3
          simp only [mins, maxs] at hmin hmax hk
          obtain ⟨x, y, rfl⟩ := len2 (by simpa using hk)
          have hx := e2 x (by simp)
          have hy := e2 y (by simp)
          simp only [List.foldl_cons, List.foldl_nil] at e3
          rw [enc, if_neg (by simp at hmin; omega), if_neg (by simp at hmin; omega), if_pos (by simp at hmax; omega)]
          simp only [octets, List.map_cons, List.map_nil, List.cons.injEq, and_true]
          omega
        · rw [g2] at hk hmin hmax e3
          simp only [mins, maxs] at hmin hmax hk
          obtain ⟨x, y, z, rfl⟩ := len3 (by simpa using hk)
          have hx := e2 x (by simp)
          have hy := e2 y (by simp)
          have hz := e2 z (by simp)
          simp only [List.foldl_cons, List.foldl_nil] at e3
          rw [enc, if_neg (by simp at hmin; omega), if_neg (by simp at hmin; omega), if_neg (by simp at hmin; omega)]
          simp only [octets, List.map_cons, List.map_nil, List.cons.injEq, and_true]
          omega
        · omega

/-- Decoding the encoding of a scalar value returns it and consumes exactly it. -/
theorem decodeOne_complete (c : Nat) (hc : Scalar c) (p rest : List UInt8) (hp : octets p = enc c) :
    decodeOne (p ++ rest) = (some c, rest) := by
  have hmax : c ≤ 0x10FFFF := by unfold Scalar at hc; omega
  unfold enc at hp
  split at hp
  · obtain ⟨a, p0, rfl, ha, hp0⟩ := List.map_eq_cons_iff.mp hp
    obtain rfl := List.map_eq_nil_iff.mp hp0
    simp only [List.cons_append, List.nil_append, decodeOne]
    rw [if_pos ((and80 _ (toNat_lt a)).mpr (by omega)), ha]
  · split at hp
    · obtain ⟨a, p0, rfl, ha, hp0⟩ := List.map_eq_cons_iff.mp hp
      obtain ⟨x, p1, rfl, hx, hp1⟩ := List.map_eq_cons_iff.mp hp0
      obtain rfl := List.map_eq_nil_iff.mp hp1
      have ha' := toNat_lt a
      simp only [List.cons_append, List.nil_append, decodeOne]
      rw [if_neg (by rw [and80 _ ha']; omega), andFF _ ha', if_neg (by omega)]
      rcases head_spec a.toNat (by omega) (by omega) with ⟨g1, g2⟩ | ⟨g0, g1, g2⟩ | ⟨g0, g1, g2⟩ | ⟨g0, g1⟩ <;> try omega
      rw [g2]
      dsimp only
      rw [(contLoop_some (2 - 1) (a.toNat - 0xC0) (x :: rest) c rest).mpr
        ⟨[x], rfl, rfl, by simp; omega, by simp only [List.foldl_cons, List.foldl_nil]; omega⟩]
      simp only [Prod.mk.injEq, and_true]
      rw [finish_some]
      refine ⟨rfl, by omega, by simp [mins]; omega, by simp [maxs]; omega, hc⟩
    · split at hp
      · obtain ⟨a, p0, rfl, ha, hp0⟩ := List.map_eq_cons_iff.mp hp
        obtain ⟨x, p1, rfl, hx, hp1⟩ := List.map_eq_cons_iff.mp hp0
        obtain ⟨y, p2, rfl, hy, hp2⟩ := List.map_eq_cons_iff.mp hp1
        obtain rfl := List.map_eq_nil_iff.mp hp2
        have ha' := toNat_lt a
        simp only [List.cons_append, List.nil_append, decodeOne]
        rw [if_neg (by rw [and80 _ ha']; omega), andFF _ ha', if_neg (by omega)]
        rcases head_spec a.toNat (by omega) (by omega) with ⟨g1, g2⟩ | ⟨g0, g1, g2⟩ | ⟨g0, g1, g2⟩ | ⟨g0, g1⟩ <;> try omega
        rw [g2]
        dsimp only
        rw [(contLoop_some (3 - 1) (a.toNat - 0xE0) (x :: y :: rest) c rest).mpr
          ⟨[x, y], rfl, rfl, by simp; omega, by simp only [List.foldl_cons, List.foldl_nil]; omega⟩]
        simp only [Prod.mk.injEq, and_true]
        rw [finish_some]
        refine ⟨rfl, by omega, by simp [mins]; omega, by simp [maxs]; omega, hc⟩
      · obtain ⟨a, p0, rfl, ha, hp0⟩ := List.map_eq_cons_iff.mp hp
        obtain ⟨x, p1, rfl, hx, hp1⟩ := List.map_eq_cons_iff.mp hp0
        obtain ⟨y, p2, rfl, hy, hp2⟩ := List.map_eq_cons_iff.mp hp1
        obtain ⟨z, p3, rfl, hz, hp3⟩ := List.map_eq_cons_iff.mp hp2
        obtain rfl := List.map_eq_nil_iff.mp hp3
        have ha' := toNat_lt a
        simp only [List.cons_append, List.nil_append, decodeOne]
        rw [if_neg (by rw [and80 _ ha']; omega), andFF _ ha', if_neg (by omega)]
        rcases head_spec a.toNat (by omega) (by omega) with ⟨g1, g2⟩ | ⟨g0, g1, g2⟩ | ⟨g0, g1, g2⟩ | ⟨g0, g1⟩ <;> try omega
        rw [g2]
        dsimp only
        rw [(contLoop_some (4 - 1) (a.toNat - 0xF0) (x :: y :: z :: rest) c rest).mpr
          ⟨[x, y, z], rfl, rfl, by simp; omega, by simp only [List.foldl_cons, List.foldl_nil]; omega⟩]
        simp only [Prod.mk.injEq, and_true]
        rw [finish_some]
        refine ⟨rfl, by omega, by simp [mins]; omega, by simp [maxs]; omega, hc⟩

theorem enc_ne_nil (c : Nat) : enc c ≠ [] := by
  unfold enc; split <;> (try split) <;> (try split) <;> simp

theorem octets_ucharToChars (c : Nat) (h : Scalar c) : octets (ucharToChars c) = enc c := by
  rw [ucharToChars_eq c h]; exact map_ofNat_toNat _ (enc_lt c h)

theorem octets_inj {a b : List UInt8} (h : octets a = octets b) : a = b :=
  (List.map_inj_right (fun _ _ hxy => UInt8.toNat_inj.mp hxy)).mp h

theorem stringToUstring_cons (c : Nat) (hc : Scalar c) (p rest : List UInt8) (hp : octets p = enc c) :
    stringToUstring (p ++ rest) = c :: stringToUstring rest := by
  have hd := decodeOne_complete c hc p rest hp
  cases p with
  | nil => exact absurd hp.symm (enc_ne_nil c)
  | cons b bs =>
    rw [List.cons_append] at hd ⊢
    rw [stringToUstring, hd]; rfl

theorem checkUtf8_cons (c : Nat) (hc : Scalar c) (p rest : List UInt8) (hp : octets p = enc c) :
    checkUtf8 (p ++ rest) = checkUtf8 rest := by
  have hd := decodeOne_complete c hc p rest hp
  cases p with
  | nil => exact absurd hp.symm (enc_ne_nil c)
  | cons b bs =>
    rw [List.cons_append] at hd ⊢
    rw [checkUtf8, hd]

/-- A byte string is well-formed iff it is the encoding of some scalar values. -/
theorem wf_iff (s : List UInt8) : WellFormed (octets s) ↔ ∃ us, (∀ c ∈ us, Scalar c) ∧ s = ustringToString us := by
  constructor
  · intro h
    generalize ho : octets s = o at h
    induction h generalizing s with
    | nil =>
      refine ⟨[], by simp, ?_⟩
      unfold octets at ho
      exact List.map_eq_nil_iff.mp ho
    | cons p t hp _ ih =>
      obtain ⟨a, b, rfl, ha, hb⟩ := List.map_eq_append_iff.mp ho
      obtain ⟨us, h1, h2⟩ := ih b hb
      obtain ⟨c, hc, rfl⟩ := (char1_iff p).mp hp
      refine ⟨c :: us, ?_, ?_⟩
      · intro x hx
        rcases List.mem_cons.mp hx with rfl | hx
        · exact hc
        · exact h1 x hx
      · have : a = ucharToChars c := octets_inj (by rw [octets_ucharToChars c hc]; exact ha)
        rw [this, h2]; rfl
  · rintro ⟨us, h, rfl⟩
    induction us with
    | nil => exact .nil
    | cons c us ih =>
      have e : octets (ustringToString (c :: us)) = enc c ++ octets (ustringToString us) := by
        rw [← octets_ucharToChars c (h c (by simp))]
        simp [ustringToString, octets]
      rw [e]
      exact .cons _ _ ((char1_iff _).mpr ⟨c, h c (by simp), rfl⟩) (ih (fun x hx => h x (by simp [hx])))

theorem checkUtf8_wf (s : List UInt8) (h : checkUtf8 s = true) : ∃ us, (∀ c ∈ us, Scalar c) ∧ s = ustringToString us := by
  match s with
  | [] => exact ⟨[], by simp, rfl⟩
  | b :: bs =>
    rw [checkUtf8] at h
    rcases hd : decodeOne (b :: bs) with ⟨r, rest⟩
    rw [hd] at h
    cases r with
    | none => cases h
    | some c =>
      obtain ⟨hc, p, e1, e2⟩ := decodeOne_sound b bs c rest hd
      have hlen : rest.length < (b :: bs).length := by
        have := decodeOne_length b bs; rw [hd] at this; exact this
      obtain ⟨us, h1, h2⟩ := checkUtf8_wf rest h
      refine ⟨c :: us, ?_, ?_⟩
      · intro x hx
        rcases List.mem_cons.mp hx with rfl | hx
        · exact hc
        · exact h1 x hx
      · have : p = ucharToChars c := octets_inj (by rw [octets_ucharToChars c hc]; exact e2)
        rw [e1, this, h2]; rfl
termination_by s.length

/-! ### Sanitising -/

/-- A continuation byte. -/
def Cont (b : UInt8) : Prop := 0x80 ≤ b.toNat ∧ b.toNat ≤ 0xBF

theorem takeCont_append (k rest : List UInt8) (h : ∀ b ∈ k, Cont b) : takeCont k.length (k ++ rest) = (k, rest) := by
  induction k with
  | nil => rfl
  | cons b k ih =>
    have := (andC0 _ (toNat_lt b)).mpr (h b (by simp))
    simp only [List.length_cons, List.cons_append, takeCont]
    rw [if_neg (by simpa using this), ih (fun x hx => h x (by simp [hx]))]

theorem takeCont_spec (n : Nat) (bs : List UInt8) :
    bs = (takeCont n bs).1 ++ (takeCont n bs).2 ∧ (∀ b ∈ (takeCont n bs).1, Cont b) ∧ (takeCont n bs).1.length ≤ n := by
  induction n generalizing bs with
  | zero => simp [takeCont]
  | succ n ih =>
    cases bs with
    | nil => simp [takeCont]
    | cons b bs =>
      rw [takeCont]
      split
      · simp
      · rename_i h
        have hb := (andC0 _ (toNat_lt b)).mp (Decidable.not_not.mp h)
        obtain ⟨h1, h2, h3⟩ := ih bs
        refine ⟨by simp only [List.cons_append]; rw [← h1], ?_, by simp only [List.length_cons]; omega⟩
        intro x hx
        rcases List.mem_cons.mp hx with rfl | hx
        · exact hb
        · exact h2 x hx

/-- Text that cannot be taken for continuation bytes does not change what is scanned before it. -/
theorem takeCont_app (n : Nat) (x y : List UInt8) (hy : ∀ b, y.head? = some b → ¬ Cont b) :
    takeCont n (x ++ y) = ((takeCont n x).1, (takeCont n x).2 ++ y) := by
  induction n generalizing x with
  | zero => simp [takeCont]
  | succ n ih =>
    cases x with
    | nil =>
      cases y with
      | nil => simp [takeCont]
      | cons b y =>
        have hb : ¬ (b.toNat &&& 0xC0 = 0x80) := fun h => hy b rfl ((andC0 _ (toNat_lt b)).mp h)
        simp only [List.nil_append, takeCont]
        rw [if_pos (by simpa using hb)]
    | cons b x =>
      simp only [List.cons_append, takeCont]
      split
      · rfl
      · rw [ih]

theorem skip_some (b n : Nat) (hb : b < 256) : skip b = some n ↔
    (n = 0 ∧ 1 ≤ b ∧ b ≤ 0x7F) ∨ (n = 1 ∧ 0xC0 ≤ b ∧ b ≤ 0xDF) ∨ (n = 2 ∧ 0xE0 ≤ b ∧ b ≤ 0xEF) ∨ (n = 3 ∧ 0xF0 ≤ b ∧ b ≤ 0xF7) := by
  unfold skip
  simp only [and80 b hb, andC0 b hb, andE0 b hb, andF0 b hb, andF8 b hb]
  repeat' split
  all_goals (simp only [reduceCtorEq, Option.some.injEq, false_iff]; omega)

/-- What the validation accepts, in terms of the RFC grammar. -/
theorem keep_char1 (b : Nat) (k : List Nat) (hl : ∀ x ∈ b :: k, x < 256) (hs : skip b = some k.length) :
    keep (b :: k) = true ↔ Char1 (b :: k) ∧ b :: k ≠ [0xEF, 0xBF, 0xBE] ∧ b :: k ≠ [0xEF, 0xBF, 0xBF] ∧ (k = [] → 0x20 ≤ b) := by
  have hb : b < 256 := hl b (by simp)
  rw [skip_some _ _ hb] at hs
  match k, hs with
  | [], hs =>
    simp only [keep, Bool.not_eq_true', decide_eq_false_iff_not]
    constructor
    · intro h; exact ⟨.u1 _ (by simp at hs; omega), by simp, by simp, fun _ => by omega⟩
    · rintro ⟨_, _, _, h⟩; have := h trivial; omega
  | [x], hs =>
    have hx : x < 256 := hl x (by simp)
    have key : keep [b, x] = true ↔ (0xC2 ≤ b ∧ b ≤ 0xDF ∧ 0x80 ≤ x ∧ x ≤ 0xBF) := by
      simp only [keep, invalid2, inR, Bool.and_eq_true, Bool.not_eq_true', Bool.or_eq_false_iff, decide_eq_true_eq, decide_eq_false_iff_not,
        beq_eq_false_iff_ne, ne_eq, and80 x hx, andC0' x hx]
      omega
    rw [key]
    constructor
    · rintro ⟨h1, h2, h3, h4⟩; exact ⟨.u2 _ _ h1 h2 h3 h4, by simp, by simp, by simp⟩
    · rintro ⟨h, _⟩; cases h; exact ⟨by assumption, by assumption, by assumption, by assumption⟩
  | [x, y], hs =>
    have hx : x < 256 := hl x (by simp)
    have hy : y < 256 := hl y (by simp)
    have key : keep [b, x, y] = true ↔ (((b = 0xE0 ∧ 0xA0 ≤ x ∧ x ≤ 0xBF) ∨ (0xE1 ≤ b ∧ b ≤ 0xEC ∧ 0x80 ≤ x ∧ x ≤ 0xBF) ∨
        (b = 0xED ∧ 0x80 ≤ x ∧ x ≤ 0x9F) ∨ (0xEE ≤ b ∧ b ≤ 0xEF ∧ 0x80 ≤ x ∧ x ≤ 0xBF)) ∧ 0x80 ≤ y ∧ y ≤ 0xBF ∧
        ¬ (b = 0xEF ∧ x = 0xBF ∧ 0xBD < y)) := by
      simp only [keep, invalid3, inR, Bool.and_eq_true, Bool.not_eq_true', Bool.or_eq_true, decide_eq_true_eq, Bool.or_eq_false_iff, beq_iff_eq,
        decide_eq_false_iff_not, beq_eq_false_iff_ne, ne_eq, and80 x hx, and80 y hy]
      by_cases e1 : b = 0xEF ∧ x = 0xBF
      · obtain ⟨rfl, rfl⟩ := e1
        simp
        omega
      · rw [if_neg e1]
        by_cases e2 : b = 0xE0
        · subst e2
          simp [andC0' x hx, andC0' y hy]
          omega
        · rw [if_neg e2]
          by_cases e3 : b = 0xED
          · subst e3
            simp [andC0' y hy, and80 x hx]
            omega
          · rw [if_neg e3]
            simp [andC0' x hx, andC0' y hy, and80 x hx]
            omega
    rw [key]
    constructor
    · rintro ⟨h | h | h | h, h1, h2, h3⟩
      · obtain ⟨rfl, g1, g2⟩ := h
        exact ⟨.u3a _ _ g1 g2 h1 h2, by simp, by simp, by simp⟩
      · exact ⟨.u3b _ _ _ h.1 h.2.1 h.2.2.1 h.2.2.2 h1 h2, by simp; omega, by simp; omega, by simp⟩
      · obtain ⟨rfl, g1, g2⟩ := h
        exact ⟨.u3c _ _ g1 g2 h1 h2, by simp, by simp, by simp⟩
      · exact ⟨.u3d _ _ _ h.1 h.2.1 h.2.2.1 h.2.2.2 h1 h2, by simp; omega, by simp; omega, by simp⟩
    · rintro ⟨h, h1, h2, _⟩
      simp only [ne_eq, List.cons.injEq, and_true] at h1 h2
      cases h <;> omega
  | [x, y, z], hs =>
    have hx : x < 256 := hl x (by simp)
    have hy : y < 256 := hl y (by simp)
    have hz : z < 256 := hl z (by simp)
    have key : keep [b, x, y, z] = true ↔ (((b = 0xF0 ∧ 0x90 ≤ x ∧ x ≤ 0xBF) ∨ (0xF1 ≤ b ∧ b ≤ 0xF3 ∧ 0x80 ≤ x ∧ x ≤ 0xBF) ∨
        (b = 0xF4 ∧ 0x80 ≤ x ∧ x ≤ 0x8F)) ∧ 0x80 ≤ y ∧ y ≤ 0xBF ∧ 0x80 ≤ z ∧ z ≤ 0xBF) := by
      simp only [keep, invalid4, inR, Bool.and_eq_true, Bool.not_eq_true', Bool.or_eq_true, decide_eq_true_eq, Bool.or_eq_false_iff, beq_iff_eq,
        beq_eq_false_iff_ne, ne_eq, and80 y hy, and80 z hz, andC0' y hy, andC0' z hz]
      by_cases e2 : b = 0xF0
      · subst e2
        simp [andC0' x hx]
        omega
      · rw [if_neg e2]
        by_cases e3 : b = 0xF4
        · subst e3
          simp [and80 x hx]
          omega
        · rw [if_neg e3]
          simp [andC0' x hx, and80 x hx]
          omega
    rw [key]
    constructor
    · rintro ⟨h | h | h, h1, h2, h3, h4⟩
      · obtain ⟨rfl, g1, g2⟩ := h
        exact ⟨.u4a _ _ _ g1 g2 h1 h2 h3 h4, by simp, by simp, by simp⟩
      · exact ⟨.u4b _ _ _ _ h.1 h.2.1 h.2.2.1 h.2.2.2 h1 h2 h3 h4, by simp, by simp, by simp⟩
      · obtain ⟨rfl, g1, g2⟩ := h
        exact ⟨.u4c _ _ _ g1 g2 h1 h2 h3 h4, by simp, by simp, by simp⟩
    · rintro ⟨h, _⟩
      cases h <;> omega
  | _ :: _ :: _ :: _ :: _, hs => simp only [List.length_cons] at hs; omega

theorem enc_inj (c d : Nat) (hc : Scalar c) (hd : Scalar d) (h : enc c = enc d) : c = d := by
  have h1 := decodeOne_complete c hc (ucharToChars c) [] (octets_ucharToChars c hc)
  have h2 := decodeOne_complete d hd (ucharToChars c) [] (by rw [octets_ucharToChars c hc, h])
  rw [h1] at h2
  simpa using h2

theorem clean_iff (c : Nat) (hc : Scalar c) : Clean c ↔
    enc c ≠ [0xEF, 0xBF, 0xBE] ∧ enc c ≠ [0xEF, 0xBF, 0xBF] ∧ ((enc c).tail = [] → ∀ b, (enc c).head? = some b → 0x20 ≤ b) := by
  have e1 : enc 0xFFFE = [0xEF, 0xBF, 0xBE] := by decide
  have e2 : enc 0xFFFF = [0xEF, 0xBF, 0xBF] := by decide
  have s1 : Scalar 0xFFFE := by unfold Scalar; omega
  have s2 : Scalar 0xFFFF := by unfold Scalar; omega
  have h3 : ((enc c).tail = [] → ∀ b, (enc c).head? = some b → 0x20 ≤ b) ↔ 0x20 ≤ c := by
    unfold enc
    repeat' split
    all_goals (simp; try omega)
  rw [h3, ← e1, ← e2]
  unfold Clean
  constructor
  · rintro ⟨h1, h2, h4⟩
    exact ⟨fun h => h2 (enc_inj _ _ hc s1 h), fun h => h4 (enc_inj _ _ hc s2 h), h1⟩
  · rintro ⟨h1, h2, h4⟩
    exact ⟨h4, fun h => h1 (by rw [h]), fun h => h2 (by rw [h])⟩

/-- A complete character is kept iff it is clean, and dropped as a whole otherwise. -/
theorem sanitize_enc (c : Nat) (hc : Scalar c) (p rest : List UInt8) (hp : octets p = enc c) :
    sanitize (p ++ rest) = (if Clean c then p else []) ++ sanitize rest := by
  cases p with
  | nil => exact absurd hp.symm (enc_ne_nil c)
  | cons b k =>
    have hchar : Char1 (octets (b :: k)) := (char1_iff _).mpr ⟨c, hc, hp⟩
    have hlt : ∀ x ∈ octets (b :: k), x < 256 := by
      intro x hx
      obtain ⟨y, _, rfl⟩ := List.mem_map.mp hx
      exact toNat_lt y
    by_cases h0 : b.toNat = 0
    · -- NUL
      have hk : k = [] ∧ c = 0 := by
        rw [octets, List.map_cons, h0] at hp
        unfold enc at hp
        split at hp
        · simp only [List.cons.injEq, List.map_eq_nil_iff] at hp; exact ⟨hp.2, hp.1.symm⟩
        · split at hp
          · simp only [List.cons.injEq] at hp; omega
          · split at hp <;> (simp only [List.cons.injEq] at hp; omega)
      obtain ⟨rfl, rfl⟩ := hk
      rw [if_neg (by decide)]
      show sanitize (b :: rest) = _
      rw [sanitize]
      have hsk : skip b.toNat = none := by simp [skip, h0]
      rw [hsk]; rfl
    · have hk : skip b.toNat = some (k.map UInt8.toNat).length ∧ ∀ x ∈ k, Cont x := by
        generalize hq : octets (b :: k) = q at hchar
        have hb := toNat_lt b
        rw [octets, List.map_cons] at hq
        cases hchar <;> simp only [List.cons.injEq] at hq <;> obtain ⟨q1, q2⟩ := hq <;> rw [q2, skip_some _ _ hb] <;>
          refine ⟨by simp; omega, ?_⟩ <;> intro x hx <;>
          have hx' : x.toNat ∈ k.map UInt8.toNat := List.mem_map_of_mem hx <;> rw [q2] at hx' <;>
          simp only [List.mem_cons, List.not_mem_nil, or_false] at hx' <;> unfold Cont <;> omega
      obtain ⟨hsk, hcont⟩ := hk
      have hkeep := keep_char1 b.toNat (k.map UInt8.toNat) hlt hsk
      have hclean : Clean c ↔ keep ((b :: k).map UInt8.toNat) = true := by
        rw [List.map_cons, hkeep, clean_iff c hc, ← hp]
        simp only [octets, List.map_cons, List.tail_cons, List.head?_cons, Option.some.injEq, forall_eq']
        constructor
        · rintro ⟨h1, h2, h3⟩; exact ⟨hchar, h1, h2, h3⟩
        · rintro ⟨_, h1, h2, h3⟩; exact ⟨h1, h2, h3⟩
      rw [List.cons_append, sanitize]
      rw [List.length_map] at hsk
      rw [hsk]
      simp only [takeCont_append k rest hcont, true_and]
      by_cases hcl : Clean c
      · rw [if_pos (hclean.mp hcl), if_pos hcl]
      · rw [if_neg (fun h => hcl (hclean.mpr h)), if_neg hcl]; rfl

theorem sanitize_ustring (us : List Nat) (h : ∀ c ∈ us, Scalar c) :
    sanitize (ustringToString us) = ustringToString (us.filter (fun c => decide (Clean c))) := by
  induction us with
  | nil => simp [ustringToString, sanitize]
  | cons c us ih =>
    have hc := h c (by simp)
    show sanitize (ucharToChars c ++ ustringToString us) = _
    rw [sanitize_enc c hc _ _ (octets_ucharToChars c hc), ih (fun x hx => h x (by simp [hx]))]
    by_cases hcl : Clean c
    · rw [if_pos hcl, List.filter_cons_of_pos (by simpa using hcl)]; rfl
    · rw [if_neg hcl, List.filter_cons_of_neg (by simpa using hcl)]; rfl

theorem sanitize_out (s : List UInt8) : ∃ us, (∀ c ∈ us, Scalar c ∧ Clean c) ∧ sanitize s = ustringToString us := by
  fun_induction sanitize s with
  | case1 => exact ⟨[], by simp, rfl⟩
  | case2 b bs h ih => exact ih
  | case3 b bs ccc hs hk ih =>
    obtain ⟨us, h1, h2⟩ := ih
    obtain ⟨hl, hk⟩ := hk
    have hlt : ∀ x ∈ octets (b :: (takeCont ccc bs).1), x < 256 := by
      intro x hx
      obtain ⟨y, _, rfl⟩ := List.mem_map.mp hx
      exact toNat_lt y
    have hk' := (keep_char1 b.toNat ((takeCont ccc bs).1.map UInt8.toNat) hlt (by rw [List.length_map, hl]; exact hs)).mp hk
    obtain ⟨hch, n1, n2, n3⟩ := hk'
    obtain ⟨c, hc, he⟩ := (char1_iff _).mp hch
    have hclean : Clean c := by
      rw [clean_iff c hc, ← he]
      exact ⟨n1, n2, by simpa using n3⟩
    refine ⟨c :: us, ?_, ?_⟩
    · intro x hx
      rcases List.mem_cons.mp hx with rfl | hx
      · exact ⟨hc, hclean⟩
      · exact h1 x hx
    · have : b :: (takeCont ccc bs).1 = ucharToChars c := octets_inj (by rw [octets_ucharToChars c hc]; exact he)
      rw [this, h2]; rfl
  | case4 b bs ccc hs hk ih => exact ih

/-- Sanitising distributes over concatenation at character boundaries. -/
theorem sanitize_append (x y : List UInt8) (hy : ∀ b, y.head? = some b → ¬ Cont b) : sanitize (x ++ y) = sanitize x ++ sanitize y := by
  fun_induction sanitize x with
  | case1 => rfl
  | case2 b bs h ih =>
    rw [List.cons_append, sanitize, h]; exact ih
  | case3 b bs ccc hs hk ih =>
    rw [List.cons_append, sanitize, hs]
    simp only [takeCont_app ccc bs y hy]
    rw [if_pos hk, ih, List.append_assoc]
  | case4 b bs ccc hs hk ih =>
    rw [List.cons_append, sanitize, hs]
    simp only [takeCont_app ccc bs y hy]
    rw [if_neg hk, ih]

/-! ### Width conversion -/

theorem voiced_lookup (c : Nat) : List.lookup c voiced =
    if isKatakana c ∧ (dakutenTbl[c - 0x30a0]?).getD 0 ≠ 0 then
      some (if c = 0x30a6 then 0x30f4 else if c = 0x30f2 then 0x30fa else c + 1) else none := by
  by_cases h : 0x30a0 ≤ c ∧ c ≤ 0x30ff
  · obtain ⟨k, rfl⟩ : ∃ k, c = 0x30a0 + k := ⟨c - 0x30a0, by omega⟩
    have hk : k < 96 := by omega
    clear h
    revert k
    decide +kernel
  · rw [if_neg (by simp [isKatakana, inR]; omega), List.lookup_eq_none_iff]
    intro p hp
    have : ∀ p ∈ voiced, 0x30a0 ≤ p.1 ∧ p.1 ≤ 0x30ff := by decide
    have := this p hp
    simp only [bne_iff_ne, ne_eq]; omega

theorem semivoiced_fin : ∀ k < 96, 0x30a0 + k ∈ misread ∨ List.lookup (0x30a0 + k) semivoiced =
    if isKatakana (0x30a0 + k) ∧ (handakutenTbl[0x30a0 + k - 0x30a0]?).getD 0 ≠ 0 then some (0x30a0 + k + 2) else none := by
  decide +kernel

theorem semivoiced_lookup (c : Nat) (hm : c ∉ misread) : List.lookup c semivoiced =
    if isKatakana c ∧ (handakutenTbl[c - 0x30a0]?).getD 0 ≠ 0 then some (c + 2) else none := by
  by_cases h : 0x30a0 ≤ c ∧ c ≤ 0x30ff
  · obtain ⟨k, rfl⟩ : ∃ k, c = 0x30a0 + k := ⟨c - 0x30a0, by omega⟩
    have hk : k < 96 := by omega
    exact (semivoiced_fin k hk).resolve_left hm
  · rw [if_neg (by simp [isKatakana, inR]; omega), List.lookup_eq_none_iff]
    intro p hp
    have : ∀ p ∈ semivoiced, 0x30a0 ≤ p.1 ∧ p.1 ≤ 0x30ff := by decide
    have := this p hp
    simp only [bne_iff_ne, ne_eq]; omega

theorem halfFull_fin : ∀ k < 64, (k = 0 ∨ k = 62 ∨ k = 63) ∨ (List.lookup (0xff60 + k) halfFull).getD (0xff60 + k) =
    if isHankaku (0xff60 + k) then (hankakuTbl[0xff60 + k - 0xff60]?).getD 0 else 0xff60 + k := by
  decide +kernel

theorem halfFull_lookup (u : Nat) (h : u ≠ 0xff60) (h1 : u ≠ 0xff9e) (h2 : u ≠ 0xff9f) : (List.lookup u halfFull).getD u =
    if isHankaku u then (hankakuTbl[u - 0xff60]?).getD 0 else u := by
  by_cases hr : 0xff60 ≤ u ∧ u ≤ 0xff9f
  · obtain ⟨k, rfl⟩ : ∃ k, u = 0xff60 + k := ⟨u - 0xff60, by omega⟩
    have hk : k < 64 := by omega
    exact (halfFull_fin k hk).resolve_left (by omega)
  · rw [if_neg (by simp [isHankaku, inR]; omega)]
    have : List.lookup u halfFull = none := by
      rw [List.lookup_eq_none_iff]
      intro p hp
      have : ∀ p ∈ halfFull, 0xff60 ≤ p.1 ∧ p.1 ≤ 0xff9f := by decide
      have := this p hp
      simp only [bne_iff_ne, ne_eq]; omega
    rw [this]; rfl

theorem hzStep_widen (res : List Nat) (u : Nat) (h : u ≠ 0xff60) (hm : u = 0xff9f → ∀ c, res.head? = some c → c ∉ misread) :
    (hzStep res u).reverse = widen res.reverse u := by
  have kat : ∀ c, isKatakana c = true → c ≠ 0xFFFFFFFF := by
    intro c hc; simp [isKatakana, inR] at hc; omega
  have hr1 : isHankaku 0xff9e = true := by decide
  have hr2 : isHankaku 0xff9f = true := by decide
  have hr3 : isHankaku 0x2d = false := by decide
  unfold hzStep widen
  by_cases h1 : u = 0xff9e
  · subst h1
    cases res with
    | nil => simp [hzCore, hr1]
    | cons c t =>
      simp only [List.head?_cons, Option.getD_some, List.getLast?_reverse, Option.bind_some, voiced_lookup, if_true]
      unfold hzCore
      rw [if_pos hr1, if_pos rfl]
      by_cases hc : isKatakana c = true ∧ (dakutenTbl[c - 0x30a0]?).getD 0 ≠ 0
      · rw [if_pos hc, if_pos ⟨kat c hc.1, hc⟩]
        simp only [List.tail_cons]
        split <;> (try split) <;> simp
      · rw [if_neg hc, if_neg (fun h => hc h.2)]; simp
  · rw [if_neg h1]
    by_cases h2 : u = 0xff9f
    · subst h2
      cases res with
      | nil => simp [hzCore, hr2]
      | cons c t =>
        simp only [List.head?_cons, Option.getD_some, List.getLast?_reverse, Option.bind_some, semivoiced_lookup c (hm rfl c rfl), if_true]
        unfold hzCore
        rw [if_pos hr2, if_neg h1, if_pos rfl]
        by_cases hc : isKatakana c = true ∧ (handakutenTbl[c - 0x30a0]?).getD 0 ≠ 0
        · rw [if_pos hc, if_pos ⟨kat c hc.1, hc⟩]; simp
        · rw [if_neg hc, if_neg (fun h => hc h.2)]; simp
    · rw [if_neg h2]
      by_cases h3 : u = 0x2d
      · subst h3
        cases res with
        | nil => simp [hzCore, hr3]
        | cons c t =>
          simp only [List.head?_cons, Option.getD_some, List.getLast?_reverse, if_true]
          unfold hzCore
          rw [if_neg (by simp [hr3]), if_pos rfl]
          by_cases hc : 0x7f < c ∧ c ≠ 0xFFFFFFFF
          · rw [if_pos hc, if_pos ⟨hc.2, by simp [isBasicLatin]; omega⟩]; simp
          · rw [if_neg hc, if_neg (fun h => hc ⟨by have := h.2; simp [isBasicLatin] at this; omega, h.1⟩)]; simp
      · rw [if_neg h3, halfFull_lookup u h h1 h2]
        unfold hzCore
        by_cases hh : isHankaku u
        · rw [if_pos hh, if_pos hh, if_neg h1, if_neg h2]; simp
        · rw [if_neg hh, if_neg hh, if_neg h3]; simp

end Verif.Ustring
