import Verif.LexFloat.LemmasGet
/-!
# C93: `lexical_cast` of floating point numbers

A finite number is the rational number it stands for. `F64` is `double` and `F32` is `float`.
-/
namespace Verif.LexFloat.Props
open Verif.Double Verif.Double.Spec Verif.FloatText Verif.FloatText.Spec Verif.Lexical Verif.LexFloat Verif.LexFloat.Spec Verif.LexFloat.Lemmas
open Verif.FloatText.Lemmas (dist_eq dec dec_zero dec_pos dec_neg fmtG_denotes)

/-! ## From strings -/

/-- C93: a text begins with at most one number. -/
theorem one_number {s : Str} {p q : Rat} (hp : Begins s p) (hq : Begins s q) : p = q := (begins_val hp).symm.trans (begins_val hq)

/-- C93: a text that begins with a number, after white space, is read as the nearest number of the type, whatever follows; the cast is refused
exactly if that number is too large, that is from the middle between the greatest number and the next power of two. -/
theorem read_nearest {F : Fmt} (hF : F = F64 ∨ F = F32) {s : Str} {q : Rat} (h : Begins s q) :
    if dist 0 q < (2 : Rat) ^ F.emax - (2 : Rat) ^ (F.emax - F.prec - 1) then ∃ y, floatOfString F s = some y ∧ Nearest F q y
    else floatOfString F s = none := by
  rw [dist_eq, sub_zero, floatOfString, get_begins F h]
  split
  · exact ⟨_, res_some (good hF) ‹_›⟩
  · exact res_none (good hF) ‹_›

/-- `  -12.5e1abc` is -125. -/
theorem begins_example : Begins [32, 32, 45, 49, 50, 46, 53, 101, 49, 97, 98, 99] (-125) := by
  refine ⟨[32, 32], [45, 49, 50, 46, 53, 101, 49], [97, 98, 99], rfl, by simp [Lexical.Spec.Space], ?_, ?_⟩
  · have := Unsigned.point [49, 50] [53] [101, 49] 1 (by simp [Json.Spec.Digit]) (by simp [Json.Spec.Digit]) (by simp)
      (.plain 101 [49] (.inl rfl) (by simp) (by simp [Json.Spec.Digit]))
    have e : (Json.Spec.decVal ([49, 50] ++ [53]) : Rat) * (10 : Rat) ^ ((1 : Int) - (([53] : List Nat).length : Int)) = 125 := by decide +kernel
    rw [e] at this
    exact .minus _ _ this
  · simp [Stops, Json.Spec.Digit]

example : floatOfString F64 [32, 32, 45, 49, 50, 46, 53, 101, 49, 97, 98, 99] = some (-125) ∧
    dist 0 (-125) < (2 : Rat) ^ F64.emax - (2 : Rat) ^ (F64.emax - F64.prec - 1) := by decide +kernel

/-- C93: nothing else is read: the cast of a text that does not begin with a number is refused. -/
theorem refused {F : Fmt} {s : Str} (h : ∀ q, ¬ Begins s q) : floatOfString F s = none := by
  cases hg : floatOfString F s with
  | none => rfl
  | some y =>
    obtain ⟨q, hq⟩ := get_back (F := F) hg
    exact absurd hq (h q)

/-- C93: what is refused and what is not: junk after the number is not looked at, but an `e` without digits makes the cast fail, so `1em` is refused
and `1cm` is 1; `0x10` is 0; a number that is too small is 0, one that is too large is refused; a point alone is no number. -/
theorem edges : floatOfString F64 [49, 99, 109] = some 1 ∧ floatOfString F64 [49, 101, 109] = none ∧ floatOfString F64 [48, 120, 49, 48] = some 0 ∧
    floatOfString F64 [49, 101, 45, 52, 48, 48] = some 0 ∧ floatOfString F64 [49, 101, 52, 48, 48] = none ∧ floatOfString F64 [46] = none ∧
    floatOfString F64 [46, 53] = some (1 / 2) ∧ floatOfString F64 [53, 46] = some 5 ∧ floatOfString F64 [] = none ∧
    floatOfString F64 [45] = none := by decide +kernel

/-! ## To strings and back -/

/-- C93: the text of a number stands for the number rounded to 6 digits, which is within 5 parts in a million. -/
theorem text_rounded (x : Rat) : ∃ q, Denotes ((stringOfFloat (.fin x)).map UInt8.toNat) q ∧ Rounded 6 x q ∧ dist x q ≤ dist 0 x * (5 / 10 ^ 6) := by
  refine ⟨dec 6 x, text_denotes x, rounded x, ?_⟩
  rw [dist_eq, dist_eq, sub_zero]
  exact dec_close x

example : stringOfFloat (.fin (rnd F64 (1 / 3))) = [48, 46, 51, 51, 51, 51, 51, 51] ∧ stringOfFloat (.fin (-1234567)) = [45, 49, 46, 50, 51, 52, 53, 55, 101, 43, 48, 54] := by
  decide +kernel

/-- C93: the text of any finite number of a type can be read again as that type, and gives the number nearest to the rounding. -/
theorem back {F : Fmt} (hF : F = F64 ∨ F = F32) {x : Rat} (h : IsNum F x) :
    ∃ q y, Rounded 6 x q ∧ floatOfString F (stringOfFloat (.fin x)) = some y ∧ Nearest F q y := by
  obtain ⟨h1, h2⟩ := res_some (good hF) (dec_in (good hF) h)
  exact ⟨_, _, rounded x, by rw [floatOfString, stringOfFloat, get_begins F (text_begins x), h1], h2⟩

/-- The largest `float` and the smallest `double`. -/
example : IsNum F32 ((2 ^ 24 - 1) * 2 ^ 104) ∧ IsNum F64 ((2 : Rat) ^ (-1074 : Int)) :=
  ⟨⟨2 ^ 24 - 1, 104, by decide, by decide, by decide, by decide +kernel⟩, ⟨1, -1074, by decide, by decide, by decide, by decide +kernel⟩⟩

/-- C93: a number that is the nearest one to a decimal of at most 6 digits comes back as it was, if it is not too close to zero. -/
theorem six_digits_kept {F : Fmt} (hF : F = F64 ∨ F = F32) {q : Rat} (hq : Dec 6 q) (h1 : (2 : Rat) ^ (F.emin + F.prec - 1) ≤ dist 0 q)
    (h2 : dist 0 q < (2 : Rat) ^ F.emax - (2 : Rat) ^ (F.emax - F.prec - 1)) {x : Rat} (hx : x = rnd F q) :
    floatOfString F (stringOfFloat (.fin x)) = some x := by
  rw [dist_eq, sub_zero] at h1 h2
  have hd := dec_rnd' (good hF) hq h1
  rw [← hx] at hd
  have hb := text_begins x
  rw [hd] at hb
  rw [floatOfString, stringOfFloat, get_begins F hb, (res_some (good hF) h2).1, hx]

/-- 0.1 as a `float`. -/
example : Dec 6 (1 / 10) ∧ (2 : Rat) ^ (F32.emin + F32.prec - 1) ≤ dist 0 (1 / 10) ∧
    dist 0 (1 / 10) < (2 : Rat) ^ F32.emax - (2 : Rat) ^ (F32.emax - F32.prec - 1) :=
  ⟨⟨1, -1, by decide, by decide +kernel⟩, by decide +kernel, by decide +kernel⟩

/-- C93: other numbers do not come back: 16777215 is a `float`, and it becomes 16777200. -/
theorem digits_lost : IsNum F32 16777215 ∧ floatOfString F32 (stringOfFloat (.fin 16777215)) = some 16777200 :=
  ⟨⟨16777215, 0, by decide, by decide, by decide, by decide +kernel⟩, by decide +kernel⟩

/-- C93: infinities and NaN have texts, but these are refused, also by casts to integers. -/
theorem infinite_refused (F : Fmt) (t : IntType) (x : D) (h : ∀ q, x ≠ .fin q) : floatOfString F (stringOfFloat x) = none ∧ intOfFloat t x = none := by
  have key : ∀ s : Str, (s = [105, 110, 102] ∨ s = [45, 105, 110, 102] ∨ s = [110, 97, 110]) → floatOfString F s = none ∧ intOfString t s = none := by
    rintro s (rfl | rfl | rfl) <;> exact ⟨rfl, rfl⟩
  cases x with
  | fin q => exact absurd rfl (h q)
  | inf b =>
    cases b
    · exact key _ (.inl rfl)
    · exact key _ (.inr (.inl rfl))
  | nan => exact key _ (.inr (.inr rfl))

example : stringOfFloat (.inf true) = [45, 105, 110, 102] := rfl

/-! ## Between types -/

/-- C93: a `float` cast to `double` becomes the `double` nearest to its rounding to 6 digits; a cast to the same type changes nothing. -/
theorem double_of_float {x : Rat} (h : IsNum F32 x) :
    (∃ q y, Rounded 6 x q ∧ floatOfFloat F64 F32 (.fin x) = some (.fin y) ∧ Nearest F64 q y) ∧ ∀ F x, floatOfFloat F F x = some x := by
  refine ⟨?_, fun F x => if_pos rfl⟩
  have h1 := dec_in good32 h
  have hb : (2 : Rat) ^ F32.emax - (2 : Rat) ^ (F32.emax - F32.prec - 1) ≤ (2 : Rat) ^ F64.emax - (2 : Rat) ^ (F64.emax - F64.prec - 1) := by decide +kernel
  obtain ⟨h2, h3⟩ := res_some good64 (h1.trans_le hb)
  refine ⟨_, _, rounded x, ?_, h3⟩
  rw [floatOfFloat, if_neg (by decide), get_begins F64 (text_begins x), h2]
  rfl

/-- C93: a `double` cast to `float` becomes the `float` nearest to its rounding to 6 digits, and is refused if that is too large. -/
theorem float_of_double (x : Rat) : ∃ q, Rounded 6 x q ∧
    if dist 0 q < (2 : Rat) ^ F32.emax - (2 : Rat) ^ (F32.emax - F32.prec - 1) then
      ∃ y, floatOfFloat F32 F64 (.fin x) = some (.fin y) ∧ Nearest F32 q y
    else floatOfFloat F32 F64 (.fin x) = none := by
  refine ⟨_, rounded x, ?_⟩
  rw [dist_eq, sub_zero, floatOfFloat, if_neg (show ¬ F32 = F64 by decide), get_begins F32 (text_begins x)]
  split
  · obtain ⟨h2, h3⟩ := res_some good32 ‹_›
    exact ⟨_, by rw [h2]; rfl, h3⟩
  · rw [res_none good32 ‹_›]
    rfl

/-- C93: so the cast of a `float` to `double` is not the number itself: every `float` is a `double`, but 16777215 becomes 16777200. -/
theorem widening_changes : IsNum F32 16777215 ∧ IsNum F64 16777215 ∧ floatOfFloat F64 F32 (.fin 16777215) = some (.fin 16777200) :=
  ⟨⟨16777215, 0, by decide, by decide, by decide, by decide +kernel⟩, ⟨16777215, 0, by decide, by decide, by decide, by decide +kernel⟩, by decide +kernel⟩

/-- C93: an integer of 64 bits, with or without sign, becomes the nearest number; the integer itself, if its binary digits suffice. -/
theorem float_of_int {F : Fmt} (hF : F = F64 ∨ F = F32) {n : Int} (hn : n.natAbs ≤ 2 ^ 64) :
    ∃ y, floatOfInt F n = some y ∧ Nearest F n y ∧ (n.natAbs ≤ 2 ^ F.prec → y = n) := by
  have h64 : (2 : Rat) ^ 64 < (2 : Rat) ^ F.emax - (2 : Rat) ^ (F.emax - F.prec - 1) := by
    rcases hF with rfl | rfl <;> decide +kernel
  have hp : 1 ≤ F.prec := by rcases hF with rfl | rfl <;> decide
  have h0 : F.emin ≤ 0 := by rcases hF with rfl | rfl <;> decide
  have hn' : |(n : Rat)| ≤ 2 ^ 64 := by
    rw [← Int.cast_abs, Int.abs_eq_natAbs]
    exact_mod_cast hn
  obtain ⟨h2, h3⟩ := res_some (good hF) (hn'.trans_lt h64)
  refine ⟨_, by rw [floatOfInt, get_begins F (int_begins n), h2], h3, fun h => ?_⟩
  refine Double.Lemmas.rnd_of_mem hp (Double.Lemmas.mem_int h0 n ?_)
  rw [Int.abs_eq_natAbs]
  exact_mod_cast h

/-- 2^53 + 1 is not a `double`. -/
example : floatOfInt F64 9007199254740993 = some 9007199254740992 ∧ (9007199254740993 : Int).natAbs ≤ 2 ^ 64 := by decide +kernel

/-- C93: what a cast to an integer type gives: the number is rounded to 6 digits first; between one ten thousandth and a million the fraction is cut off;
outside of this range, **the result is the first digit**. -/
theorem int_of_float {t : IntType} (ht : t.signed = true) (hb : 21 ≤ t.bits) (x : Rat) : ∃ q, Rounded 6 x q ∧
    ((q = 0 ∨ 1 / 10 ^ 4 ≤ dist 0 q) → dist 0 q < 10 ^ 6 → ∃ n, intOfFloat t (.fin x) = some n ∧ Cut q n) ∧
    (q ≠ 0 → (dist 0 q < 1 / 10 ^ 4 ∨ 10 ^ 6 ≤ dist 0 q) → ∃ n, intOfFloat t (.fin x) = some n ∧ FirstDigit q n) := by
  refine ⟨_, rounded x, ?_⟩
  rw [dist_eq, sub_zero]
  by_cases hx : x = 0
  · subst hx
    rw [dec_zero]
    refine ⟨fun _ _ => ⟨0, ?_, ?_⟩, fun h => absurd rfl h⟩
    · have := int_text ht hb (sg := []) (ip := [48]) (rest := []) (.inl rfl) (by simp) (by simp [Json.Spec.Digit]) (by simp [NoDigit]) (by simp) (by decide)
      have e : put (.fin 0) = ([] ++ [48] ++ []).map UInt8.ofNat := by decide +kernel
      rw [intOfFloat, e, this]
      rfl
    · unfold Cut
      norm_num
  · obtain ⟨sg, a, hs, ha, e1, e2⟩ := int_sign hx
    obtain ⟨ip, rest, f1, f2, f3, f4, f5⟩ := front_digits ha
    have h8 := (denotes_literal (fmtG_denotes (P := 6) (by norm_num) x)).2
    have hpos := FloatText.Lemmas.sciVal_pos (P := 6) (by norm_num) ha
    rw [dec_pos 6 ha] at e2
    have habs : |dec 6 x| = FloatText.Lemmas.sciVal 6 a := by
      rw [e2, abs_mul, abs_of_pos hpos]
      split <;> simp
    have hv : Json.Spec.decVal ip < 10 ^ 6 := by
      rcases f5 with ⟨_, g2, g3, _⟩ | ⟨_, _, g2, _⟩
      · have := g3.trans_lt g2
        exact_mod_cast this
      · omega
    have key : intOfFloat t (.fin x) = some (if sg = [] then (Json.Spec.decVal ip : Int) else -(Json.Spec.decVal ip : Int)) := by
      have e : put (.fin x) = (sg ++ ip ++ rest).map UInt8.ofNat := by rw [put, e1, f1, List.append_assoc]
      rw [intOfFloat, e]
      exact int_text ht hb hs f2 f3 f4 (fun c hc => h8 c (by rw [e1, f1]; simp [hc])) hv
    rw [habs]
    rw [key]
    constructor
    · intro h1 h2
      refine ⟨_, rfl, ?_⟩
      rcases f5 with ⟨_, _, g3, g4⟩ | ⟨g1, _⟩
      · rw [e2]
        exact cut_sign hs hpos g3 g4
      · exfalso
        rcases h1 with h1 | h1
        · rw [h1, abs_zero] at habs
          linarith
        · rcases g1 with g1 | g1 <;> linarith
    · intro _ h1
      refine ⟨_, rfl, ?_⟩
      rcases f5 with ⟨g1, g2, _⟩ | ⟨_, g2, g3, k, g4, g5⟩
      · exfalso
        rcases h1 with h1 | h1 <;> linarith
      · refine ⟨by split <;> omega, by split <;> omega, k, ?_⟩
        rw [e2, mul_assoc]
        exact cut_sign hs (mul_pos hpos (FloatText.Lemmas.ten_pos k)) g4 g5

example : intOfFloat int32 (.fin (-7 / 2)) = some (-3) ∧ intOfFloat int32 (.fin (19999999 / 10)) = some 2 := by decide +kernel

/-- C93: a whole number of at most 6 digits becomes that integer. -/
theorem int_kept {t : IntType} (ht : t.signed = true) (hb : 21 ≤ t.bits) {n : Int} (hn : n.natAbs < 10 ^ 6) : intOfFloat t (.fin n) = some n := by
  obtain ⟨q, ⟨_, h2⟩, h3, _⟩ := int_of_float ht hb (n : Rat)
  have hq : q = n := by
    have := h2 n ⟨n, 0, hn, by simp⟩
    rw [dist_eq, dist_eq, sub_self, abs_zero, abs_nonpos_iff, sub_eq_zero] at this
    exact this
  subst hq
  have ha : |(n : Rat)| = ((n.natAbs : Nat) : Rat) := by
    rw [← Int.cast_abs, Int.abs_eq_natAbs, Int.cast_natCast]
  obtain ⟨m, h4, h5⟩ := h3 (by
    by_cases h0 : n = 0
    · left; rw [h0]; norm_num
    · right
      have : 1 ≤ n.natAbs := by omega
      have h1 : (1 : Rat) ≤ ((n.natAbs : Nat) : Rat) := by exact_mod_cast this
      rw [dist_eq, sub_zero, ha]
      norm_num
      linarith) (by
    rw [dist_eq, sub_zero, ha]
    exact_mod_cast hn)
  rw [h4]
  unfold Cut at h5
  split at h5
  · have g1 : m ≤ n := by exact_mod_cast h5.1
    have g2 : n < m + 1 := by exact_mod_cast h5.2
    rw [show m = n by omega]
  · have g1 : n ≤ m := by exact_mod_cast h5.1
    have g2 : m - 1 < n := by exact_mod_cast h5.2
    rw [show m = n by omega]

example : int32.signed = true ∧ 21 ≤ int32.bits ∧ (-999999 : Int).natAbs < 10 ^ 6 := by decide

/-- C93: so `lexical_cast<int>(1000000.0)` is 1, and `lexical_cast<int>(0.00001)` is 1, without an exception. -/
theorem first_digit_only : intOfFloat int32 (.fin 1000000) = some 1 ∧ intOfFloat int32 (.fin (rnd F64 (1 / 100000))) = some 1 ∧
    intOfFloat int32 (.fin 7654321) = some 7 := by decide +kernel

end Verif.LexFloat.Props
