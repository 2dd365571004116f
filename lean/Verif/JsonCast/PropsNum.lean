import Verif.JsonCast.SpecNum
import Verif.JsonCast.LemmasNum
import Verif.JsonCast.Props
/-! # C43: what becomes of numbers in a cast -/

namespace Verif.JsonCast.PropsNum
open Verif.Json Verif.JsonCast Verif.JsonCast.Spec Verif.JsonCast.Num Verif.JsonCast.LemmasNum Verif.Double Verif.Double.Spec

/-- A `float` is one of the values that survive `to_json` and `json_cast` (`cast_roundtrip`), alone and in containers and classes. -/
theorem float_good (x : D) : Good (F := D) .flt x ↔ IsFloat x := by
  cases x with
  | fin x =>
    constructor
    · intro h
      exact (Double.Props.round_num (F := F32) (by decide) (show ofRat F32 x = .fin x from h) (by decide)).2
    · exact fun h => ofRat_num (by decide) h
  | inf n => exact ⟨fun _ => trivial, fun _ => rfl⟩
  | nan => exact ⟨fun _ => trivial, fun _ => rfl⟩

theorem float_roundtrip (x : D) (h : IsFloat x) : fromJson toF .flt (toJson .flt x) = some x :=
  Props.cast_roundtrip toF .flt x ((float_good x).2 h)

example : IsFloat (.fin (3 / 2)) := ⟨3, -1, by decide, by decide, by decide, by norm_num⟩

/-- Cast to `float`, a number becomes a nearest `float`; one that rounds to 2^128 or more becomes infinite and is **not** reported. -/
theorem float_of_double (x : Rat) : ∃ y, fromJson toF .flt (.flt (.fin x)) = some y ∧
    (∀ z, y = .fin z → IsNum F32 z ∧ ∀ w, IsNum F32 w → dist z x ≤ dist w x) ∧
    (y = .inf false ∨ y = .inf true ∨ ∃ z, y = .fin z) ∧ ((2 : Rat) ^ 128 ≤ x → y = .inf false) ∧ (x ≤ -(2 : Rat) ^ 128 → y = .inf true) ∧
    (|x| ≤ (2 ^ 24 - 1) * 2 ^ 104 → ∃ z, y = .fin z) := by
  have hp : 1 ≤ F32.prec := by decide
  have e : (2 : Rat) ^ F32.emax = 2 ^ 128 := by decide +kernel
  have mem : Double.Lemmas.Mem F32 ((2 : Rat) ^ 128) := ⟨1, 128, by decide, by decide, by norm_num⟩
  refine ⟨ofRat F32 x, rfl, fun z hz => ?_, ?_, fun h => ?_, fun h => ?_, fun h => ?_⟩
  · obtain ⟨rfl, h⟩ := Double.Props.round_num hp hz (by decide)
    exact ⟨h, fun w hw => Double.Props.round_nearest hp hw x⟩
  · unfold ofRat
    dsimp only
    split
    · exact .inl rfl
    split
    · exact .inr (.inl rfl)
    · exact .inr (.inr ⟨_, rfl⟩)
  · unfold ofRat
    dsimp only
    rw [if_pos (by rw [e]; exact Double.Lemmas.le_rnd hp mem h)]
  · have h1 := Double.Lemmas.rnd_le hp (Double.Lemmas.mem_neg mem) h
    unfold ofRat
    dsimp only
    rw [e, if_neg (by have : (0 : Rat) < 2 ^ 128 := by norm_num
                      linarith), if_pos h1]
  · refine ⟨_, Double.Lemmas.ofRat_of_le hp (z := (2 ^ 24 - 1) * 2 ^ 104) ⟨2 ^ 24 - 1, 104, by decide, by decide, by norm_num⟩ (by decide +kernel) h⟩

/-- One tenth. -/
example : fromJson toF .flt (.flt (.fin (3602879701896397 / 36028797018963968))) = some (.fin (13421773 / 134217728)) := by decide +kernel

/-- An integer of 64 bits, cast to `double` or `float`, becomes a nearest number, and stays the same if it has at most 53 or 24 binary digits. -/
theorem floating_of_integer (n : Int) (h : n.natAbs ≤ 2 ^ 63) :
    (∃ y, fromJson toF .dbl (.int n) = some (.fin y) ∧ IsNum F64 y ∧ (∀ w, IsNum F64 w → dist y n ≤ dist w n) ∧ (n.natAbs ≤ 2 ^ 53 → y = n)) ∧
    (∃ y, fromJson toF .flt (.int n) = some (.fin y) ∧ IsNum F32 y ∧ (∀ w, IsNum F32 w → dist y n ≤ dist w n) ∧ (n.natAbs ≤ 2 ^ 24 → y = n)) := by
  have key : ∀ F : Fmt, F = F64 ∨ F = F32 → ∃ y, ofRat F n = .fin y ∧ IsNum F y ∧ (∀ w, IsNum F w → dist y n ≤ dist w n) ∧ (n.natAbs ≤ 2 ^ F.prec → y = n) := by
    intro F hF
    have hp : 1 ≤ F.prec := by rcases hF with rfl | rfl <;> decide
    have h0 : F.emin ≤ 0 := by rcases hF with rfl | rfl <;> decide
    have hn : |(n : Rat)| ≤ 2 ^ 63 := by
      rw [← Int.cast_abs, Int.abs_eq_natAbs]; exact_mod_cast h
    have e := Double.Lemmas.ofRat_of_le hp (z := 2 ^ 63) ⟨1, 63, by rcases hF with rfl | rfl <;> decide, by rcases hF with rfl | rfl <;> decide, by norm_num⟩
      (by rcases hF with rfl | rfl <;> decide +kernel) hn
    refine ⟨_, e, (Double.Props.round_num hp e (by rcases hF with rfl | rfl <;> decide)).2, fun w hw => Double.Props.round_nearest hp hw _, fun h' => ?_⟩
    refine Double.Lemmas.rnd_of_mem hp (Double.Lemmas.mem_int h0 n ?_)
    rw [Int.abs_eq_natAbs]; exact_mod_cast h'
  obtain ⟨y, a, b⟩ := key F64 (.inl rfl)
  obtain ⟨z, c, d⟩ := key F32 (.inr rfl)
  exact ⟨⟨y, congrArg some a, b⟩, ⟨z, congrArg some c, d⟩⟩

/-- So an integer written by `to_json` of a `long` and read as a `double` may be another one. -/
theorem double_of_long : fromJson toF .dbl (toJson .long (2 ^ 53 + 1)) = some (.fin (2 ^ 53)) ∧ fromJson toF .flt (toJson .int (2 ^ 24 + 1)) = some (.fin (2 ^ 24)) := by
  decide +kernel

/-- An unsigned integer is written exactly below 2^63, from there on **as a negative number**: 2^64 less. -/
theorem unsigned {F : Type} (n : Nat) (h : n < 2 ^ 64) :
    (n < 2 ^ 63 → toJsonUnsigned n = (.int n : Value F)) ∧ (2 ^ 63 ≤ n → toJsonUnsigned n = (.int (n - 2 ^ 64) : Value F)) := by
  have e : Int.bmod n (2 ^ 64) = if (n : Int) % (2 ^ 64 : Nat) < ((2 ^ 64 : Nat) + 1) / 2 then (n : Int) % (2 ^ 64 : Nat) else (n : Int) % (2 ^ 64 : Nat) - (2 ^ 64 : Nat) := by
    rw [Int.bmod_def]
  rw [Int.emod_eq_of_lt (by omega) (by exact_mod_cast h)] at e
  constructor
  · intro h1
    rw [toJsonUnsigned, e, if_pos (by omega)]
  · intro h1
    rw [toJsonUnsigned, e, if_neg (by omega)]
    rw [show ((2 ^ 64 : Nat) : Int) = 2 ^ 64 by decide]

/-- Read back with `json_cast<long>`: the number, if it is below 2^63; with `json_cast<int>`: the number, if it is below 2^31. There is no cast to an unsigned type. -/
theorem unsigned_back (n : Nat) (h : n < 2 ^ 63) : fromJson toF .long (toJsonUnsigned n) = some (n : Int) ∧
    (n < 2 ^ 31 → fromJson toF .int (toJsonUnsigned n) = some (n : Int)) := by
  rw [(unsigned n (by omega)).1 h]
  refine ⟨rfl, fun h1 => ?_⟩
  exact Props.cast_roundtrip toF .int (n : Int) (show -2 ^ 31 ≤ (n : Int) ∧ (n : Int) < 2 ^ 31 by omega)

example : fromJson toF .long (toJsonUnsigned 4294967295) = some (4294967295 : Int) ∧ fromJson toF .int (toJsonUnsigned 4294967295) = some (-1 : Int) ∧
    fromJson toF .long (toJsonUnsigned 18446744073709551615) = some (-1 : Int) := by decide +kernel

end Verif.JsonCast.PropsNum
