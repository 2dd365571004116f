import Verif.Double.Spec
import Verif.Double.Lemmas
/-! # Rounding is that of IEEE 754: to the nearest number, and to the even one of two -/
namespace Verif.Double.Props
open Verif.Double Verif.Double.Spec Verif.Double.Lemmas

/-- A number of the format stays as it is. -/
theorem round_exact {F : Fmt} (hp : 1 ≤ F.prec) {x : Rat} (h : IsNum F x) : rnd F x = x := by
  obtain ⟨m, e, a, b, _, c⟩ := h
  refine rnd_of_mem hp ⟨m, e, ?_, b, c⟩
  have : (m.natAbs : Int) ≤ 2 ^ F.prec := by exact_mod_cast le_of_lt a
  rwa [Int.natCast_natAbs] at this

example : IsNum F64 (3 / 2) := ⟨3, -1, by decide, by decide, by decide, by norm_num⟩

theorem dist_abs (x y : Rat) : dist x y = |x - y| := by
  unfold dist
  split
  · rw [abs_of_nonpos (by linarith)]; ring
  · rw [abs_of_nonneg (by linarith)]

/-- No number of the format is nearer than the rounded one. -/
theorem round_nearest {F : Fmt} (hp : 1 ≤ F.prec) {z : Rat} (h : IsNum F z) (x : Rat) : dist (rnd F x) x ≤ dist z x := by
  rw [dist_abs, dist_abs]
  obtain ⟨m, e, a, b, _, c⟩ := h
  refine rnd_near hp ⟨m, e, ?_, b, c⟩ x
  have : (m.natAbs : Int) ≤ 2 ^ F.prec := by exact_mod_cast le_of_lt a
  rwa [Int.natCast_natAbs] at this

/-- Of two nearest whole numbers, the even one. -/
theorem ties_to_even (n : Int) : halfEven (n + 1 / 2) % 2 = 0 := by
  have hf : ((n : Rat) + 1 / 2).floor = n := by
    have a : n ≤ ((n : Rat) + 1 / 2).floor := Rat.le_floor_iff.2 (by linarith)
    have b : ((n : Rat) + 1 / 2).floor < n + 1 := Rat.floor_lt_iff.2 (by push_cast; linarith)
    omega
  unfold halfEven
  rw [hf]
  dsimp only
  rw [if_neg (by linarith), if_neg (by linarith)]
  split <;> omega

/-- The result, if it is finite, is a number of the format. -/
theorem round_num {F : Fmt} (hp : 1 ≤ F.prec) {x y : Rat} (h : ofRat F x = .fin y) (he : F.emin ≤ F.emax - F.prec) : y = rnd F x ∧ IsNum F y := by
  unfold ofRat at h
  dsimp only at h
  split at h
  · cases h
  split at h
  · cases h
  rename_i h1 h2
  cases h
  refine ⟨rfl, ?_⟩
  have habs : |rnd F x| < (2 : Rat) ^ F.emax := by
    rw [abs_lt]; constructor <;> linarith
  by_cases h0 : rnd F x = 0
  · rw [h0]; exact ⟨0, F.emin, by simp, le_refl _, he, by simp⟩
  have hpos := abs_pos.2 h0
  have ⟨lo, hi⟩ := expo_spec hpos
  obtain ⟨n, hn⟩ := mem_grid hp (rnd_mem (F := F) x) lo
  refine ⟨n, _, ?_, le_max_right _ _, ?_, hn⟩
  · have e1 : |rnd F x| = ((|n| : Int) : Rat) * (2 : Rat) ^ (max (expo |rnd F x| - ((F.prec : Int) - 1)) F.emin) := by
      rw [← abs_of_pos (two_zpow_pos (max (expo |rnd F x| - ((F.prec : Int) - 1)) F.emin))]
      push_cast
      rw [← abs_mul]
      exact congrArg _ hn
    have e2 : ((|n| : Int) : Rat) * (2 : Rat) ^ (max (expo |rnd F x| - ((F.prec : Int) - 1)) F.emin) <
        (2 : Rat) ^ (F.prec : Int) * (2 : Rat) ^ (max (expo |rnd F x| - ((F.prec : Int) - 1)) F.emin) := by
      rw [← e1, ← zpow_add₀ (by norm_num)]
      exact lt_of_lt_of_le hi (zpow_le_iff.2 (by omega))
    have e3 := lt_of_mul_lt_mul_right e2 (le_of_lt (two_zpow_pos _))
    rw [zpow_natCast] at e3
    have e4 : |n| < 2 ^ F.prec := by exact_mod_cast e3
    rw [← Int.natCast_natAbs] at e4
    exact_mod_cast e4
  · have := zpow_lt_iff.1 (lt_of_le_of_lt lo habs)
    omega

example : ofRat F64 (1 / 10) = .fin (3602879701896397 / 36028797018963968) ∧ F64.emin ≤ F64.emax - F64.prec := by decide +kernel

/-- Rounding keeps the order. -/
theorem round_mono {F : Fmt} (hp : 1 ≤ F.prec) {x y : Rat} (h : x ≤ y) : rnd F x ≤ rnd F y := rnd_mono hp h

example : rnd F64 (1 / 10) ≤ rnd F64 (1 / 5) := by decide +kernel

/-- The conversion to an integer type is defined exactly when the number, cut towards zero, is one of that type. -/
theorem toInt_defined (bits : Nat) (x : Rat) (n : Int) :
    toInt bits (.fin x) = some n ↔ (-2 ^ (bits - 1) ≤ n ∧ n ≤ 2 ^ (bits - 1) - 1) ∧ |(n : Rat)| ≤ |x| ∧ |x| < |(n : Rat)| + 1 ∧ 0 ≤ (n : Rat) * x := by
  have key : trunc x = n ↔ |(n : Rat)| ≤ |x| ∧ |x| < |(n : Rat)| + 1 ∧ 0 ≤ (n : Rat) * x := by
    unfold trunc
    split
    · rename_i hx
      have hx0 : 0 < -x := by linarith
      rw [abs_of_neg hx]
      constructor
      · intro h
        have a : ((-x).floor : Rat) ≤ -x := Rat.floor_le _
        have b : -x < ((-x).floor : Rat) + 1 := by have := @Rat.lt_floor (-x); linarith
        have c : (0 : Int) ≤ (-x).floor := Rat.le_floor_iff.2 (by push_cast; linarith)
        have hn : (n : Rat) = -((-x).floor : Rat) := by rw [← h]; push_cast; rfl
        have c' : (0 : Rat) ≤ ((-x).floor : Rat) := by exact_mod_cast c
        rw [hn, abs_neg, abs_of_nonneg c']
        exact ⟨a, b, by nlinarith⟩
      · rintro ⟨a, b, c⟩
        have hn : (n : Rat) ≤ 0 := by
          by_contra hc
          nlinarith
        rw [abs_of_nonpos hn] at a b
        have h1 : -n ≤ (-x).floor := Rat.le_floor_iff.2 (by push_cast; linarith)
        have h2 : (-x).floor < -n + 1 := Rat.floor_lt_iff.2 (by push_cast; linarith)
        omega
    · rename_i hx
      have hx : 0 ≤ x := not_lt.1 hx
      rw [abs_of_nonneg hx]
      constructor
      · intro h
        have a : (x.floor : Rat) ≤ x := Rat.floor_le _
        have b : x < (x.floor : Rat) + 1 := by have := @Rat.lt_floor x; linarith
        have c : (0 : Int) ≤ x.floor := Rat.le_floor_iff.2 (by push_cast; linarith)
        have c' : (0 : Rat) ≤ (x.floor : Rat) := by exact_mod_cast c
        rw [← h, abs_of_nonneg c']
        exact ⟨a, b, mul_nonneg c' hx⟩
      · rintro ⟨a, b, c⟩
        have hn : (0 : Rat) ≤ n ∨ x = 0 := by
          by_contra hc
          push Not at hc
          have : 0 < x := lt_of_le_of_ne hx (Ne.symm hc.2)
          nlinarith
        have hn : (0 : Rat) ≤ n := by
          rcases hn with h | h
          · exact h
          · subst h
            have : |(n : Rat)| = 0 := le_antisymm (by simpa using a) (abs_nonneg _)
            rw [abs_eq_zero] at this
            exact le_of_eq this.symm
        rw [abs_of_nonneg hn] at a b
        have h1 : n ≤ x.floor := Rat.le_floor_iff.2 a
        have h2 : x.floor < n + 1 := Rat.floor_lt_iff.2 (by push_cast; linarith)
        omega
  rw [← key]
  show (if -2 ^ (bits - 1) ≤ trunc x ∧ trunc x < 2 ^ (bits - 1) then some (trunc x) else none) = some n ↔ _
  constructor
  · intro h
    split at h
    · rename_i hr
      have := Option.some.inj h
      subst this
      exact ⟨⟨hr.1, by omega⟩, rfl⟩
    · cases h
  · rintro ⟨⟨h1, h2⟩, rfl⟩
    exact if_pos ⟨h1, by omega⟩

example : toInt 32 (.fin 2147483648) = none ∧ toInt 32 (.fin (-2147483648 - 1 / 2)) = some (-2147483648) := by decide +kernel

/-- Infinities of the same sign add up, those of different signs give no number; the ends of the two formats. -/
theorem special_values : (∀ F m n, add F (.inf m) (.inf n) = if m = n then .inf m else .nan) ∧
    (∀ F m n, sub F (.inf m) (.inf n) = if m = n then .nan else .inf m) ∧
    (ofRat F32 ((2 : Rat) ^ (-149 : Int)) = .fin ((2 : Rat) ^ (-149 : Int)) ∧ ofRat F32 ((2 : Rat) ^ (-150 : Int)) = .fin 0) ∧
    (ofRat F64 ((2 : Rat) ^ (-1074 : Int)) = .fin ((2 : Rat) ^ (-1074 : Int)) ∧ ofRat F64 ((2 : Rat) ^ (-1075 : Int)) = .fin 0) := by
  refine ⟨fun F m n => ?_, fun F m n => ?_, by decide +kernel, by decide +kernel⟩ <;> cases m <;> cases n <;> rfl

end Verif.Double.Props
