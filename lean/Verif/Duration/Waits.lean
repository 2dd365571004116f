import Verif.Duration.Lemmas
import Verif.Clock.Props
/-! # Lemmas: ends of waits -/
namespace Verif.Duration.Lemmas
open Verif.Duration Verif.Duration.Spec
open Verif.Double hiding add sub
open Verif.Double.Lemmas
open Verif.Double.Spec (IsNum)

theorem le_big {x : Rat} {n : Nat} (hn : n ≤ 100) (h : x ≤ 2 ^ n) : x ≤ (2 : Rat) ^ (100 : Int) := by
  refine le_trans h ?_
  rw [← zpow_natCast]
  exact zpow_le_iff.2 (by omega)

/-- A sum below `2^(33+n)`. -/
theorem add_near {a b : Rat} {n : Nat} (hn : n ≤ 60) (h : |a + b| < 2 ^ (33 + n)) :
    ∃ y, Double.add F64 (.fin a) (.fin b) = .fin y ∧ Mem F64 y ∧ (0 ≤ a + b → 0 ≤ y) ∧ (a + b ≤ 0 → y ≤ 0) ∧ |y - (a + b)| ≤ 2 ^ n * eps := by
  refine ⟨rnd F64 (a + b), ?_, rnd_mem _, rnd_nonneg hp, rnd_nonpos hp, err n h⟩
  rw [Double.add, of_small (le_big (by omega) (le_of_lt h))]

theorem sub_near {a b : Rat} {n : Nat} (hn : n ≤ 60) (h : |a - b| < 2 ^ (33 + n)) :
    ∃ y, Double.sub F64 (.fin a) (.fin b) = .fin y ∧ Mem F64 y ∧ (0 ≤ a - b → 0 ≤ y) ∧ (a - b ≤ 0 → y ≤ 0) ∧ |y - (a - b)| ≤ 2 ^ n * eps := by
  rw [sub_eq_add_neg] at h ⊢
  exact add_near hn h

theorem spec_near {y : Rat} (hm : Mem F64 y) (h0 : 0 ≤ y) (hb : y < 2 ^ 63) :
    ∃ t, toTimespec (.fin y) = some t ∧ Valid 1000000000 t ∧ Within nano (secs 1000000000 t) y := by
  obtain ⟨a, b⟩ := secs_within (x := y) (U := 1000000000) (by decide) (by decide) h0
  refine ⟨_, toTimespec_eq hm h0 hb, by exact_mod_cast a, ?_⟩
  simpa [nano] using b

/-- The sum of the clock and a time. -/
theorem clock_add {t : Clock.T} (h : Now t) {x : Rat} {n : Nat} (hn : n ≤ 20) (h0 : -(2 ^ 32) ≤ x) (hb : clock t + x + 1 < 2 ^ (33 + n)) :
    ∃ y, Double.add F64 (ofClock t) (.fin x) = .fin y ∧ Mem F64 y ∧ (0 ≤ x → 0 ≤ y) ∧
      |y - (clock t + x)| ≤ 2 ^ n * eps + eps + 1 / 2 ^ 50 ∧ y < 2 ^ (33 + n) ∧ -(2 ^ 33) ≤ y := by
  obtain ⟨r, e, r0, rd⟩ := ofClock_near h
  rw [abs_le] at rd
  have n1 : eps + 1 / 2 ^ 50 < (1 : Rat) / 2 := by unfold eps; norm_num
  have p : (2 : Rat) ^ 33 ≤ 2 ^ (33 + n) := pow_le_pow_right₀ (by norm_num) (by omega)
  have n2 : (2 : Rat) ^ 33 = 2 ^ 32 + 2 ^ 32 := by norm_num
  have n3 : (1 : Rat) ≤ 2 ^ 32 := by norm_num
  have hs : |r + x| < 2 ^ (33 + n) := by
    rw [abs_lt]; constructor <;> linarith
  obtain ⟨y, e2, hm, y0, _, yd⟩ := add_near (by omega) hs
  have ⟨pn1, pn2⟩ : (0 : Rat) ≤ 2 ^ n * eps ∧ 2 ^ n * eps ≤ 1 / 2 := by
    have a : (2 : Rat) ^ n ≤ 2 ^ 20 := pow_le_pow_right₀ (by norm_num) hn
    have b : (0 : Rat) ≤ 2 ^ n := by positivity
    unfold eps
    constructor
    · positivity
    · have : (2 : Rat) ^ 20 * (1 / 2 ^ 21) = 1 / 2 := by norm_num
      rw [← this]
      exact mul_le_mul_of_nonneg_right a (by norm_num)
  rw [abs_le] at yd
  refine ⟨y, by rw [e, e2], hm, fun hx => y0 (by linarith), ?_, by linarith, by linarith⟩
  rw [abs_le]
  constructor <;> linarith

theorem trunc_nonpos {x : Rat} (h : x ≤ 0) : trunc x ≤ 0 ∧ x ≤ trunc x := by
  unfold trunc
  split
  · have ⟨f1, f2⟩ := floor_bounds (-x)
    have : 0 ≤ (-x).floor := Rat.le_floor_iff.2 (by push_cast; linarith)
    exact ⟨by omega, by push_cast; linarith⟩
  · have : x = 0 := by linarith
    subst this
    decide

theorem toInt_nonpos {x : Rat} {b : Nat} (h : x ≤ 0) (hb : -((2 ^ (b - 1) : Int) : Rat) ≤ x) : ∃ n, toInt b (.fin x) = some n ∧ maxI 0 n = 0 := by
  obtain ⟨h1, h2⟩ := trunc_nonpos h
  have h3 : -((2 ^ (b - 1) : Int) : Rat) ≤ trunc x := le_trans hb h2
  have h3 : -(2 ^ (b - 1) : Int) ≤ trunc x := by exact_mod_cast h3
  have : (0 : Int) < 2 ^ (b - 1) := by positivity
  refine ⟨trunc x, ?_, ?_⟩
  · rw [toInt, if_pos ⟨h3, by omega⟩]
  · simp [maxI]; omega

theorem toInt_low {x : Rat} {b : Nat} {k : Int} (hk : 2 ^ (b - 1) < k) (h : x ≤ -(k : Rat)) : toInt b (.fin x) = none := by
  have hk0 : (0 : Int) < k := lt_trans (by positivity) hk
  have hk1 : (0 : Rat) < k := by exact_mod_cast hk0
  have hx : x < 0 := by linarith
  have h1 : k ≤ (-x).floor := Rat.le_floor_iff.2 (by linarith)
  rw [toInt, trunc, if_pos hx, if_neg (by omega)]

/-- Negative times are cut to zero. -/
theorem steps_neg {x : Rat} (hm : Mem F64 x) (h0 : x ≤ 0) {b b2 : Nat} {U : Int} (hU0 : 0 < U) (hU : U ≤ 2 ^ 30) (hb : -((2 ^ (b - 1) : Int) : Rat) ≤ x) (hx : -(2 ^ 64) ≤ x)
    (hb2 : -((2 ^ (b2 - 1) : Int) : Rat) ≤ rnd F64 (x * U)) :
    ∃ n n2, toInt b (.fin x) = some n ∧ maxI 0 n = 0 ∧
      toInt b2 (mul F64 (Double.sub F64 (.fin x) (num ((0 : Int) : Rat))) (num (U : Rat))) = some n2 ∧ maxI 0 n2 = 0 := by
  obtain ⟨n, h1, h2⟩ := toInt_nonpos h0 hb
  have Up : (0 : Rat) < U := by exact_mod_cast hU0
  have Uq : (U : Rat) ≤ 2 ^ 30 := by exact_mod_cast hU
  have y0 : x * U ≤ 0 := mul_nonpos_of_nonpos_of_nonneg h0 (le_of_lt Up)
  obtain ⟨n2, h3, h4⟩ := toInt_nonpos (rnd_nonpos hp y0) hb2
  refine ⟨n, n2, h1, h2, ?_, h4⟩
  have e1 : Double.sub F64 (.fin x) (num ((0 : Int) : Rat)) = .fin x := by
    rw [Int.cast_zero, num0, Double.sub, neg, Double.add, neg_zero, add_zero, of_small, rnd_of_mem hp hm]
    rw [abs_of_nonpos h0]
    exact le_big (n := 64) (by omega) (by linarith)
  rw [e1, num_whole (n := U) (by rw [abs_of_pos hU0]; omega), mul, of_small, h3]
  rw [abs_of_nonpos y0]
  apply le_big (n := 94) (by omega)
  have : (2 : Rat) ^ 94 = 2 ^ 64 * 2 ^ 30 := by norm_num
  rw [this]
  nlinarith

theorem clampA (n : Int) (U : Nat) (h : 0 < U) : 0 ≤ minI ((U : Int) - 1) (maxI 0 n) ∧ minI ((U : Int) - 1) (maxI 0 n) < U := by
  simp only [minI, maxI]; split <;> split <;> omega

/-- What `pcbuf` computes of the time passed. -/
theorem elapsed_near {start now : Clock.T} (hs : Now start) (hn : Now now) :
    ∃ e, Double.sub F64 (ofClock now) (ofClock start) = .fin e ∧ |e - (clock now - clock start)| ≤ 3 * eps + 1 / 2 ^ 49 := by
  obtain ⟨r, e1, r0, rd⟩ := ofClock_near hs
  obtain ⟨q, e2, q0, qd⟩ := ofClock_near hn
  have a := hs.2
  have b := hn.2
  rw [abs_le] at rd qd
  have n1 : eps + 1 / 2 ^ 50 < (1 : Rat) := by unfold eps; norm_num
  obtain ⟨e, h1, _, _, _, hd⟩ := sub_near (a := q) (b := r) (n := 0) (by decide) (by
    have pos : ∀ t, Now t → 0 ≤ clock t := by
      intro t ht
      rw [clock_eq]
      have : (0 : Rat) ≤ t.usec := by exact_mod_cast ht.1.1
      positivity
    have := pos _ hs
    have := pos _ hn
    rw [abs_lt]
    norm_num at a b ⊢
    constructor <;> linarith)
  refine ⟨e, by rw [e1, e2, h1], ?_⟩
  rw [abs_le] at hd ⊢
  norm_num at rd qd hd ⊢
  constructor <;> linarith

theorem clock_sub {start now : Clock.T} (hs : Now start) (hn : Now now) (h : clock start ≤ clock now) :
    ∃ d, Clock.sub now start = some d ∧ Now d ∧ clock d = clock now - clock start := by
  have hm : Clock.Spec.micros start ≤ Clock.Spec.micros now := by
    unfold clock at h
    have : (Clock.Spec.micros start : Rat) ≤ Clock.Spec.micros now := by linarith
    exact_mod_cast this
  obtain ⟨d, e, hd, he⟩ := Clock.Props.sub_normal hn.1 hs.1 hm
  have hc : clock d = clock now - clock start := by
    unfold clock; rw [he]; push_cast; ring
  have h0 : 0 ≤ clock start := by
    unfold clock
    have := (Clock.Lemmas.micros_range hs.1).1
    have : (0 : Rat) ≤ Clock.Spec.micros start := by exact_mod_cast this
    exact div_nonneg this (by norm_num)
  exact ⟨d, e, ⟨hd, by rw [hc]; linarith [hn.2]⟩, hc⟩

end Verif.Duration.Lemmas
