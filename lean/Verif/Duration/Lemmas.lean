import Verif.Duration.Spec
import Verif.Double.Lemmas
import Verif.Clock.Lemmas
/-! # Lemmas: times in seconds -/
namespace Verif.Duration.Lemmas
open Verif.Duration Verif.Duration.Spec
open Verif.Double hiding add sub
open Verif.Double.Lemmas
open Verif.Double.Spec (IsNum)

theorem hp : 1 ≤ F64.prec := by decide

theorem mem_of {x : Rat} (h : IsNum F64 x) : Mem F64 x := by
  obtain ⟨m, e, a, b, _, c⟩ := h
  refine ⟨m, e, ?_, b, c⟩
  have : (m.natAbs : Int) ≤ 2 ^ F64.prec := by exact_mod_cast le_of_lt a
  rwa [Int.natCast_natAbs] at this

/-- A bound far from infinity. -/
theorem big : (2 : Rat) ^ (100 : Int) < (2 : Rat) ^ F64.emax := zpow_lt_iff.2 (by decide)

theorem of_small {x : Rat} (h : |x| ≤ (2 : Rat) ^ (100 : Int)) : ofRat F64 x = .fin (rnd F64 x) :=
  ofRat_of_le hp (mem_pow (by decide)) big h

theorem mem_whole {n : Int} (h : |n| ≤ 2 ^ 53) : Mem F64 n := mem_int (by decide) n h

theorem num_mem {x : Rat} (h : Mem F64 x) (hb : |x| ≤ (2 : Rat) ^ (100 : Int)) : num x = .fin x := by
  rw [num, of_small hb, rnd_of_mem hp h]

theorem num_whole {n : Int} (h : |n| ≤ 2 ^ 53) : num (n : Rat) = .fin n := by
  apply num_mem (mem_whole h)
  have : ((|n| : Int) : Rat) ≤ ((2 ^ 53 : Int) : Rat) := by exact_mod_cast h
  push_cast at this
  refine le_trans this ?_
  norm_num

theorem num0 : num 0 = .fin 0 := by simpa using num_whole (n := 0) (by norm_num)
theorem num9 : num 1000000000 = .fin 1000000000 := by simpa using num_whole (n := 1000000000) (by norm_num)
theorem num6 : num 1000000 = .fin 1000000 := by simpa using num_whole (n := 1000000) (by norm_num)

/-- The whole part of a number of the format and what is left are numbers of the format. -/
theorem floor_mem {x : Rat} (h : Mem F64 x) (h0 : 0 ≤ x) : Mem F64 (x.floor : Rat) ∧ Mem F64 (x - x.floor) := by
  have ⟨f1, f2⟩ := floor_bounds x
  obtain ⟨m, e, hm, he, hx⟩ := h
  have hm : |m| ≤ 2 ^ 53 := hm
  by_cases hc : 0 ≤ e
  · have e1 : (2 : Rat) ^ e = (2 : Rat) ^ e.toNat := by rw [← zpow_natCast]; congr 1; omega
    have hx2 : x = ((m * 2 ^ e.toNat : Int) : Rat) := by rw [hx, e1]; push_cast; ring
    have hf : x.floor = m * 2 ^ e.toNat := by rw [hx2, Rat.floor_intCast]
    have : (x.floor : Rat) = x := by rw [hf, ← hx2]
    rw [this, sub_self]
    exact ⟨⟨m, e, hm, he, hx⟩, 0, 0, by simp, by decide, by simp⟩
  · obtain ⟨k, hk⟩ : ∃ k : Nat, e = -(k : Int) := ⟨(-e).toNat, by omega⟩
    subst hk
    have hp2 : (0 : Rat) < (2 : Rat) ^ k := by positivity
    have hx3 : x * (2 : Rat) ^ k = m := by
      rw [hx, zpow_neg, zpow_natCast]; field_simp
    have n0 : 0 ≤ x.floor := Rat.le_floor_iff.2 (by simpa using h0)
    have m0 : (0 : Rat) ≤ m := by rw [← hx3]; positivity
    have m0 : 0 ≤ m := by exact_mod_cast m0
    rw [abs_of_nonneg m0] at hm
    have one : (1 : Rat) ≤ (2 : Rat) ^ k := one_le_pow₀ (by norm_num)
    constructor
    · apply mem_whole
      rw [abs_of_nonneg n0]
      have : (x.floor : Rat) ≤ m := by
        rw [← hx3]
        nlinarith
      have : x.floor ≤ m := by exact_mod_cast this
      omega
    · refine ⟨m - x.floor * 2 ^ k, -(k : Int), ?_, he, ?_⟩
      · have j0 : (0 : Rat) ≤ ((m - x.floor * 2 ^ k : Int) : Rat) := by
          push_cast; rw [← hx3]; nlinarith
        have j0 : 0 ≤ m - x.floor * 2 ^ k := by exact_mod_cast j0
        rw [abs_of_nonneg j0]
        have : 0 ≤ x.floor * 2 ^ k := by positivity
        show m - x.floor * 2 ^ k ≤ 2 ^ 53
        omega
      · push_cast
        rw [zpow_neg, zpow_natCast, ← hx3]
        field_simp

/-- A scaled fraction, rounded and cut off, is off by less than one. -/
theorem scaled {y : Rat} (h0 : 0 ≤ y) {U : Int} (hU : y < U) (hU2 : U ≤ 2 ^ 53) :
    0 ≤ (rnd F64 y).floor ∧ (rnd F64 y).floor ≤ U ∧ ((rnd F64 y).floor : Rat) < y + 1 ∧ y < ((rnd F64 y).floor : Rat) + 1 := by
  have ⟨f1, f2⟩ := floor_bounds y
  have U0 : (0 : Rat) < U := lt_of_le_of_lt h0 hU
  have U0 : 0 < U := by exact_mod_cast U0
  have n0 : 0 ≤ y.floor := Rat.le_floor_iff.2 (by simpa using h0)
  have nU : y.floor < U := Rat.floor_lt_iff.2 hU
  have a : (y.floor : Rat) ≤ rnd F64 y := le_rnd hp (mem_whole (by rw [abs_of_nonneg n0]; omega)) f1
  have b : rnd F64 y ≤ ((y.floor + 1 : Int) : Rat) := rnd_le hp (mem_whole (by rw [abs_of_nonneg (by omega)]; omega)) (by push_cast; exact le_of_lt f2)
  have ⟨g1, g2⟩ := floor_bounds (rnd F64 y)
  have c : y.floor ≤ (rnd F64 y).floor := Rat.le_floor_iff.2 a
  have d : (rnd F64 y).floor ≤ y.floor + 1 := by
    have : ((rnd F64 y).floor : Rat) ≤ ((y.floor + 1 : Int) : Rat) := le_trans g1 b
    exact_mod_cast this
  have c' : (y.floor : Rat) ≤ (rnd F64 y).floor := by exact_mod_cast c
  refine ⟨by omega, by omega, ?_, by linarith⟩
  by_cases hi : (y.floor : Rat) = y
  · have e : rnd F64 y = y := by
      rw [← hi]; exact rnd_of_mem hp (mem_whole (by rw [abs_of_nonneg n0]; omega))
    rw [e]; linarith
  · have : (y.floor : Rat) < y := lt_of_le_of_ne f1 hi
    have d' : ((rnd F64 y).floor : Rat) ≤ (y.floor : Rat) + 1 := by exact_mod_cast d
    linarith

theorem trunc_nonneg {x : Rat} (h : 0 ≤ x) : trunc x = x.floor := by
  rw [trunc, if_neg (not_lt.2 h)]

theorem toInt_of {x : Rat} {b : Nat} (h0 : 0 ≤ x) (h1 : x < ((2 ^ (b - 1) : Int) : Rat)) : toInt b (.fin x) = some x.floor := by
  have n0 : 0 ≤ x.floor := Rat.le_floor_iff.2 (by simpa using h0)
  have n1 : x.floor < 2 ^ (b - 1) := Rat.floor_lt_iff.2 h1
  have : (0 : Int) < 2 ^ (b - 1) := by positivity
  rw [toInt, trunc_nonneg h0, if_pos ⟨by omega, n1⟩]

theorem toInt_none {x : Rat} {b : Nat} (h : ((2 ^ (b - 1) : Int) : Rat) ≤ x) : toInt b (.fin x) = none := by
  have h0 : (0 : Rat) ≤ x := le_trans (by push_cast; positivity) h
  have n1 : 2 ^ (b - 1) ≤ x.floor := Rat.le_floor_iff.2 h
  rw [toInt, trunc_nonneg h0, if_neg (by omega)]

/-- The steps that the conversions to `timespec` and `timeval` share. -/
theorem steps {x : Rat} (hm : Mem F64 x) (h0 : 0 ≤ x) {b b2 : Nat} (hb : x < ((2 ^ (b - 1) : Int) : Rat)) (hb64 : b ≤ 64) {U : Int}
    (hU0 : 0 < U) (hU : U ≤ 2 ^ 30) (hb2 : 32 ≤ b2) :
    toInt b (.fin x) = some x.floor ∧ maxI 0 x.floor = x.floor ∧ 0 ≤ x.floor ∧
    toInt b2 (mul F64 (Double.sub F64 (.fin x) (num (x.floor : Rat))) (num (U : Rat))) = some (rnd F64 ((x - x.floor) * U)).floor := by
  have ⟨f1, f2⟩ := floor_bounds x
  have n0 : 0 ≤ x.floor := Rat.le_floor_iff.2 (by simpa using h0)
  have ⟨m1, m2⟩ := floor_mem hm h0
  have xb : x ≤ (2 : Rat) ^ (100 : Int) := by
    refine le_trans (le_of_lt hb) ?_
    have e : ((2 ^ (b - 1) : Int) : Rat) = (2 : Rat) ^ ((b - 1 : Nat) : Int) := by rw [zpow_natCast, Int.cast_pow]; rfl
    rw [e]
    exact zpow_le_iff.2 (by omega)
  have fb : |(x.floor : Rat)| ≤ (2 : Rat) ^ (100 : Int) := by
    have n0' : (0 : Rat) ≤ x.floor := by exact_mod_cast n0
    rw [abs_of_nonneg n0']
    exact le_trans f1 xb
  have sb : |x - (x.floor : Rat)| ≤ (2 : Rat) ^ (100 : Int) := by
    rw [abs_of_nonneg (by linarith)]
    have : (1 : Rat) ≤ (2 : Rat) ^ (100 : Int) := by norm_num
    linarith
  have Uq : (U : Rat) ≤ 2 ^ 30 := by exact_mod_cast hU
  have Up : (0 : Rat) < U := by exact_mod_cast hU0
  have y0 : 0 ≤ (x - x.floor) * U := mul_nonneg (by linarith) (le_of_lt Up)
  have y1 : (x - x.floor) * U < U := by nlinarith
  refine ⟨toInt_of h0 hb, by simp [maxI]; omega, n0, ?_⟩
  rw [num_mem m1 fb, num_whole (n := U) (by rw [abs_of_pos hU0]; omega)]
  have e1 : Double.sub F64 (.fin x) (.fin (x.floor : Rat)) = .fin (x - x.floor) := by
    rw [Double.sub, neg, Double.add, ← sub_eq_add_neg, of_small sb, rnd_of_mem hp m2]
  have yb : |(x - x.floor) * (U : Rat)| ≤ (2 : Rat) ^ (100 : Int) := by
    rw [abs_of_nonneg y0]
    have : (2 : Rat) ^ 30 ≤ (2 : Rat) ^ (100 : Int) := by norm_num
    linarith
  rw [e1, mul, of_small yb]
  apply toInt_of (rnd_nonneg hp y0)
  have : rnd F64 ((x - x.floor) * U) ≤ U := rnd_le hp (mem_whole (by rw [abs_of_pos hU0]; omega)) (le_of_lt y1)
  refine lt_of_le_of_lt (le_trans this Uq) ?_
  push_cast
  rw [← zpow_natCast (2 : Rat) (b2 - 1), ← zpow_natCast (2 : Rat) 30]
  exact zpow_lt_iff.2 (by push_cast; omega)

/-- The number of units that both ways of cutting to the range give. -/
def units (U : Int) (x : Rat) : Int := minI (U - 1) (rnd F64 ((x - x.floor) * U)).floor

theorem units_spec {x : Rat} {U : Int} (hU0 : 0 < U) (hU : U ≤ 2 ^ 30) :
    0 ≤ units U x ∧ units U x < U ∧ (units U x : Rat) - (x - x.floor) * U < 1 ∧ (x - x.floor) * U - units U x < 1 := by
  have ⟨f1, f2⟩ := floor_bounds x
  have Up : (0 : Rat) < U := by exact_mod_cast hU0
  have y0 : 0 ≤ (x - x.floor) * U := mul_nonneg (by linarith) (le_of_lt Up)
  have y1 : (x - x.floor) * U < U := by nlinarith
  obtain ⟨a, b, c, d⟩ := scaled y0 y1 (by omega)
  unfold units minI
  split
  · exact ⟨a, by omega, by linarith, by linarith⟩
  · rename_i h
    have h : ((U - 1 : Int) : Rat) ≤ (rnd F64 ((x - x.floor) * U)).floor := by exact_mod_cast not_lt.1 h
    push_cast at h
    refine ⟨by omega, by omega, ?_, ?_⟩ <;> push_cast <;> linarith

theorem toTimespec_eq {x : Rat} (hm : Mem F64 x) (h0 : 0 ≤ x) (hb : x < 2 ^ 63) : toTimespec (.fin x) = some ⟨x.floor, units 1000000000 x⟩ := by
  obtain ⟨a, b, c, d⟩ := steps hm h0 (b := 64) (b2 := 64) (U := 1000000000) (by norm_num at hb ⊢; exact hb) (by decide) (by decide) (by decide) (by decide)
  push_cast at d
  have n0 : 0 ≤ (rnd F64 ((x - x.floor) * 1000000000)).floor := by
    have ⟨f1, f2⟩ := floor_bounds x
    exact Rat.le_floor_iff.2 (by simpa using rnd_nonneg hp (mul_nonneg (by linarith) (by norm_num)))
  simp only [toTimespec, a, b, d, bind, Option.bind, pure]
  congr 2
  unfold units
  push_cast
  rw [show maxI 0 (rnd F64 ((x - x.floor) * 1000000000)).floor = (rnd F64 ((x - x.floor) * 1000000000)).floor by simp [maxI]; omega]

theorem timeval_eq {x : Rat} (hm : Mem F64 x) (h0 : 0 ≤ x) (hb : x < 2 ^ 31) : timeval (.fin x) = some ⟨x.floor, units 1000000 x⟩ := by
  obtain ⟨a, b, c, d⟩ := steps hm h0 (b := 32) (b2 := 32) (U := 1000000) (by norm_num at hb ⊢; exact hb) (by decide) (by decide) (by decide) (by decide)
  push_cast at d
  have n0 : 0 ≤ (rnd F64 ((x - x.floor) * 1000000)).floor := by
    have ⟨f1, f2⟩ := floor_bounds x
    exact Rat.le_floor_iff.2 (by simpa using rnd_nonneg hp (mul_nonneg (by linarith) (by norm_num)))
  simp only [timeval, a, b, d, bind, Option.bind, pure]
  congr 2
  unfold units
  push_cast
  rw [show maxI 0 (rnd F64 ((x - x.floor) * 1000000)).floor = (rnd F64 ((x - x.floor) * 1000000)).floor by simp [maxI]; omega]

theorem sleep_eq {x : Rat} (hm : Mem F64 x) (h0 : 0 ≤ x) (hb : x < 2 ^ 63) : sleepReq (.fin x) = some ⟨x.floor, units 1000000000 x⟩ := by
  obtain ⟨a, b, c, d⟩ := steps hm h0 (b := 64) (b2 := 64) (U := 1000000000) (by norm_num at hb ⊢; exact hb) (by decide) (by decide) (by decide) (by decide)
  push_cast at d
  have hsel : (if lt (num 0) (.fin x) then (.fin x : D) else num 0) = .fin x := by
    rw [num0]
    by_cases hx : 0 < x
    · simp [lt, hx]
    · have : x = 0 := by linarith
      subst this; simp [lt]
  have u0 := (units_spec (x := x) (U := 1000000000) (by decide) (by decide)).1
  simp only [sleepReq, hsel, a, b, d, bind, Option.bind, pure]
  have e : minI 999999999 (rnd F64 ((x - x.floor) * 1000000000)).floor = units 1000000000 x := by
    unfold units
    push_cast
    norm_num
  rw [e]
  generalize units 1000000000 x = w at *
  have : maxI 0 w = w := by simp [maxI]; omega
  rw [this]

theorem secs_within {x : Rat} {U : Nat} (hU0 : 0 < U) (hU : U ≤ 2 ^ 30) (h0 : 0 ≤ x) :
    Valid U ⟨x.floor, units U x⟩ ∧ Within (1 / U) (secs U ⟨x.floor, units U x⟩) x := by
  obtain ⟨a, b, c, d⟩ := units_spec (x := x) (U := U) (by exact_mod_cast hU0) (by exact_mod_cast hU)
  have n0 : 0 ≤ x.floor := Rat.le_floor_iff.2 (by simpa using h0)
  have Up : (0 : Rat) < U := by exact_mod_cast hU0
  push_cast at c d
  refine ⟨⟨n0, a, b⟩, ?_, ?_⟩
  · have : secs U ⟨x.floor, units U x⟩ - x = ((units U x : Rat) - (x - x.floor) * U) / U := by
      unfold secs; field_simp; ring
    rw [this]; exact div_lt_div_of_pos_right c Up
  · have : x - secs U ⟨x.floor, units U x⟩ = ((x - x.floor) * U - (units U x : Rat)) / U := by
      unfold secs; field_simp; ring
    rw [this]; exact div_lt_div_of_pos_right d Up

/-- A longer time gives no smaller `timespec`. -/
theorem secs_mono {x y : Rat} {U : Nat} (hU0 : 0 < U) (hU : U ≤ 2 ^ 30) (h : x ≤ y) :
    secs U ⟨x.floor, units U x⟩ ≤ secs U ⟨y.floor, units U y⟩ := by
  obtain ⟨a, b, _, _⟩ := units_spec (x := x) (U := U) (by exact_mod_cast hU0) (by exact_mod_cast hU)
  obtain ⟨a', b', _, _⟩ := units_spec (x := y) (U := U) (by exact_mod_cast hU0) (by exact_mod_cast hU)
  have Up : (0 : Rat) < U := by exact_mod_cast hU0
  have hf := Rat.floor_monotone h
  unfold secs
  dsimp only
  rcases lt_or_eq_of_le hf with hlt | heq
  · have h1 : (x.floor : Rat) + 1 ≤ y.floor := by exact_mod_cast hlt
    have h2 : (units U x : Rat) < U := by exact_mod_cast b
    have h3 : (0 : Rat) ≤ units U y := by exact_mod_cast a'
    have h4 : (units U x : Rat) / U < 1 := by rw [div_lt_one Up]; exact h2
    have h5 : 0 ≤ (units U y : Rat) / U := by positivity
    linarith
  · have h1 : units U x ≤ units U y := by
      have h2 : (rnd F64 ((x - x.floor) * (U : Int))).floor ≤ (rnd F64 ((y - y.floor) * (U : Int))).floor := by
        apply Rat.floor_monotone
        apply rnd_mono hp
        rw [heq]
        push_cast
        exact mul_le_mul_of_nonneg_right (by linarith) (le_of_lt Up)
      unfold units minI
      split <;> split <;> omega
    have h1 : (units U x : Rat) ≤ units U y := by exact_mod_cast h1
    rw [heq]
    have := div_le_div_of_nonneg_right h1 (le_of_lt Up)
    linarith

/-- `1e-6`. -/
theorem k6 : ∃ k, num (1 / 1000000) = .fin k ∧ 0 ≤ k ∧ |k - 1 / 1000000| ≤ 1 / 2 ^ 73 := by
  refine ⟨rnd F64 (1 / 1000000), of_small ?_, rnd_nonneg hp (by norm_num), ?_⟩
  · rw [abs_of_nonneg (by norm_num)]
    norm_num
  · have := rnd_err_le (F := F64) (x := 1 / 1000000) (E := -19) (by rw [abs_of_nonneg (by norm_num)]; norm_num) (by decide)
    refine le_trans this ?_
    simp only [F64]
    norm_num

/-- The error of one rounding of a time below `2^33`. -/
def eps : Rat := 1 / 2 ^ 21

theorem err {x : Rat} (n : Nat) (h : |x| < 2 ^ (33 + n)) : |rnd F64 x - x| ≤ 2 ^ n * eps := by
  have := rnd_err_le (F := F64) (x := x) (E := 33 + n) (by
    rw [show ((33 : Int) + n) = ((33 + n : Nat) : Int) by push_cast; rfl, zpow_natCast]; exact h) (by
    show (-1074 : Int) ≤ 33 + n - ((53 : Nat) : Int)
    omega)
  refine le_trans this (le_of_eq ?_)
  simp only [F64, eps]
  rw [show (33 : Int) + n - ((53 : Nat) : Int) = n + (-20 : Int) by push_cast; ring, zpow_add₀ (by norm_num), zpow_natCast]
  norm_num
  ring

theorem clock_eq (t : Clock.T) : clock t = (t.sec.toNat : Rat) + (t.usec : Rat) / 1000000 := by
  unfold clock Clock.Spec.micros
  push_cast
  ring

/-- The clock as `double`. -/
theorem ofClock_near {t : Clock.T} (h : Now t) : ∃ r, ofClock t = .fin r ∧ 0 ≤ r ∧ |r - clock t| ≤ eps + 1 / 2 ^ 50 := by
  obtain ⟨⟨u0, u1⟩, hc⟩ := h
  obtain ⟨k, hk, k0, kd⟩ := k6
  rw [clock_eq] at hc ⊢
  have u0q : (0 : Rat) ≤ t.usec := by exact_mod_cast u0
  have u1q : (t.usec : Rat) ≤ 999999 := by exact_mod_cast (show t.usec ≤ 999999 by omega)
  rw [abs_le] at kd
  have hS0 : (0 : Rat) ≤ (t.sec.toNat : Rat) := by positivity
  have hS : (t.sec.toNat : Rat) ≤ 2 ^ 32 := by
    have : 0 ≤ (t.usec : Rat) / 1000000 := by positivity
    linarith
  have hS' : t.sec.toNat ≤ 2 ^ 32 := by exact_mod_cast hS
  have ns : num (t.sec.toNat : Rat) = .fin (t.sec.toNat : Rat) := by
    have := num_whole (n := (t.sec.toNat : Int)) (by rw [abs_of_nonneg (by omega)]; omega)
    exact_mod_cast this
  have nu : num (t.usec : Rat) = .fin (t.usec : Rat) := num_whole (by rw [abs_of_nonneg u0]; omega)
  have p0 : 0 ≤ (t.usec : Rat) * k := mul_nonneg u0q k0
  have pd1 : (t.usec : Rat) * k - t.usec / 1000000 ≤ 999999 / 2 ^ 73 := by
    have : (t.usec : Rat) * k - t.usec / 1000000 = t.usec * (k - 1 / 1000000) := by ring
    rw [this]
    nlinarith
  have pd2 : -(999999 / 2 ^ 73) ≤ (t.usec : Rat) * k - t.usec / 1000000 := by
    have : (t.usec : Rat) * k - t.usec / 1000000 = t.usec * (k - 1 / 1000000) := by ring
    rw [this]
    nlinarith
  have p1 : (t.usec : Rat) * k < 1 := by
    have : (t.usec : Rat) / 1000000 ≤ 999999 / 1000000 := by linarith
    have : (999999 : Rat) / 1000000 + 999999 / 2 ^ 73 < 1 := by norm_num
    linarith
  have w := rnd_err_le (F := F64) (x := (t.usec : Rat) * k) (E := 0) (by rw [abs_of_nonneg p0]; simpa using p1) (by decide)
  have w : |rnd F64 ((t.usec : Rat) * k) - (t.usec : Rat) * k| ≤ 1 / 2 ^ 54 := by
    refine le_trans w (le_of_eq ?_)
    simp only [F64]
    norm_num
  rw [abs_le] at w
  have w0 : 0 ≤ rnd F64 ((t.usec : Rat) * k) := rnd_nonneg hp p0
  have w1 : rnd F64 ((t.usec : Rat) * k) ≤ 1 := rnd_le hp (by simpa using mem_whole (n := 1) (by norm_num)) (le_of_lt p1)
  have m1 : mul F64 (.fin (t.usec : Rat)) (.fin k) = .fin (rnd F64 ((t.usec : Rat) * k)) := by
    rw [mul, of_small]
    rw [abs_of_nonneg p0]
    have : (1 : Rat) ≤ (2 : Rat) ^ (100 : Int) := by norm_num
    linarith
  generalize hw : rnd F64 ((t.usec : Rat) * k) = q at *
  have s0 : 0 ≤ (t.sec.toNat : Rat) + q := by linarith
  have e := err (x := (t.sec.toNat : Rat) + q) 0 (by rw [abs_of_nonneg s0]; norm_num; linarith)
  rw [abs_le] at e
  refine ⟨rnd F64 ((t.sec.toNat : Rat) + q), ?_, rnd_nonneg hp s0, ?_⟩
  · rw [ofClock, ns, nu, hk, m1, Double.add, of_small]
    rw [abs_of_nonneg s0]
    have : (2 : Rat) ^ 32 + 1 ≤ (2 : Rat) ^ (100 : Int) := by norm_num
    linarith
  · have n1 : (999999 : Rat) / 2 ^ 73 + 1 / 2 ^ 54 ≤ 1 / 2 ^ 50 := by norm_num
    rw [abs_le]
    constructor <;> linarith

end Verif.Duration.Lemmas
