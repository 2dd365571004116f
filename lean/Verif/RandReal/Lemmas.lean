import Verif.Double.Props
import Verif.RandReal.Spec
/-! # Lemmas: random real numbers -/
namespace Verif.RandReal.Lemmas
set_option exponentiation.threshold 2000
open Verif.Double Verif.Double.Spec Verif.Double.Lemmas Verif.RandReal Verif.RandReal.Spec

theorem hp : 1 ≤ F64.prec := by decide

theorem mem_of {x : Rat} (h : IsNum F64 x) : Mem F64 x := by
  obtain ⟨m, e, a, b, _, d⟩ := h
  refine ⟨m, e, ?_, b, d⟩
  rw [Int.abs_eq_natAbs]
  exact_mod_cast a.le

theorem big : (2 : Rat) ^ (100 : Int) < (2 : Rat) ^ F64.emax := zpow_lt_iff.2 (by decide)

theorem of_small {x : Rat} (h : |x| ≤ (2 : Rat) ^ (100 : Int)) : ofRat F64 x = .fin (rnd F64 x) :=
  ofRat_of_le hp (mem_pow (by decide)) big h

theorem small_num {x : Rat} (h : |x| ≤ 2 ^ 54) : |x| ≤ (2 : Rat) ^ (100 : Int) := by
  refine h.trans ?_
  have : (2 : Rat) ^ 54 = (2 : Rat) ^ (54 : Int) := by norm_cast
  rw [this, zpow_le_iff]
  norm_num

theorem of_mem {x : Rat} (h : Mem F64 x) (hb : |x| ≤ 2 ^ 54) : ofRat F64 x = .fin x := by
  rw [of_small (small_num hb), rnd_of_mem hp h]

theorem num_nat {n : Nat} (h : n ≤ 2 ^ 53) : num (n : Rat) = .fin n := by
  have h1 : |(n : Rat)| ≤ 2 ^ 54 := by
    rw [abs_of_nonneg (by positivity)]
    have : n ≤ 2 ^ 54 := by omega
    exact_mod_cast this
  have h2 : Mem F64 (n : Rat) := by
    have := mem_int (F := F64) (by decide) (n : Int) (by rw [Int.abs_eq_natAbs]; simp; exact_mod_cast h)
    simpa using this
  exact of_mem h2 h1

/-- A multiple of `2^-53` up to 1. -/
theorem mem53 {k : Int} (h : |k| ≤ 2 ^ 53) : Mem F64 ((k : Rat) / 2 ^ 53) := by
  refine ⟨k, -53, h, by decide, ?_⟩
  rw [zpow_neg, div_eq_mul_inv]
  norm_cast

/-- The whole number behind `real53`. -/
def k53 (u v : UInt32) : Nat := u.toNat / 32 * 67108864 + v.toNat / 64

theorem k53_lt (u v : UInt32) : k53 u v < 2 ^ 53 := by
  have := u.toNat_lt
  have := v.toNat_lt
  unfold k53
  omega

theorem real53_eq (u v : UInt32) : real53 u v = .fin ((k53 u v : Rat) / 2 ^ 53) := by
  have hu := u.toNat_lt
  have hv := v.toNat_lt
  have hk := k53_lt u v
  have ea : (u >>> 5).toNat = u.toNat / 32 := by rw [UInt32.toNat_shiftRight, Nat.shiftRight_eq_div_pow]; rfl
  have eb : (v >>> 6).toNat = v.toNat / 64 := by rw [UInt32.toNat_shiftRight, Nat.shiftRight_eq_div_pow]; rfl
  have e1 : num ((u >>> 5).toNat : Rat) = .fin (u.toNat / 32 : Nat) := by rw [ea]; exact num_nat (by omega)
  have e2 : num ((v >>> 6).toNat : Rat) = .fin (v.toNat / 64 : Nat) := by rw [eb]; exact num_nat (by omega)
  have e3 : num 67108864 = .fin ((67108864 : Nat) : Rat) := by
    have := num_nat (n := 67108864) (by norm_num)
    simpa using this
  have e4 : num (1 / 9007199254740992) = .fin (1 / 2 ^ 53) := by
    have := of_mem (mem53 (k := 1) (by norm_num)) (by norm_num)
    rw [num]
    norm_num at this ⊢
    exact this
  have e5 : mul F64 (.fin ((u.toNat / 32 : Nat) : Rat)) (.fin ((67108864 : Nat) : Rat)) = .fin ((u.toNat / 32 * 67108864 : Nat) : Rat) := by
    rw [mul, ← Nat.cast_mul]
    exact num_nat (by omega)
  have e6 : add F64 (.fin ((u.toNat / 32 * 67108864 : Nat) : Rat)) (.fin ((v.toNat / 64 : Nat) : Rat)) = .fin (k53 u v : Rat) := by
    rw [add, ← Nat.cast_add]
    exact num_nat (by unfold k53 at hk; omega)
  unfold real53
  dsimp only
  rw [e1, e2, e3, e4, e5, e6, mul, mul_one_div]
  have := of_mem (mem53 (k := (k53 u v : Int)) (by rw [Int.abs_eq_natAbs]; simp; exact_mod_cast hk.le))
    (by rw [abs_of_nonneg (by positivity)]; push_cast; rw [div_le_iff₀ (by norm_num)]; have : (k53 u v : Rat) ≤ 2 ^ 53 := by exact_mod_cast hk.le
        linarith)
  push_cast at this
  exact this

/-- The smallest normal number. -/
abbrev lo : Rat := (2 : Rat) ^ (-1022 : Int)

/-- A number times one below 1 is smaller, unless it is too close to zero. -/
theorem mul_lt {d r : Rat} (hd : Mem F64 d) (hlo : lo < d) (h1 : r ≤ 1 - 1 / 2 ^ 53) : rnd F64 (d * r) < d := by
  have hd0 : 0 < d := lt_trans (two_zpow_pos _) hlo
  obtain ⟨g1, g2⟩ := expo_spec hd0
  have hE : -1022 ≤ expo d := by
    have := zpow_lt_iff.1 (lt_trans hlo g2)
    omega
  have hq : d * r ≤ d - d / 2 ^ 53 := by
    have : d * r ≤ d * (1 - 1 / 2 ^ 53) := mul_le_mul_of_nonneg_left h1 hd0.le
    rw [mul_sub, mul_one, mul_one_div] at this
    exact this
  refine lt_of_le_of_lt (rnd_mono hp hq) ?_
  generalize hEE : expo d = E at *
  have hu : (2 : Rat) ^ (E - 52) = (2 : Rat) ^ E / 2 ^ 52 := by rw [zpow_sub₀ (by norm_num)]; norm_cast
  rcases g1.eq_or_lt with h | h
  · -- a power of two
    have hE2 : -1021 ≤ E := by
      rw [← h] at hlo
      have := zpow_lt_iff.1 hlo
      omega
    have hm : Mem F64 (d - d / 2 ^ 53) := by
      refine ⟨2 ^ 53 - 1, E - 53, by decide, by rw [show F64.emin = -1074 by decide]; omega, ?_⟩
      have : (2 : Rat) ^ (E - 53) = (2 : Rat) ^ E / 2 ^ 53 := by rw [zpow_sub₀ (by norm_num)]; norm_cast
      rw [this, ← h]
      push_cast
      ring
    rw [rnd_of_mem hp hm]
    have : 0 < d / 2 ^ 53 := by positivity
    linarith
  · obtain ⟨n, hn⟩ := mem_grid hp hd (E := E) (by rw [abs_of_pos hd0]; exact g1)
    have hmax : max (E - ((F64.prec : Int) - 1)) F64.emin = E - 52 := by
      rw [show ((F64.prec : Int) - 1) = 52 by decide, show F64.emin = -1074 by decide]; omega
    rw [hmax] at hn
    have hup := two_zpow_pos (E - 52)
    have hn1 : (n : Rat) < 2 ^ 53 := by
      have : (n : Rat) * (2 : Rat) ^ (E - 52) < 2 ^ 53 * (2 : Rat) ^ (E - 52) := by
        rw [← hn]
        refine lt_of_lt_of_eq g2 ?_
        rw [hu, zpow_add₀ (by norm_num)]
        norm_num
        ring
      exact lt_of_mul_lt_mul_right this hup.le
    have hn0 : 0 < (n : Rat) := by
      have : 0 < (n : Rat) * (2 : Rat) ^ (E - 52) := by rw [← hn]; exact hd0
      exact (pos_iff_pos_of_mul_pos this).2 hup
    have hnZ : n < 2 ^ 53 := by exact_mod_cast hn1
    have hnZ0 : 0 < n := by exact_mod_cast hn0
    have hz : Mem F64 (d - (2 : Rat) ^ (E - 52)) := by
      refine ⟨n - 1, E - 52, ?_, by rw [show F64.emin = -1074 by decide]; omega, ?_⟩
      · rw [show F64.prec = 53 by decide, abs_le]; omega
      · conv_lhs => rw [hn]
        push_cast; ring
    have hnear := rnd_near hp hz (d - d / 2 ^ 53)
    have k1 : (2 : Rat) ^ (E - 52) / 2 < d / 2 ^ 53 := by
      rw [hu]
      have : (2 : Rat) ^ E / 2 ^ 52 / 2 = (2 : Rat) ^ E / 2 ^ 53 := by ring
      rw [this]
      exact div_lt_div_of_pos_right h (by norm_num)
    have k2 : d / 2 ^ 53 ≤ (2 : Rat) ^ (E - 52) := by
      rw [div_le_iff₀ (by norm_num), hn]
      nlinarith
    rw [abs_sub_comm (d - (2 : Rat) ^ (E - 52)), abs_of_nonneg (show 0 ≤ d - d / 2 ^ 53 - (d - (2 : Rat) ^ (E - 52)) by linarith)] at hnear
    have := (abs_le.1 hnear).2
    linarith

theorem rnd_mul_nonneg {d r : Rat} (hd : 0 ≤ d) (hr : 0 ≤ r) : 0 ≤ rnd F64 (d * r) := rnd_nonneg hp (mul_nonneg hd hr)

theorem rnd_mul_le {d r : Rat} (hm : Mem F64 d) (hd : 0 ≤ d) (hr : r ≤ 1) : rnd F64 (d * r) ≤ d :=
  rnd_le hp hm (by nlinarith)

/-- Differences of numbers are whole multiples of the smallest number, so small ones are exact. -/
theorem sub_exact {a b : Rat} (ha : Mem F64 a) (hb : Mem F64 b) (h : |b - a| ≤ lo) : Mem F64 (b - a) := by
  obtain ⟨m, e, _, he, rfl⟩ := ha
  obtain ⟨n, f, _, hf, rfl⟩ := hb
  have pw : ∀ {e : Int}, F64.emin ≤ e → ∃ j : Int, (2 : Rat) ^ e = j * (2 : Rat) ^ (-1074 : Int) := by
    intro e he
    have he : -1074 ≤ e := he
    refine ⟨2 ^ (e + 1074).toNat, ?_⟩
    push_cast
    rw [← zpow_natCast, Int.toNat_of_nonneg (by omega), ← zpow_add₀ (by norm_num)]
    congr 1
    ring
  obtain ⟨i, hi⟩ := pw he
  obtain ⟨j, hj⟩ := pw hf
  rw [hi, hj] at h ⊢
  have e : (n : Rat) * (j * (2 : Rat) ^ (-1074 : Int)) - m * (i * (2 : Rat) ^ (-1074 : Int)) = ((n * j - m * i : Int) : Rat) * (2 : Rat) ^ (-1074 : Int) := by
    push_cast; ring
  rw [e] at h ⊢
  refine ⟨n * j - m * i, -1074, ?_, le_refl _, rfl⟩
  have hp := two_zpow_pos (-1074)
  rw [abs_mul, abs_of_pos hp] at h
  have h52 : lo = 2 ^ 52 * (2 : Rat) ^ (-1074 : Int) := by
    rw [lo, show (-1022 : Int) = 52 + -1074 by norm_num, zpow_add₀ (by norm_num)]
    norm_cast
  rw [h52] at h
  have h2 := le_of_mul_le_mul_right h hp
  rw [← Int.cast_abs] at h2
  have h3 : |n * j - m * i| ≤ 2 ^ 52 := by exact_mod_cast h2
  exact h3.trans (by decide)

/-- The scaled difference is not above the true one. -/
theorem mul_sub_le {a b r : Rat} (ha : Mem F64 a) (hb : Mem F64 b) (hab : a ≤ b) (h1 : r ≤ 1 - 1 / 2 ^ 53) :
    rnd F64 (rnd F64 (b - a) * r) ≤ b - a := by
  have hd0 : 0 ≤ rnd F64 (b - a) := rnd_nonneg hp (by linarith)
  have hr1 : r ≤ 1 := by linarith [show (0 : Rat) ≤ 1 / 2 ^ 53 by norm_num]
  rcases le_or_gt (rnd F64 (b - a)) (b - a) with h | h
  · exact (rnd_mul_le (rnd_mem _) hd0 hr1).trans h
  · have hlo : lo < rnd F64 (b - a) := by
      by_contra hc
      have hc := not_lt.1 hc
      have : |b - a| ≤ lo := by rw [abs_of_nonneg (by linarith)]; linarith
      rw [rnd_of_mem hp (sub_exact ha hb this)] at h
      exact lt_irrefl _ h
    have hlt := mul_lt (rnd_mem (F := F64) (b - a)) hlo h1
    by_contra hc
    have hc := not_le.1 hc
    have := rnd_near hp (rnd_mem (F := F64) (rnd F64 (b - a) * r)) (b - a)
    rw [abs_of_pos (by linarith), abs_of_pos (by linarith)] at this
    linarith

theorem k53_frac (u v : UInt32) : (0 : Rat) ≤ (k53 u v : Rat) / 2 ^ 53 ∧ (k53 u v : Rat) / 2 ^ 53 ≤ 1 - 1 / 2 ^ 53 := by
  refine ⟨by positivity, ?_⟩
  have h := k53_lt u v
  have : (k53 u v : Rat) + 1 ≤ 2 ^ 53 := by exact_mod_cast h
  rw [le_sub_iff_add_le, ← add_div, div_le_one (by norm_num)]
  exact this

theorem nextDouble_eq {G : Type} (next : G → UInt32 × G) (r : Rand G) :
    nextDouble next r = (.fin ((k53 (next r.g).1 (next (next r.g).2).1 : Rat) / 2 ^ 53), { r with g := (next (next r.g).2).2 }) := by
  unfold nextDouble
  dsimp only
  rw [real53_eq]

theorem num_lt {x : Rat} (h : IsNum F64 x) : |x| < (2 : Rat) ^ F64.emax := by
  obtain ⟨m, e, a, b, c, rfl⟩ := h
  have hm : |(m : Rat)| < (2 : Rat) ^ F64.prec := by
    rw [← Int.cast_abs, Int.abs_eq_natAbs]
    exact_mod_cast a
  rw [abs_mul, abs_of_pos (two_zpow_pos e)]
  have h1 : |(m : Rat)| * (2 : Rat) ^ e < (2 : Rat) ^ F64.prec * (2 : Rat) ^ e := mul_lt_mul_of_pos_right hm (two_zpow_pos e)
  refine lt_of_lt_of_le h1 ?_
  rw [← zpow_natCast, ← zpow_add₀ (by norm_num), zpow_le_iff]
  omega

theorem mem_max {x y : Rat} (hx : Mem F64 x) (hy : Mem F64 y) : Mem F64 (max |x| |y|) := by
  have ab : ∀ {x : Rat}, Mem F64 x → Mem F64 |x| := by
    intro x hx
    rcases abs_choice x with h | h <;> rw [h]
    · exact hx
    · exact mem_neg hx
  rcases max_choice |x| |y| with h | h <;> rw [h]
  · exact ab hx
  · exact ab hy

theorem mem_largest : Mem F64 largest := ⟨2 ^ 53 - 1, 971, by decide, by decide, by
  rw [largest, show (2 : Rat) ^ (971 : Int) = 2 ^ 971 from zpow_natCast _ _]; generalize (2 : Rat) ^ 971 = p; norm_num⟩

theorem largest_lt : largest < (2 : Rat) ^ F64.emax := by
  have : (2 : Rat) ^ F64.emax = 2 ^ 53 * 2 ^ 971 := by
    rw [← pow_add]
    exact zpow_natCast _ _
  rw [this, largest]
  have : (0 : Rat) < 2 ^ 971 := by positivity
  generalize (2 : Rat) ^ 971 = p at *
  nlinarith

theorem after_add {G : Type} (next : G → UInt32 × G) (m n : Nat) (g : G) : after next n (after next m g) = after next (m + n) g := by
  induction m generalizing g with
  | zero => simp [after]
  | succ m ih => rw [Nat.succ_add]; exact ih _

/-- `1 - x` is exact for the numbers drawn. -/
theorem one_sub (u v : UInt32) : sub F64 (num 1) (.fin ((k53 u v : Rat) / 2 ^ 53)) = .fin (1 - (k53 u v : Rat) / 2 ^ 53) := by
  have h1 : num 1 = .fin 1 := by simpa using num_nat (n := 1) (by norm_num)
  have hk := k53_lt u v
  obtain ⟨f1, f2⟩ := k53_frac u v
  rw [h1, sub, neg, add, ← sub_eq_add_neg]
  refine of_mem ?_ ?_
  · have := mem53 (k := 2 ^ 53 - (k53 u v : Int)) (by rw [abs_le]; omega)
    push_cast at this
    rw [sub_div, show (9007199254740992 : Rat) / 2 ^ 53 = 1 by norm_num] at this
    exact this
  · rw [abs_of_nonneg (by linarith [show (0 : Rat) ≤ 1 / 2 ^ 53 by norm_num])]
    have : (1 : Rat) ≤ 2 ^ 54 := by norm_num
    linarith

theorem mul_fin {x y : Rat} {n : Nat} (hn : n ≤ 2 ^ 53) (h : |x * y| ≤ n) :
    mul F64 (.fin x) (.fin y) = .fin (rnd F64 (x * y)) ∧ |rnd F64 (x * y)| ≤ n := by
  have hm : Mem F64 (n : Rat) := by
    have := mem_int (F := F64) (by decide) (n : Int) (by rw [Int.abs_eq_natAbs]; simp; exact_mod_cast hn)
    simpa using this
  have hb : (n : Rat) ≤ 2 ^ 54 := by
    have : n ≤ 2 ^ 54 := by omega
    exact_mod_cast this
  refine ⟨of_small (small_num (h.trans hb)), ?_⟩
  obtain ⟨h1, h2⟩ := abs_le.1 h
  exact abs_le.2 ⟨le_rnd hp (mem_neg hm) h1, rnd_le hp hm h2⟩

theorem gaussian_new {G : Type} (lib : Lib) (next : G → UInt32 × G) (r : Rand G) (h : r.stocked = false) :
    ∃ x y, (nextDouble next r).1 = .fin x ∧ (nextDouble next (nextDouble next r).2).1 = .fin y ∧
      nextGaussian lib next r = (some (boxMuller lib x y).1, ⟨after next 4 r.g, true, some (boxMuller lib x y).2⟩) := by
  have h2 : num 2 = .fin 2 := by simpa using num_nat (n := 2) (by norm_num)
  have h3 : num (-2) = .fin (-2) := by
    refine of_mem ?_ (by rw [abs_neg, abs_of_pos (by norm_num)]; norm_num)
    have := mem_int (F := F64) (by decide) (-2) (by decide)
    exact_mod_cast this
  refine ⟨_, _, by rw [nextDouble_eq], by rw [nextDouble_eq], ?_⟩
  unfold nextGaussian
  rw [if_neg (by rw [h]; simp)]
  rw [nextDouble_eq]
  dsimp only
  rw [nextDouble_eq]
  dsimp only
  rw [one_sub, one_sub, h2, h3]
  rfl

theorem boxMuller_le {lib : Lib} (hs : Sane lib) {x y : Rat} (hx0 : 0 ≤ x) (hx : x ≤ 1 - 1 / 2 ^ 53) (hy0 : 0 ≤ y) (hy : y ≤ 1) :
    ∃ p q, boxMuller lib x y = (.fin p, .fin q) ∧ |p| ≤ 9 ∧ |q| ≤ 9 := by
  have h53 : (2 : Rat) ^ (-53 : Int) = 1 / 2 ^ 53 := by rw [zpow_neg, one_div]; norm_cast
  obtain ⟨l, hl, l1, l2⟩ := hs.log (1 - x) (by rw [h53]; linarith) (by linarith)
  have hm := mul_fin (x := -2) (y := l) (n := 74) (by norm_num) (by rw [abs_le]; constructor <;> norm_num <;> linarith)
  obtain ⟨s, hs1, s1, s2⟩ := hs.sqrt (rnd F64 (-2 * l)) (rnd_nonneg hp (by linarith)) (by have := (abs_le.1 hm.2).2; exact_mod_cast this)
  obtain ⟨pi, hpi, p1, p2⟩ := hs.pi
  have hm2 := mul_fin (x := 2) (y := pi) (n := 8) (by norm_num) (by rw [abs_le]; constructor <;> norm_num <;> linarith)
  have hz : |rnd F64 (2 * pi) * (1 - y)| ≤ (8 : Nat) := by
    rw [abs_mul, abs_of_nonneg (show 0 ≤ 1 - y by linarith)]
    have : |rnd F64 (2 * pi)| ≤ 8 := by exact_mod_cast hm2.2
    have h0 := abs_nonneg (rnd F64 (2 * pi))
    push_cast
    nlinarith
  have hm3 := mul_fin (n := 8) (by norm_num) hz
  obtain ⟨a, ha, a1, a2⟩ := hs.sin (rnd F64 (rnd F64 (2 * pi) * (1 - y)))
  obtain ⟨b, hb, b1, b2⟩ := hs.cos (rnd F64 (rnd F64 (2 * pi) * (1 - y)))
  have hm4 := mul_fin (x := s) (y := a) (n := 9) (by norm_num) (by rw [abs_le]; push_cast; constructor <;> nlinarith)
  have hm5 := mul_fin (x := s) (y := b) (n := 9) (by norm_num) (by rw [abs_le]; push_cast; constructor <;> nlinarith)
  refine ⟨_, _, ?_, by exact_mod_cast hm4.2, by exact_mod_cast hm5.2⟩
  unfold boxMuller
  dsimp only
  rw [hl, hm.1, hs1, hpi, hm2.1, hm3.1, ha, hb, hm4.1, hm5.1]

theorem trunc_floor {x : Rat} (h : 0 ≤ x) : trunc x = x.floor := by
  unfold trunc
  rw [if_neg (not_lt.2 h)]

theorem nextInt_eq {G : Type} (next : G → UInt32 × G) (a : UInt32) (r : Rand G) :
    ∃ n : Int, nextInt next a r = (some n, (nextDouble next r).2) ∧ 0 ≤ n ∧ n ≤ a.toNat ∧ (0 < a.toNat → n < a.toNat) := by
  have ha := a.toNat_lt
  have hm : Mem F64 (a.toNat : Rat) := by
    have := mem_int (F := F64) (by decide) (a.toNat : Int) (by rw [show F64.prec = 53 by decide, abs_le]; omega)
    simpa using this
  unfold nextInt
  rw [nextDouble_eq]
  dsimp only
  rw [num_nat (by omega)]
  generalize (next r.g).1 = u
  generalize (next (next r.g).2).1 = v
  obtain ⟨f1, f2⟩ := k53_frac u v
  generalize (k53 u v : Rat) / 2 ^ 53 = x at *
  have hx1 : x ≤ 1 := by linarith [show (0 : Rat) ≤ 1 / 2 ^ 53 by norm_num]
  have h0 : (0 : Rat) ≤ (a.toNat : Rat) := by positivity
  have hmf := mul_fin (x := x) (y := (a.toNat : Rat)) (n := a.toNat) (by omega) (by rw [abs_of_nonneg (by positivity)]; nlinarith)
  rw [hmf.1]
  have hr0 : 0 ≤ rnd F64 (x * (a.toNat : Rat)) := rnd_nonneg hp (by positivity)
  have hr1 := (abs_le.1 hmf.2).2
  have hlt : 0 < a.toNat → rnd F64 (x * (a.toNat : Rat)) < a.toNat := by
    intro hpos
    rw [mul_comm]
    refine mul_lt hm ?_ f2
    have h1 : (1 : Rat) ≤ a.toNat := by exact_mod_cast hpos
    refine lt_of_lt_of_le ?_ h1
    rw [show (1 : Rat) = (2 : Rat) ^ (0 : Int) by simp]
    exact zpow_lt_iff.2 (by norm_num)
  generalize rnd F64 (x * (a.toNat : Rat)) = y at *
  obtain ⟨g1, g2⟩ := floor_bounds y
  have n0 : 0 ≤ y.floor := by
    have : (0 : Rat) < (y.floor : Rat) + 1 := by linarith
    have : 0 < y.floor + 1 := by exact_mod_cast this
    omega
  have n1 : y.floor ≤ a.toNat := by
    have : (y.floor : Rat) ≤ (a.toNat : Rat) := by linarith
    exact_mod_cast this
  refine ⟨y.floor, ?_, n0, n1, ?_⟩
  · rw [toUInt, trunc_floor hr0, if_pos ⟨n0, by omega⟩]
  · intro hpos
    have : (y.floor : Rat) < (a.toNat : Rat) := by linarith [hlt hpos]
    exact_mod_cast this

/-- What is true of a `random` between calls. -/
def Ok {G : Type} (r : Rand G) : Prop := r.stocked = true → ∃ y, r.stock = some (.fin y) ∧ |y| ≤ 9

theorem call_real {G : Type} (lib : Lib) (next : G → UInt32 × G) (r : Rand G) {c : Call} (h : c.isGaussian = false) :
    (call lib next r c).2 = { r with g := after next 2 r.g } ∧ (call lib next r c).1.isSome := by
  cases c with
  | real => exact ⟨by simp only [call, nextDouble_eq]; rfl, rfl⟩
  | realTo a => exact ⟨by simp only [call, nextDoubleTo, nextDouble_eq]; rfl, rfl⟩
  | realIn a b => exact ⟨by simp only [call, nextDoubleIn, nextDoubleTo, nextDouble_eq]; rfl, rfl⟩
  | int a =>
    obtain ⟨n, hn, _⟩ := nextInt_eq next a r
    simp only [call, hn, nextDouble_eq]
    exact ⟨rfl, rfl⟩
  | gaussian => cases h
  | gaussianAt m d => cases h

theorem gaussian_ok {G : Type} {lib : Lib} (hs : Sane lib) (next : G → UInt32 × G) {r : Rand G} (h : Ok r) :
    (∃ x, (nextGaussian lib next r).1 = some (.fin x) ∧ |x| ≤ 9) ∧ Ok (nextGaussian lib next r).2 := by
  cases hst : r.stocked with
  | true =>
    obtain ⟨y, h1, h2⟩ := h hst
    unfold nextGaussian
    rw [if_pos hst]
    exact ⟨⟨y, h1, h2⟩, fun hc => by cases hc⟩
  | false =>
    obtain ⟨x, y, hx, hy, e⟩ := gaussian_new lib next r hst
    rw [nextDouble_eq] at hx hy
    simp only [D.fin.injEq] at hx hy
    obtain ⟨f1, f2⟩ := k53_frac (next r.g).1 (next (next r.g).2).1
    obtain ⟨f3, f4⟩ := k53_frac (next (next (next r.g).2).2).1 (next (next (next (next r.g).2).2).2).1
    rw [hx] at f1 f2
    rw [nextDouble_eq] at hy
    dsimp only at hy
    rw [hy] at f3 f4
    obtain ⟨p, q, hpq, hp9, hq9⟩ := boxMuller_le hs f1 f2 f3 (by linarith [show (0 : Rat) ≤ 1 / 2 ^ 53 by norm_num])
    rw [e, hpq]
    exact ⟨⟨p, rfl, hp9⟩, fun _ => ⟨q, rfl, hq9⟩⟩

theorem gaussian_draw {G : Type} (lib : Lib) (next : G → UInt32 × G) (r : Rand G) :
    (nextGaussian lib next r).2.stocked = !r.stocked ∧
      (nextGaussian lib next r).2.g = after next (if r.stocked then 0 else 4) r.g := by
  cases hst : r.stocked with
  | true =>
    unfold nextGaussian
    rw [if_pos hst]
    exact ⟨rfl, rfl⟩
  | false =>
    obtain ⟨x, y, hx, hy, e⟩ := gaussian_new lib next r hst
    rw [e]
    exact ⟨rfl, rfl⟩

theorem call_gaussian {G : Type} (lib : Lib) (next : G → UInt32 × G) (r : Rand G) {c : Call} (h : c.isGaussian = true) :
    (call lib next r c).2 = (nextGaussian lib next r).2 := by
  cases c with
  | gaussian => rfl
  | gaussianAt m d => rfl
  | real => cases h
  | realTo => cases h
  | realIn => cases h
  | int => cases h

theorem call_ok {G : Type} {lib : Lib} (hs : Sane lib) (next : G → UInt32 × G) {r : Rand G} (h : Ok r) (c : Call) : Ok (call lib next r c).2 := by
  cases hg : c.isGaussian with
  | false => rw [(call_real lib next r hg).1]; exact h
  | true => rw [call_gaussian lib next r hg]; exact (gaussian_ok hs next h).2

theorem calls_ok {G : Type} {lib : Lib} (hs : Sane lib) (next : G → UInt32 × G) (cs : List Call) {r : Rand G} (h : Ok r) : Ok (calls lib next r cs).2 := by
  induction cs generalizing r with
  | nil => exact h
  | cons c cs ih => exact ih (call_ok hs next h c)

end Verif.RandReal.Lemmas
