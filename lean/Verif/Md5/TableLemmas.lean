import Verif.Md5.Table
import Verif.Md5.TableSpec
import Verif.Double.Lemmas
import Mathlib.Tactic.Linarith
import Mathlib.Tactic.Ring
import Mathlib.Tactic.Positivity
import Mathlib.Tactic.NormNum
/-!
# Rational approximations of the sine of whole numbers
-/
namespace Verif.Md5.TableLemmas
open Verif.Double

/-- Partial sums of the series of the cosine and sine of 1. -/
def cs : Nat → Rat × Rat
  | 0 => (0, 0)
  | k + 1 => ((cs k).1 + (-1) ^ k / (2 * k).factorial, (cs k).2 + (-1) ^ k / (2 * k + 1).factorial)

theorem cs_sum (k : Nat) :
    (∑ m ∈ Finset.range (2 * k), Complex.I ^ m / (m.factorial : ℂ)) = ((cs k).1 : ℂ) + ((cs k).2 : ℂ) * Complex.I := by
  induction k with
  | zero => simp [cs]
  | succ k ih =>
    have e : 2 * (k + 1) = 2 * k + 1 + 1 := by ring
    rw [e, Finset.sum_range_succ, Finset.sum_range_succ, ih, pow_succ, pow_mul, Complex.I_sq]
    simp only [cs]
    push_cast
    ring

/-- The scale of the fixed point numbers. -/
def S : Int := 2 ^ 256

def c1 : Int := ((cs 30).1 * S).floor
def s1 : Int := ((cs 30).2 * S).floor

/-- Cosine and sine of `n`, scaled. -/
def tab : Nat → Int × Int
  | 0 => (S, 0)
  | n + 1 => (((tab n).1 * c1 - (tab n).2 * s1) / S, ((tab n).2 * c1 + (tab n).1 * s1) / S)

theorem exp_one_err : ‖Complex.exp Complex.I - (((cs 30).1 : ℂ) + ((cs 30).2 : ℂ) * Complex.I)‖ ≤ 1 / 2 ^ 256 := by
  rw [← cs_sum]
  refine le_trans (Complex.exp_bound (by simp) (by norm_num)) ?_
  rw [Complex.norm_I]
  norm_num [Nat.factorial]

theorem S_pos : (0 : ℝ) < (S : ℝ) := by norm_num [S]

theorem fl (q : Rat) : |(((q * S).floor : Int) : ℝ) - S * q| ≤ 1 := by
  have ⟨a, b⟩ := Verif.Double.Lemmas.floor_bounds (q * S)
  have a' : (((q * S).floor : Int) : ℝ) ≤ q * S := by exact_mod_cast a
  have b' : (q : ℝ) * S < (((q * S).floor : Int) : ℝ) + 1 := by exact_mod_cast b
  rw [abs_le]
  constructor <;> linarith

theorem one_err : |(c1 : ℝ) - S * Real.cos 1| ≤ 2 ∧ |(s1 : ℝ) - S * Real.sin 1| ≤ 2 := by
  have h := exp_one_err
  have e : Complex.exp Complex.I - (((cs 30).1 : ℂ) + ((cs 30).2 : ℂ) * Complex.I) =
      ((Real.cos 1 - ((cs 30).1 : ℝ) : ℝ) : ℂ) + ((Real.sin 1 - ((cs 30).2 : ℝ) : ℝ) : ℂ) * Complex.I := by
    have := Complex.exp_mul_I 1
    rw [one_mul] at this
    rw [this]
    push_cast
    ring
  have hr := le_trans (Complex.abs_re_le_norm _) h
  have hi := le_trans (Complex.abs_im_le_norm _) h
  rw [e] at hr hi
  simp only [Complex.add_re, Complex.ofReal_re, Complex.mul_re, Complex.I_re, mul_zero, Complex.ofReal_im, Complex.I_im,
    mul_one, sub_self, add_zero, Complex.add_im, Complex.mul_im, zero_add] at hr hi
  have hS : (S : ℝ) * (1 / 2 ^ 256) = 1 := by norm_num [S]
  have aux : ∀ (t : ℝ) (q : Rat), |t - (q : ℝ)| ≤ 1 / 2 ^ 256 → |(((q * S).floor : Int) : ℝ) - S * t| ≤ 2 := by
    intro t q ht
    have h1 := fl q
    have h2 : |(S : ℝ) * (q : ℝ) - S * t| ≤ 1 := by
      rw [← mul_sub, abs_mul, abs_of_pos S_pos, abs_sub_comm, ← hS]
      exact mul_le_mul_of_nonneg_left ht S_pos.le
    rw [abs_le] at *
    constructor <;> linarith
  exact ⟨aux _ _ hr, aux _ _ hi⟩

theorem divS (x : Int) : |((x / S : Int) : ℝ) - (x : ℝ) / S| ≤ 1 := by
  have hS : (0 : Int) < S := by decide
  have h1 := Int.emod_nonneg x hS.ne'
  have h2 := Int.emod_lt_of_pos x hS
  have h3 := Int.emod_add_mul_ediv x S
  have e : (x : ℝ) / S = (x / S : Int) + ((x % S : Int) : ℝ) / S := by
    rw [eq_comm, ← sub_eq_zero]
    have : (x : ℝ) = ((x % S : Int) : ℝ) + S * ((x / S : Int) : ℝ) := by exact_mod_cast h3.symm
    rw [this]
    have := S_pos.ne'
    field_simp
    ring
  have h4 : (0 : ℝ) ≤ ((x % S : Int) : ℝ) / S := div_nonneg (by exact_mod_cast h1) S_pos.le
  have h5 : ((x % S : Int) : ℝ) / S ≤ 1 := by
    rw [div_le_one S_pos]
    exact_mod_cast h2.le
  rw [e, abs_le]
  constructor <;> linarith

/-- The product of two approximations. -/
theorem mul_err {a b A B e : ℝ} (ha : |a - S * A| ≤ e) (hb : |b - S * B| ≤ 2) (hA : |A| ≤ 1) (hB : |B| ≤ 1) (he : e ≤ S) :
    |a * b / S - S * (A * B)| ≤ e + 4 := by
  have hS := S_pos
  have e1 : a * b / S - S * (A * B) = (a - S * A) * B + (a / S) * (b - S * B) := by
    field_simp
    ring
  have h1 : |(a - S * A) * B| ≤ e := by
    rw [abs_mul]
    calc |a - S * A| * |B| ≤ |a - S * A| * 1 := mul_le_mul_of_nonneg_left hB (abs_nonneg _)
      _ ≤ e := by linarith
  have h2 : |a / S| ≤ 2 := by
    rw [abs_div, abs_of_pos hS, div_le_iff₀ hS]
    have : |S * A| ≤ (S : ℝ) := by
      rw [abs_mul, abs_of_pos hS]
      nlinarith
    have := abs_sub_abs_le_abs_sub a (S * A)
    linarith
  have h3 : |(a / S) * (b - S * B)| ≤ 4 := by
    rw [abs_mul]
    calc |a / S| * |b - S * B| ≤ 2 * 2 := mul_le_mul h2 hb (abs_nonneg _) (by norm_num)
      _ = 4 := by norm_num
  rw [e1]
  exact le_trans (abs_add_le _ _) (by linarith)

theorem tab_err (n : Nat) (hn : n ≤ 64) :
    |((tab n).1 : ℝ) - S * Real.cos n| ≤ 16 * 8 ^ n ∧ |((tab n).2 : ℝ) - S * Real.sin n| ≤ 16 * 8 ^ n := by
  induction n with
  | zero => simp [tab]
  | succ n ih =>
    have ⟨h1, h2⟩ := ih (by omega)
    have ⟨g1, g2⟩ := one_err
    have hb : (16 : ℝ) * 8 ^ n ≤ S := by
      have : (8 : ℝ) ^ n ≤ 8 ^ 64 := pow_le_pow_right₀ (by norm_num) (by omega)
      have h : (16 : ℝ) * 8 ^ 64 ≤ S := by norm_num [S]
      linarith
    have hp : (1 : ℝ) ≤ 8 ^ n := one_le_pow₀ (by norm_num)
    have c := Real.abs_cos_le_one n
    have s := Real.abs_sin_le_one n
    have c' := Real.abs_cos_le_one 1
    have s' := Real.abs_sin_le_one 1
    have m1 := mul_err h1 g1 c c' hb
    have m2 := mul_err h2 g2 s s' hb
    have m3 := mul_err h2 g1 s c' hb
    have m4 := mul_err h1 g2 c s' hb
    have d1 := divS ((tab n).1 * c1 - (tab n).2 * s1)
    have d2 := divS ((tab n).2 * c1 + (tab n).1 * s1)
    have k1 : Real.cos ((n + 1 : Nat) : ℝ) = Real.cos n * Real.cos 1 - Real.sin n * Real.sin 1 := by
      push_cast; exact Real.cos_add _ _
    have k2 : Real.sin ((n + 1 : Nat) : ℝ) = Real.sin n * Real.cos 1 + Real.cos n * Real.sin 1 := by
      push_cast; exact Real.sin_add _ _
    rw [k1, k2]
    simp only [tab]
    push_cast at d1 d2 ⊢
    rw [sub_div] at d1
    rw [add_div] at d2
    rw [abs_le] at m1 m2 m3 m4 d1 d2
    rw [pow_succ, abs_le, abs_le]
    refine ⟨⟨?_, ?_⟩, ⟨?_, ?_⟩⟩ <;> linarith [m1.1, m1.2, m2.1, m2.2, m3.1, m3.2, m4.1, m4.2, d1.1, d1.2, d2.1, d2.2]

/-- The scaled sines lie well inside the unit intervals that begin at the
entries of the table. -/
theorem tab_check : ∀ i : Fin 65, i.val ≠ 0 →
    (Spec.T i.val).toNat * 128 * S + S ≤ 2 ^ 39 * ((tab i.val).2.natAbs : Int) ∧
      2 ^ 39 * ((tab i.val).2.natAbs : Int) ≤ (Spec.T i.val).toNat * 128 * S + 127 * S := by
  decide +kernel

/-- The entries of the table, with room on both sides. -/
theorem sine_near (i : Nat) (h0 : i ≠ 0) (h : i ≤ 64) :
    ((Spec.T i).toNat : ℝ) + 1 / 256 + 1 / 1024 ≤ 4294967296 * |Real.sin i| ∧
      4294967296 * |Real.sin i| ≤ (Spec.T i).toNat + 1 - 1 / 256 - 1 / 1024 := by
  have ⟨a, b⟩ := tab_check ⟨i, by omega⟩ h0
  have e := (tab_err i h).2
  have hS := S_pos
  have a' : ((Spec.T i).toNat : ℝ) * 128 * S + S ≤ 2 ^ 39 * |((tab i).2 : ℝ)| := by
    have : ((tab i).2.natAbs : Int) = |(tab i).2| := Int.natCast_natAbs _
    rw [this] at a
    exact_mod_cast a
  have b' : 2 ^ 39 * |((tab i).2 : ℝ)| ≤ ((Spec.T i).toNat : ℝ) * 128 * S + 127 * S := by
    have : ((tab i).2.natAbs : Int) = |(tab i).2| := Int.natCast_natAbs _
    rw [this] at b
    exact_mod_cast b
  have hp : (16 : ℝ) * 8 ^ i ≤ S / 2 ^ 59 := by
    have : (8 : ℝ) ^ i ≤ 8 ^ 64 := pow_le_pow_right₀ (by norm_num) h
    have h : (16 : ℝ) * 8 ^ 64 ≤ S / 2 ^ 59 := by norm_num [S]
    linarith
  have e1 : |((tab i).2 : ℝ)| - S * |Real.sin i| ≤ S / 2 ^ 59 := by
    have := abs_sub_abs_le_abs_sub ((tab i).2 : ℝ) (S * Real.sin i)
    rw [abs_mul, abs_of_pos hS] at this
    linarith
  have e2 : S * |Real.sin i| - |((tab i).2 : ℝ)| ≤ S / 2 ^ 59 := by
    have := abs_sub_abs_le_abs_sub (S * Real.sin i) ((tab i).2 : ℝ)
    rw [abs_mul, abs_of_pos hS, abs_sub_comm] at this
    linarith
  constructor
  · refine le_of_mul_le_mul_right ?_ hS
    nlinarith
  · refine le_of_mul_le_mul_right ?_ hS
    nlinarith

/-- The real table. -/
theorem sineT_eq (i : Nat) (h : i ≤ 64) : Spec.sineT i = (Spec.T i).toNat := by
  unfold Spec.sineT
  by_cases h0 : i = 0
  · subst h0
    simp [Spec.T, Spec.rfcTable]
  · have ⟨a, b⟩ := sine_near i h0 h
    rw [Nat.floor_eq_iff (by positivity)]
    constructor <;> linarith

/-- Truncation of a number in the right interval. -/
theorem toUInt_of {x : Rat} {n : Nat} (h1 : (n : Rat) ≤ x) (h2 : x < n + 1) (h3 : n < 2 ^ 32) :
    toUInt 32 (.fin x) = some (n : Int) := by
  have hx : ¬ x < 0 := by
    have : (0 : Rat) ≤ n := by positivity
    linarith
  have hf : x.floor = n := by
    have a : (n : Int) ≤ x.floor := Rat.le_floor_iff.2 (by exact_mod_cast h1)
    have b : x.floor < (n : Int) + 1 := Rat.floor_lt_iff.2 (by exact_mod_cast h2)
    omega
  have ht : trunc x = n := by
    unfold trunc
    rw [if_neg hx, hf]
  have hc : 0 ≤ trunc x ∧ trunc x < 2 ^ 32 := by
    rw [ht]
    exact ⟨by omega, by exact_mod_cast h3⟩
  rw [ht] at hc
  simp only [toUInt, ht, if_pos hc]

/-- The product of the model, for a sine that is off by at most `2^-40`. -/
theorem entry_of {sin : D → D} {i : Nat} {q : Rat} (h : i ≤ 64) (hs : sin (.fin (i : Rat)) = .fin q)
    (hq : |(q : ℝ) - Real.sin i| ≤ 1 / 2 ^ 40) : Table.entry sin i = some (Spec.T i) := by
  have hT : (Spec.T i).toNat < 2 ^ 32 := (Spec.T i).toNat_lt
  have hq1 : |(|q| : Rat) * 4294967296| < (2 : Rat) ^ (33 : Int) := by
    have : |(q : ℝ)| ≤ 1 + 1 / 2 ^ 40 := by
      have h1 := Real.abs_sin_le_one i
      have h2 := abs_sub_abs_le_abs_sub (q : ℝ) (Real.sin i)
      linarith
    have h4 : |q| ≤ (1 + 1 / 2 ^ 40 : Rat) := by
      refine (Rat.cast_le (K := ℝ)).1 ?_
      push_cast
      exact this
    rw [abs_of_nonneg (by positivity)]
    have : (2 : Rat) ^ (33 : Int) = 8589934592 := by norm_num
    rw [this]
    norm_num at h4 ⊢
    linarith
  have hr := Verif.Double.Lemmas.rnd_err_le (F := F64) hq1 (by decide)
  have hu : (2 : Rat) ^ ((33 : Int) - F64.prec) / 2 ≤ 1 / 2 ^ 20 := by
    have : ((33 : Int) - F64.prec) = -20 := by decide
    rw [this]
    norm_num
  set p : Rat := |q| * 4294967296 with hp
  have hr' : |rnd F64 p - p| ≤ 1 / 2 ^ 20 := le_trans hr hu
  -- the product itself
  have hpr : abs ((p : ℝ) - 4294967296 * |Real.sin i|) ≤ 1 / 256 := by
    have e : (p : ℝ) - 4294967296 * |Real.sin i| = 4294967296 * (|(q : ℝ)| - |Real.sin i|) := by
      rw [hp]; push_cast; ring
    rw [e, abs_mul, abs_of_pos (by norm_num)]
    have := abs_abs_sub_abs_le (q : ℝ) (Real.sin i)
    norm_num at hq ⊢
    linarith
  have hrr : |((rnd F64 p : Rat) : ℝ) - p| ≤ 1 / 2 ^ 20 := by
    have := (Rat.cast_le (K := ℝ)).2 hr'
    push_cast at this
    exact this
  have hp0 : 0 ≤ rnd F64 p := by
    have h0 : (0 : Rat) ≤ p := by rw [hp]; positivity
    have := Verif.Double.Lemmas.rnd_mono (F := F64) (by decide) h0
    rwa [Verif.Double.Lemmas.rnd_zero] at this
  have bounds : (((Spec.T i).toNat : Rat) ≤ rnd F64 p) ∧ rnd F64 p < (Spec.T i).toNat + 1 := by
    by_cases h0 : i = 0
    · subst h0
      have ht : (Spec.T 0).toNat = 0 := by decide
      rw [ht]
      refine ⟨by simpa using hp0, ?_⟩
      have : ((rnd F64 p : Rat) : ℝ) < 0 + 1 := by
        simp only [Nat.cast_zero, Real.sin_zero, abs_zero, mul_zero, sub_zero] at hpr
        rw [abs_le] at hpr hrr
        norm_num at hpr hrr
        linarith [hpr.1, hpr.2, hrr.1, hrr.2]
      exact_mod_cast this
    · have ⟨a, b⟩ := sine_near i h0 h
      rw [abs_le] at hpr hrr
      norm_num at hpr hrr a b
      constructor
      · have : ((Spec.T i).toNat : ℝ) ≤ ((rnd F64 p : Rat) : ℝ) := by linarith [hpr.1, hpr.2, hrr.1, hrr.2]
        exact_mod_cast this
      · have : ((rnd F64 p : Rat) : ℝ) < (Spec.T i).toNat + 1 := by linarith [hpr.1, hpr.2, hrr.1, hrr.2]
        exact_mod_cast this
  have hof : ofRat F64 (4294967296 * mag q) = .fin (rnd F64 p) := by
    have e : 4294967296 * mag q = p := by rw [Verif.Double.Lemmas.mag_eq, hp]; ring
    rw [e]
    unfold ofRat
    have hbig : (2 : Rat) ^ (33 : Int) ≤ (2 : Rat) ^ F64.emax := Verif.Double.Lemmas.zpow_le_iff.2 (by decide)
    have h33 : (2 : Rat) ^ (33 : Int) = 8589934592 := by norm_num
    have hTr : ((Spec.T i).toNat : Rat) < 4294967296 := by exact_mod_cast hT
    have b2 := bounds.2
    dsimp only
    rw [if_neg (by rw [not_le]; linarith), if_neg (by rw [not_le]; linarith)]
  unfold Table.entry
  rw [hs]
  simp only [Table.absD, mul]
  rw [hof, toUInt_of bounds.1 bounds.2 hT]
  simp

theorem fill_of {sin : D → D} (h : ∀ i, i ≤ 64 → Table.entry sin i = some (Spec.T i)) (k : Nat) (hk : k ≤ 65) :
    Table.fill sin (65 - k) (Spec.rfcTable.take (65 - k)) = some Spec.rfcTable := by
  induction k with
  | zero =>
    rw [Table.fill, dif_neg (by omega)]
    rfl
  | succ k ih =>
    rw [Table.fill, dif_pos (by omega), h _ (by omega)]
    have e : 65 - (k + 1) + 1 = 65 - k := by omega
    have ht : Spec.rfcTable.take (65 - (k + 1)) ++ [Spec.T (65 - (k + 1))] = Spec.rfcTable.take (65 - k) := by
      have hl : Spec.rfcTable.length = 65 := by decide
      rw [← e, List.take_succ_eq_append_getElem (by omega)]
      congr 2
      unfold Spec.T
      rw [List.getD, List.getElem?_eq_getElem (l := Spec.rfcTable) (i := 65 - (k + 1)) (by omega), Option.getD_some]
    dsimp only
    rw [e, ht]
    exact ih (by omega)

end Verif.Md5.TableLemmas
