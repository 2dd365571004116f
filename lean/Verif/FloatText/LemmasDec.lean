import Verif.Double.Lemmas
import Verif.FloatText.Model
/-! Lemmas about rounding to decimal digits. -/
namespace Verif.FloatText.Lemmas
open Verif.Double Verif.Double.Lemmas Verif.FloatText

theorem dlen_pos (n : Nat) : 1 ≤ dlen n := by unfold dlen; split <;> omega

theorem dlen_spec (n : Nat) (h : 1 ≤ n) : 10 ^ (dlen n - 1) ≤ n ∧ n < 10 ^ dlen n := by
  induction n using Nat.strongRecOn with
  | ind n ih =>
    rw [dlen]
    split
    · simp; omega
    · rename_i hn
      obtain ⟨h1, h2⟩ := ih (n / 10) (by omega) (by omega)
      have h3 := dlen_pos (n / 10)
      obtain ⟨k, hk⟩ : ∃ k, dlen (n / 10) = k + 1 := ⟨dlen (n / 10) - 1, by omega⟩
      rw [hk] at h1 h2 ⊢
      simp only [Nat.add_sub_cancel] at h1 ⊢
      rw [pow_succ] at h2 ⊢
      rw [pow_succ]
      omega

theorem ten_pos (e : Int) : (0 : Rat) < (10 : Rat) ^ e := by positivity
theorem ten_lt_iff {a b : Int} : (10 : Rat) ^ a < (10 : Rat) ^ b ↔ a < b := zpow_lt_zpow_iff_right₀ (by norm_num)
theorem ten_le_iff {a b : Int} : (10 : Rat) ^ a ≤ (10 : Rat) ^ b ↔ a ≤ b := zpow_le_zpow_iff_right₀ (by norm_num)
theorem ten_add (a b : Int) : (10 : Rat) ^ (a + b) = (10 : Rat) ^ a * (10 : Rat) ^ b := zpow_add₀ (by norm_num) a b
theorem ten_sub (a b : Int) : (10 : Rat) ^ (a - b) = (10 : Rat) ^ a / (10 : Rat) ^ b := zpow_sub₀ (by norm_num) a b
theorem ten_nat (n : Nat) : (10 : Rat) ^ (n : Int) = ((10 ^ n : Nat) : Rat) := by rw [zpow_natCast]; push_cast; rfl
theorem ten_one : (10 : Rat) ^ (1 : Int) = 10 := by norm_num

theorem tenExpo_spec {x : Rat} (h : 0 < x) : (10 : Rat) ^ tenExpo x ≤ x ∧ x < (10 : Rat) ^ (tenExpo x + 1) := by
  have hn : 0 < x.num := Rat.num_pos.2 h
  have hN : 1 ≤ x.num.natAbs := by omega
  have hD : 1 ≤ x.den := x.den_pos
  obtain ⟨a1, a2⟩ := dlen_spec _ hN
  obtain ⟨b1, b2⟩ := dlen_spec _ hD
  have pn := dlen_pos x.num.natAbs
  have pd := dlen_pos x.den
  have hx : x = (x.num.natAbs : Rat) / (x.den : Rat) := by
    conv_lhs => rw [← Rat.num_div_den x]
    congr 1
    rw [← Int.cast_natCast, Int.natAbs_of_nonneg hn.le]
  have hDp : (0 : Rat) < (x.den : Rat) := by exact_mod_cast x.den_pos
  unfold tenExpo
  dsimp only
  generalize dlen x.num.natAbs = n at *
  generalize dlen x.den = d at *
  generalize x.num.natAbs = N at *
  generalize x.den = M at *
  have a1' : (10 : Rat) ^ ((n : Int) - 1) ≤ N := by
    have : ((n : Int) - 1) = ((n - 1 : Nat) : Int) := by omega
    rw [this, ten_nat]; exact_mod_cast a1
  have a2' : (N : Rat) < (10 : Rat) ^ (n : Int) := by rw [ten_nat]; exact_mod_cast a2
  have b1' : (10 : Rat) ^ ((d : Int) - 1) ≤ M := by
    have : ((d : Int) - 1) = ((d - 1 : Nat) : Int) := by omega
    rw [this, ten_nat]; exact_mod_cast b1
  have b2' : (M : Rat) < (10 : Rat) ^ (d : Int) := by rw [ten_nat]; exact_mod_cast b2
  have low : (10 : Rat) ^ ((n : Int) - d - 1) ≤ x := by
    rw [hx, le_div_iff₀ hDp]
    calc (10 : Rat) ^ ((n : Int) - d - 1) * M ≤ (10 : Rat) ^ ((n : Int) - d - 1) * (10 : Rat) ^ (d : Int) := by
          exact mul_le_mul_of_nonneg_left b2'.le (ten_pos _).le
      _ = (10 : Rat) ^ ((n : Int) - 1) := by rw [← ten_add]; congr 1; ring
      _ ≤ N := a1'
  have high : x < (10 : Rat) ^ ((n : Int) - d + 1) := by
    rw [hx, div_lt_iff₀ hDp]
    calc (N : Rat) < (10 : Rat) ^ (n : Int) := a2'
      _ = (10 : Rat) ^ ((n : Int) - d + 1) * (10 : Rat) ^ ((d : Int) - 1) := by rw [← ten_add]; congr 1; ring
      _ ≤ (10 : Rat) ^ ((n : Int) - d + 1) * M := mul_le_mul_of_nonneg_left b1' (ten_pos _).le
  split
  · exact ⟨‹_›, high⟩
  · refine ⟨low, ?_⟩
    rw [sub_add_cancel]
    exact not_le.1 ‹_›

theorem tenExpo_eq {x : Rat} {e : Int} (h1 : (10 : Rat) ^ e ≤ x) (h2 : x < (10 : Rat) ^ (e + 1)) : tenExpo x = e := by
  have h : 0 < x := lt_of_lt_of_le (ten_pos e) h1
  have ⟨a, b⟩ := tenExpo_spec h
  have c := ten_lt_iff.1 (lt_of_le_of_lt a h2)
  have d := ten_lt_iff.1 (lt_of_le_of_lt h1 b)
  omega

theorem halfEven_eq {x : Rat} {n : Int} (h : |x - n| < 1 / 2) : halfEven x = n := by
  have h1 := halfEven_half x
  have h2 : |(halfEven x : Rat) - n| < 1 := by
    calc |(halfEven x : Rat) - n| ≤ |(halfEven x : Rat) - x| + |x - n| := abs_sub_le _ _ _
      _ < 1 := by linarith
  have h3 : |halfEven x - n| < 1 := by exact_mod_cast h2
  rw [Int.abs_lt_one_iff] at h3
  omega

theorem halfEven_mono {x y : Rat} (h : x ≤ y) : halfEven x ≤ halfEven y := by
  by_contra hc
  have hc := not_le.1 hc
  have h1 := halfEven_near x (halfEven y)
  have h2 := halfEven_near y (halfEven x)
  have hc' : (halfEven y : Rat) < halfEven x := by exact_mod_cast hc
  rcases h.eq_or_lt with h | h
  · rw [h] at hc; exact lt_irrefl _ hc
  rw [abs_le] at h1 h2
  have e1 := halfEven_half x
  have e2 := halfEven_half y
  rw [abs_le] at e1 e2
  have : (halfEven y : Rat) + 1 ≤ halfEven x := by exact_mod_cast hc
  linarith [e1.2, e2.1]

/-- What the rounding to `P` digits makes of a number. -/
def sciVal (P : Nat) (a : Rat) : Rat := (sci P a).1 * (10 : Rat) ^ ((sci P a).2 - ((P : Int) - 1))

/-- The unit of the last digit. -/
def unit (P : Nat) (a : Rat) : Rat := (10 : Rat) ^ (tenExpo a - ((P : Int) - 1))

theorem unit_pos (P : Nat) (a : Rat) : 0 < unit P a := ten_pos _

theorem ten_P {P : Nat} (hP : 1 ≤ P) (X : Int) : (10 : Rat) ^ X = ((10 ^ (P - 1) : Nat) : Rat) * (10 : Rat) ^ (X - ((P : Int) - 1)) := by
  rw [← ten_nat, ← ten_add]
  congr 1
  omega

theorem ten_P' {P : Nat} (_hP : 1 ≤ P) (X : Int) : (10 : Rat) ^ (X + 1) = ((10 ^ P : Nat) : Rat) * (10 : Rat) ^ (X - ((P : Int) - 1)) := by
  rw [← ten_nat, ← ten_add]
  congr 1
  omega

theorem raw_bounds {P : Nat} (hP : 1 ≤ P) {a : Rat} (h : 0 < a) :
    (10 ^ (P - 1) : Int) ≤ halfEven (a / unit P a) ∧ halfEven (a / unit P a) ≤ (10 ^ P : Int) := by
  obtain ⟨h1, h2⟩ := tenExpo_spec h
  have hu := unit_pos P a
  rw [ten_P hP] at h1
  rw [ten_P' hP] at h2
  change _ * unit P a ≤ a at h1
  change _ < _ * unit P a at h2
  constructor
  · have := halfEven_mono ((le_div_iff₀ hu).2 h1)
    rw [show (((10 ^ (P - 1) : Nat) : Rat)) = (((10 ^ (P - 1) : Int)) : Rat) by push_cast; rfl, halfEven_int] at this
    exact this
  · have := halfEven_mono ((div_lt_iff₀ hu).2 h2).le
    rw [show (((10 ^ P : Nat) : Rat)) = (((10 ^ P : Int)) : Rat) by push_cast; rfl, halfEven_int] at this
    exact this

theorem sci_spec {P : Nat} (hP : 1 ≤ P) {a : Rat} (h : 0 < a) :
    10 ^ (P - 1) ≤ (sci P a).1 ∧ (sci P a).1 < 10 ^ P ∧ sciVal P a = halfEven (a / unit P a) * unit P a ∧
      tenExpo a ≤ (sci P a).2 ∧ (sci P a).2 ≤ tenExpo a + 1 := by
  obtain ⟨h1, h2⟩ := raw_bounds hP h
  have h0 : (0 : Int) < 10 ^ (P - 1) := by positivity
  have hnat : ((halfEven (a / unit P a)).toNat : Int) = halfEven (a / unit P a) := Int.toNat_of_nonneg (by omega)
  have hpp : 10 ^ (P - 1) < 10 ^ P := Nat.pow_lt_pow_right (by norm_num) (by omega)
  unfold sciVal sci
  dsimp only
  rw [← unit]
  split
  · rename_i hm
    refine ⟨le_refl _, hpp, ?_, by omega, by omega⟩
    dsimp only
    have hv : halfEven (a / unit P a) = ((10 ^ P : Nat) : Int) := by rw [← hnat, hm]
    rw [hv, unit, ← ten_P hP, ten_P' hP]
    push_cast
    rfl
  · rename_i hm
    refine ⟨by zify; rw [hnat]; exact h1, lt_of_le_of_ne (by zify; rw [hnat]; exact h2) hm, ?_, by omega, by omega⟩
    dsimp only
    rw [← unit]
    congr 1
    have : ((halfEven (a / unit P a)).toNat : Rat) = (((halfEven (a / unit P a)).toNat : Int) : Rat) := by push_cast; rfl
    rw [this, hnat]

theorem sciVal_pos {P : Nat} (hP : 1 ≤ P) {a : Rat} (h : 0 < a) : 0 < sciVal P a := by
  have h1 := (sci_spec hP h).1
  have : 0 < (sci P a).1 := lt_of_lt_of_le (by positivity) h1
  unfold sciVal
  have := ten_pos ((sci P a).2 - ((P : Int) - 1))
  positivity

/-- The rounding moves a number by at most half a unit of its last digit. -/
theorem sciVal_err {P : Nat} (hP : 1 ≤ P) {a : Rat} (h : 0 < a) : |sciVal P a - a| ≤ unit P a / 2 := by
  rw [(sci_spec hP h).2.2.1]
  have hu := unit_pos P a
  have h1 := halfEven_half (a / unit P a)
  have : (halfEven (a / unit P a) : Rat) * unit P a - a = ((halfEven (a / unit P a) : Rat) - a / unit P a) * unit P a := by
    rw [sub_mul, div_mul_cancel₀ _ hu.ne']
  rw [this, abs_mul, abs_of_pos hu]
  linarith [mul_le_mul_of_nonneg_right h1 hu.le]

theorem unit_le {P : Nat} (hP : 1 ≤ P) {a : Rat} (h : 0 < a) : unit P a * (10 ^ (P - 1) : Nat) ≤ a := by
  have h1 := (tenExpo_spec h).1
  rw [ten_P hP] at h1
  rw [mul_comm]
  exact h1

/-- No decimal of at most `P` digits is nearer. -/
theorem sciVal_near {P : Nat} (hP : 1 ≤ P) {a : Rat} (h : 0 < a) {m k : Int} (hm : |m| < 10 ^ P) :
    |sciVal P a - a| ≤ |(m : Rat) * (10 : Rat) ^ k - a| := by
  have hu := unit_pos P a
  obtain ⟨ha1, ha2⟩ := tenExpo_spec h
  rw [(sci_spec hP h).2.2.1]
  -- a multiple of the unit is not nearer
  have grid : ∀ n : Int, |(halfEven (a / unit P a) : Rat) * unit P a - a| ≤ |(n : Rat) * unit P a - a| := by
    intro n
    have h1 := halfEven_near (a / unit P a) n
    have e : ∀ z : Rat, z * unit P a - a = (z - a / unit P a) * unit P a := by
      intro z; rw [sub_mul, div_mul_cancel₀ _ hu.ne']
    rw [e, e, abs_mul, abs_mul]
    exact mul_le_mul_of_nonneg_right h1 (abs_nonneg _)
  by_cases hq : (10 : Rat) ^ tenExpo a ≤ (m : Rat) * (10 : Rat) ^ k
  · have hk : tenExpo a - ((P : Int) - 1) ≤ k := by
      by_contra hc
      have hc : k ≤ tenExpo a - P := by omega
      have h1 : (m : Rat) < ((10 ^ P : Nat) : Rat) := by
        have := lt_of_abs_lt hm
        exact_mod_cast this
      have h2 : (m : Rat) * (10 : Rat) ^ k < ((10 ^ P : Nat) : Rat) * (10 : Rat) ^ k := mul_lt_mul_of_pos_right h1 (ten_pos k)
      rw [← ten_nat, ← ten_add] at h2
      have := ten_lt_iff.1 (lt_of_le_of_lt hq h2)
      omega
    obtain ⟨j, hj⟩ : ∃ j : Nat, k = (j : Int) + (tenExpo a - ((P : Int) - 1)) := ⟨(k - (tenExpo a - ((P : Int) - 1))).toNat, by omega⟩
    have : (m : Rat) * (10 : Rat) ^ k = ((m * 10 ^ j : Int) : Rat) * unit P a := by
      rw [hj, ten_add, ten_nat, unit]; push_cast; ring
    rw [this]
    exact grid _
  · have hq := not_le.1 hq
    have h1 := grid (10 ^ (P - 1))
    have h2 : (((10 ^ (P - 1) : Int)) : Rat) * unit P a = (10 : Rat) ^ tenExpo a := by rw [ten_P hP, unit]; push_cast; rfl
    rw [h2] at h1
    refine h1.trans ?_
    rw [abs_sub_comm, abs_of_nonneg (by linarith), abs_sub_comm, abs_of_nonneg (by linarith)]
    linarith

/-- A number that is close to a decimal of `P` digits is rounded to it. -/
theorem sci_stable {P p : Nat} (hP : 1 ≤ P) (hP' : 10 ^ P < 2 ^ p) {m : Nat} {X : Int} (h1 : 10 ^ (P - 1) ≤ m) (h2 : m < 10 ^ P) {a : Rat}
    (ha : |a - (m : Rat) * (10 : Rat) ^ (X - ((P : Int) - 1))| * 2 ^ (p + 1) ≤ (m : Rat) * (10 : Rat) ^ (X - ((P : Int) - 1))) :
    sci P a = (m, X) := by
  have hu := ten_pos (X - ((P : Int) - 1))
  have e1 := ten_P hP X
  have e2 := ten_P' hP X
  have e0 : (10 : Rat) ^ (X - 1 - ((P : Int) - 1)) = (10 : Rat) ^ (X - ((P : Int) - 1)) / 10 := by
    rw [show X - 1 - ((P : Int) - 1) = X - ((P : Int) - 1) - 1 by ring, ten_sub, ten_one]
  have hpm : 10 ^ (P - 1) * 10 = 10 ^ P := by rw [← pow_succ]; congr 1; omega
  generalize hU : (10 : Rat) ^ (X - ((P : Int) - 1)) = u at *
  have hm0 : (0 : Rat) < m := by
    have : 0 < m := lt_of_lt_of_le (by positivity) h1
    exact_mod_cast this
  have hmP : (m : Rat) + 1 ≤ ((10 ^ P : Nat) : Rat) := by exact_mod_cast h2
  have hmP1 : ((10 ^ (P - 1) : Nat) : Rat) ≤ m := by exact_mod_cast h1
  have hP52 : ((10 ^ P : Nat) : Rat) < 2 ^ p := by exact_mod_cast hP'
  have hpr : ((10 ^ (P - 1) : Nat) : Rat) * 10 = ((10 ^ P : Nat) : Rat) := by exact_mod_cast hpm
  generalize ((10 ^ P : Nat) : Rat) = T at *
  generalize hS : ((10 ^ (P - 1) : Nat) : Rat) = S at *
  -- the error is less than a twentieth of a unit when the first digit is small
  have herr : |a - m * u| ≤ m * u / 2 ^ (p + 1) := by rw [le_div_iff₀ (by norm_num)]; exact ha
  have herr2 : |a - m * u| < u / 2 := by
    refine lt_of_le_of_lt herr ?_
    rw [div_lt_iff₀ (by norm_num)]
    have : (m : Rat) < 2 ^ p := by linarith
    rw [pow_succ]
    have := mul_lt_mul_of_pos_right this hu
    linarith
  rw [abs_lt] at herr2
  have hTu : T * u = m * u + (T - m) * u := by ring
  have hupper : a < (10 : Rat) ^ (X + 1) := by
    rw [e2]
    have : u ≤ (T - m) * u := by nlinarith
    linarith [herr2.2]
  by_cases hlow : (10 : Rat) ^ X ≤ a
  · have hX := tenExpo_eq hlow hupper
    unfold sci
    dsimp only
    rw [hX, hU]
    have : halfEven (a / u) = (m : Int) := by
      apply halfEven_eq
      have : a / u - ((m : Int) : Rat) = (a - m * u) / u := by
        rw [sub_div, mul_div_cancel_right₀ _ hu.ne']; push_cast; rfl
      rw [this, abs_div, abs_of_pos hu, div_lt_iff₀ hu, abs_lt]
      constructor <;> linarith [herr2.1, herr2.2]
    rw [this, Int.toNat_natCast, if_neg (by omega)]
  · have hlow := not_le.1 hlow
    rw [e1] at hlow
    -- then the decimal is a power of ten
    have hmS : (m : Rat) = S := by
      have h3 : (m : Rat) * u < (S + 1) * u := by linarith [herr2.1]
      have h4 := lt_of_mul_lt_mul_right h3 hu.le
      have h5 : m < 10 ^ (P - 1) + 1 := by
        have : (m : Rat) < ((10 ^ (P - 1) + 1 : Nat) : Rat) := by push_cast; push_cast at hS; rw [hS]; exact h4
        exact_mod_cast this
      have h6 : m = 10 ^ (P - 1) := by omega
      rw [← hS, h6]
    have hmN : m = 10 ^ (P - 1) := by
      rw [← hS] at hmS
      exact_mod_cast hmS
    have herr3 : |a - m * u| < u / 20 := by
      refine lt_of_le_of_lt herr ?_
      rw [div_lt_iff₀ (by norm_num)]
      have : (m : Rat) * 10 < 2 ^ p := by rw [hmS, hpr]; exact hP52
      rw [pow_succ]
      have := mul_lt_mul_of_pos_right this hu
      linarith
    rw [abs_lt] at herr3
    have hX : tenExpo a = X - 1 := by
      apply tenExpo_eq
      · have : (10 : Rat) ^ (X - 1) = S * u / 10 := by rw [ten_sub, ten_one, e1]
        rw [this]
        have hS1 : (1 : Rat) ≤ S := by rw [← hS]; exact_mod_cast Nat.one_le_pow _ _ (by norm_num)
        have : S * u / 10 + u / 20 ≤ S * u := by nlinarith
        rw [hmS] at herr3
        linarith [herr3.1]
      · rw [sub_add_cancel, e1]; exact hlow
    unfold sci
    dsimp only
    rw [hX, e0]
    have : halfEven (a / (u / 10)) = ((10 ^ P : Nat) : Int) := by
      apply halfEven_eq
      have hcast : (((10 ^ P : Nat) : Int) : Rat) = S * 10 := by rw [← hS, ← hpm]; push_cast; rfl
      have : a / (u / 10) - (((10 ^ P : Nat) : Int) : Rat) = (a - m * u) / (u / 10) := by
        rw [hcast, hmS]; field_simp
      rw [this, abs_div, abs_of_pos (by linarith : (0 : Rat) < u / 10), div_lt_iff₀ (by linarith), abs_lt]
      constructor <;> linarith [herr3.1, herr3.2]
    rw [this, Int.toNat_natCast, if_pos rfl, hmN]
    simp

/-- A decimal of at most `P` digits, with exactly `P` digits. -/
theorem dec_norm {P : Nat} (hP : 1 ≤ P) {m k : Int} (h0 : 0 < m) (hm : m < 10 ^ P) :
    ∃ (n : Nat) (X : Int), 10 ^ (P - 1) ≤ n ∧ n < 10 ^ P ∧ (m : Rat) * (10 : Rat) ^ k = n * (10 : Rat) ^ (X - ((P : Int) - 1)) := by
  obtain ⟨a1, a2⟩ := dlen_spec m.toNat (by omega)
  have hd := dlen_pos m.toNat
  have hle : dlen m.toNat ≤ P := by
    by_contra hc
    have : 10 ^ P ≤ 10 ^ (dlen m.toNat - 1) := Nat.pow_le_pow_right (by norm_num) (by omega)
    have h3 : (10 ^ P : Nat) ≤ m.toNat := this.trans a1
    zify at h3
    rw [Int.toNat_of_nonneg h0.le] at h3
    omega
  refine ⟨m.toNat * 10 ^ (P - dlen m.toNat), k - ((P : Int) - dlen m.toNat) + ((P : Int) - 1), ?_, ?_, ?_⟩
  · calc 10 ^ (P - 1) = 10 ^ (dlen m.toNat - 1) * 10 ^ (P - dlen m.toNat) := by rw [← pow_add]; congr 1; omega
      _ ≤ _ := Nat.mul_le_mul_right _ a1
  · calc m.toNat * 10 ^ (P - dlen m.toNat) < 10 ^ dlen m.toNat * 10 ^ (P - dlen m.toNat) := Nat.mul_lt_mul_of_pos_right a2 (by positivity)
      _ = 10 ^ P := by rw [← pow_add]; congr 1; omega
  · have e1 : (m : Rat) = (m.toNat : Rat) := by
      rw [← Int.cast_natCast, Int.toNat_of_nonneg h0.le]
    rw [add_sub_cancel_right, show ((P : Int) - dlen m.toNat) = ((P - dlen m.toNat : Nat) : Int) by omega, ten_sub, ten_nat, e1]
    push_cast
    field_simp

end Verif.FloatText.Lemmas
