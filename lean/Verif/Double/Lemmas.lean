import Verif.Double.Model
import Mathlib.Algebra.Order.Field.Rat
import Mathlib.Algebra.Order.Field.Power
import Mathlib.Tactic.Linarith
import Mathlib.Tactic.NormNum
import Mathlib.Tactic.Positivity
import Mathlib.Tactic.Ring
import Mathlib.Tactic.FieldSimp
/-! # Lemmas: rounding -/
namespace Verif.Double.Lemmas
open Verif.Double

/-- The rational numbers of a format, without a bound for large numbers. -/
def Mem (F : Fmt) (x : Rat) : Prop := ∃ m e : Int, |m| ≤ 2 ^ F.prec ∧ F.emin ≤ e ∧ x = m * (2 : Rat) ^ e

theorem floor_bounds (x : Rat) : (x.floor : Rat) ≤ x ∧ x < (x.floor : Rat) + 1 := by
  refine ⟨Rat.floor_le x, ?_⟩
  have h := Rat.lt_floor_add_one x
  push_cast at h
  exact h

theorem halfEven_cases (x : Rat) :
    (halfEven x = x.floor ∧ x - x.floor ≤ 1 / 2) ∨ (halfEven x = x.floor + 1 ∧ 1 / 2 ≤ x - x.floor) := by
  unfold halfEven
  dsimp only
  split
  · exact Or.inl ⟨rfl, le_of_lt ‹_›⟩
  · split
    · exact Or.inr ⟨rfl, le_of_lt ‹_›⟩
    · have : x - x.floor = 1 / 2 := by linarith
      split
      · exact Or.inl ⟨rfl, le_of_eq this⟩
      · exact Or.inr ⟨rfl, le_of_eq this.symm⟩

theorem halfEven_half (x : Rat) : |(halfEven x : Rat) - x| ≤ 1 / 2 := by
  have ⟨h1, h2⟩ := floor_bounds x
  rw [abs_le]
  rcases halfEven_cases x with ⟨e, h⟩ | ⟨e, h⟩ <;> rw [e] <;> push_cast <;> constructor <;> linarith

/-- No whole number is nearer. -/
theorem halfEven_near (x : Rat) (n : Int) : |(halfEven x : Rat) - x| ≤ |(n : Rat) - x| := by
  have ⟨h1, h2⟩ := floor_bounds x
  rcases le_or_gt n x.floor with hn | hn
  · have hn' : (n : Rat) ≤ x.floor := by exact_mod_cast hn
    have : |(n : Rat) - x| = x - n := by rw [abs_of_nonpos (by linarith)]; ring
    rw [this, abs_le]
    rcases halfEven_cases x with ⟨e, h⟩ | ⟨e, h⟩ <;> rw [e] <;> push_cast <;> constructor <;> linarith
  · have hn' : ((x.floor : Rat) + 1) ≤ n := by exact_mod_cast hn
    have : |(n : Rat) - x| = n - x := by rw [abs_of_nonneg (by linarith)]
    rw [this, abs_le]
    rcases halfEven_cases x with ⟨e, h⟩ | ⟨e, h⟩ <;> rw [e] <;> push_cast <;> constructor <;> linarith

theorem halfEven_int (n : Int) : halfEven (n : Rat) = n := by
  have h := halfEven_near (n : Rat) n
  rw [sub_self, abs_zero, abs_nonpos_iff, sub_eq_zero] at h
  exact_mod_cast h

theorem mag_eq (x : Rat) : mag x = |x| := by
  unfold mag
  split
  · rw [abs_of_neg ‹_›]
  · rw [abs_of_nonneg (by linarith)]

theorem two_zpow_pos (e : Int) : (0 : Rat) < (2 : Rat) ^ e := by positivity

theorem expo_spec {x : Rat} (h : 0 < x) : (2 : Rat) ^ expo x ≤ x ∧ x < (2 : Rat) ^ (expo x + 1) := by
  have hn : 0 < x.num := Rat.num_pos.2 h
  have hN : x.num.natAbs ≠ 0 := by omega
  have hD : x.den ≠ 0 := x.den_nz
  have hx : x = (x.num.natAbs : Rat) / (x.den : Rat) := by
    have h1 := Rat.num_div_den x
    have h2 : ((x.num.natAbs : Int) : Rat) = (x.num : Rat) := by
      rw [Int.natAbs_of_nonneg (le_of_lt hn)]
    rw [← h2] at h1
    rw [← Int.cast_natCast (x.num.natAbs)]
    exact h1.symm
  have n1 : (2 : Rat) ^ (x.num.natAbs.log2 : Int) ≤ (x.num.natAbs : Rat) := by
    rw [zpow_natCast]; exact_mod_cast Nat.log2_self_le hN
  have n2 : (x.num.natAbs : Rat) < (2 : Rat) ^ ((x.num.natAbs.log2 : Int) + 1) := by
    have := Nat.lt_log2_self (n := x.num.natAbs)
    have h3 : ((x.num.natAbs : Nat) : Rat) < ((2 ^ (x.num.natAbs.log2 + 1) : Nat) : Rat) := by exact_mod_cast this
    rw [show ((x.num.natAbs.log2 : Int) + 1) = ((x.num.natAbs.log2 + 1 : Nat) : Int) by push_cast; rfl, zpow_natCast]
    exact_mod_cast h3
  have d1 : (2 : Rat) ^ (x.den.log2 : Int) ≤ (x.den : Rat) := by
    rw [zpow_natCast]; exact_mod_cast Nat.log2_self_le hD
  have d2 : (x.den : Rat) < (2 : Rat) ^ ((x.den.log2 : Int) + 1) := by
    have := Nat.lt_log2_self (n := x.den)
    have h3 : ((x.den : Nat) : Rat) < ((2 ^ (x.den.log2 + 1) : Nat) : Rat) := by exact_mod_cast this
    rw [show ((x.den.log2 : Int) + 1) = ((x.den.log2 + 1 : Nat) : Int) by push_cast; rfl, zpow_natCast]
    exact_mod_cast h3
  have hdp : (0 : Rat) < x.den := by exact_mod_cast Nat.pos_of_ne_zero hD
  have hnp : (0 : Rat) < (x.num.natAbs : Rat) := by exact_mod_cast Nat.pos_of_ne_zero hN
  generalize hA : (x.num.natAbs.log2 : Int) = A at n1 n2
  generalize hB : (x.den.log2 : Int) = B at d1 d2
  have hup : x < (2 : Rat) ^ (A - B + 1) := by
    rw [hx, div_lt_iff₀ hdp]
    have e : (2 : Rat) ^ (A - B + 1) * (2 : Rat) ^ B = (2 : Rat) ^ (A + 1) := by
      rw [← zpow_add₀ (by norm_num)]; congr 1; ring
    have := mul_le_mul_of_nonneg_left d1 (le_of_lt (two_zpow_pos (A - B + 1)))
    linarith
  have hlo : (2 : Rat) ^ (A - B - 1) ≤ x := by
    rw [hx, le_div_iff₀ hdp]
    have e : (2 : Rat) ^ (A - B - 1) * (2 : Rat) ^ (B + 1) = (2 : Rat) ^ A := by
      rw [← zpow_add₀ (by norm_num)]; congr 1; ring
    have := mul_le_mul_of_nonneg_left (le_of_lt d2) (le_of_lt (two_zpow_pos (A - B - 1)))
    linarith
  unfold expo
  simp only [hA, hB]
  split
  · exact ⟨‹_›, hup⟩
  · refine ⟨hlo, ?_⟩
    rw [show A - B - 1 + 1 = A - B by ring]
    exact not_le.1 ‹_›

theorem zpow_lt_iff {a b : Int} : (2 : Rat) ^ a < (2 : Rat) ^ b ↔ a < b := zpow_lt_zpow_iff_right₀ (by norm_num)
theorem zpow_le_iff {a b : Int} : (2 : Rat) ^ a ≤ (2 : Rat) ^ b ↔ a ≤ b := zpow_le_zpow_iff_right₀ (by norm_num)

theorem expo_eq {x : Rat} {e : Int} (h1 : (2 : Rat) ^ e ≤ x) (h2 : x < (2 : Rat) ^ (e + 1)) : expo x = e := by
  have h : 0 < x := lt_of_lt_of_le (two_zpow_pos e) h1
  have ⟨a, b⟩ := expo_spec h
  have c := zpow_lt_iff.1 (lt_of_le_of_lt a h2)
  have d := zpow_lt_iff.1 (lt_of_le_of_lt h1 b)
  omega

theorem ulp_pos (F : Fmt) (x : Rat) : 0 < ulp F x := two_zpow_pos _

/-- Half the distance of neighbours bounds the error. -/
theorem rnd_err (F : Fmt) (x : Rat) : |rnd F x - x| ≤ ulp F x / 2 := by
  have hu := ulp_pos F x
  unfold rnd
  split
  · subst_vars; simp; linarith
  · have h := halfEven_half (x / ulp F x)
    have e : (halfEven (x / ulp F x) : Rat) * ulp F x - x = ((halfEven (x / ulp F x) : Rat) - x / ulp F x) * ulp F x := by
      field_simp
    rw [e, abs_mul, abs_of_pos hu]
    have := mul_le_mul_of_nonneg_right h (le_of_lt hu)
    linarith

/-- A number of the format that is not below `2^E` in size is a multiple of the distance there. -/
theorem mem_grid {F : Fmt} (hp : 1 ≤ F.prec) {z : Rat} (hz : Mem F z) {E : Int} (h : (2 : Rat) ^ E ≤ |z|) :
    ∃ n : Int, z = n * (2 : Rat) ^ (max (E - ((F.prec : Int) - 1)) F.emin) := by
  obtain ⟨m, e, hm, he, rfl⟩ := hz
  have habs : |(m : Rat) * (2 : Rat) ^ e| = ((|m| : Int) : Rat) * (2 : Rat) ^ e := by
    rw [abs_mul, abs_of_pos (two_zpow_pos e)]; push_cast; rfl
  rw [habs] at h
  have key : ∀ g : Int, g ≤ e → ∃ n : Int, (m : Rat) * (2 : Rat) ^ e = n * (2 : Rat) ^ g := by
    intro g hg
    refine ⟨m * 2 ^ (e - g).toNat, ?_⟩
    have e1 : (2 : Rat) ^ e = (2 : Rat) ^ ((e - g).toNat : Int) * (2 : Rat) ^ g := by
      rw [← zpow_add₀ (by norm_num)]; congr 1; omega
    rw [e1, zpow_natCast]
    push_cast
    ring
  by_cases hlt : |m| = 2 ^ F.prec
  · -- m is a power of two up to sign
    have hmm : ∃ s : Int, m = s * 2 ^ F.prec := by
      rcases abs_eq (by positivity : (0 : Int) ≤ 2 ^ F.prec) |>.1 hlt with h | h
      · exact ⟨1, by rw [h]; ring⟩
      · exact ⟨-1, by rw [h]; ring⟩
    obtain ⟨s, hs⟩ := hmm
    rw [hlt] at h
    have hE : E ≤ F.prec + e := by
      have : ((2 ^ F.prec : Int) : Rat) * (2 : Rat) ^ e = (2 : Rat) ^ ((F.prec : Int) + e) := by
        rw [zpow_add₀ (by norm_num), zpow_natCast]; push_cast; rfl
      rw [this] at h
      exact zpow_le_iff.1 h
    have hg : max (E - ((F.prec : Int) - 1)) F.emin ≤ e + 1 := by omega
    refine ⟨s * 2 ^ (F.prec - 1) * 2 ^ (e + 1 - max (E - ((F.prec : Int) - 1)) F.emin).toNat, ?_⟩
    generalize max (E - ((F.prec : Int) - 1)) F.emin = g at hg ⊢
    have e1 : (2 : Rat) ^ (e + 1) = (2 : Rat) ^ ((e + 1 - g).toNat : Int) * (2 : Rat) ^ g := by
      rw [← zpow_add₀ (by norm_num)]; congr 1; omega
    have e2 : (2 : Rat) ^ (e + 1) = (2 : Rat) ^ e * 2 := by rw [zpow_add₀ (by norm_num), zpow_one]
    have e3 : (2 : Rat) ^ F.prec = 2 ^ (F.prec - 1) * 2 := by
      rw [← pow_succ]; congr 1; omega
    rw [zpow_natCast] at e1
    rw [hs]
    push_cast
    rw [e3]
    have : (s : Rat) * 2 ^ (F.prec - 1) * 2 ^ (e + 1 - g).toNat * 2 ^ g = s * 2 ^ (F.prec - 1) * ((2 : Rat) ^ (e + 1)) := by
      rw [e1]; ring
    rw [this, e2]; ring
  · have hlt : |m| < 2 ^ F.prec := lt_of_le_of_ne hm hlt
    have hlt' : ((|m| : Int) : Rat) < (2 : Rat) ^ (F.prec : Int) := by
      rw [zpow_natCast]; exact_mod_cast hlt
    have hE : E < F.prec + e := by
      have : ((|m| : Int) : Rat) * (2 : Rat) ^ e < (2 : Rat) ^ ((F.prec : Int) + e) := by
        rw [zpow_add₀ (by norm_num)]
        exact mul_lt_mul_of_pos_right hlt' (two_zpow_pos e)
      exact zpow_lt_iff.1 (lt_of_le_of_lt h this)
    exact key _ (by omega)

theorem rnd_zero (F : Fmt) : rnd F 0 = 0 := by simp [rnd]

theorem rnd_ne {F : Fmt} {x : Rat} (h : x ≠ 0) : rnd F x = halfEven (x / ulp F x) * ulp F x := by simp [rnd, h]

/-- A multiple of the distance is not nearer. -/
theorem grid_near (F : Fmt) {x : Rat} (hx : x ≠ 0) (n : Int) : |rnd F x - x| ≤ |(n : Rat) * ulp F x - x| := by
  have hu := ulp_pos F x
  rw [rnd_ne hx]
  have h := halfEven_near (x / ulp F x) n
  have e : ∀ k : Int, (k : Rat) * ulp F x - x = ((k : Rat) - x / ulp F x) * ulp F x := by
    intro k; field_simp
  rw [e, e, abs_mul, abs_mul, abs_of_pos hu]
  exact mul_le_mul_of_nonneg_right h (le_of_lt hu)

theorem pow_grid {F : Fmt} {E : Int} (hE : F.emin ≤ E) (hp : 1 ≤ F.prec) :
    ∃ n : Int, (2 : Rat) ^ E = n * (2 : Rat) ^ (max (E - ((F.prec : Int) - 1)) F.emin) := by
  refine ⟨2 ^ (E - max (E - ((F.prec : Int) - 1)) F.emin).toNat, ?_⟩
  push_cast
  rw [← zpow_natCast, ← zpow_add₀ (by norm_num)]
  congr 1
  omega

/-- No number of the format is nearer than the rounded one. -/
theorem rnd_near {F : Fmt} (hp : 1 ≤ F.prec) {z : Rat} (hz : Mem F z) (x : Rat) : |rnd F x - x| ≤ |z - x| := by
  by_cases hx : x = 0
  · subst hx; rw [rnd_zero]; simp
  have hpos : 0 < |x| := abs_pos.2 hx
  have ⟨lo, hi⟩ := expo_spec hpos
  have hulp : ulp F x = (2 : Rat) ^ (max (expo |x| - ((F.prec : Int) - 1)) F.emin) := by rw [ulp, mag_eq]
  by_cases hc : (2 : Rat) ^ expo |x| ≤ |z|
  · obtain ⟨n, hn⟩ := mem_grid hp hz hc
    rw [hn, ← hulp]
    exact grid_near F hx n
  · by_cases hE : F.emin ≤ expo |x|
    · -- ±2^E lies between
      have hc := not_le.1 hc
      obtain ⟨n, hn⟩ := pow_grid hE hp
      rw [← hulp] at hn
      generalize (2 : Rat) ^ expo |x| = P at hn hc lo
      rcases lt_or_gt_of_ne hx with hneg | hpo
      · have ax : |x| = -x := abs_of_neg hneg
        have h := grid_near F hx (-n)
        have e : ((-n : Int) : Rat) * ulp F x = -P := by rw [hn]; push_cast; ring
        rw [e] at h
        refine le_trans h ?_
        have hz1 := neg_abs_le z
        rw [abs_of_nonneg (by linarith), abs_of_nonneg (by linarith)]
        linarith
      · have ax : |x| = x := abs_of_pos hpo
        have h := grid_near F hx n
        rw [← hn] at h
        refine le_trans h ?_
        have hz1 := le_abs_self z
        rw [abs_of_nonpos (by linarith), abs_of_nonpos (by linarith)]
        linarith
    · -- below the smallest number every number of the format is a multiple
      have hg : max (expo |x| - ((F.prec : Int) - 1)) F.emin = F.emin := by omega
      rw [hg] at hulp
      obtain ⟨m, e, hm, he, rfl⟩ := hz
      have e1 : (2 : Rat) ^ e = (2 : Rat) ^ ((e - F.emin).toNat : Int) * (2 : Rat) ^ F.emin := by
        rw [← zpow_add₀ (by norm_num)]; congr 1; omega
      have := grid_near F hx (m * 2 ^ (e - F.emin).toNat)
      have e2 : ((m * 2 ^ (e - F.emin).toNat : Int) : Rat) * ulp F x = m * (2 : Rat) ^ e := by
        rw [e1, hulp, zpow_natCast]; push_cast; ring
      rwa [e2] at this

/-- A number of the format stays. -/
theorem rnd_of_mem {F : Fmt} (hp : 1 ≤ F.prec) {x : Rat} (h : Mem F x) : rnd F x = x := by
  have := rnd_near hp h x
  rw [sub_self, abs_zero, abs_nonpos_iff, sub_eq_zero] at this
  exact this

/-- Rounding gives a number of the format. -/
theorem rnd_mem {F : Fmt} (x : Rat) : Mem F (rnd F x) := by
  by_cases hx : x = 0
  · subst hx; rw [rnd_zero]; exact ⟨0, F.emin, by simp, le_refl _, by simp⟩
  have hpos : 0 < |x| := abs_pos.2 hx
  have ⟨lo, hi⟩ := expo_spec hpos
  rw [rnd_ne hx]
  refine ⟨halfEven (x / ulp F x), _, ?_, le_max_right _ _, by rw [ulp]⟩
  have hulp : ulp F x = (2 : Rat) ^ (max (expo |x| - ((F.prec : Int) - 1)) F.emin) := by rw [ulp, mag_eq]
  have hu := ulp_pos F x
  -- |x| / ulp < 2 ^ prec
  have hb : |x / ulp F x| ≤ (2 : Rat) ^ F.prec := by
    rw [abs_div, abs_of_pos hu, div_le_iff₀ hu]
    refine le_trans (le_of_lt hi) ?_
    rw [hulp, ← zpow_natCast, ← zpow_add₀ (by norm_num)]
    exact zpow_le_iff.2 (by omega)
  -- rounding does not leave the range, as its ends are whole numbers
  have key : ∀ y : Rat, ∀ k : Int, |y| ≤ k → |halfEven y| ≤ k := by
    intro y k hk
    rw [abs_le] at hk
    have ⟨f1, f2⟩ := floor_bounds y
    have a1 : -k ≤ y.floor := Rat.le_floor_iff.2 (by push_cast; exact hk.1)
    have a2 : (y.floor : Rat) ≤ k := le_trans f1 hk.2
    have a2 : y.floor ≤ k := by exact_mod_cast a2
    rw [abs_le]
    rcases halfEven_cases y with ⟨e, h⟩ | ⟨e, h⟩
    · rw [e]; exact ⟨a1, a2⟩
    · rw [e]
      refine ⟨by omega, ?_⟩
      by_contra hcon
      have : y.floor = k := by omega
      rw [this] at h
      linarith [hk.2]
  have := key (x / ulp F x) (2 ^ F.prec) (by push_cast; exact hb)
  exact this

/-- Rounding keeps the order. -/
theorem rnd_mono {F : Fmt} (hp : 1 ≤ F.prec) {x y : Rat} (h : x ≤ y) : rnd F x ≤ rnd F y := by
  by_contra hcon
  have hcon := not_le.1 hcon
  have h1 := rnd_near hp (rnd_mem y) x
  have h2 := rnd_near hp (rnd_mem x) y
  have hxc : (rnd F x + rnd F y) / 2 ≤ x := by
    by_contra hc
    have hc := not_le.1 hc
    rw [abs_of_nonneg (show 0 ≤ rnd F x - x by linarith), le_abs] at h1
    rcases h1 with h1 | h1 <;> linarith
  have hyc : y ≤ (rnd F x + rnd F y) / 2 := by
    by_contra hc
    have hc := not_le.1 hc
    rw [abs_of_nonpos (show rnd F y - y ≤ 0 by linarith), le_abs] at h2
    rcases h2 with h2 | h2 <;> linarith
  have : x = y := le_antisymm h (by linarith)
  rw [this] at hcon
  exact lt_irrefl _ hcon

/-- Whole numbers of up to `prec` digits are in the format. -/
theorem mem_int {F : Fmt} (h0 : F.emin ≤ 0) (n : Int) (hn : |n| ≤ 2 ^ F.prec) : Mem F n := ⟨n, 0, hn, h0, by simp⟩

theorem mem_neg {F : Fmt} {x : Rat} (h : Mem F x) : Mem F (-x) := by
  obtain ⟨m, e, a, b, rfl⟩ := h
  exact ⟨-m, e, by rwa [abs_neg], b, by push_cast; ring⟩

theorem mem_pow {F : Fmt} {E : Int} (h : F.emin ≤ E) : Mem F ((2 : Rat) ^ E) :=
  ⟨1, E, by rw [abs_one]; exact one_le_pow₀ (by norm_num), h, by simp⟩

/-- Up to `2^E` the distance of neighbours is at most `2^(E - prec)`. -/
theorem ulp_le {F : Fmt} {x : Rat} {E : Int} (h : |x| < (2 : Rat) ^ E) (he : F.emin ≤ E - F.prec) : ulp F x ≤ (2 : Rat) ^ (E - F.prec) ∨ x = 0 := by
  by_cases hx : x = 0
  · exact Or.inr hx
  left
  have hpos : 0 < |x| := abs_pos.2 hx
  have ⟨lo, hi⟩ := expo_spec hpos
  rw [ulp, mag_eq]
  apply zpow_le_iff.2
  have := zpow_lt_iff.1 (lt_of_le_of_lt lo h)
  omega

/-- The error of rounding a number below `2^E`. -/
theorem rnd_err_le {F : Fmt} {x : Rat} {E : Int} (h : |x| < (2 : Rat) ^ E) (he : F.emin ≤ E - F.prec) :
    |rnd F x - x| ≤ (2 : Rat) ^ (E - F.prec) / 2 := by
  rcases ulp_le h he with h1 | h1
  · have := rnd_err F x; linarith
  · subst h1; rw [rnd_zero]; simp; positivity

theorem halfEven_neg (x : Rat) : halfEven (-x) = -halfEven x := by
  have ⟨a1, a2⟩ := floor_bounds x
  have ⟨b1, b2⟩ := floor_bounds (-x)
  by_cases hint : (x.floor : Rat) = x
  · have e : (-x : Rat) = ((-x.floor : Int) : Rat) := by push_cast; linarith
    rw [e, halfEven_int]
    have e2 : halfEven x = x.floor := by
      have := halfEven_int x.floor
      rwa [hint] at this
    rw [e2]
  · have hlt : (x.floor : Rat) < x := lt_of_le_of_ne a1 hint
    have e : (-x).floor = -x.floor - 1 := by
      have c1 : ((-x).floor : Rat) < ((-x.floor : Int) : Rat) := by push_cast; linarith
      have c2 : ((-x.floor - 1 : Int) : Rat) < ((-x).floor + 1 : Int) := by push_cast; linarith
      have c1 : (-x).floor < -x.floor := by exact_mod_cast c1
      have c2 : -x.floor - 1 < (-x).floor + 1 := by exact_mod_cast c2
      omega
    unfold halfEven
    dsimp only
    rw [e]
    have hd : -x - ((-x.floor - 1 : Int) : Rat) = 1 - (x - x.floor) := by push_cast; ring
    rw [hd]
    generalize x - (x.floor : Rat) = d
    rcases lt_trichotomy d (1 / 2) with h | h | h
    · rw [if_neg (by linarith), if_pos (by linarith), if_pos h]; ring
    · subst h
      norm_num
      split <;> split <;> omega
    · rw [if_pos (by linarith), if_neg (by linarith), if_pos h]; ring

theorem ulp_neg (F : Fmt) (x : Rat) : ulp F (-x) = ulp F x := by rw [ulp, ulp, mag_eq, mag_eq, abs_neg]

theorem rnd_neg (F : Fmt) (x : Rat) : rnd F (-x) = -rnd F x := by
  by_cases hx : x = 0
  · subst hx; simp [rnd]
  rw [rnd_ne hx, rnd_ne (neg_ne_zero.2 hx), ulp_neg, neg_div, halfEven_neg]
  push_cast
  ring

theorem rnd_nonneg {F : Fmt} (hp : 1 ≤ F.prec) {x : Rat} (h : 0 ≤ x) : 0 ≤ rnd F x := by
  have := rnd_mono hp h
  rwa [rnd_zero] at this

theorem rnd_nonpos {F : Fmt} (hp : 1 ≤ F.prec) {x : Rat} (h : x ≤ 0) : rnd F x ≤ 0 := by
  have := rnd_mono hp h
  rwa [rnd_zero] at this

theorem rnd_le {F : Fmt} (hp : 1 ≤ F.prec) {x z : Rat} (hz : Mem F z) (h : x ≤ z) : rnd F x ≤ z := by
  have := rnd_mono hp h
  rwa [rnd_of_mem hp hz] at this

theorem le_rnd {F : Fmt} (hp : 1 ≤ F.prec) {x z : Rat} (hz : Mem F z) (h : z ≤ x) : z ≤ rnd F x := by
  have := rnd_mono hp h
  rwa [rnd_of_mem hp hz] at this

theorem ofRat_fin {F : Fmt} {x : Rat} (h : |rnd F x| < (2 : Rat) ^ F.emax) : ofRat F x = .fin (rnd F x) := by
  rw [abs_lt] at h
  unfold ofRat
  dsimp only
  rw [if_neg (by linarith), if_neg (by linarith)]

theorem ofRat_of_le {F : Fmt} (hp : 1 ≤ F.prec) {x z : Rat} (hz : Mem F z) (hzb : z < (2 : Rat) ^ F.emax) (h : |x| ≤ z) : ofRat F x = .fin (rnd F x) := by
  apply ofRat_fin
  rw [abs_le] at h
  have h1 := rnd_le hp hz h.2
  have h2 := le_rnd (x := x) hp (mem_neg hz) h.1
  rw [abs_lt]
  constructor <;> linarith

end Verif.Double.Lemmas
