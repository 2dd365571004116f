import Verif.Md5.Props
import Verif.Md5.TableLemmas
/-!
# The sine table of MD5 (C19)

`md5sum::calc` fills its table with the floating point sine of the C library.
Proved for every sine function that is off the real sine by at most `2^-40`
(that of a C library is off by less than `2^-51`).
-/
namespace Verif.Md5.Props
open Verif.Double

/-- **C19, the table.** The table printed in RFC 1321 is what its text says:
the integer part of `2^32 |sin i|`, with the sine of the real numbers. -/
theorem table_is_sine (i : Nat) (h : i ≤ 64) : (Spec.T i).toNat = ⌊4294967296 * |Real.sin i|⌋₊ :=
  (TableLemmas.sineT_eq i h).symm

example : (Spec.T 1).toNat = 3614090360 ∧ (Spec.T 64).toNat = 3951481745 := by decide

/-- **C19, the table.** With any sine function of that accuracy, filling the
table is defined (no conversion is out of range), all 65 entries are filled, and
entry `i` is the integer part of `2^32 |sin i|`: no rounding carries over into
the integer part. -/
theorem table_filled (sin : D → D) (h : Spec.Accurate sin (1 / 2 ^ 40)) :
    ∃ tbl : List UInt32, Table.fill sin 0 [] = some tbl ∧ tbl.length = 65 ∧
      ∀ i : Nat, i ≤ 64 → ∃ v : UInt32, tbl[i]? = some v ∧ v.toNat = ⌊4294967296 * |Real.sin i|⌋₊ := by
  refine ⟨Spec.rfcTable, ?_, by decide, fun i hi => ⟨Spec.T i, ?_, table_is_sine i hi⟩⟩
  · refine TableLemmas.fill_of (fun i hi => ?_) 65 (by omega)
    obtain ⟨q, hs, hq⟩ := h i hi
    exact TableLemmas.entry_of hi hs hq
  · have hl : Spec.rfcTable.length = 65 := by decide
    rw [Spec.T, List.getD, List.getElem?_eq_getElem (by omega), Option.getD_some]

/-- **C19.** For every message, the registers computed with the table that
the code fills itself are those of RFC 1321, with the table the RFC prints. -/
theorem md5_own_table (sin : D → D) (h : Spec.Accurate sin (1 / 2 ^ 40)) (m : List UInt8) :
    Table.calcOwn sin m = some (Spec.md5 Spec.T m) := by
  have hf : Table.fill sin 0 [] = some Spec.rfcTable := by
    refine TableLemmas.fill_of (fun i hi => ?_) 65 (by omega)
    obtain ⟨q, hs, hq⟩ := h i hi
    exact TableLemmas.entry_of hi hs hq
  unfold Table.calcOwn
  rw [hf, Option.map_some, md5_eq_rfc]
  rfl

/-- A sine function for the whole numbers, rounded to `double`. -/
def sampleSin : D → D
  | .fin x => ofRat F64 ((TableLemmas.tab x.num.toNat).2 / TableLemmas.S)
  | _ => .nan

/-- **C19, the table.** The hypothesis can be met with the numbers of the
format: a sine whose results are correctly rounded approximations is accurate
enough. -/
theorem accurate_exists : Spec.Accurate sampleSin (1 / 2 ^ 40) := by
  intro i hi
  have hS := TableLemmas.S_pos
  set x : Rat := (TableLemmas.tab i).2 / TableLemmas.S with hx
  have hnear : |(x : ℝ) - Real.sin i| ≤ 1 / 2 ^ 59 := by
    have e := (TableLemmas.tab_err i hi).2
    have hp : (16 : ℝ) * 8 ^ i ≤ TableLemmas.S / 2 ^ 59 := by
      have : (8 : ℝ) ^ i ≤ 8 ^ 64 := pow_le_pow_right₀ (by norm_num) hi
      have h : (16 : ℝ) * 8 ^ 64 ≤ TableLemmas.S / 2 ^ 59 := by norm_num [TableLemmas.S]
      linarith
    have hd : (x : ℝ) - Real.sin i = (((TableLemmas.tab i).2 : ℝ) - TableLemmas.S * Real.sin i) / TableLemmas.S := by
      rw [hx]
      push_cast
      field_simp
    rw [hd, abs_div, abs_of_pos hS, div_le_iff₀ hS]
    linarith
  have hx2 : |x| < (2 : Rat) ^ (1 : Int) := by
    refine (Rat.cast_lt (K := ℝ)).1 ?_
    have h1 := Real.abs_sin_le_one i
    have h2 := abs_sub_abs_le_abs_sub (x : ℝ) (Real.sin i)
    push_cast
    norm_num at hnear ⊢
    linarith
  have hr := Verif.Double.Lemmas.rnd_err_le (F := F64) hx2 (by decide)
  have hu : (2 : Rat) ^ ((1 : Int) - F64.prec) / 2 ≤ 1 / 2 ^ 50 := by
    have : ((1 : Int) - F64.prec) = -52 := by decide
    rw [this]
    norm_num
  have hr' : |rnd F64 x - x| ≤ 1 / 2 ^ 50 := le_trans hr hu
  refine ⟨rnd F64 x, ?_, ?_⟩
  · have hb : (2 : Rat) ^ (2 : Int) ≤ (2 : Rat) ^ F64.emax := Verif.Double.Lemmas.zpow_le_iff.2 (by decide)
    have h4 : (2 : Rat) ^ (2 : Int) = 4 := by norm_num
    rw [abs_lt] at hx2
    rw [abs_le] at hr'
    norm_num at hx2 hr'
    simp only [sampleSin, Rat.num_natCast, Int.toNat_natCast]
    rw [← hx, ofRat]
    rw [if_neg (by rw [not_le]; linarith [hx2.1, hx2.2, hr'.1, hr'.2]), if_neg (by rw [not_le]; linarith [hx2.1, hx2.2, hr'.1, hr'.2])]
  · have h3 := (Rat.cast_le (K := ℝ)).2 hr'
    push_cast at h3
    rw [abs_le] at *
    norm_num at h3 hnear ⊢
    constructor <;> linarith [h3.1, h3.2, hnear.1, hnear.2]

example : Table.calcOwn sampleSin [97, 98, 99] = some (Spec.md5 Spec.T [97, 98, 99]) := md5_own_table _ accurate_exists _
example : Table.entry sampleSin 31 = some 0x676f02d9 := by decide +kernel

end Verif.Md5.Props
