import Verif.Sysstat.Load
import Verif.Sysstat.Lemmas
import Verif.FloatText.LemmasText
import Verif.Double.Props
/-! # C82: the load -/
namespace Verif.Sysstat.PropsLoad
open Verif Verif.Sysstat Verif.Sysstat.Lemmas Verif.Double Verif.Double.Spec

theorem nat_value (ds : Str) : Json.Spec.decVal (ds.map UInt8.toNat) = Decimal.value ds := by
  unfold Json.Spec.decVal Decimal.value
  rw [List.foldl_map]

/-- A load as the kernel writes it: whole part, point and two digits. -/
def loadText (n h : Nat) : Str := Decimal.digits n ++ [46, UInt8.ofNat (48 + h / 10), UInt8.ofNat (48 + h % 10)]

/-- The load is the double nearest to the first number of the file, whatever the rest of the file is. -/
theorem load_value (n h : Nat) (hh : h < 100) (hn : n < 2 ^ 64) (rest : Str) :
    ∃ y, getLoadavg (loadText n h ++ 32 :: rest) = .fin y ∧ IsNum F64 y ∧ ∀ z, IsNum F64 z → dist y (n + h / 100) ≤ dist z (n + h / 100) := by
  obtain ⟨d0, d1, d2⟩ := Decimal.digits_spec n
  obtain ⟨a1, a2⟩ := Decimal.digit_nat (h / 10) (by omega)
  obtain ⟨b1, b2⟩ := Decimal.digit_nat (h % 10) (by omega)
  have nosp : ∀ c, Decimal.isDigit c = true → isspace c = false := by
    intro c hc
    have ⟨x, y⟩ := Decimal.digit_bounds hc
    have e1 : (c == 32) = false := by
      rw [beq_eq_false_iff_ne]
      rintro rfl
      exact absurd x (by decide)
    have e2 : ¬ c ≤ 13 := by rw [UInt8.le_iff_toNat_le]; simp; omega
    simp [isspace, e1, e2]
  have hw := word_spec [] (loadText n h) (32 :: rest) (by simp) (by
    intro c hc
    rcases List.mem_append.1 hc with hc | hc
    · exact nosp c (d1 c hc)
    · simp only [List.mem_cons, List.not_mem_nil, or_false] at hc
      rcases hc with rfl | rfl | rfl
      · decide
      · exact nosp _ a2
      · exact nosp _ b2) (.inl (by simp [loadText])) rfl
  have tv : FloatText.textVal ((loadText n h).map UInt8.toNat) = n + h / 100 := by
    have dig : ∀ c, Decimal.isDigit c = true → Json.Spec.Digit c.toNat := fun c hc => Decimal.digit_bounds hc
    have parts := FloatText.Lemmas.textAbs_parts (ip := (Decimal.digits n).map UInt8.toNat) (fd := [48 + h / 10, 48 + h % 10]) (ex := []) (k := 0)
      (by intro c hc; obtain ⟨x, hx, rfl⟩ := List.mem_map.1 hc; exact dig x (d1 x hx))
      (by intro c hc
          simp only [List.mem_cons, List.not_mem_nil, or_false] at hc
          unfold Json.Spec.Digit
          rcases hc with rfl | rfl <;> omega) (.inl ⟨rfl, rfl⟩)
    rw [if_neg (by simp), List.append_nil] at parts
    have e : (loadText n h).map UInt8.toNat = (Decimal.digits n).map UInt8.toNat ++ 46 :: [48 + h / 10, 48 + h % 10] := by
      unfold loadText
      rw [List.map_append, List.map_cons, List.map_cons, List.map_cons, a1, b1]
      rfl
    have dv : Json.Spec.decVal ((Decimal.digits n).map UInt8.toNat ++ [48 + h / 10, 48 + h % 10]) = 100 * n + h := by
      rw [Json.Spec.decVal, List.foldl_append]
      have := nat_value (Decimal.digits n)
      rw [d2, Json.Spec.decVal] at this
      rw [this, List.foldl_cons, List.foldl_cons, List.foldl_nil]
      omega
    rw [dv] at parts
    rw [e]
    have hd : ∃ c cs, (Decimal.digits n).map UInt8.toNat = c :: cs ∧ c ≠ 45 := by
      cases hds : Decimal.digits n with
      | nil => exact absurd hds d0
      | cons c cs =>
        have := dig c (d1 c (by rw [hds]; exact List.mem_cons_self))
        unfold Json.Spec.Digit at this
        exact ⟨_, _, rfl, by omega⟩
    obtain ⟨c, cs, e1, e2⟩ := hd
    rw [e1] at parts ⊢
    rw [List.cons_append]
    unfold FloatText.textVal
    split
    · rename_i heq; cases heq; exact absurd rfl e2
    · rw [← List.cons_append, parts]
      simp only [List.length_cons, List.length_nil]
      push_cast
      norm_num
      ring
  have hq : |(n : Rat) + h / 100| ≤ (2 : Rat) ^ (65 : Int) := by
    have h1 : (h : Rat) / 100 ≤ 1 := by
      rw [div_le_one (by norm_num)]; exact_mod_cast (by omega : h ≤ 100)
    have h2 : (n : Rat) ≤ 2 ^ 64 := by exact_mod_cast hn.le
    have h3 : (0 : Rat) ≤ (n : Rat) := by positivity
    have h4 : (0 : Rat) ≤ (h : Rat) / 100 := by positivity
    rw [abs_of_nonneg (by linarith)]
    have : (2 : Rat) ^ (65 : Int) = 2 * 2 ^ 64 := by norm_num
    rw [this]
    have : (1 : Rat) ≤ 2 ^ 64 := by norm_num
    linarith
  have hp : 1 ≤ F64.prec := by decide
  have e := Double.Lemmas.ofRat_of_le (F := F64) hp (z := (2 : Rat) ^ (65 : Int)) (Double.Lemmas.mem_pow (by decide)) (by decide +kernel) hq
  rw [List.nil_append] at hw
  refine ⟨_, by rw [getLoadavg, hw, atof, tv, e], (Double.Props.round_num hp e (by decide)).2, fun z hz => Double.Props.round_nearest hp hz _⟩

/-- 0.52 -/
example : getLoadavg (ascii "0.52 0.58 0.59 2/711 4242\n") = .fin (1170935903116329 / 2251799813685248) := by decide +kernel

/-- A file that cannot be read is a load of zero. -/
theorem load_unknown : getLoadavg [] = .fin 0 := by decide +kernel

end Verif.Sysstat.PropsLoad
