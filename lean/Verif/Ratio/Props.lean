import Verif.Ratio.Lemmas
/-! Property C35. -/

namespace Verif.Ratio.Props
open Verif.Ratio Verif.Ratio.Spec Verif.Ratio.Lemmas

/-- C35. Every constructed ratio is in lowest terms with a positive denominator and has the value `n / d`. A zero denominator is
undefined behaviour. `T` may be any integer type with a correct `abs`. -/
theorem construct {T : IntTy} (hT : AbsOk T) (n d : Int) :
    (∀ r, mk2 T n d = some r → Canonical r ∧ value r = (n : ℚ) / d) ∧ (d = 0 → mk2 T n d = none) ∧
    Canonical (mk1 n) ∧ value (mk1 n) = n := by
  refine ⟨fun r h => (mk2_some hT h).2, ?_, ?_, ?_⟩
  · intro hd
    cases h : mk2 T n d with
    | none => rfl
    | some r => exact absurd hd (mk2_some hT h).1
  · simp [Canonical, mk1]
  · simp [value, mk1]

/-- C35. Whenever an operation does not overflow, its result is in lowest terms and exact. -/
theorem arithmetic_exact {T : IntTy} (hT : AbsOk T) {a b : R} (ha : Canonical a) (hb : Canonical b) (r : R) :
    (add T a b = some r → Canonical r ∧ value r = value a + value b) ∧
    (sub T a b = some r → Canonical r ∧ value r = value a - value b) ∧
    (mul T a b = some r → Canonical r ∧ value r = value a * value b) ∧
    (div T a b = some r → value b ≠ 0 ∧ Canonical r ∧ value r = value a / value b) := by
  refine ⟨add_some hT ha.1 hb.1, sub_some hT ha.1 hb.1, mul_some hT ha hb, fun h => ?_⟩
  obtain ⟨h1, h2, h3⟩ := div_some' hT ha hb h
  refine ⟨?_, h2, h3⟩
  have : (b.num : ℚ) ≠ 0 := by exact_mod_cast h1
  have hb1 := hb.1
  have : (b.den : ℚ) ≠ 0 := by exact_mod_cast (show b.den ≠ 0 by omega)
  exact div_ne_zero (by assumption) (by assumption)

example : Canonical ⟨-1, 6⟩ ∧ Canonical ⟨3, 10⟩ ∧ add (signed 32) ⟨-1, 6⟩ ⟨3, 10⟩ = some ⟨2, 15⟩ ∧
    div (signed 32) ⟨3, 10⟩ ⟨-1, 6⟩ = some ⟨-9, 5⟩ := by decide

/-- C35. With unbounded integers no operation fails, except division by zero. -/
theorem arithmetic_total {a b : R} (ha : Canonical a) (hb : Canonical b) :
    (∀ n d : Int, d ≠ 0 → (mk2 bigInt n d).isSome) ∧
    (add bigInt a b).isSome ∧ (sub bigInt a b).isSome ∧ (mul bigInt a b).isSome ∧
    ((div bigInt a b).isSome ↔ value b ≠ 0) := by
  refine ⟨fun n d h => mk2_big h, (addsub_big ha.1 hb.1).1, (addsub_big ha.1 hb.1).2, mul_big ha.1 hb.1, ?_⟩
  constructor
  · intro h
    obtain ⟨r, hr⟩ := Option.isSome_iff_exists.mp h
    exact ((arithmetic_exact (fun _ => rfl) ha hb r).2.2.2 hr).1
  · intro h
    refine div_big' hb.1 ?_
    intro h0
    simp [value, h0] at h

/-- C35. `==` decides equality of rational numbers. -/
theorem eq_iff {a b : R} (ha : Canonical a) (hb : Canonical b) : eq a b = true ↔ value a = value b := by
  rw [value_inj ha hb]
  cases a; cases b
  simp [eq]

example : Canonical ⟨-9, 5⟩ ∧ eq ⟨-9, 5⟩ ⟨-9, 5⟩ = true ∧ eq ⟨-9, 5⟩ ⟨9, 5⟩ = false := by decide

/-- The hypothesis that no overflow happens matters: with 32 bits, 1/65537 + 1/65539 overflows. -/
theorem overflow_possible : ∃ a b : R, Canonical a ∧ Canonical b ∧ add (signed 32) a b = none :=
  ⟨⟨1, 65537⟩, ⟨1, 65539⟩, by decide⟩

/-- With a 64-bit `T` and the `abs` of `<cstdlib>` on `int`, the constructor divides by zero if the denominator is a multiple of `2^32`. -/
theorem int_abs_fails : ∃ n d : Int, d ≠ 0 ∧ mk2 signed64WithIntAbs n d = none ∧ (mk2 (signed 64) n d).isSome :=
  ⟨1, 4294967296, by decide⟩

end Verif.Ratio.Props
