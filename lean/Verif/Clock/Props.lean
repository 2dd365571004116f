import Verif.Clock.Lemmas
/-! Property C33. -/

namespace Verif.Clock.Props
open Verif.Clock Verif.Clock.Spec Verif.Clock.Lemmas

/-- C33. A sum that does not overflow the 32-bit microseconds is normalised and is the sum in microseconds, up to the
wrap-around of the 64-bit seconds. The operands need not be normalised. -/
theorem add_exact (a b : T) (h : int32 (a.usec + b.usec)) :
    ∃ r, add a b = some r ∧ Normal r ∧ micros r = (micros a + micros b) % wrap := by
  obtain ⟨h1, k, h2⟩ := norm_spec ⟨a.sec + b.sec, a.usec + b.usec⟩
  refine ⟨_, by simp [add, chk, h], h1, ?_⟩
  obtain ⟨h3, h4⟩ := micros_range h1
  have h5 := UInt64.toNat_add a.sec b.sec
  have ha := sec_lt a
  have hb := sec_lt b
  by_cases hw : a.sec.toNat + b.sec.toNat < 2 ^ 64
  · refine emod_of (k := k) ?_ h3 h4
    rw [h2]
    simp only [micros, h5, Nat.mod_eq_of_lt hw]; omega
  · refine emod_of (k := k - 1) ?_ h3 h4
    rw [h2]
    have : (a.sec.toNat + b.sec.toNat) % 2 ^ 64 = a.sec.toNat + b.sec.toNat - 2 ^ 64 := by omega
    simp only [micros, h5, this, wrap]; omega

/-- C33. The same for the difference. -/
theorem sub_exact (a b : T) (h : int32 (a.usec - b.usec)) :
    ∃ r, sub a b = some r ∧ Normal r ∧ micros r = (micros a - micros b) % wrap := by
  obtain ⟨h1, k, h2⟩ := norm_spec ⟨a.sec - b.sec, a.usec - b.usec⟩
  refine ⟨_, by simp [sub, chk, h], h1, ?_⟩
  obtain ⟨h3, h4⟩ := micros_range h1
  have h5 := UInt64.toNat_sub a.sec b.sec
  have ha := sec_lt a
  have hb := sec_lt b
  by_cases hw : b.sec.toNat ≤ a.sec.toNat
  · refine emod_of (k := k) ?_ h3 h4
    rw [h2]
    have : (2 ^ 64 - b.sec.toNat + a.sec.toNat) % 2 ^ 64 = a.sec.toNat - b.sec.toNat := by omega
    simp only [micros, h5, this]; omega
  · refine emod_of (k := k + 1) ?_ h3 h4
    rw [h2]
    have : (2 ^ 64 - b.sec.toNat + a.sec.toNat) % 2 ^ 64 = 2 ^ 64 - b.sec.toNat + a.sec.toNat := by omega
    simp only [micros, h5, this, wrap]; omega

example : int32 ((⟨3, 900000⟩ : T).usec + (⟨4, 200000⟩ : T).usec) ∧
    micros ⟨3, 900000⟩ + micros ⟨4, 200000⟩ = 8100000 := by decide

/-- C33. Adding normalised times is exact as long as the sum is representable. -/
theorem add_normal {a b : T} (ha : Normal a) (hb : Normal b) (h : micros a + micros b < wrap) :
    ∃ r, add a b = some r ∧ Normal r ∧ micros r = micros a + micros b := by
  obtain ⟨r, h1, h2, h3⟩ := add_exact a b (by obtain ⟨_, _⟩ := ha; obtain ⟨_, _⟩ := hb; unfold int32; omega)
  refine ⟨r, h1, h2, ?_⟩
  rw [h3, Int.emod_eq_of_lt (by have := (micros_range ha).1; have := (micros_range hb).1; omega) h]

/-- C33. Subtracting an earlier normalised time is exact. -/
theorem sub_normal {a b : T} (ha : Normal a) (hb : Normal b) (h : micros b ≤ micros a) :
    ∃ r, sub a b = some r ∧ Normal r ∧ micros r = micros a - micros b := by
  obtain ⟨r, h1, h2, h3⟩ := sub_exact a b (by obtain ⟨_, _⟩ := ha; obtain ⟨_, _⟩ := hb; unfold int32; omega)
  refine ⟨r, h1, h2, ?_⟩
  rw [h3, Int.emod_eq_of_lt (by omega) (by have := micros_range ha; have := micros_range hb; omega)]

example : Normal ⟨3, 900000⟩ ∧ Normal ⟨4, 200000⟩ ∧ micros ⟨3, 900000⟩ ≤ micros ⟨4, 200000⟩ := by decide

/-- C33. Adding and then subtracting gives the time back, even when the seconds wrap around in between. -/
theorem add_sub_cancel {a b : T} (ha : Normal a) (hb : Normal b) : (add a b).bind (sub · b) = some a := by
  have ib : ∀ {x y : T}, Normal x → Normal y → int32 (x.usec + y.usec) ∧ int32 (x.usec - y.usec) := by
    intro x y ⟨_, _⟩ ⟨_, _⟩; unfold int32; omega
  obtain ⟨r, h1, h2, h3⟩ := add_exact a b (ib ha hb).1
  obtain ⟨s, h4, h5, h6⟩ := sub_exact r b (ib h2 hb).2
  rw [h1, Option.bind_some, h4]
  congr 1
  apply micros_inj h5 ha
  rw [h6, h3, Int.emod_sub_emod, Int.add_sub_cancel]
  exact Int.emod_eq_of_lt (micros_range ha).1 (micros_range ha).2

/-- C33. `operator<` on normalised times is chronological order. -/
theorem lt_iff {a b : T} (ha : Normal a) (hb : Normal b) : lt a b = true ↔ micros a < micros b := by
  obtain ⟨_, _⟩ := ha
  obtain ⟨_, _⟩ := hb
  unfold lt micros
  by_cases h : a.sec = b.sec
  · rw [h]; simp
  · have : a.sec.toNat ≠ b.sec.toNat := fun e => h (UInt64.toNat_inj.mp e)
    rw [if_pos h, decide_eq_true_iff, UInt64.lt_iff_toNat_lt]
    omega

example : Normal ⟨3, 900000⟩ ∧ Normal ⟨4, 200000⟩ ∧ lt ⟨3, 900000⟩ ⟨4, 200000⟩ = true := by decide

/-- Times that are not normalised are compared wrongly: two seconds, given as microseconds, come out before one second. -/
theorem lt_unnormal_fails : ∃ a b : T, int32 a.usec ∧ int32 b.usec ∧ micros b < micros a ∧ lt a b = true :=
  ⟨⟨0, 2000000⟩, ⟨1, 0⟩, by decide⟩

/-- Sums of times that are not normalised can overflow, which is undefined behaviour. -/
theorem add_unnormal_overflows : ∃ a b : T, int32 a.usec ∧ int32 b.usec ∧ add a b = none :=
  ⟨⟨0, 2000000000⟩, ⟨0, 2000000000⟩, by decide⟩

/-- C33. Sum and difference are undefined exactly if those of the microseconds are no `int32_t`. -/
theorem undefined_iff (a b : T) :
    (add a b = none ↔ a.usec + b.usec < -2147483648 ∨ 2147483647 < a.usec + b.usec) ∧
      (sub a b = none ↔ a.usec - b.usec < -2147483648 ∨ 2147483647 < a.usec - b.usec) := by
  have h (x : Int) : chk x = none ↔ x < -2147483648 ∨ 2147483647 < x := by
    unfold chk
    by_cases hx : int32 x
    · rw [if_pos hx]
      unfold int32 at hx
      simp only [reduceCtorEq, false_iff]
      omega
    · rw [if_neg hx]
      unfold int32 at hx
      simp only [true_iff]
      omega
  constructor
  · rw [← h]
    unfold add
    cases chk (a.usec + b.usec) <;> simp
  · rw [← h]
    unfold sub
    cases chk (a.usec - b.usec) <;> simp

example : add ⟨0, 2147483647⟩ ⟨0, 0⟩ = some ⟨2147, 483647⟩ ∧ add ⟨0, 2147483647⟩ ⟨0, 1⟩ = none ∧ sub ⟨9999, -2147483647⟩ ⟨0, 1⟩ = some ⟨7851, 516352⟩ := by
  decide +kernel

end Verif.Clock.Props
