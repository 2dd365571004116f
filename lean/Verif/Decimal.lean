/-! Decimal notation of natural numbers, as `operator<<` writes it, and what its digits stand for (definitions and lemmas, no claims). -/

namespace Verif.Decimal

/-- The digits of a number, without leading zeros. -/
def digits (n : Nat) : List UInt8 := if n < 10 then [UInt8.ofNat (48 + n)] else digits (n / 10) ++ [UInt8.ofNat (48 + n % 10)]

/-- What digits stand for. -/
def value (ds : List UInt8) : Nat := ds.foldl (fun n c => 10 * n + (c.toNat - 48)) 0

/-- A digit. -/
def isDigit (c : UInt8) : Bool := 48 ≤ c && c ≤ 57

theorem digit_nat (n : Nat) (h : n < 10) : (UInt8.ofNat (48 + n)).toNat = 48 + n ∧ isDigit (UInt8.ofNat (48 + n)) = true := by
  have : ∀ i : Fin 10, (UInt8.ofNat (48 + i.1)).toNat = 48 + i.1 ∧ isDigit (UInt8.ofNat (48 + i.1)) = true := by decide
  exact this ⟨n, h⟩

theorem value_snoc (ds : List UInt8) (c : UInt8) : value (ds ++ [c]) = 10 * value ds + (c.toNat - 48) := by simp [value]

theorem digits_spec (n : Nat) : digits n ≠ [] ∧ (∀ c ∈ digits n, isDigit c = true) ∧ value (digits n) = n := by
  induction n using Nat.strongRecOn with
  | ind n ih =>
    rw [digits]
    split
    · rename_i h
      obtain ⟨h1, h2⟩ := digit_nat n h
      refine ⟨by simp, by simpa using h2, ?_⟩
      simp only [value, List.foldl_cons, List.foldl_nil, h1]
      omega
    · rename_i h
      obtain ⟨h1, h2, h3⟩ := ih (n / 10) (by omega)
      obtain ⟨g1, g2⟩ := digit_nat (n % 10) (by omega)
      refine ⟨by simp, ?_, ?_⟩
      · intro c hc
        rw [List.mem_append, List.mem_singleton] at hc
        rcases hc with hc | rfl
        · exact h2 c hc
        · exact g2
      · rw [value_snoc, h3, g1]
        omega

theorem digit_bounds {c : UInt8} (h : isDigit c = true) : 48 ≤ c.toNat ∧ c.toNat ≤ 57 := by
  simp only [isDigit, Bool.and_eq_true, decide_eq_true_eq, UInt8.le_iff_toNat_le] at h
  exact h

/-- The digits in front of a text that goes on with something else. -/
theorem takeWhile_digits (n : Nat) (rest : List UInt8) (h : rest.head?.all (fun c => !isDigit c) = true) :
    (digits n ++ rest).takeWhile isDigit = digits n ∧ (digits n ++ rest).dropWhile isDigit = rest := by
  have hp := (digits_spec n).2.1
  cases rest with
  | nil =>
    exact ⟨by rw [List.takeWhile_append_of_pos hp]; simp, by rw [List.dropWhile_append_of_pos hp]; simp⟩
  | cons c r =>
    have hc : isDigit c = false := by simpa using h
    exact ⟨by rw [List.takeWhile_append_of_pos hp, List.takeWhile_cons_of_neg (by simp [hc]), List.append_nil],
      by rw [List.dropWhile_append_of_pos hp, List.dropWhile_cons_of_neg (by simp [hc])]⟩

end Verif.Decimal
