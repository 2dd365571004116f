import Verif.Clock.Spec

namespace Verif.Clock.Lemmas
open Verif.Clock Verif.Clock.Spec

theorem sec_lt (t : T) : t.sec.toNat < 2 ^ 64 := t.sec.toNat_lt

theorem carry_spec (t : T) : (carry t).usec < 1000000 ∧ (0 ≤ t.usec → 0 ≤ (carry t).usec) ∧
    (t.usec < 0 → carry t = t) ∧ ∃ k : Int, micros (carry t) = micros t + k * wrap := by
  fun_induction carry t with
  | case1 t h ih =>
    simp only at ih
    obtain ⟨h1, h2, h3, k, h4⟩ := ih
    refine ⟨h1, fun _ => h2 (by omega), fun h => by omega, ?_⟩
    rw [h4]
    have ht := sec_lt t
    have := UInt64.toNat_add t.sec 1
    have h1 : (1 : UInt64).toNat = 1 := rfl
    rw [h1] at this
    simp only [micros, wrap, this] at *
    by_cases hw : t.sec.toNat + 1 < 2 ^ 64
    · exact ⟨k, by rw [Nat.mod_eq_of_lt hw]; omega⟩
    · have : t.sec.toNat + 1 = 2 ^ 64 := by omega
      refine ⟨k - 1, ?_⟩
      rw [this]; omega
  | case2 t h => exact ⟨by omega, fun h => h, fun _ => rfl, 0, by omega⟩

theorem borrow_spec (t : T) : 0 ≤ (borrow t).usec ∧ (t.usec < 1000000 → (borrow t).usec < 1000000) ∧
    ∃ k : Int, micros (borrow t) = micros t + k * wrap := by
  fun_induction borrow t with
  | case1 t h ih =>
    simp only at ih
    obtain ⟨h1, h2, k, h4⟩ := ih
    refine ⟨h1, fun _ => h2 (by omega), ?_⟩
    rw [h4]
    have ht := sec_lt t
    have := UInt64.toNat_sub t.sec 1
    have h1 : (1 : UInt64).toNat = 1 := rfl
    rw [h1] at this
    simp only [micros, wrap, this] at *
    by_cases hw : t.sec.toNat = 0
    · refine ⟨k + 1, ?_⟩
      rw [hw]; omega
    · have h5 : 2 ^ 64 - 1 + t.sec.toNat = t.sec.toNat - 1 + 2 ^ 64 := by omega
      refine ⟨k, ?_⟩
      rw [h5, Nat.add_mod_right, Nat.mod_eq_of_lt (by omega)]; omega
  | case2 t h => exact ⟨by omega, fun h => h, 0, by omega⟩

theorem norm_spec (t : T) : Normal (borrow (carry t)) ∧ ∃ k : Int, micros (borrow (carry t)) = micros t + k * wrap := by
  obtain ⟨h1, -, -, k, h2⟩ := carry_spec t
  obtain ⟨h3, h4, k', h5⟩ := borrow_spec (carry t)
  refine ⟨⟨h3, h4 h1⟩, k + k', ?_⟩
  rw [h5, h2, Int.add_mul]; omega

theorem micros_range {t : T} (h : Normal t) : 0 ≤ micros t ∧ micros t < wrap := by
  have := sec_lt t
  obtain ⟨h1, h2⟩ := h
  simp only [micros, wrap]; omega

theorem micros_inj {a b : T} (ha : Normal a) (hb : Normal b) (h : micros a = micros b) : a = b := by
  obtain ⟨a1, a2⟩ := ha
  obtain ⟨b1, b2⟩ := hb
  simp only [micros] at h
  have h1 : a.sec.toNat = b.sec.toNat := by omega
  have h2 : a.usec = b.usec := by omega
  cases a; cases b
  simp only at h1 h2
  rw [UInt64.toNat_inj.mp h1, h2]

theorem emod_of {x y k : Int} (h : x = y + k * wrap) (h0 : 0 ≤ x) (h1 : x < wrap) : x = y % wrap := by
  subst h
  rw [← Int.emod_eq_of_lt h0 h1, Int.add_mul_emod_self_right]

end Verif.Clock.Lemmas
