import Verif.Fenwick.Model
import Verif.Fenwick.Spec
import Mathlib.Algebra.BigOperators.Intervals
import Mathlib.Algebra.Order.Interval.Finset.Basic
/-! Helper lemmas for the Fenwick tree. -/

namespace Verif.Fenwick

variable {T : Type} [AddCommGroup T]

/-- First position covered by cell `i`. -/
def lo (i : Nat) : Nat := i &&& (i + 1)
/-- Next cell above `k` that covers `k`. -/
def up (k : Nat) : Nat := k ||| (k + 1)

theorem lo_le (i : Nat) : lo i ≤ i := Nat.and_le_left
theorem lt_up (k : Nat) : k < up k := @Nat.right_le_or k (k + 1)

theorem lo_even (m : Nat) : lo (2 * m) = 2 * m := by
  unfold lo
  apply Nat.eq_of_testBit_eq
  intro i
  rw [Nat.testBit_and]
  cases i with
  | zero => simp
  | succ i => simp only [Nat.testBit_succ]; rw [show (2 * m + 1) / 2 = m by omega, show 2 * m / 2 = m by omega]; simp

theorem lo_odd (m : Nat) : lo (2 * m + 1) = 2 * lo m := by
  unfold lo
  apply Nat.eq_of_testBit_eq
  intro i
  rw [Nat.testBit_and]
  cases i with
  | zero => simp; omega
  | succ i =>
    simp only [Nat.testBit_succ]
    rw [show (2 * m + 1) / 2 = m by omega, show (2 * m + 1 + 1) / 2 = m + 1 by omega, Nat.mul_div_cancel_left _ (by decide), Nat.testBit_and]

theorem up_even (m : Nat) : up (2 * m) = 2 * m + 1 := by
  unfold up
  apply Nat.eq_of_testBit_eq
  intro i
  rw [Nat.testBit_or]
  cases i with
  | zero => simp
  | succ i => simp only [Nat.testBit_succ]; rw [show (2 * m + 1) / 2 = m by omega, show 2 * m / 2 = m by omega]; simp

theorem up_odd (m : Nat) : up (2 * m + 1) = 2 * up m + 1 := by
  unfold up
  apply Nat.eq_of_testBit_eq
  intro i
  rw [Nat.testBit_or]
  cases i with
  | zero => simp
  | succ i =>
    simp only [Nat.testBit_succ]
    rw [show (2 * m + 1) / 2 = m by omega, show (2 * m + 1 + 1) / 2 = m + 1 by omega,
      show (2 * (m ||| (m + 1)) + 1) / 2 = m ||| (m + 1) by omega, Nat.testBit_or]

theorem parity (i : Nat) : ∃ m, i = 2 * m ∨ i = 2 * m + 1 := ⟨i / 2, by omega⟩

theorem covers_iff (i : Nat) : ∀ k, (lo i ≤ k ∧ k ≤ i) ↔ (i = k ∨ (lo i ≤ up k ∧ up k ≤ i)) := by
  induction i using Nat.strongRecOn with
  | _ i ih =>
    intro k
    obtain ⟨m, rfl | rfl⟩ := parity i
    · rw [lo_even]
      obtain ⟨j, rfl | rfl⟩ := parity k
      · rw [up_even]; omega
      · rw [up_odd]; omega
    · have := ih m (by omega)
      rw [lo_odd]
      obtain ⟨j, rfl | rfl⟩ := parity k
      · rw [up_even]; omega
      · have := this j
        rw [up_odd]; omega

theorem increase_spec (n : T) (d : Nat) : ∀ (v : List T) (k : Nat), v.length - k ≤ d →
    ∃ v', increase v (k : Int) n = some v' ∧ v'.length = v.length ∧
      ∀ i x, v[i]? = some x → v'[i]? = some (x + if lo i ≤ k ∧ k ≤ i then n else 0) := by
  induction d with
  | zero =>
    intro v k hd
    refine ⟨v, ?_, rfl, ?_⟩
    · rw [increase, if_neg (by omega)]
    · intro i x hx
      have hi : i < v.length := by
        rw [List.getElem?_eq_some_iff] at hx; exact hx.1
      rw [if_neg (by omega), add_zero, hx]
  | succ d ih =>
    intro v k hd
    by_cases hk : k < v.length
    · have hlt := lt_up k
      obtain ⟨v', h1, h2, h3⟩ := ih (v.modify k (· + n)) (up k) (by rw [List.length_modify]; omega)
      refine ⟨v', ?_, by rw [h2, List.length_modify], ?_⟩
      · rw [increase, if_pos (by omega), if_neg (by omega)]
        exact h1
      · intro i x hx
        have hc := covers_iff i k
        by_cases hik : k = i
        · subst hik
          have := h3 k (x + n) (by rw [List.getElem?_modify, hx]; simp)
          rw [this, if_neg (by omega), add_zero, if_pos (hc.mpr (.inl rfl))]
        · have := h3 i x (by rw [List.getElem?_modify, hx]; simp [hik])
          rw [this]
          have : (lo i ≤ up k ∧ up k ≤ i) ↔ (lo i ≤ k ∧ k ≤ i) := by
            rw [hc]; constructor
            · exact .inr
            · rintro (h | h)
              · exact absurd h.symm hik
              · exact h
          simp only [this]
    · refine ⟨v, ?_, rfl, ?_⟩
      · rw [increase, if_neg (by omega)]
      · intro i x hx
        have hi : i < v.length := by
          rw [List.getElem?_eq_some_iff] at hx; exact hx.1
        rw [if_neg (by omega), add_zero, hx]

/-- Cell `i` holds the sum of the point values it covers. -/
def Inv (v : List T) (f : Nat → T) : Prop := ∀ i, i < v.length → v[i]? = some (∑ j ∈ Finset.Ico (lo i) (i + 1), f j)

theorem query_spec {v : List T} {f : Nat → T} (h : Inv v f) (m : Nat) (hm : m ≤ v.length) :
    query v ((m : Int) - 1) = some (∑ j ∈ Finset.range m, f j) := by
  induction m using Nat.strongRecOn with
  | _ m ih =>
    cases m with
    | zero => rw [query]; simp
    | succ a =>
      rw [query, if_pos (by omega)]
      have e : (((a + 1 : Nat) : Int) - 1).toNat = a := by omega
      rw [e, h a (by omega)]
      have := ih (lo a) (by have := lo_le a; omega) (by have := lo_le a; omega)
      rw [lo] at this
      simp only [this, Option.map_some, Option.some.injEq]
      rw [add_comm]
      simp only [← Nat.Ico_zero_eq_range]
      exact Finset.sum_Ico_consecutive f (Nat.zero_le _) (by have := lo_le a; unfold lo at this; omega)

theorem inv_increase {v : List T} {f : Nat → T} (h : Inv v f) (k : Nat) (n : T) :
    ∃ v', increase v (k : Int) n = some v' ∧ v'.length = v.length ∧ Inv v' (fun j => f j + if j = k then n else 0) := by
  obtain ⟨v', h1, h2, h3⟩ := increase_spec n _ v k (Nat.le_refl _)
  refine ⟨v', h1, h2, ?_⟩
  intro i hi
  rw [h2] at hi
  rw [h3 i _ (h i hi), Finset.sum_add_distrib, Finset.sum_ite_eq']
  simp only [Finset.mem_Ico, Nat.lt_succ_iff]

/-- Point values of a history. -/
def points (hist : List (Int × T)) (j : Nat) : T := ((hist.filter (fun e => e.1 = (j : Int))).map (·.2)).sum

theorem rangeSum_eq (hist : List (Int × T)) (a b : Nat) (h : a ≤ b) :
    Spec.rangeSum hist (a : Int) ((b : Int) - 1) = ∑ j ∈ Finset.Ico a b, points hist j := by
  induction hist with
  | nil => simp [Spec.rangeSum, points]
  | cons e hist ih =>
    obtain ⟨k, n⟩ := e
    have hp : ∀ j, points ((k, n) :: hist) j = (if k = (j : Int) then n else 0) + points hist j := by
      intro j
      unfold points
      by_cases hk : k = (j : Int) <;> simp [hk]
    have hr : Spec.rangeSum ((k, n) :: hist) (a : Int) ((b : Int) - 1)
        = (if (a : Int) ≤ k ∧ k ≤ (b : Int) - 1 then n else 0) + Spec.rangeSum hist (a : Int) ((b : Int) - 1) := by
      unfold Spec.rangeSum
      by_cases hk : (a : Int) ≤ k ∧ k ≤ (b : Int) - 1
      · rw [List.filter_cons_of_pos (by simpa using hk), if_pos hk]; simp
      · rw [List.filter_cons_of_neg (by simpa using hk), if_neg hk]; simp
    simp only [hp]
    rw [hr, ih, Finset.sum_add_distrib]
    congr 1
    by_cases hk : (a : Int) ≤ k ∧ k ≤ (b : Int) - 1
    · rw [if_pos hk]
      obtain ⟨k', rfl⟩ : ∃ k' : Nat, k = (k' : Int) := ⟨k.toNat, by omega⟩
      have e : ∀ j : Nat, ((k' : Int) = (j : Int)) = (k' = j) := fun j => by simp only [Int.natCast_inj]
      simp only [e]
      rw [Finset.sum_ite_eq, if_pos]
      rw [Finset.mem_Ico]; omega
    · rw [if_neg hk, Finset.sum_eq_zero]
      intro j hj
      rw [Finset.mem_Ico] at hj
      rw [if_neg (by omega)]

theorem increases_spec (hist : List (Int × T)) (hpos : ∀ e ∈ hist, 0 ≤ e.1) :
    ∀ (v : List T) (f : Nat → T), Inv v f →
    ∃ v', increases v hist = some v' ∧ v'.length = v.length ∧ Inv v' (fun j => f j + points hist j) := by
  induction hist with
  | nil => intro v f h; exact ⟨v, rfl, rfl, by simpa [points] using h⟩
  | cons e hist ih =>
    obtain ⟨k, n⟩ := e
    intro v f h
    have hk := hpos (k, n) (by simp)
    obtain ⟨k', rfl⟩ : ∃ k' : Nat, k = (k' : Int) := ⟨k.toNat, by simp only at hk; omega⟩
    obtain ⟨v1, h1, h2, h3⟩ := inv_increase h k' n
    obtain ⟨v2, h4, h5, h6⟩ := ih (fun e he => hpos e (by simp [he])) v1 _ h3
    refine ⟨v2, ?_, by omega, ?_⟩
    · rw [increases, h1]; exact h4
    · convert h6 using 2 with j
      unfold points
      by_cases hj : j = k'
      · subst hj; simp [add_assoc]
      · have : ¬ ((k' : Int) = (j : Int)) := by omega
        simp [hj, this]

end Verif.Fenwick
