import Verif.Fenwick.Lemmas
/-! Property C04. -/

namespace Verif.Fenwick.Props
open Verif.Fenwick

variable {T : Type} [AddCommGroup T]

/-- C04. After any history of increments at non-negative positions on a tree of any size `n`, no call was undefined and every
range query inside the tree (including empty ranges `b = a - 1`) returns the sum of the increments made in that range. -/
theorem fenwick_rangeSum (n : Nat) (hist : List (Int × T)) (hpos : ∀ e ∈ hist, 0 ≤ e.1) :
    ∃ v, increases (new n) hist = some v ∧
      ∀ a b : Int, 0 ≤ a → a ≤ b + 1 → b < n → queryRange v a b = some (Spec.rangeSum hist a b) := by
  have h0 : Inv (new n : List T) (fun _ => 0) := by
    intro i hi
    simp only [new, List.length_replicate] at hi
    simp [new, hi]
  obtain ⟨v, h1, h2, h3⟩ := increases_spec hist hpos (new n) _ h0
  refine ⟨v, h1, ?_⟩
  intro a b ha hab hb
  have hlen : v.length = n := by rw [h2]; simp [new]
  obtain ⟨a', rfl⟩ : ∃ a' : Nat, a = (a' : Int) := ⟨a.toNat, by omega⟩
  obtain ⟨b', rfl⟩ : ∃ b' : Nat, b = (b' : Int) - 1 := ⟨(b + 1).toNat, by omega⟩
  have hq1 := query_spec h3 b' (by omega)
  have hq2 := query_spec h3 a' (by omega)
  unfold queryRange
  rw [hq1, hq2, rangeSum_eq hist a' b' (by omega)]
  simp only [zero_add, Option.some.injEq]
  rw [Finset.sum_Ico_eq_sub _ (by omega)]

example : ∃ v, increases (new 5) [((1 : Int), (10 : Int)), (3, 5), (1, 2), (9, 100)] = some v ∧ queryRange v 1 3 = some 17 :=
  let ⟨v, h, hq⟩ := fenwick_rangeSum 5 [((1 : Int), (10 : Int)), (3, 5), (1, 2), (9, 100)] (by decide)
  ⟨v, h, by rw [hq 1 3 (by decide) (by decide) (by decide)]; rfl⟩

/-- Outside those ranges: a negative position is undefined behaviour for every non-empty or empty tree. -/
theorem fenwick_negative_ub (v : List T) (k : Int) (hk : k < 0) (n : T) : increase v k n = none := by
  rw [increase, if_pos (by omega), if_pos hk]

/-- Outside those ranges: a query beyond the last position is undefined behaviour. -/
theorem fenwick_beyond_ub (v : List T) (a : Int) (ha : (v.length : Int) ≤ a) : query v a = none := by
  rw [query, if_pos (by omega), List.getElem?_eq_none (by omega)]

end Verif.Fenwick.Props
