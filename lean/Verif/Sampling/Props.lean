import Verif.Sampling.Lemmas
/-! Properties C34 and C61. -/

namespace Verif.Sampling.Props
open Verif.Sampling Verif.Sampling.Spec Verif.Sampling.Lemmas

/-- C34. Whatever is drawn, the result is a selection of `k` different numbers below `n`. -/
theorem sample_distinct {n k : Nat} (hn : 0 < n) (hk : k ≤ n) {ds : List Nat} (hd : Draws n k ds) (res : List Nat) :
    ∃ l, sampleWithout n k ds res = (true, l) ∧ Selection n k l := by
  obtain ⟨h1, h2⟩ := Draws_Ok.mp hd
  refine ⟨_, sampleWithout_eq hn hk ds res h1, by simp, ?_, ?_⟩
  · exact List.Nodup.map_on (fun x _ y _ h => Q_inj 0 ds h) List.nodup_range
  · intro x hx
    simp only [List.mem_map, List.mem_range] at hx
    obtain ⟨v, hv, rfl⟩ := hx
    exact Q_lt h2 (by omega)

example : Draws 5 3 [4, 3, 2] ∧ sampleWithout 5 3 [4, 3, 2] [] = (true, [1, 2, 4]) := by
  refine ⟨⟨rfl, fun i d h => ?_⟩, by decide⟩
  match i with
  | 0 => simp at h; omega
  | 1 => simp at h; omega
  | 2 => simp at h; omega
  | i + 3 => simp at h

/-- C34. Every selection is the result for exactly one sequence of draws. Hence if the draws are uniform, so is the selection. -/
theorem sample_uniform {n k : Nat} (hn : 0 < n) (hk : k ≤ n) {l : List Nat} (hl : Selection n k l) (res : List Nat) :
    ∃ ds, (Draws n k ds ∧ sampleWithout n k ds res = (true, l)) ∧
      ∀ ds', Draws n k ds' ∧ sampleWithout n k ds' res = (true, l) → ds' = ds := by
  obtain ⟨h1, h2, h3⟩ := hl
  obtain ⟨ds, h4, h5, h6⟩ := Q_exists n k 0 (fun v => l.getD v 0) (by omega)
    (by
      intro v w _ hv _ hw he
      simp only [List.getD_eq_getElem?_getD, List.getElem?_eq_getElem (show v < l.length by omega),
        List.getElem?_eq_getElem (show w < l.length by omega), Option.getD_some] at he
      exact (List.Nodup.getElem_inj_iff h2).mp he)
    (by
      intro v _ hv
      simp only [List.getD_eq_getElem?_getD, List.getElem?_eq_getElem (show v < l.length by omega), Option.getD_some]
      exact ⟨by omega, h3 _ (List.getElem_mem _)⟩)
  have hres : (List.range k).map (Q 0 ds) = l := by
    apply List.ext_getElem
    · simp [h1]
    · intro v a b
      simp only [List.getElem_map, List.getElem_range]
      rw [h6 v (by omega) (by omega), List.getD_eq_getElem?_getD, List.getElem?_eq_getElem b, Option.getD_some]
  refine ⟨ds, ⟨Draws_Ok.mpr ⟨h4, h5⟩, by rw [sampleWithout_eq hn hk ds res h4, hres]⟩, ?_⟩
  rintro ds' ⟨hd', he⟩
  obtain ⟨h7, _⟩ := Draws_Ok.mp hd'
  rw [sampleWithout_eq hn hk ds' res h7, ← hres] at he
  simp only [Prod.mk.injEq, true_and, List.map_inj_left, List.mem_range] at he
  exact Q_unique 0 ds' ds (by omega) (fun v _ hv => he v (by omega))

example : Selection 5 3 [2, 1, 4] := by refine ⟨rfl, by decide, by decide⟩

/-- C34. The call fails, and leaves the result vector alone, exactly when the sizes are senseless (`n = 0` counts as such). -/
theorem sample_rejects (n k : Int) (ds res : List Nat) :
    ((sampleWithout n k ds res).1 = false ↔ n ≤ 0 ∨ k < 0 ∨ n < k) ∧
    ((sampleWithout n k ds res).1 = false → (sampleWithout n k ds res).2 = res) := by
  unfold sampleWithout
  by_cases h : n ≤ 0 ∨ k < 0 ∨ n < k
  · rw [if_pos h]; simp [h]
  · rw [if_neg h]; simp [h]

example : (sampleWithout 2 3 [] [7]).1 = false := by decide

/-- C34. Sampling with replacement returns the `k` numbers drawn; it fails exactly for senseless sizes. -/
theorem sample_with_replacement (draw : Nat → Nat) (n k : Int) :
    (sampleWith draw n k = none ↔ n ≤ 0 ∨ k < 0) ∧
    ∀ l, sampleWith draw n k = some l → l.length = k.toNat ∧ ∀ i < k.toNat, l[i]? = some (draw i) := by
  unfold sampleWith
  by_cases h : n ≤ 0 ∨ k < 0
  · simp [h]
  · rw [if_neg h]
    refine ⟨by simp [h], ?_⟩
    rintro l ⟨⟩
    refine ⟨by simp, fun i hi => ?_⟩
    rw [List.getElem?_map, List.getElem?_range hi]; rfl

example : sampleWith (fun i => 4 - i) 5 3 = some [4, 3, 2] := by decide

/-- C61. `next_int(a)` is below `a` for every `a > 0` and every pair of numbers drawn, despite the rounding of the product. -/
theorem next_int_lt (g1 g2 a : UInt32) (ha : 0 < a.toNat) : ∃ x, nextInt g1 g2 a = some x ∧ x.toNat < a.toNat := by
  have h := round_lt (nextDouble_lt g1 g2) ha a.toNat_lt
  have h2 : roundDouble (nextDouble g1 g2 * a.toNat) / 2 ^ 53 < a.toNat :=
    (Nat.div_lt_iff_lt_mul (by decide)).mpr h
  have h3 := a.toNat_lt
  refine ⟨_, if_pos (by omega), ?_⟩
  rw [UInt32.toNat_ofNat', Nat.mod_eq_of_lt (by omega)]
  exact h2

example : nextInt 0xffffffff 0xffffffff 1000000007 = some 1000000006 := by decide +kernel

/-- C61. Every number below `a` is the result for some pair of numbers drawn. -/
theorem next_int_onto (a k : UInt32) (hk : k.toNat < a.toNat) : ∃ g1 g2, nextInt g1 g2 a = some k := by
  have ha := a.toNat_lt
  have hd := Nat.div_add_mod (k.toNat * 2 ^ 53 + a.toNat - 1) a.toNat
  have hm := Nat.mod_lt (k.toNat * 2 ^ 53 + a.toNat - 1) (show 0 < a.toNat by omega)
  generalize hx : (k.toNat * 2 ^ 53 + a.toNat - 1) / a.toNat = x at hd
  have hxa : x * a.toNat = a.toNat * x := Nat.mul_comm _ _
  have hlt : x < 2 ^ 53 := by
    rw [← hx, Nat.div_lt_iff_lt_mul (by omega)]
    omega
  obtain ⟨g1, g2, hg⟩ := nextDouble_onto hlt
  have h85 := mul_lt_85 hlt ha
  have h1 := le_round h85 (k := k.toNat) (by omega)
  have h2 := round_lt' h85 (k := k.toNat) (by omega)
  refine ⟨g1, g2, ?_⟩
  have h3 : roundDouble (x * a.toNat) / 2 ^ 53 = k.toNat := by omega
  unfold nextInt
  simp only [hg, h3]
  rw [if_pos k.toNat_lt, UInt32.ofNat_toNat]

/-- C61. `next_int(a, b)` lies in `[a, b)` when `a < b`. -/
theorem next_int_range (g1 g2 a b : UInt32) (h : a.toNat < b.toNat) :
    ∃ x, nextIntRange g1 g2 a b = some x ∧ a.toNat ≤ x.toNat ∧ x.toNat < b.toNat := by
  have hb := b.toNat_lt
  have hs : (b - a).toNat = b.toNat - a.toNat := by
    rw [UInt32.toNat_sub]; omega
  obtain ⟨x, h1, h2⟩ := next_int_lt g1 g2 (b - a) (by omega)
  refine ⟨a + x, by rw [nextIntRange, h1]; rfl, ?_⟩
  rw [UInt32.toNat_add, Nat.mod_eq_of_lt (by omega)]
  omega

example : nextIntRange 0x80000000 0 10 20 = some 15 := by decide +kernel

/-- The draws of `sample_without_replacement` with the library's own generator are draws as C34 assumes them. -/
theorem next_int_draws {n : Nat} (h32 : n < 2 ^ 32) (g : List (UInt32 × UInt32)) (hk : g.length ≤ n) :
    ∃ ds, Draws n g.length ds ∧
      ∀ i g1 g2, g[i]? = some (g1, g2) → ∃ x, nextInt g1 g2 (UInt32.ofNat (n - i)) = some x ∧ ds[i]? = some x.toNat := by
  have hv : ∀ (i : Nat) (g1 g2 : UInt32), i < g.length →
      ∃ x, nextInt g1 g2 (UInt32.ofNat (n - i)) = some x ∧ x.toNat < n - i := by
    intro i g1 g2 hi
    have ht : (UInt32.ofNat (n - i)).toNat = n - i := by rw [UInt32.toNat_ofNat']; omega
    obtain ⟨x, h1, h2⟩ := next_int_lt g1 g2 (UInt32.ofNat (n - i)) (by omega)
    exact ⟨x, h1, by omega⟩
  refine ⟨g.mapIdx fun i e => ((nextInt e.1 e.2 (UInt32.ofNat (n - i))).getD 0).toNat, ⟨by simp, ?_⟩, ?_⟩
  · intro i d hd
    simp only [List.getElem?_mapIdx, Option.map_eq_some_iff] at hd
    obtain ⟨e, he, rfl⟩ := hd
    obtain ⟨x, h1, h2⟩ := hv i e.1 e.2 (List.getElem?_eq_some_iff.mp he).1
    rw [h1]; exact h2
  · intro i g1 g2 he
    obtain ⟨x, h1, h2⟩ := hv i g1 g2 (List.getElem?_eq_some_iff.mp he).1
    refine ⟨x, h1, ?_⟩
    simp only [List.getElem?_mapIdx, he, Option.map_some, h1, Option.getD_some]

end Verif.Sampling.Props
