import Verif.StrAlg.Lemmas
/-! Properties C07, C08, C09. -/

namespace Verif.StrAlg.Props
open Verif.StrAlg

variable {α : Type} [DecidableEq α]

/-- C07. `edit_distance` is the least number of single-character insertions, deletions and substitutions. -/
theorem editDistance_correct (a b : List α) : ∃ d, editDistance a b = some d ∧ Spec.IsEditDistance a b d := by
  refine ⟨_, editDistance_eq a b, ?_, ?_⟩
  · have := edits_reverse (edits_of_align (align_lev a.reverse b.reverse))
    simpa using this
  · intro n h
    exact lev_le_edits (edits_reverse h)

example : editDistance [1, 2, 3, 4] [2, 3, 5, 4, 6] = some 3 := by decide

/-- C08. `longest_common_subsequence` is the greatest length of a common subsequence. -/
theorem lcs_correct (a b : List α) : ∃ n, lcs a b = some n ∧ Spec.IsLcsLength a b n := by
  refine ⟨_, lcs_eq a b, ?_, ?_⟩
  · obtain ⟨l, h1, h2, h3⟩ := lc_attained a.reverse b.reverse
    exact ⟨l.reverse, by simpa using h1.reverse, by simpa using h2.reverse, by simpa using h3⟩
  · intro l h1 h2
    have := lc_maximal a.reverse b.reverse l.reverse h1.reverse h2.reverse
    simpa using this

example : lcs [1, 2, 3, 4] [2, 9, 4, 1] = some 2 := by decide

/-- C09. For every sequence of `int` values `longest_increasing_subsequence` is the greatest length of a strictly increasing
subsequence, and the table is never indexed out of range. -/
theorem lis_correct (a : List Int) (hr : ∀ x ∈ a, -2147483648 ≤ x ∧ x ≤ 2147483647) :
    ∃ n, lis a = some n ∧ Spec.IsLisLength a n := by
  unfold lis
  by_cases h0 : a.length = 0
  · rw [if_pos h0]
    have : a = [] := List.length_eq_zero_iff.mp h0
    subst this
    refine ⟨0, rfl, ⟨[], List.nil_sublist _, List.Pairwise.nil, rfl⟩, ?_⟩
    intro l h _
    simp [List.sublist_nil.mp h]
  · rw [if_neg h0]
    have hinit : LisInv [] (List.replicate a.length intMax) 0 := by
      refine ⟨by simp, by simp, ?_, by omega, by omega, ?_, ?_⟩
      · rw [List.pairwise_replicate]; right; omega
      · intro l x h _; simp at h
      · intro p _ hp
        rw [List.length_replicate] at hp
        rw [List.getElem?_replicate, if_pos hp]
    obtain ⟨ids, tbl', m', e1, e2, e3, e4⟩ := lisLoop_spec a [] _ 0 hinit (by simp) hr
    rw [e1]
    cases ids with
    | nil => simp only [List.length_nil] at e4; omega
    | cons p ids =>
      simp only
      rw [max?_foldl]
      rw [List.foldl_cons, Nat.max_eq_right (Nat.zero_le _)] at e3
      rw [← e3]
      rw [List.nil_append] at e2
      have hpos : p + 1 ≤ m' := by rw [e3]; exact foldl_max_le _ _
      refine ⟨m', rfl, ?_, ?_⟩
      · have hm := e2.mlen
        obtain ⟨k, hk⟩ : ∃ k, m' = k + 1 := ⟨m' - 1, by omega⟩
        have hmt := e2.mtbl
        have hlt : ∃ x, tbl'[k]? = some x := ⟨tbl'[k], List.getElem?_eq_getElem (by omega)⟩
        obtain ⟨x, hx⟩ := hlt
        obtain ⟨l, h1, h2, h3⟩ := e2.attained k x (by omega) hx
        exact ⟨l ++ [x], h1, h2, by simp [h3, hk]⟩
      · intro l h1 h2
        rcases List.eq_nil_or_concat l with rfl | ⟨l', z, rfl⟩
        · simp
        · rw [List.concat_eq_append] at *
          have := (e2.least l' z h1 h2).1
          simp; omega

example : lis [3, 1, 4, 1, 5, 9, 2, 6] = some 4 ∧ lis [2147483647, 2147483647] = some 1 := by decide

/-- Finding: one element of 2^31 or more, anywhere, and the table is written out of bounds. -/
theorem lis_large_undefined (a : List Int) (x : Int) (hx : x ∈ a) (h : 2147483648 ≤ x) : lis a = none := by
  have key : ∀ (a tbl : List Int), (∀ y ∈ tbl, y ≤ 2147483647) → x ∈ a → lisLoop a tbl = none := by
    intro a
    induction a with
    | nil => intro _ _ hx; cases hx
    | cons c a ih =>
      intro tbl ht hx
      rw [lisLoop]
      by_cases hc : x = c
      · subst hc
        have : lowerBound tbl x = tbl.length := by
          rw [lowerBound]
          have e : ∀ l : List Int, (∀ y ∈ l, y ≤ 2147483647) → (l.takeWhile (fun y => y < x)).length = l.length := by
            intro l hl
            induction l with
            | nil => rfl
            | cons y l ih =>
              have := hl y List.mem_cons_self
              rw [List.takeWhile_cons, if_pos (decide_eq_true (by omega)), List.length_cons, List.length_cons, ih (fun z hz => hl z (List.mem_cons_of_mem _ hz))]
          exact e tbl ht
        rw [if_neg (by omega)]
      · split
        · rw [ih _ _ ((List.mem_cons.1 hx).resolve_left hc)]
          · rfl
          · intro y hy
            rcases List.mem_or_eq_of_mem_set hy with h1 | h1
            · exact ht y h1
            · subst h1
              unfold toInt32
              omega
        · rfl
  unfold lis
  rw [if_neg (by cases a <;> simp_all), key a _ (by
    intro y hy
    rw [(List.mem_replicate.1 hy).2, intMax]
    omega) hx]

example : lis [1, 2147483648] = none := by decide

/-- Finding: for 64-bit elements outside the `int` range the table is written out of bounds (above) or the result is wrong
(below), because the table is a `vector<int>` with `INT_MAX` as sentinel. -/
theorem lis_int64_fails : lis [4294967296, 1] = none ∧
    lis [-4294967296, -1] = some 1 ∧ ¬ Spec.IsLisLength [-4294967296, -1] 1 := by
  refine ⟨by decide, by decide, ?_⟩
  rintro ⟨_, h⟩
  have := h [-4294967296, -1] (List.Sublist.refl _) (by decide)
  simp at this

end Verif.StrAlg.Props
