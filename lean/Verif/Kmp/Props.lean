import Verif.Kmp.Lemmas
/-! Property C06. -/

namespace Verif.Kmp.Props
open Verif.Kmp

variable {α : Type} [DecidableEq α]

/-- C06. For a non-empty query and any non-negative offset, `find` returns the first occurrence at or after the offset, and
`npos` exactly if there is none; no access is out of bounds and every loop ends. -/
theorem kmp_find_first (query text : List α) (offset : Nat) (hq : query ≠ []) :
    ∃ r, find query text (offset : Int) = some r ∧ Spec.FirstOccurrence query text offset r := by
  obtain ⟨next, h1, h2, h3⟩ := build_spec query hq
  have hql : 0 < query.length := List.length_pos_of_ne_nil hq
  unfold find
  rw [h1]
  simp only
  rw [if_neg (by omega), Int.toNat_natCast]
  by_cases hoff : offset ≤ text.length
  · have hL : Longest query [] 0 := by
      refine ⟨by omega, by simp, ?_⟩
      intro s hs hsw
      have := hsw.length_le
      simp only [List.length_take, List.length_nil] at this
      omega
    exact findLoop_spec h3 h2 text offset (text.drop offset) [] 0 (by simp) hoff hL hql (by
      intro w' hw' hsuf
      have h5 := hw'.length_le
      have h6 := hsuf.length_le
      simp only [List.length_nil] at h5
      omega)
  · rw [List.drop_of_length_le (by omega)]
    refine ⟨none, rfl, ?_⟩
    intro p' hp' hocc
    rw [occursAt_iff] at hocc
    omega

/-- The two outcomes of the specification exclude each other and determine the position: `find` is determined by it. -/
theorem firstOccurrence_unique (query text : List α) (offset : Nat) (r r' : Option Nat)
    (h : Spec.FirstOccurrence query text offset r) (h' : Spec.FirstOccurrence query text offset r') : r = r' := by
  cases r with
  | none =>
    cases r' with
    | none => rfl
    | some p => exact absurd h'.2.1 (h p h'.1)
  | some p =>
    cases r' with
    | none => exact absurd h.2.1 (h' p h.1)
    | some p' =>
      rcases Nat.lt_trichotomy p p' with hlt | heq | hlt
      · exact absurd h.2.1 (h'.2.2 p h.1 hlt)
      · rw [heq]
      · exact absurd h'.2.1 (h.2.2 p' h'.1 hlt)

example : find [0, 0, 1] [0, 0, 0, 1, 0, 0, 1] 0 = some (some 1) ∧ find [0, 0, 1] [0, 0, 0, 1, 0, 0, 1] 2 = some (some 4) ∧
    find [2] [0, 0, 0, 1, 0, 0, 1] 0 = some none := by decide +kernel

/-- Excluded input: constructing `kmp` from an empty query writes `next[0]` of an empty vector. -/
theorem kmp_empty_ub (text : List α) (offset : Int) : find [] text offset = none := rfl

end Verif.Kmp.Props
