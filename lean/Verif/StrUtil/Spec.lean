import Verif.Kmp.Spec
/-! Specifications for splitting, replacing and stripping. -/

namespace Verif.StrUtil.Spec
open Verif.Kmp.Spec (OccursAt)

variable {α : Type}

/-- `ps` are the pieces of `s` when it is cut at the non-overlapping occurrences of `sep`, from left to right: each piece ends
where the first occurrence in the remaining text begins, and the last piece contains none. -/
inductive Pieces (sep : List α) : List α → List (List α) → Prop where
  | last (s : List α) : (∀ i, ¬ OccursAt sep s i) → Pieces sep s [s]
  | cut (p rest : List α) (ps : List (List α)) : (∀ i, OccursAt sep (p ++ sep ++ rest) i → p.length ≤ i) →
      Pieces sep rest ps → Pieces sep (p ++ sep ++ rest) (p :: ps)

/-- The white-space characters. -/
def Space (c : Int) : Prop := c = 32 ∨ (9 ≤ c ∧ c ≤ 13)

/-- `r` is `s` without its leading white space. -/
def IsLstrip (s r : List Int) : Prop :=
  ∃ l, s = l ++ r ∧ (∀ c ∈ l, Space c) ∧ ∀ c, r.head? = some c → ¬ Space c

/-- `r` is `s` without its trailing white space. -/
def IsRstrip (s r : List Int) : Prop :=
  ∃ t, s = r ++ t ∧ (∀ c ∈ t, Space c) ∧ ∀ c, r.getLast? = some c → ¬ Space c

/-- `r` is `s` without its leading and trailing white space. -/
def IsStrip (s r : List Int) : Prop :=
  ∃ l t, s = l ++ r ++ t ∧ (∀ c ∈ l, Space c) ∧ (∀ c ∈ t, Space c) ∧
    (∀ c, r.head? = some c → ¬ Space c) ∧ (∀ c, r.getLast? = some c → ¬ Space c)

end Verif.StrUtil.Spec
