/-! What a substring search should return. -/

namespace Verif.Kmp.Spec

variable {α : Type}

/-- `query` occurs in `text` at position `p`. -/
def OccursAt (query text : List α) (p : Nat) : Prop := ∃ pre post, text = pre ++ query ++ post ∧ pre.length = p

/-- The answer `r` is the first occurrence at or after `offset`, or `none` if there is none. -/
def FirstOccurrence (query text : List α) (offset : Nat) : Option Nat → Prop
  | some p => offset ≤ p ∧ OccursAt query text p ∧ ∀ p', offset ≤ p' → p' < p → ¬ OccursAt query text p'
  | none => ∀ p', offset ≤ p' → ¬ OccursAt query text p'

end Verif.Kmp.Spec
