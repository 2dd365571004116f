import Verif.Transact.Model
/-! What transactions should do. -/

namespace Verif.Transact.Spec
open Verif.Transact

/-- The data behind all statements, one after the other; `none` if one of them has an error. -/
def allOf {δ α ρ : Type} (e : Engine δ α ρ) : List (String × α) → δ → Option δ
  | [], d => some d
  | q :: qs, d => match (if e.parses q.1 then e.run d q.1 q.2 else none) with | some (d', _) => allOf e qs d' | none => none

/-- Statements that do not begin or end transactions. -/
def Plain {α : Type} (qs : List (String × α)) : Prop := ∀ q ∈ qs, control q.1 = false

/-- A body that lets all exceptions through. -/
def through {α : Type} (qs : List (String × α)) : List ((String × α) × Bool) := qs.map fun q => (q, false)

end Verif.Transact.Spec
