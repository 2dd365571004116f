import Verif.Sparse.Model
/-!
# Specification for sparse matrices (C23)
-/
namespace Verif.Sparse.Spec
open Verif.Sparse

/-- Rows as documented: columns are increasing, not negative and below
`INT_MAX`. -/
def ValidRow (r : Row) : Prop :=
  r.Pairwise (fun a b => a.1 < b.1) ∧ ∀ p ∈ r, 0 ≤ p.1 ∧ p.1 < 2 ^ 31 - 1

/-- A weaker condition that suffices for storing a row: all columns are
`int`s and so are the differences between neighbours. -/
def Storable : Int → Row → Prop
  | _, [] => True
  | prev, (c, _) :: r => -2 ^ 31 ≤ c ∧ c < 2 ^ 31 ∧ -2 ^ 31 ≤ c - prev ∧ c - prev < 2 ^ 31 ∧ Storable c r

/-- `R` is the transpose of `rows`: its row `c` has increasing columns and
holds `(j, v)` exactly if row `j` of `rows` holds `(c, v)`; it has as many
rows as needed. -/
structure IsTranspose (rows R : List Row) : Prop where
  entry : ∀ (c j : Nat) (v : UInt8), (∃ r ∈ R[c]?, ((j : Int), v) ∈ r) ↔ ∃ r ∈ rows[j]?, ((c : Int), v) ∈ r
  index : ∀ r ∈ R, ∀ p ∈ r, 0 ≤ p.1 ∧ p.1 < rows.length
  sorted : ∀ r ∈ R, r.Pairwise (fun a b => a.1 < b.1)
  width : R = [] ∨ ∃ r ∈ R.getLast?, r ≠ []

end Verif.Sparse.Spec
