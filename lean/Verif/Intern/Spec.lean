import Verif.Intern.Model
/-! The abstract intern table: the list of distinct keys in the order of their first interning; the id of a key is its
position. Only the interface types `Op` and `Out` of the model are used. -/

namespace Verif.Intern.Spec
open Verif.Intern (Op Out)

variable {K : Type} [DecidableEq K]

/-- The id of a key: its position, or -1. -/
def idOf (l : List K) (k : K) : Int := if k ∈ l then (l.idxOf k : Int) else -1

/-- One call on the abstract table. -/
def step (l : List K) : Op K → List K × Out K
  | .key2id k gen =>
    if k ∈ l then (l, .id (idOf l k))
    else if gen then (l ++ [k], .id l.length) else (l, .id (-1))
  | .key2idNogen k => (l, .id (idOf l k))
  | .id2key i => (l, if 0 ≤ i then (match l[i.toNat]? with | some k => .key k | none => .ub) else .ub)
  | .existKey k => (l, .bool (decide (k ∈ l)))
  | .existId i => (l, .bool (decide (0 ≤ i ∧ i < l.length)))
  | .size => (l, .size l.length)
  | .empty => (l, .bool (decide (l = [])))
  | .clear => ([], .unit)

/-- A history. -/
def run (l : List K) : List (Op K) → List (Out K)
  | [] => []
  | op :: ops => (step l op).2 :: run (step l op).1 ops

end Verif.Intern.Spec
