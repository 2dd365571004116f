import Verif.CsvIter.Model
/-! # Specification: the usual loop, and operations on an iterator -/
namespace Verif.CsvIter.Spec
open Verif.CsvIter

/-- `it` is at the end: equal to an iterator made without a parser. -/
def IsEnd (s : State) (n : Nat) : Prop := ∃ it, s.iter n = some it ∧ eq it ⟨false, false, [], [], 0⟩ = true

/-- `for (csv_iterator it(c), q; it != q; ++it) use(*it);`, at the test of the loop: the rows seen. -/
inductive Loop (n : Nat) : State → List (List Str) → Prop
  | stop {s} : IsEnd s n → Loop n s []
  | row {s s' r rs} : ¬ IsEnd s n → deref s n = .row r → arrow s n = .row r → step s (.inc n) = some s' → Loop n s' rs → Loop n s (r :: rs)

/-- `while (c.next()) use(c.get());`: the rows seen. -/
inductive While : State → List (List Str) → Prop
  | stop {s s'} : step s .next = some s' → atEnd s' = true → While s []
  | row {s s' r rs} : step s .next = some s' → atEnd s' = false → Csv.row s'.P = some r → While s' rs → While s (r :: rs)

/-- Operations that change the iterator `n` itself. -/
def Touches (n : Nat) : Op → Prop
  | .assign m _ => m = n
  | .destroy m => m = n
  | .inc m => m = n
  | .postInc _ m => m = n
  | _ => False

/-- Operations other than assignment. -/
def NoAssign : Op → Prop
  | .assign _ _ => False
  | _ => True

end Verif.CsvIter.Spec
