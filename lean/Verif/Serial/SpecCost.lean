import Verif.Serial.Spec
/-! Specification for the cost of reading (C99). -/
namespace Verif.Serial.Spec
open Verif.Serial

/-- The types of C++: arithmetic types have at least one byte. -/
def Real : Ty → Prop
  | .prim n _ => 0 < n
  | .bool => True
  | .str => True
  | .arr _ t => Real t
  | .vec t => Real t
  | .deque t => Real t
  | .list t => Real t
  | .pair a b => Real a ∧ Real b
  | .map k v => Real k ∧ Real v
  | .set t => Real t
  | .umap k v => Real k ∧ Real v
  | .uset t => Real t

/-- How many fields a new object of the type has: what is written for it are so many numbers. -/
def fields : Ty → Nat
  | .arr n t => n * fields t
  | .pair a b => fields a + fields b
  | _ => 1

/-- How many reads more than there are bytes a broken archive can cause: for each container on the way to where the bytes end, the
number of elements that its size can announce. -/
def excess : Ty → Nat
  | .prim _ _ => 1
  | .bool => 1
  | .str => 2 ^ 32
  | .arr n t => excess t + n * fields t
  | .vec t => excess t + (2 ^ 32 - 1) * fields t
  | .deque t => excess t + (2 ^ 32 - 1) * fields t
  | .list t => excess t + (2 ^ 32 - 1) * fields t
  | .pair a b => excess a + fields b + excess b
  | .map k v => excess k + fields v + excess v + (2 ^ 32 - 1) * (fields k + fields v)
  | .set t => excess t + (2 ^ 32 - 1) * fields t
  | .umap k v => excess k + fields v + excess v + (2 ^ 32 - 1) * (fields k + fields v)
  | .uset t => excess t + (2 ^ 32 - 1) * fields t

end Verif.Serial.Spec
