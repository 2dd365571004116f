import Verif.Reflect.Model
/-!
# Specification of descriptions of types (C79)
-/
namespace Verif.Reflect.Spec
open Verif.Reflect

/-- The name that a step gives to its class. -/
def givenName : Act → Option Str
  | .name s => some s
  | _ => none

/-- The name of a class: the last one it gives itself, or none. -/
def nameOf (body : List Act) : Str := ((body.filterMap givenName).getLast?).getD []

mutual
/-- What the description of a type should be: the shape of the type with the
names it gives. -/
def desc : Ty → Rep
  | .bool => .bool
  | .char => .char
  | .int s n => .int s n
  | .float _ => .float
  | .str => .str
  | .stream => .stream
  | .vec t => .arr (desc t)
  | .map k v => .map (desc k) (desc v)
  | .cls body => .cls (nameOf body) (descBody body)
/-- The members of a class in the order they are written. -/
def descBody : List Act → List Mem
  | [] => []
  | .name _ :: as => descBody as
  | .member n t :: as => .mk n (desc t) :: descBody as
  | .plain t :: as => .mk [] (desc t) :: descBody as
end

mutual
/-- Descriptions whose names cannot be confused with the punctuation around
them: no `)` in the name of a class, no `,` or `}` in the name of a member. -/
def Clear : Rep → Prop
  | .arr r => Clear r
  | .map k v => Clear k ∧ Clear v
  | .cls n ms => 41 ∉ n ∧ ClearMems ms
  | _ => True
/-- All members. -/
def ClearMems : List Mem → Prop
  | [] => True
  | m :: ms => ClearMem m ∧ ClearMems ms
/-- One member. -/
def ClearMem : Mem → Prop
  | .mk n t => (44 ∉ n ∧ 125 ∉ n) ∧ Clear t
end

/-- The type of a member. -/
def memType : Mem → Rep
  | .mk _ t => t

/-- The immediate parts of a description, from left to right. -/
def parts : Rep → List Rep
  | .arr r => [r]
  | .map k v => [k, v]
  | .cls _ ms => ms.map memType
  | _ => []

/-- `Part p r`: `p` occurs somewhere in `r`. -/
inductive Part : Rep → Rep → Prop
  | self (r) : Part r r
  | inside (p q r) (h1 : Part p q) (h2 : q ∈ parts r) : Part p r

mutual
/-- The number of occurrences of descriptions in a description. -/
def size : Rep → Nat
  | .arr r => 1 + size r
  | .map k v => 1 + size k + size v
  | .cls _ ms => 1 + sizeMems ms
  | _ => 1
/-- Of all members. -/
def sizeMems : List Mem → Nat
  | [] => 0
  | m :: ms => sizeMem m + sizeMems ms
/-- Of one member. -/
def sizeMem : Mem → Nat
  | .mk _ t => size t
end

mutual
/-- Types in which no floating point number occurs. -/
def NoFloat : Ty → Prop
  | .float _ => False
  | .vec t => NoFloat t
  | .map k v => NoFloat k ∧ NoFloat v
  | .cls body => NoFloatBody body
  | _ => True
/-- All steps of a class. -/
def NoFloatBody : List Act → Prop
  | [] => True
  | .name _ :: as => NoFloatBody as
  | .member _ t :: as => NoFloat t ∧ NoFloatBody as
  | .plain t :: as => NoFloat t ∧ NoFloatBody as
end

end Verif.Reflect.Spec
