import Verif.JsonCast.Model
/-! Which values are claimed to survive the conversions, and what reading a class means member by member. -/

namespace Verif.JsonCast.Spec
open Verif.Json Verif.JsonCast

variable {F : Type} [Floats F]

/-- The names of the members. -/
def names : Fields → List Str
  | .nil => []
  | .cons n _ fs => n :: names fs

/-- Types with a value that is written as `null`. -/
def Nullable : Ty → Prop
  | .opt _ => True
  | .json => True
  | _ => False

mutual
/-- The values claimed to survive: an `int` is in its range, a `float` is one, the keys of a map are distinct, an optional is not of a type that has a
`null` of its own, the members of a class have different names. -/
def Good : (t : Ty) → Val F t → Prop
  | .int => fun n => - 2 ^ 31 ≤ n ∧ n < 2 ^ 31
  | .flt => fun x => Floats.narrow x = x
  | .vec t => fun xs => ∀ x ∈ xs, Good t x
  | .map t => fun xs => (xs.map (·.1)).Nodup ∧ ∀ m ∈ xs, Good t m.2
  | .opt t => fun x => match x with
    | none => True
    | some y => ¬ Nullable t ∧ Good t y
  | .cls fs => fun x => (names fs).Nodup ∧ Goods fs x
  | _ => fun _ => True
/-- The same for members. -/
def Goods : (fs : Fields) → Vals F fs → Prop
  | .nil => fun _ => True
  | .cons _ t fs => fun x => Good t x.1 ∧ Goods fs x.2
end

mutual
/-- No optional inside. -/
def Plain : Ty → Prop
  | .opt _ => False
  | .vec t => Plain t
  | .map t => Plain t
  | .cls fs => Plains fs
  | _ => True
/-- The same for members. -/
def Plains : Fields → Prop
  | .nil => True
  | .cons _ t fs => Plain t ∧ Plains fs
end

/-- A member without a value: an optional that is none. -/
def Absent : (t : Ty) → Val F t → Prop
  | .opt _ => fun x => x = none
  | _ => fun _ => False

/-- Reading an object into a class: each member comes from the value under its name; a member without a value must be an optional and
is none. -/
def Reads (cast : (t : Ty) → Value F → Option (Val F t)) (ms : List (Str × Value F)) : (fs : Fields) → Vals F fs → Prop
  | .nil => fun _ => True
  | .cons n t fs => fun x =>
    (∀ v, (n, v) ∈ ms → cast t v = some x.1) ∧
    (n ∉ ms.map (·.1) → Absent t x.1) ∧
    Reads cast ms fs x.2

/-- Reading an object over defaults: each member comes from the value under its name and its default; a member without a value keeps its
default. -/
def ReadsD (cast : (t : Ty) → Value F → Val F t → Option (Val F t)) (ms : List (Str × Value F)) :
    (fs : Fields) → (d x : Vals F fs) → Prop
  | .nil => fun _ _ => True
  | .cons n t fs => fun d x =>
    (∀ v, (n, v) ∈ ms → cast t v d.1 = some x.1) ∧ (n ∉ ms.map (·.1) → x.1 = d.1) ∧ ReadsD cast ms fs d.2 x.2

end Verif.JsonCast.Spec
