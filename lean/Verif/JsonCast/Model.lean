import Verif.Json.Value
import Verif.Json.Model
import Verif.AssocMap
/-! Model of the conversions between C++ values and JSON, `/repo/src/text/json/cast.h`.

The supported types form a universe. `long` stands for the 64-bit types, `map` for `std::map` and `unordered_map` with `std::string`
keys, `cls` for a class that serializes named members. The unsigned types, which can only be written, are `toJsonUnsigned`.
`toF` is the conversion of an `int64_t` to `double`. A `float` is represented by the `double` of the same value. -/

namespace Verif.JsonCast
open Verif.Json

mutual
/-- The types with both directions, `/repo/src/text/json/cast.h:209-313,353-581`. -/
inductive Ty where
  | int
  | long
  | flt
  | dbl
  | bool
  | str
  | json
  | vec (t : Ty)
  | map (t : Ty)
  | opt (t : Ty)
  | cls (fs : Fields)
/-- The members of a class with their names. -/
inductive Fields where
  | nil
  | cons (name : Str) (t : Ty) (fs : Fields)
end

mutual
/-- Values of a type. -/
@[reducible] def Val (F : Type) : Ty → Type
  | .int => Int
  | .long => Int
  | .flt => F
  | .dbl => F
  | .bool => Bool
  | .str => Str
  | .json => Value F
  | .vec t => List (Val F t)
  | .map t => List (Str × Val F t)
  | .opt t => Option (Val F t)
  | .cls fs => Vals F fs
/-- Values of the members of a class. -/
@[reducible] def Vals (F : Type) : Fields → Type
  | .nil => Unit
  | .cons _ t fs => Val F t × Vals F fs
end

/-- The conversions to `float`, of an `int64_t` (`/repo/src/text/json/cast.h:124-125`) and of a `double` (`122-123`). -/
class Floats (F : Type) where
  ofInt : Int → F
  narrow : F → F

variable {F : Type}

mutual
/-- `to_json`, `/repo/src/text/json/cast.h:196-321`. -/
def toJson : (t : Ty) → Val F t → Value F
  | .int => fun n => .int n
  | .long => fun n => .int n
  | .flt => fun x => .flt x
  | .dbl => fun x => .flt x
  | .bool => fun b => .bool b
  | .str => fun s => .str s
  | .json => fun v => v
  | .vec t => fun xs => .arr (xs.map (toJson t))
  | .map t => fun xs => .obj (xs.foldl (fun ms m => addMember ms m.1 (toJson t m.2)) [])
  | .opt t => fun x => match x with
    | none => .null
    | some y => toJson t y
  | .cls fs => fun x => .obj (addFields fs x [])
/-- The members of a class, one `js.add(name, to_json(member))` after the other, `/repo/src/text/json/cast.h:197-201,300-304`. -/
def addFields : (fs : Fields) → Vals F fs → List (Str × Value F) → List (Str × Value F)
  | .nil => fun _ ms => ms
  | .cons n t fs => fun x ms => addFields fs x.2 (addMember ms n (toJson t x.1))
end

/-- `to_json` of an unsigned integer (`/repo/src/text/json/cast.h:221-225,233-237,245-249`): it becomes an `int64_t`. -/
def toJsonUnsigned (n : Nat) : Value F := .int (Int.bmod n (2 ^ 64))

variable [Floats F]

/-- `static_cast<int>` of an `int64_t`, `/repo/src/text/json/cast.h:110,116`. -/
def toInt32 (n : Int) : Int := Int.bmod n (2 ^ 32)

/-- A member that is not there: none for an optional (`/repo/src/text/json/cast.h:537`), else an exception (546). -/
def missing : (t : Ty) → Option (Val F t)
  | .opt _ => some none
  | _ => none

/-- Each element in turn, stopping at the first exception. -/
def each {α β : Type} (f : α → Option β) : List α → Option (List β)
  | [] => some []
  | x :: xs => match f x with
    | none => none
    | some y => (each f xs).map (y :: ·)

mutual
/-- `from_json`, `json_cast`: `/repo/src/text/json/cast.h:66-191,341-344,353-357,365-369,377-381,389-393,401-405,413-417,437-441,449-459,504-518,
531-547,559-569,583-603`. `none` is `json_bad_cast`. (The keys of an object are distinct, so a map gets each of them once.) -/
def fromJson (toF : Int → F) : (t : Ty) → Value F → Option (Val F t)
  | .int => fun js => match js with
    | .int n => some (toInt32 n)
    | _ => none
  | .long => fun js => match js with
    | .int n => some n
    | _ => none
  | .flt => fun js => match js with
    | .flt x => some (Floats.narrow x)
    | .int n => some (Floats.ofInt n)
    | _ => none
  | .dbl => fun js => match js with
    | .flt x => some x
    | .int n => some (toF n)
    | _ => none
  | .bool => fun js => match js with
    | .bool b => some b
    | _ => none
  | .str => fun js => match js with
    | .str s => some s
    | _ => none
  | .json => fun js => some js
  | .vec t => fun js => match js with
    | .arr vs => each (fromJson toF t) vs
    | _ => none
  | .map t => fun js => match js with
    | .obj ms => each (fun m => (fromJson toF t m.2).map (fun x => (m.1, x))) ms
    | _ => none
  | .opt t => fun js => match js with
    | .null => some none
    | v => (fromJson toF t v).map some
  | .cls fs => fun js => fromFields toF fs js
/-- The members of a class one after the other, `/repo/src/text/json/cast.h:531-547`; `count` throws on anything but an object
(`/repo/src/text/json/base.h:591-597`). -/
def fromFields (toF : Int → F) : (fs : Fields) → Value F → Option (Vals F fs)
  | .nil => fun _ => some ()
  | .cons n t fs => fun js => match js with
    | .obj ms =>
      match (match AssocMap.find ms n with
        | some v => fromJson toF t v
        | none => missing t) with
      | none => none
      | some x => (fromFields toF fs js).map (fun r => (x, r))
    | _ => none
end

mutual
/-- Objects of a type that may not be initialised: `none` is an indeterminate value. -/
@[reducible] def Mem (F : Type) : Ty → Type
  | .int => Option Int
  | .long => Option Int
  | .flt => Option F
  | .dbl => Option F
  | .bool => Option Bool
  | .str => Str
  | .json => Value F
  | .vec t => List (Val F t)
  | .map t => List (Str × Val F t)
  | .opt t => Option (Val F t)
  | .cls fs => Mems F fs
/-- The same for members. -/
@[reducible] def Mems (F : Type) : Fields → Type
  | .nil => Unit
  | .cons _ t fs => Mem F t × Mems F fs
end

mutual
/-- The declaration `T t;`, `/repo/src/text/json/cast.h:577`. -/
def init : (t : Ty) → Mem F t
  | .int => none
  | .long => none
  | .flt => none
  | .dbl => none
  | .bool => none
  | .str => []
  | .json => .null
  | .vec _ => []
  | .map _ => []
  | .opt _ => none
  | .cls fs => inits fs
/-- The same for members. -/
def inits : (fs : Fields) → Mems F fs
  | .nil => ()
  | .cons _ t fs => (init t, inits fs)
end

mutual
/-- `T()`, as in `resize` and in `operator[]` of a map, `/repo/src/text/json/cast.h:470,497,526`; for a class with an implicit
constructor. -/
def zero (toF : Int → F) : (t : Ty) → Val F t
  | .int => (0 : Int)
  | .long => (0 : Int)
  | .flt => Floats.ofInt 0
  | .dbl => toF 0
  | .bool => false
  | .str => []
  | .json => .null
  | .vec _ => []
  | .map _ => []
  | .opt _ => none
  | .cls fs => zeros toF fs
/-- The same for members. -/
def zeros (toF : Int → F) : (fs : Fields) → Vals F fs
  | .nil => ()
  | .cons _ t fs => (zero toF t, zeros toF fs)
end

mutual
/-- An initialised object. -/
def thaw : (t : Ty) → Val F t → Mem F t
  | .int => fun x => some x
  | .long => fun x => some x
  | .flt => fun x => some x
  | .dbl => fun x => some x
  | .bool => fun x => some x
  | .str => fun x => x
  | .json => fun x => x
  | .vec _ => fun x => x
  | .map _ => fun x => x
  | .opt _ => fun x => x
  | .cls fs => thaws fs
/-- The same for members. -/
def thaws : (fs : Fields) → Vals F fs → Mems F fs
  | .nil => fun _ => ()
  | .cons _ t fs => fun x => (thaw t x.1, thaws fs x.2)
end

mutual
/-- The value read from an object; `none`: part of it is indeterminate. -/
def freeze : (t : Ty) → Mem F t → Option (Val F t)
  | .int => fun x => x
  | .long => fun x => x
  | .flt => fun x => x
  | .dbl => fun x => x
  | .bool => fun x => x
  | .str => fun x => some x
  | .json => fun x => some x
  | .vec _ => fun x => some x
  | .map _ => fun x => some x
  | .opt _ => fun x => some x
  | .cls fs => freezes fs
/-- The same for members. -/
def freezes : (fs : Fields) → Mems F fs → Option (Vals F fs)
  | .nil => fun _ => some ()
  | .cons _ t fs => fun x => match freeze t x.1 with
    | none => none
    | some a => (freezes fs x.2).map (fun r => (a, r))
end

/-- The loop over a vector, `/repo/src/text/json/cast.h:525-528`: elements behind the end of the JSON array stay, missing ones are made
from `z`. -/
def zipD {α : Type} (f : Value F → α → Option α) (z : α) : List (Value F) → List α → Option (List α)
  | [], xs => some xs
  | j :: js, [] => match f j z with
    | none => none
    | some y => (zipD f z js []).map (y :: ·)
  | j :: js, x :: xs => match f j x with
    | none => none
    | some y => (zipD f z js xs).map (y :: ·)

/-- `m[k] = x`. -/
def put {α : Type} (ms : List (Str × α)) (k : Str) (x : α) : List (Str × α) := ms.filter (fun m => m.1 ≠ k) ++ [(k, x)]

/-- The loop over a map, `/repo/src/text/json/cast.h:467-470,494-497`. -/
def foldD {α : Type} (f : Value F → α → Option α) (z : α) : List (Str × Value F) → List (Str × α) → Option (List (Str × α))
  | [], xs => some xs
  | (k, j) :: ms, xs => match f j ((AssocMap.find xs k).getD z) with
    | none => none
    | some y => foldD f z ms (put xs k y)

/-- One member of a class, `/repo/src/text/json/cast.h:549-557`: it stays as it is if the JSON value is no object or has no such key. -/
def memberD {α : Type} (f : Value F → α → Option α) (js : Value F) (n : Str) (m : α) : Option α :=
  match js with
  | .obj ms => match AssocMap.find ms n with
    | some v => f v m
    | none => some m
  | _ => some m

mutual
/-- `from_json_with_default`: `/repo/src/text/json/cast.h:84-89,100-105,113-117,130-138,151-159,170-175,186-191,347-351,359-363,371-375,383-387,395-399,
407-411,431-435,443-447,461-474,488-501,520-529,549-557,571-581,590-595`. `none`: an indeterminate value is read. (The `int` conversion
reads its default in any case, the others only if they need it.) -/
def fromD (toF : Int → F) : (t : Ty) → Value F → Mem F t → Option (Mem F t)
  | .int => fun js m => match m with
    | none => none
    | some d => match js with
      | .int n => some (some (toInt32 n))
      | _ => some (some d)
  | .long => fun js m => match js with
    | .int n => some (some n)
    | _ => m.map some
  | .flt => fun js m => match js with
    | .flt x => some (some (Floats.narrow x))
    | .int n => some (some (Floats.ofInt n))
    | _ => m.map some
  | .dbl => fun js m => match js with
    | .flt x => some (some x)
    | .int n => some (some (toF n))
    | _ => m.map some
  | .bool => fun js m => match js with
    | .bool b => some (some b)
    | _ => m.map some
  | .str => fun js m => match js with
    | .str s => some s
    | _ => some m
  | .json => fun js _ => some js
  | .vec t => fun js m => match js with
    | .arr vs => zipD (fun j x => (fromD toF t j (thaw t x)).bind (freeze t)) (zero toF t) vs m
    | _ => some m
  | .map t => fun js m => match js with
    | .obj ms => foldD (fun j x => (fromD toF t j (thaw t x)).bind (freeze t)) (zero toF t) ms m
    | _ => some m
  | .opt t => fun js _ => match js with
    | .null => some none
    | v => ((fromD toF t v (init t)).bind (freeze t)).map some
  | .cls fs => fun js m => fieldsD toF fs js m
/-- The members of a class, `/repo/src/text/json/cast.h:549-557`. -/
def fieldsD (toF : Int → F) : (fs : Fields) → Value F → Mems F fs → Option (Mems F fs)
  | .nil => fun _ _ => some ()
  | .cons n t fs => fun js m => (memberD (fromD toF t) js n m.1).bind (fun x => (fieldsD toF fs js m.2).map (fun r => (x, r)))
end

/-- `json_cast_with_default`, `/repo/src/text/json/cast.h:605-611`: `none` is undefined behaviour. -/
def castD (toF : Int → F) (t : Ty) (js : Value F) (d : Val F t) : Option (Val F t) := (fromD toF t js (thaw t d)).bind (freeze t)

end Verif.JsonCast
