import Verif.Util
/-! JSON values: `/repo/src/text/json/base.h`. -/

namespace Verif.Json

/-- Byte strings, `std::string`. -/
abbrev Str := List UInt8

/-- A JSON value: `json` and the subclasses of `json_value`, `/repo/src/text/json/base.h:155,225,247,281,387,507,529`. `double` is an
arbitrary type `F`. The members of an object (`unordered_map`, `/repo/src/text/json/base.h:401`) are listed in some enumeration
order, which carries no meaning. Sharing of subtrees between values is modelled in
`Verif.JsonDoc`. -/
inductive Value (F : Type) where
  | null
  | int (n : Int)
  | flt (x : F)
  | bool (b : Bool)
  | str (s : Str)
  | arr (vs : List (Value F))
  | obj (ms : List (Str × Value F))

mutual
/-- Whether two values are the same: used only to evaluate examples. -/
def decV {F : Type} [DecidableEq F] : (a b : Value F) → Decidable (a = b)
  | .null, b => match b with
    | .null => isTrue rfl
    | .int _ | .flt _ | .bool _ | .str _ | .arr _ | .obj _ => isFalse nofun
  | .int x, b => match b with
    | .int y => if h : x = y then isTrue (h ▸ rfl) else isFalse (fun e => h (Value.int.inj e))
    | .null | .flt _ | .bool _ | .str _ | .arr _ | .obj _ => isFalse nofun
  | .flt x, b => match b with
    | .flt y => if h : x = y then isTrue (h ▸ rfl) else isFalse (fun e => h (Value.flt.inj e))
    | .null | .int _ | .bool _ | .str _ | .arr _ | .obj _ => isFalse nofun
  | .bool x, b => match b with
    | .bool y => if h : x = y then isTrue (h ▸ rfl) else isFalse (fun e => h (Value.bool.inj e))
    | .null | .int _ | .flt _ | .str _ | .arr _ | .obj _ => isFalse nofun
  | .str x, b => match b with
    | .str y => if h : x = y then isTrue (h ▸ rfl) else isFalse (fun e => h (Value.str.inj e))
    | .null | .int _ | .flt _ | .bool _ | .arr _ | .obj _ => isFalse nofun
  | .arr x, b => match b with
    | .arr y => match decL x y with
      | isTrue h => isTrue (h ▸ rfl)
      | isFalse h => isFalse (fun e => h (Value.arr.inj e))
    | .null | .int _ | .flt _ | .bool _ | .str _ | .obj _ => isFalse nofun
  | .obj x, b => match b with
    | .obj y => match decM x y with
      | isTrue h => isTrue (h ▸ rfl)
      | isFalse h => isFalse (fun e => h (Value.obj.inj e))
    | .null | .int _ | .flt _ | .bool _ | .str _ | .arr _ => isFalse nofun
/-- The same for lists of values. -/
def decL {F : Type} [DecidableEq F] : (a b : List (Value F)) → Decidable (a = b)
  | [], b => match b with
    | [] => isTrue rfl
    | _ :: _ => isFalse nofun
  | x :: xs, b => match b with
    | [] => isFalse nofun
    | y :: ys => match decV x y, decL xs ys with
      | isTrue h, isTrue h' => isTrue (h ▸ h' ▸ rfl)
      | isFalse h, _ => isFalse (fun e => h (List.cons.inj e).1)
      | _, isFalse h => isFalse (fun e => h (List.cons.inj e).2)
/-- The same for lists of members. -/
def decM {F : Type} [DecidableEq F] : (a b : List (Str × Value F)) → Decidable (a = b)
  | [], b => match b with
    | [] => isTrue rfl
    | _ :: _ => isFalse nofun
  | (k, x) :: xs, b => match b with
    | [] => isFalse nofun
    | (l, y) :: ys => match decEq k l, decV x y, decM xs ys with
      | isTrue h0, isTrue h, isTrue h' => isTrue (h0 ▸ h ▸ h' ▸ rfl)
      | isFalse h, _, _ => isFalse (fun e => h (Prod.mk.inj (List.cons.inj e).1).1)
      | _, isFalse h, _ => isFalse (fun e => h (Prod.mk.inj (List.cons.inj e).1).2)
      | _, _, isFalse h => isFalse (fun e => h (List.cons.inj e).2)
end
instance {F : Type} [DecidableEq F] : DecidableEq (Value F) := decV

/-- The events of `json_parser::callback`, `/repo/src/text/json/parser.h:53-69`. -/
inductive Event (F : Type) where
  | null
  | bool (b : Bool)
  | int (n : Int)
  | num (x : F)
  | str (s : Str)
  | startObj
  | key (s : Str)
  | endObj
  | startArr
  | endArr
deriving DecidableEq, Repr

end Verif.Json
