import Verif.Json.Value
import Verif.Json.Model
import Verif.AssocMap
/-! Model of the equality and of the merging of JSON values, `/repo/src/text/json/base.h`.

Values are trees: that parts of them are shared (`json` holds a `shared_ptr`, `/repo/src/text/json/base.h:135`) is modelled in `Verif.JsonDoc`.
`eqF` is `==` on `double` and `toF` the conversion of an `int64_t`. -/

namespace Verif.JsonEq
open Verif.Json

variable {F : Type}

mutual
/-- `equals`, `/repo/src/text/json/base.h:804-848`; `conv` is `implicit_numeric_conversion`. -/
def equals (eqF : F → F → Bool) (toF : Int → F) (conv : Bool) : Value F → Value F → Bool
  | .int a, .flt y => conv && eqF (toF a) y
  | .flt x, .int b => conv && eqF x (toF b)
  | .null, .null => true
  | .int a, .int b => a == b
  | .flt x, .flt y => eqF x y
  | .bool a, .bool b => a == b
  | .str a, .str b => a == b
  | .arr vs, .arr ws => vs.length == ws.length && equalsL eqF toF conv vs ws
  | .obj ms, .obj ns => ms.length == ns.length && equalsM eqF toF conv ms ns
  | _, _ => false
/-- The loop over the elements, `/repo/src/text/json/base.h:834-837`. -/
def equalsL (eqF : F → F → Bool) (toF : Int → F) (conv : Bool) : List (Value F) → List (Value F) → Bool
  | v :: vs, w :: ws => equals eqF toF conv v w && equalsL eqF toF conv vs ws
  | _, _ => true
/-- The loop over the members, `/repo/src/text/json/base.h:841-845`. -/
def equalsM (eqF : F → F → Bool) (toF : Int → F) (conv : Bool) : List (Str × Value F) → List (Str × Value F) → Bool
  | [], _ => true
  | (k, v) :: ms, ns =>
    match AssocMap.find ns k with
    | none => false
    | some w => equals eqF toF conv v w && equalsM eqF toF conv ms ns
end

/-- `operator==`, `/repo/src/text/json/base.h:850-853`. -/
def eqJson (eqF : F → F → Bool) (toF : Int → F) (a b : Value F) : Bool := equals eqF toF true a b

/-- One turn of the second loop of `merge_with`, `/repo/src/text/json/base.h:421-428`. -/
def mergeStep (f : Value F → Value F → Value F) (r : List (Str × Value F)) (m : Str × Value F) : List (Str × Value F) :=
  match AssocMap.find r m.1 with
  | none => addMember r m.1 m.2
  | some x => addMember r m.1 (f x m.2)

/-- `json_object::merge_with`, `/repo/src/text/json/base.h:416-430`. -/
def mergeObj (f : Value F → Value F → Value F) (ms ns : List (Str × Value F)) : List (Str × Value F) :=
  ns.foldl (mergeStep f) (ms.foldl (fun r m => addMember r m.1 m.2) [])

/-- `json::merge_with`, `/repo/src/text/json/base.h:615-625,725-729`; `none` is `json_bad_cast`. -/
def mergeWith (f : Value F → Value F → Value F) : Value F → Value F → Option (Value F)
  | .obj ms, .obj ns => some (.obj (mergeObj f ms ns))
  | _, _ => none

/-- `json::merge`, `/repo/src/text/json/base.h:432-434,627-636,731-734`. -/
def merge (a b : Value F) : Option (Value F) := mergeWith (fun _ y => y) a b

end Verif.JsonEq
