import Verif.TmpStream.Model
import Verif.Serial.Spec
/-!
# Specification of `serialization::stream` (C96)
-/
namespace Verif.TmpStream.Spec
open Verif.TmpStream

/-- The object `x` exists and is `o`. -/
def Is (w : World) (x : Nat) (o : Obj) : Prop := AssocMap.find w.objs x = some o

/-- The stream that `get` of an object gives; `none` is undefined behaviour. -/
def content (w : World) (o : Obj) : Option S :=
  match o.pios with
  | .null => none
  | .client u => some (w.clients u)
  | .own h => w.files h

/-- Reachable from a start. -/
def Reachable (w : World) : Prop := ∃ names clients ops, run (start names clients) ops = .ok w

/-- Events other than assignments of objects. -/
def NoAssign : Op → Prop
  | .assign _ _ => False
  | _ => True

/-- Events other than copies and assignments of objects and failures of
`mkstemp`. -/
def Plain : Op → Prop
  | .assign _ _ => False
  | .copy _ _ => False
  | .create _ (.failed _) => False
  | _ => True

/-- An object was made from a temporary file or a stream of the client, not with
a failure. -/
def Sound (o : Obj) : Prop := o.pios ≠ .null

end Verif.TmpStream.Spec
