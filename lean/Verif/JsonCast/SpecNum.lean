import Verif.JsonCast.Num
import Verif.JsonCast.Spec
import Verif.Double.Spec
/-! Which doubles are floats. -/

namespace Verif.JsonCast.Spec
open Verif.Double Verif.Double.Spec

/-- The values of a `float`. -/
def IsFloat : D → Prop
  | .fin x => IsNum F32 x
  | _ => True

end Verif.JsonCast.Spec
