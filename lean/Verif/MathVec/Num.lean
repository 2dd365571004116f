import Verif.MathVec.Classes
import Verif.Double.Model
/-! The vectors of `/repo/src/math/vector.h` with `double` or `float` components. -/

namespace Verif.MathVec.Num
open Verif.Double

/-- The numbers of a format, as components of vectors, `/repo/src/math/vector.h:47-48` with `double` or `float` for the parameter of the template. (`=` is equality of
values, by which NaN would equal itself, unlike `==`; no theorem about such components uses it.) -/
@[ext] structure Fl (F : Fmt) where
  d : D
deriving DecidableEq

variable {F : Fmt}

/-- A number as a component. -/
def num (x : Rat) : Fl F := ⟨.fin x⟩

/-- `x / y` for components (`/repo/src/math/vector.h:102-104,169-171,175-177`). The sign of zero is left out; a divisor zero counts as positive. -/
def div (F : Fmt) : D → D → D
  | .fin x, .fin y => if y = 0 then (if x = 0 then .nan else .inf (decide (x < 0))) else ofRat F (x / y)
  | .nan, _ => .nan
  | _, .nan => .nan
  | .inf n, .fin y => .inf (n != decide (y < 0))
  | .fin _, .inf _ => .fin 0
  | .inf _, .inf _ => .nan

instance : Zero (Fl F) := ⟨⟨.fin 0⟩⟩
instance : Add (Fl F) := ⟨fun x y => ⟨Double.add F x.d y.d⟩⟩
instance : Sub (Fl F) := ⟨fun x y => ⟨Double.sub F x.d y.d⟩⟩
instance : Neg (Fl F) := ⟨fun x => ⟨Double.neg x.d⟩⟩
instance : Mul (Fl F) := ⟨fun x y => ⟨Double.mul F x.d y.d⟩⟩
instance : Div (Fl F) := ⟨fun x y => ⟨div F x.d y.d⟩⟩
instance : LT (Fl F) := ⟨fun x y => Double.lt x.d y.d = true⟩
instance : DecidableLT (Fl F) := fun x y => inferInstanceAs (Decidable (Double.lt x.d y.d = true))

end Verif.MathVec.Num
