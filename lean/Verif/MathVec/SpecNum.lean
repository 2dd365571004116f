import Verif.MathVec.Num
import Verif.Double.Spec
/-! What rounding may do to the numbers of a vector. -/

namespace Verif.MathVec.Spec
open Verif.Double Verif.Double.Spec Verif.MathVec.Num

/-- What is left of the number `q` in a format: a nearest number of the format, or an infinity if `q` lies at least half a step beyond the largest number. -/
def Rounded (F : Fmt) (q : Rat) : D → Prop
  | .fin y => IsNum F y ∧ ∀ z, IsNum F z → dist y q ≤ dist z q
  | .inf false => (2 : Rat) ^ F.emax - (2 : Rat) ^ (F.emax - F.prec - 1) ≤ q
  | .inf true => q ≤ -((2 : Rat) ^ F.emax - (2 : Rat) ^ (F.emax - F.prec - 1))
  | .nan => False

/-- The values of a format. -/
def IsFl (F : Fmt) : D → Prop
  | .fin x => IsNum F x
  | _ => True

/-- The vector has these numbers as its components. -/
def Has {F : Fmt} (I : Class (Fl F)) (a : I.V) (xs : List Rat) : Prop := I.comps a = xs.map num

/-- The sum of the products, and of their absolute values. -/
def exact : List Rat → List Rat → Rat
  | x :: xs, y :: ys => x * y + exact xs ys
  | _, _ => 0
def size : List Rat → List Rat → Rat
  | x :: xs, y :: ys => (if x * y < 0 then -(x * y) else x * y) + size xs ys
  | _, _ => 0

end Verif.MathVec.Spec
