import Verif.Json.Value
/-! What it means for two JSON values to be the same, independently of the code. -/

namespace Verif.JsonEq.Spec
open Verif.Json

variable {F : Type}

/-- Equal values: the same structure with equal leaves; arrays element by element, objects with the same keys and the same value under
each key, in whatever order. `num a x`: the integer `a` counts as equal to the floating point number `x`; `flt`: equality of floating
point numbers. -/
inductive Same (flt : F → F → Prop) (num : Int → F → Prop) : Value F → Value F → Prop where
  | null : Same flt num .null .null
  | bool (b) : Same flt num (.bool b) (.bool b)
  | int (n) : Same flt num (.int n) (.int n)
  | str (s) : Same flt num (.str s) (.str s)
  | flt (x y) : flt x y → Same flt num (.flt x) (.flt y)
  | intFlt (n x) : num n x → Same flt num (.int n) (.flt x)
  | fltInt (n x) : num n x → Same flt num (.flt x) (.int n)
  | arr (vs ws : List (Value F)) : vs.length = ws.length → (∀ (i : Nat) v w, vs[i]? = some v → ws[i]? = some w → Same flt num v w) →
      Same flt num (.arr vs) (.arr ws)
  | obj (ms ns : List (Str × Value F)) : (∀ k, k ∈ ms.map (·.1) ↔ k ∈ ns.map (·.1)) →
      (∀ k v w, (k, v) ∈ ms → (k, w) ∈ ns → Same flt num v w) → Same flt num (.obj ms) (.obj ns)

mutual
/-- No object in the value has a key twice. -/
def Distinct : Value F → Prop
  | .arr vs => DistinctL vs
  | .obj ms => (ms.map (·.1)).Nodup ∧ DistinctM ms
  | _ => True
/-- The same for elements. -/
def DistinctL : List (Value F) → Prop
  | [] => True
  | v :: vs => Distinct v ∧ DistinctL vs
/-- The same for members. -/
def DistinctM : List (Str × Value F) → Prop
  | [] => True
  | (_, v) :: ms => Distinct v ∧ DistinctM ms
end

end Verif.JsonEq.Spec
