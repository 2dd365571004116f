import Verif.Optional.Model
/-! What value semantics means: each variable simply holds an `Option T`; no two variables share anything. -/

namespace Verif.Optional.Spec
open Verif.Optional (Op)

variable {T : Type}

/-- The effect of an operation on the values of the variables; `none`: dereferencing an empty optional. -/
def step (e : Nat → Option T) : Op T → Option (Nat → Option T)
  | .assign x y => some (fun z => if z = x then e y else e z)
  | .assignVal x v => some (fun z => if z = x then some v else e z)
  | .write x v => if (e x).isSome then some (fun z => if z = x then some v else e z) else none
  | .swap x y => some (fun z => if z = y then e x else if z = x then e y else e z)
  | .renew x => some (fun z => if z = x then none else e z)

/-- A history. -/
def run (e : Nat → Option T) : List (Op T) → Option (Nat → Option T)
  | [] => some e
  | op :: ops => match step e op with
    | some e' => run e' ops
    | none => none

/-- A strict weak order. -/
structure StrictWeak (r : T → T → Bool) : Prop where
  irrefl : ∀ a, r a a = false
  trans : ∀ a b c, r a b = true → r b c = true → r a c = true
  incomp : ∀ a b c, r a b = false → r b a = false → r b c = false → r c b = false → r a c = false ∧ r c a = false

end Verif.Optional.Spec
