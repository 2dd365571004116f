import Verif.JsonCast.IntoLemmas
/-! Property C102: reading JSON into an object that has a value already. -/

set_option linter.unusedSectionVars false

namespace Verif.JsonCast.Props
open Verif.Json Verif.JsonCast Verif.JsonCast.Spec Verif.JsonCast.Lemmas

variable {F : Type} [Floats F]

/-- For the examples. -/
local instance floatsInto : Floats Nat := ⟨Int.toNat, id⟩

/-- `from_json(js, v)` ends without an exception exactly if `json_cast` does, and then `v` is what `json_cast` gives: nothing of the old value is left, nor of memory that was not initialised. -/
theorem into_fresh (toF : Int → F) (junk : (t : Ty) → Val F t) (t : Ty) (js : Value F) (old x : Val F t) :
    into toF junk t js old = (x, true) ↔ fromJson toF t js = some x := by
  rcases into_agree toF junk t js old with ⟨y, h1, h2⟩ | ⟨h1, h2⟩
  · rw [h1, h2]
    simp
  · rw [h1]
    constructor
    · intro h
      rw [h] at h2
      cases h2
    · intro h
      cases h

example : into (F := Nat) Int.toNat (zero Int.toNat) (.vec .int) (.arr [.int 1]) [(7 : Int), 8] = ([(1 : Int)], true) := rfl

/-- A reading that throws leaves numbers, strings, vectors, maps and optionals as they were, whatever is inside of them. -/
theorem into_failed_kept_partial (toF : Int → F) (junk : (t : Ty) → Val F t) (t : Ty) (ht : ∀ fs, t ≠ .cls fs) (js : Value F) (old : Val F t)
    (h : (into toF junk t js old).2 = false) : (into toF junk t js old).1 = old := by
  have := into_left toF junk t js old h
  cases t with
  | cls fs => exact absurd rfl (ht fs)
  | _ => exact this

/-- `{int a; int b;}`. -/
def pair : Fields := .cons [97] .int (.cons [98] .int .nil)

example : into (F := Nat) Int.toNat (zero Int.toNat) (.vec (.cls pair)) (.arr [.obj [([97], .int 1), ([98], .int 2)], .obj [([97], .int 3)]])
    [((7 : Int), (8 : Int), ())] = ([((7 : Int), (8 : Int), ())], false) := rfl

/-- A reading that throws leaves a class as it was if the value is not an object; else the members before the one that failed have the new values, this one is as the failure left it, the
following are as they were. -/
theorem into_failed_class (toF : Int → F) (junk : (t : Ty) → Val F t) (t : Ty) (js : Value F) (old : Val F t) (h : (into toF junk t js old).2 = false) :
    Left (fromJson toF) t js old (into toF junk t js old).1 :=
  into_left toF junk t js old h

/-- So a failed reading can leave an object with a value that is neither the old nor the new one. -/
theorem into_not_atomic (toF : Int → F) (junk : (t : Ty) → Val F t) :
    into toF junk (.cls pair) (.obj [([97], .int 1), ([98], .null)]) ((7 : Int), (8 : Int), ()) = (((1 : Int), (8 : Int), ()), false) ∧
    ∀ m k, fromJson toF (.cls pair) (.obj [([97], .int m), ([98], .int k)]) = some (toInt32 m, toInt32 k, ()) :=
  ⟨rfl, fun _ _ => rfl⟩

/-- Reading again, once the text is in order, repairs it: what a failure left does not matter. -/
theorem into_again (toF : Int → F) (junk : (t : Ty) → Val F t) (t : Ty) (bad js : Value F) (old x : Val F t) (h : fromJson toF t js = some x) :
    into toF junk t js (into toF junk t bad old).1 = (x, true) :=
  (into_fresh toF junk t js _ x).2 h

example : fromJson (F := Nat) Int.toNat (.cls pair) (.obj [([97], .int 1), ([98], .int 2)]) = some ((1 : Int), (2 : Int), ()) := rfl

end Verif.JsonCast.Props
