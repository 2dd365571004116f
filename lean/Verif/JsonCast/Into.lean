import Verif.JsonCast.Spec
/-! Model of reading JSON into an object that has a value already: `from_json(js, v)`, `/repo/src/text/json/cast.h:583-588`, with what is in `v` when an exception leaves it. -/

namespace Verif.JsonCast
open Verif.Json

variable {F : Type} [Floats F]

/-- A part that was read without an exception. -/
def done {α : Type} : α × Bool → Option α
  | (x, true) => some x
  | (_, false) => none

/-- A member whose key is not there: none for an optional (`/repo/src/text/json/cast.h:537`), else an exception (546). -/
def absent : (t : Ty) → Val F t → Val F t × Bool
  | .opt _ => fun _ => (none, true)
  | _ => fun v => (v, false)

mutual
/-- `from_json(js, v)`, `/repo/src/text/json/cast.h:341-344,353-357,365-369,377-381,389-393,401-405,413-417,425-429,437-441,449-459,476-486,504-518,531-547,559-569,583-588`: what is in
`v` afterwards, and whether there was no exception. Maps and vectors are read into a variable `tmp` first, whose elements are `T()`; optionals into a variable `t` (565), which is not initialised: `junk`
is what is in it. -/
def into (toF : Int → F) (junk : (t : Ty) → Val F t) : (t : Ty) → Value F → Val F t → Val F t × Bool
  | .int => fun js v => match js with
    | .int n => (toInt32 n, true)
    | _ => (v, false)
  | .long => fun js v => match js with
    | .int n => (n, true)
    | _ => (v, false)
  | .flt => fun js v => match js with
    | .flt x => (Floats.narrow x, true)
    | .int n => (Floats.ofInt n, true)
    | _ => (v, false)
  | .dbl => fun js v => match js with
    | .flt x => (x, true)
    | .int n => (toF n, true)
    | _ => (v, false)
  | .bool => fun js v => match js with
    | .bool b => (b, true)
    | _ => (v, false)
  | .str => fun js v => match js with
    | .str s => (s, true)
    | _ => (v, false)
  | .json => fun js _ => (js, true)
  | .vec t => fun js v => match js with
    | .arr vs => match each (fun j => done (into toF junk t j (zero toF t))) vs with
      | some xs => (xs, true)
      | none => (v, false)
    | _ => (v, false)
  | .map t => fun js v => match js with
    | .obj ms => match each (fun m => (done (into toF junk t m.2 (zero toF t))).map (fun x => (m.1, x))) ms with
      | some xs => (xs, true)
      | none => (v, false)
    | _ => (v, false)
  | .opt t => fun js v => match js with
    | .null => (none, true)
    | j => match done (into toF junk t j (junk t)) with
      | some x => (some x, true)
      | none => (v, false)
  | .cls fs => fun js v => intoFields toF junk fs js v
/-- The members of a class one after the other, `/repo/src/text/json/cast.h:531-547`; the first exception ends it. -/
def intoFields (toF : Int → F) (junk : (t : Ty) → Val F t) : (fs : Fields) → Value F → Vals F fs → Vals F fs × Bool
  | .nil => fun _ v => (v, true)
  | .cons n t fs => fun js v => match js with
    | .obj ms =>
      match (match AssocMap.find ms n with
        | some j => into toF junk t j v.1
        | none => absent t v.1) with
      | (x, false) => ((x, v.2), false)
      | (x, true) => ((x, (intoFields toF junk fs js v.2).1), (intoFields toF junk fs js v.2).2)
    | _ => (v, false)
end

end Verif.JsonCast

namespace Verif.JsonCast.Spec
open Verif.Json Verif.JsonCast

variable {F : Type} [Floats F]

mutual
/-- What a failed reading of `js` leaves in an object that had the value `old`: the old value, except in a class, whose members before the one that failed have their new values already. -/
def Left (cast : (t : Ty) → Value F → Option (Val F t)) : (t : Ty) → Value F → (old new : Val F t) → Prop
  | .cls fs => fun js old new => (∃ ms, js = .obj ms ∧ Mixed cast fs ms old new) ∨ ((∀ ms, js ≠ .obj ms) ∧ new = old)
  | _ => fun _ old new => new = old
/-- The members of a class after a failed reading: some were read; then one could not be read, or was missing; the rest is as before. -/
def Mixed (cast : (t : Ty) → Value F → Option (Val F t)) : (fs : Fields) → List (Str × Value F) → (old new : Vals F fs) → Prop
  | .nil => fun _ _ _ => False
  | .cons n t fs => fun ms old new =>
    ((∃ v, (n, v) ∈ ms ∧ cast t v = some new.1) ∨ (n ∉ ms.map (·.1) ∧ Absent t new.1)) ∧ Mixed cast fs ms old.2 new.2 ∨
    ((∃ v, (n, v) ∈ ms ∧ cast t v = none ∧ Left cast t v old.1 new.1) ∨ (n ∉ ms.map (·.1) ∧ (∀ t', t ≠ .opt t') ∧ new.1 = old.1)) ∧ new.2 = old.2
end

end Verif.JsonCast.Spec
