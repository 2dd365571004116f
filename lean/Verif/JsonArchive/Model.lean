import Verif.Json.Model
import Verif.JsonCast.Model
/-! Model of the JSON archives, `/repo/src/text/json/serialization.h`, on the models of the printer and parser (`Verif.Json`) and of the conversions
(`Verif.JsonCast`). -/

namespace Verif.JsonArchive
open Verif.Json Verif.JsonCast

variable {F : Type} [Floats F]

/-- A value with its type. -/
abbrev Item (F : Type) := (t : Ty) × Val F t

/-- `json_oarchive::put`, `/repo/src/text/json/serialization.h:82-87`, with `gen_print`, `/repo/src/text/json/base.h:762-769`: what it writes. -/
def put (showF : F → Str) (pretty escape : Bool) (x : Item F) : Str :=
  let js := toJson x.1 x.2
  (if pretty then Json.pretty showF escape js else Json.print showF escape js) ++ (if pretty then [] else [10])

/-- `put` several times. -/
def putAll (showF : F → Str) (pretty escape : Bool) : List (Item F) → Str
  | [] => []
  | x :: xs => put showF pretty escape x ++ putAll showF pretty escape xs

/-- What `get` does. -/
inductive Got (α : Type) where
  /-- A value, and the characters left in the stream. -/
  | value (x : α) (rest : List Nat)
  /-- `json_bad_cast`, and the characters left in the stream. -/
  | badCast (rest : List Nat)
  /-- An exception of the parser. -/
  | exc (e : Err)
  | ub

/-- The outcome of a conversion. -/
def Got.ofCast {α : Type} (x : Option α) (rest : List Nat) : Got α :=
  match x with
  | some x => .value x rest
  | none => .badCast rest

/-- `json_iarchive::get`, `/repo/src/text/json/serialization.h:47-50`, with `operator>>` for `via_json`, `/repo/src/text/json/cast.h:626-632`: a new
parser each time, so that a character that the last one has read ahead is gone. The stream is given by the characters it will yield. -/
def get (strtod : List Nat → Option F) (toF : Int → F) (t : Ty) (stream : List Nat) : Got (Val F t) :=
  match parseFrom strtod ⟨none, stream⟩ with
  | .value v s => .ofCast (fromJson toF t v) s.rest
  | .exc e => .exc e
  | .ub => .ub

/-- `get` for one type after the other: the values and the rest of the stream, or `none` if one of them throws. -/
def getAll (strtod : List Nat → Option F) (toF : Int → F) : List Ty → List Nat → Option (List (Item F) × List Nat)
  | [], stream => some ([], stream)
  | t :: ts, stream => match get strtod toF t stream with
    | .value x rest => (getAll strtod toF ts rest).map (fun r => (⟨t, x⟩ :: r.1, r.2))
    | _ => none

end Verif.JsonArchive
