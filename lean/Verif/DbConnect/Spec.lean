import Verif.DbConnect.Model
/-!
# Specification: connection strings as PostgreSQL reads them

"Keyword/value connection strings" of the documentation of libpq: settings
`keyword = value`, with white space between them and, if one likes, around the
equal sign. A value is in single quotes or ends at white space; a backslash
makes the next character part of the value.
-/
namespace Verif.DbConnect.Spec
open Verif.DbConnect

/-- White space. -/
def space (c : UInt8) : Bool := c == 32 || (9 ≤ c && c ≤ 13)

/-- Without white space at the beginning. -/
def skip (s : Str) : Str := s.dropWhile space

/-- A keyword: up to an equal sign or white space. -/
def keyword : Str → Str × Str
  | [] => ([], [])
  | c :: s => if c = 61 || space c then ([], c :: s) else let (k, r) := keyword s; (c :: k, r)

/-- A value without quotes. -/
def bare : Str → Str × Str
  | [] => ([], [])
  | [92] => ([], [])
  | 92 :: d :: s => let (v, r) := bare s; (d :: v, r)
  | c :: s => if space c then ([], s) else let (v, r) := bare s; (c :: v, r)

/-- A value in quotes, after the first one; `none` if there is no second one. -/
def quoted : Str → Option (Str × Str)
  | [] => none
  | [92] => none
  | 92 :: d :: s => (quoted s).map (fun (v, r) => (d :: v, r))
  | c :: s => if c = 39 then some ([], s) else (quoted s).map (fun (v, r) => (c :: v, r))

/-- A value. -/
def value : Str → Option (Str × Str)
  | 39 :: s => quoted s
  | s => some (bare s)

/-- One setting. -/
def setting (s : Str) : Option ((Str × Str) × Str) :=
  let (k, r) := keyword s
  match skip r with
  | 61 :: r => (value (skip r)).map (fun (v, r) => ((k, v), r))
  | _ => none

/-- All settings, in order; `none` if the text is refused. `fuel` bounds their number. -/
def settings : Nat → Str → Option (List (Str × Str))
  | 0, _ => none
  | fuel + 1, s =>
    match skip s with
    | [] => some []
    | c :: r =>
      match setting (c :: r) with
      | none => none
      | some (kv, r) => (settings fuel r).map (kv :: ·)

/-- The settings of a connection string. -/
def parse (s : Str) : Option (List (Str × Str)) := settings (s.length + 1) s

/-- What is set in the end: the last setting of a keyword counts. -/
def lookup (kvs : List (Str × Str)) (k : Str) : Option Str := (kvs.reverse.find? (·.1 = k)).map (·.2)

/-- Values that need no quotes: not empty, no white space, backslash or NUL, no quote at the beginning. -/
def Plain (v : Str) : Prop := v ≠ [] ∧ (∀ c ∈ v, space c = false ∧ c ≠ 92 ∧ c ≠ 0) ∧ v.head? ≠ some 39

instance (v : Str) : Decidable (Plain v) := inferInstanceAs (Decidable (_ ∧ _ ∧ _))

/-- A value in quotes. -/
def quote (v : Str) : Str := 39 :: (v.flatMap (fun c => if c = 39 || c = 92 then [92, c] else [c]) ++ [39])

/-- A setting. -/
def kv (k : String) (v : Str) : Str × Str := (ascii k, v)

/-- What may happen to a connection to MySQL after it is made: each `reconnect` may find it working or not, and connecting may go well or not. -/
def reconnects : List (Bool × Luck) → Option Nat → Lib → Option Nat × Lib
  | [], c, l => (c, l)
  | (ping, luck) :: es, c, l =>
    let (_, c, l) := myReconnect ping luck c l
    reconnects es c l

/-- The same for PostgreSQL. -/
def pgReconnects : List (Bool × Bool) → Nat → Lib → Lib
  | [], _, l => l
  | (good, again) :: es, h, l => pgReconnects es h (pgReconnect good again h l).2

/-- A library with handles of others, numbered in the order they were made. -/
def Sane (l : Lib) : Prop := ∀ h ∈ l.alive, h < l.next

end Verif.DbConnect.Spec
