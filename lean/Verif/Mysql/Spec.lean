import Batteries.Data.List.Basic
import Verif.Calendar.Spec
import Verif.Mysql.Model
/-! What MySQL is told and what it sends. -/

namespace Verif.Mysql.Spec
open Verif Verif.Sql Verif.Mysql

/-- A time of the server is the date and time of day of a calendar time. -/
structure SameTime (m : MTime) (k : Calendar.Cal) : Prop where
  year : k.year = m.year
  month : k.mon = m.month
  day : k.mday = m.day
  hour : k.hour = m.hour
  minute : k.min = m.minute
  second : k.sec = m.second
  micro : k.usec = m.second_part
  neg : m.neg = false

/-- What the server should be told for a value. It has no truth values but integers. -/
inductive Tells (z : Calendar.Zone) : Value → Told → Prop
  | yes : Tells z (.bool true) (.int 1)
  | no : Tells z (.bool false) (.int 0)
  | string {s : Str} : Tells z (.string s) (.bytes s)
  | int32 {n : Int} : Tells z (.int32 n) (.int n)
  | int64 {n : Int} : Tells z (.int64 n) (.int n)
  | float {d : UInt64} : Tells z (.float d) (.double d)
  | timestamp {t : Clock.T} {m : MTime} {k : Calendar.Cal} : Calendar.Spec.Shows z (Calendar.toTime t.sec) k → k.usec = t.usec → SameTime m k → Tells z (.timestamp t) (.time m)

/-- The values that the program can have: integers of their types, times in years that are not before Christ, with microseconds; no unknown types. -/
def Bindable (z : Calendar.Zone) : Value → Prop
  | .int32 n => -2147483648 ≤ n ∧ n ≤ 2147483647
  | .int64 n => -9223372036854775808 ≤ n ∧ n ≤ 9223372036854775807
  | .timestamp t => ∃ k, Calendar.ofClock z t = some k ∧ 0 ≤ k.year ∧ 0 ≤ t.usec ∧ t.usec < 1000000
  | .unknown _ => False
  | _ => True

/-- What the server sends for a value, by the type of the column: `TINYINT` (1), `SMALLINT` (2), `INT` (3), `BIGINT` (8), all signed, `DOUBLE` (5), `CHAR` (254) and
`TEXT` or `BLOB` (252). -/
inductive Shown : Nat → Value → Cell → Prop
  | tiny {n : Int} : -128 ≤ n → n ≤ 127 → Shown 1 (.int32 n) (.int n)
  | small {n : Int} : -32768 ≤ n → n ≤ 32767 → Shown 2 (.int32 n) (.int n)
  | int {n : Int} : -2147483648 ≤ n → n ≤ 2147483647 → Shown 3 (.int32 n) (.int n)
  | big {n : Int} : -9223372036854775808 ≤ n → n ≤ 9223372036854775807 → Shown 8 (.int64 n) (.int n)
  | double {d : UInt64} : Shown 5 (.float d) (.double d)
  | char {s : Str} : Shown 254 (.string s) (.bytes s)
  | text {s : Str} : Shown 252 (.string s) (.bytes s)

/-- A row. -/
inductive ShownRow : List Nat → List Ptr → List Cell → Prop
  | nil : ShownRow [] [] []
  | null {t : Nat} {ts : List Nat} {vs : List Ptr} {cs : List Cell} : ShownRow ts vs cs → ShownRow (t :: ts) (none :: vs) (.null :: cs)
  | value {t : Nat} {ts : List Nat} {v : Value} {x : Cell} {vs : List Ptr} {cs : List Cell} : Shown t v x → ShownRow ts vs cs → ShownRow (t :: ts) (some v :: vs) (x :: cs)

end Verif.Mysql.Spec
