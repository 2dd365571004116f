import Verif.Sql.Model
import Verif.Calendar.Spec
/-! What SQL values should mean. -/

namespace Verif.Sql.Spec
open Verif Verif.Sql

/-- The type of a value of the program. -/
def typeOf : CVal → Ty
  | .bool _ => .bool | .string _ => .string | .cstr _ => .string | .int32 _ => .int32 | .int64 _ => .int64 | .double _ => .double
  | .clock _ => .clock | .calendar _ => .calendar

/-- A value of the program that stands for the same as a value of the database. -/
inductive Same (z : Calendar.Zone) : Value → CVal → Prop
  | bool (b : Bool) : Same z (.bool b) (.bool b)
  | string (s : Str) : Same z (.string s) (.string s)
  | int32 (n : Int) : Same z (.int32 n) (.int32 n)
  | int64 (n : Int) : Same z (.int64 n) (.int64 n)
  | widen (n : Int) : Same z (.int32 n) (.int64 n)
  | narrow (n : Int) : -2 ^ 31 ≤ n → n < 2 ^ 31 → Same z (.int64 n) (.int32 n)
  | double (d : UInt64) : Same z (.float d) (.double d)
  | clock (t : Clock.T) : Same z (.timestamp t) (.clock t)
  | calendar (t : Clock.T) (c : Calendar.Cal) : Calendar.Spec.YearFits z (Calendar.toTime t.sec) → Calendar.Spec.Shows z (Calendar.toTime t.sec) c → c.usec = t.usec → Same z (.timestamp t) (.calendar c)

/-- Columns, types and values that go together: each value is that of its column. -/
inductive Holds (z : Calendar.Zone) : List Ptr → List Ty → List CVal → Prop
  | nil : Holds z [] [] []
  | cons {p : Value} {ps : List Ptr} {t : Ty} {ts : List Ty} {v : CVal} {vs : List CVal} : Same z p v → typeOf v = t → Holds z ps ts vs →
      Holds z (some p :: ps) (t :: ts) (v :: vs)

end Verif.Sql.Spec
