import Verif.Calendar.Model
import Verif.Util
/-!
# SQL values, and the calls with several arguments

`/repo/src/database/type.h`, and `execute`, `fetch_row` and `run` of `/repo/src/database/statement.h` and `/repo/src/database/connection.h`.
-/
namespace Verif.Sql
open Verif

/-- Strings. -/
abbrev Str := List UInt8

/-- A `database_error`, or undefined behaviour. -/
inductive Err where
  | database
  | ub
deriving DecidableEq

/-- The classes derived from `sql_value`, `/repo/src/database/type.h:56-128`. A `double` is given by its bits. -/
inductive Value where
  | bool (b : Bool)
  | string (s : Str)
  | int32 (n : Int)
  | int64 (n : Int)
  | float (d : UInt64)
  | timestamp (t : Clock.T)
  | unknown (s : Str)
deriving DecidableEq

/-- `shared_ptr<sql_value>`: the null pointer stands for NULL. -/
abbrev Ptr := Option Value

/-- A value of the program, with its type: `/repo/src/database/type.h:130-168` has a `to_sql` for these. `cstr` is a `const char *`, perhaps null. -/
inductive CVal where
  | bool (b : Bool)
  | string (s : Str)
  | cstr (s : Option Str)
  | int32 (n : Int)
  | int64 (n : Int)
  | double (d : UInt64)
  | clock (t : Clock.T)
  | calendar (c : Calendar.Cal)
deriving DecidableEq

/-- The types that `/repo/src/database/type.h:170-250` has a `from_sql` for. -/
inductive Ty where
  | bool | string | int32 | int64 | double | clock | calendar
deriving DecidableEq

/-- `to_sql`, `/repo/src/database/type.h:130-168`. -/
def toSql (mktime : Calendar.Tm → Int) : CVal → Except Err Value
  | .bool b => .ok (.bool b)
  | .string s => .ok (.string s)
  | .cstr (some s) => .ok (.string s)
  | .cstr none => .error .ub
  | .int32 n => .ok (.int32 n)
  | .int64 n => .ok (.int64 n)
  | .double d => .ok (.float d)
  | .clock t => .ok (.timestamp t)
  | .calendar c => match Calendar.toClock mktime c with | some t => .ok (.timestamp t) | none => .error .ub

/-- `from_sql`, `/repo/src/database/type.h:170-250`. `dynamic_cast` gives null for a null pointer, and for a value of another class. -/
def fromSql (z : Calendar.Zone) : Ty → Ptr → Except Err CVal
  | .bool, some (.bool b) => .ok (.bool b)
  | .bool, _ => .error .database
  | .string, some (.string s) => .ok (.string s)
  | .string, _ => .ok (.string [])
  | .int32, some (.int32 n) => .ok (.int32 n)
  | .int32, some (.int64 n) => if n ≥ -2147483648 ∧ n ≤ 2147483647 then .ok (.int32 n) else .error .database
  | .int32, _ => .error .database
  | .int64, some (.int64 n) => .ok (.int64 n)
  | .int64, some (.int32 n) => .ok (.int64 n)
  | .int64, _ => .error .database
  | .double, some (.float d) => .ok (.double d)
  | .double, _ => .error .database
  | .clock, some (.timestamp t) => .ok (.clock t)
  | .clock, _ => .error .database
  | .calendar, some (.timestamp t) => match Calendar.ofClock z t with | some c => .ok (.calendar c) | none => .error .ub
  | .calendar, _ => .error .database

/-- `args[i]=to_sql(ai);` for the arguments from the `i`-th on. A position behind the end of the vector is undefined behaviour. -/
def assignAll (mktime : Calendar.Tm → Int) : List CVal → Nat → List Ptr → Except Err (List Ptr)
  | [], _, args => .ok args
  | a :: as, i, args => do
    let v ← toSql mktime a
    if i < args.length then assignAll mktime as (i + 1) (args.set i (some v)) else .error .ub

/-- The arguments that `statement::execute(a1, …, an)` hands on, for `n` up to 10: `/repo/src/database/statement.h:51-169`. The vector has as many
elements as there are arguments, but 9 for 10 (line 157). -/
def executeArgs (mktime : Calendar.Tm → Int) (as : List CVal) : Except Err (List Ptr) :=
  assignAll mktime as 0 (List.replicate (if as.length = 10 then 9 else as.length) none)

/-- The arguments that `connection::run(sql, a1, …, an)` hands on, for `n` up to 10: `/repo/src/database/connection.h:54-172`. -/
def runArgs (mktime : Calendar.Tm → Int) (as : List CVal) : Except Err (List Ptr) :=
  assignAll mktime as 0 (List.replicate as.length none)

/-- The number of columns that `fetch_row(r1, …, rn)` wants: `/repo/src/database/statement.h:171-304`, lines 175, 184, 194, 205, 217, 230, 244, 259, 275
and 292. -/
def wantedColumns (n : Nat) : Nat := if n ≤ 7 then n else n - 1

/-- `ri=from_sql<Ti>(ret[i])` for the variables from the `i`-th on: what has been assigned, and how it ends. -/
def fetchAll (z : Calendar.Zone) (ret : List Ptr) : List Ty → Nat → List CVal × Except Err Bool
  | [], _ => ([], .ok true)
  | t :: ts, i =>
    match ret[i]? with
    | none => ([], .error .ub)
    | some p =>
      match fromSql z t p with
      | .error e => ([], .error e)
      | .ok v =>
        let r := fetchAll z ret ts (i + 1)
        (v :: r.1, r.2)

/-- `fetch_row(r1, …, rn)` with variables of these types, for `n` from 1 to 10: `/repo/src/database/statement.h:171-304`, given what the virtual `fetch_row`
does: the values of the variables that have been assigned, and how it ends. For 9 variables, the last has the type of the one before (line 284). -/
def fetchRow (z : Calendar.Zone) (row : Except Err (Option (List Ptr))) (ts : List Ty) : List CVal × Except Err Bool :=
  match row with
  | .error e => ([], .error e)
  | .ok none => ([], .ok false)
  | .ok (some ret) =>
    if ret.length ≠ wantedColumns ts.length then ([], .error .database)
    else fetchAll z ret (if ts.length = 9 then ts.set 8 (ts.getD 7 .bool) else ts) 0

end Verif.Sql
