import Verif.Lexical.Model
import Verif.Sql.Model
import Verif.Transact.Model
/-!
# Statements, values and results of PostgreSQL

`/repo/src/database/postgresql/statement.cpp`, `/repo/src/database/postgresql/value.cpp` and `/repo/src/database/postgresql/result.cpp`. The connection is
that of `Verif/Transact`. `strptime`, `strftime`, `atoi` and the output of a `double` are those of the C library in the "C" locale.
-/
namespace Verif.Postgres
open Verif Verif.Sql

/-- A `bad_cast` of `lexical_cast`, or undefined behaviour. -/
inductive Err where
  | badCast
  | ub
deriving DecidableEq

/-! ### Queries -/

/-- The loop of `convert_query`, `/repo/src/database/postgresql/statement.cpp:53-56`, for texts shorter than 2^31 bytes. -/
def convertFrom (cnt : Nat) : Str → Str
  | [] => []
  | c :: q => if c = 63 then 36 :: Decimal.digits cnt ++ convertFrom (cnt + 1) q else c :: convertFrom cnt q

/-- `convert_query`, `/repo/src/database/postgresql/statement.cpp:47-59`. -/
def convertQuery (q : Str) : Str := convertFrom 1 q

/-- What is left of a string as a C string. -/
def cstr (s : Str) : Str := s.takeWhile (· ≠ 0)

/-- The text that is given to `PQprepare`, `/repo/src/database/postgresql/statement.cpp:65`. -/
def prepared (q : Str) : Str := cstr (convertQuery q)

/-! ### Values as texts -/

/-- Digits with zeros in front, at least `w` of them. -/
def zeros (w n : Nat) : Str := List.replicate (w - (Decimal.digits n).length) 48 ++ Decimal.digits n

/-- `printf` with `%0wd`. -/
def pad (w : Nat) (n : Int) : Str := if n < 0 then 45 :: zeros (w - 1) n.natAbs else zeros w n.natAbs

/-- `strftime` with `"%Y-%m-%d %T."`, and the microseconds: `/repo/src/database/postgresql/value.cpp:152-162`. -/
def stamp (k : Calendar.Cal) : Str :=
  Lexical.put k.year ++ [45] ++ pad 2 k.mon ++ [45] ++ pad 2 k.mday ++ [32] ++ pad 2 k.hour ++ [58] ++ pad 2 k.min ++ [58] ++ pad 2 k.sec ++ [46] ++ pad 6 k.usec

/-- The value of a `double` without its sign, as `m * 2 ^ e / 2 ^ f`; `none` if it is no number or infinite. -/
def magnitude (d : UInt64) : Option (Nat × Nat × Nat) :=
  let b := d.toNat % 2 ^ 63
  let x := b / 2 ^ 52
  let m := b % 2 ^ 52
  if x = 2047 then none
  else if x = 0 then some (m, 0, 1074)
  else if x < 1075 then some (m + 2 ^ 52, 0, 1075 - x) else some (m + 2 ^ 52, x - 1075, 0)

/-- The sign of a `double`. -/
def negative (d : UInt64) : Bool := 2 ^ 63 ≤ d.toNat

/-- `n / d`, rounded to the nearest, to the even one of two. -/
def roundDiv (n d : Nat) : Nat :=
  let q := n / d
  let r := n % d
  if 2 * r < d then q else if d < 2 * r then q + 1 else if q % 2 = 0 then q else q + 1

/-- Output of a `double` with ten digits behind the point: `/repo/src/database/postgresql/value.cpp:146-147`. -/
def fixed (d : UInt64) : Str :=
  let sign : Str := if negative d then [45] else []
  match magnitude d with
  | some (m, e, f) =>
    let n := roundDiv (m * 2 ^ e * 10 ^ 10) (2 ^ f)
    sign ++ Decimal.digits (n / 10 ^ 10) ++ [46] ++ zeros 10 (n % 10 ^ 10)
  | none => sign ++ if d.toNat % 2 ^ 52 = 0 then "inf".toUTF8.data.toList else "nan".toUTF8.data.toList

/-- `sql_to_str`, `/repo/src/database/postgresql/value.cpp:126-171`, for a value that is there. -/
def sqlToStr (z : Calendar.Zone) : Value → Except Err Str
  | .bool b => .ok (if b then "true".toUTF8.data.toList else "false".toUTF8.data.toList)
  | .string s => .ok s
  | .int32 n => .ok (Lexical.stringOfInt n)
  | .int64 n => .ok (Lexical.stringOfInt n)
  | .float d => .ok (fixed d)
  | .timestamp t => match Calendar.ofClock z t with | some k => .ok (stamp k) | none => .error .ub
  | .unknown s => .ok s

/-- One parameter of `PQexecPrepared`, `/repo/src/database/postgresql/statement.cpp:82-92`: a C string, or null. The lengths are not used for texts. -/
def param (z : Calendar.Zone) : Ptr → Except Err (Option Str)
  | none => .ok none
  | some v => match sqlToStr z v with | .ok s => .ok (some (cstr s)) | .error e => .error e

/-- The parameters of `PQexecPrepared`, `/repo/src/database/postgresql/statement.cpp:77-92`. -/
def params (z : Calendar.Zone) : List Ptr → Except Err (List (Option Str))
  | [] => .ok []
  | p :: ps =>
    match param z p with
    | .error e => .error e
    | .ok s => match params z ps with | .error e => .error e | .ok ss => .ok (s :: ss)

/-! ### Texts as values -/

/-- The types of values. -/
inductive Kind where
  | bool | int32 | int64 | string | float | timestamp | unknown
deriving DecidableEq

/-- `oid_to_sql_type`, `/repo/src/database/postgresql/value.cpp:51-75`, without what it prints; the numbers are in
`/repo/src/database/postgresql/types.h:39-79`. -/
def kindOf (oid : Nat) : Kind :=
  if oid = 16 then .bool
  else if oid = 20 then .int64
  else if oid = 21 ∨ oid = 23 then .int32
  else if oid = 25 ∨ oid = 1043 then .string
  else if oid = 700 ∨ oid = 701 then .float
  else if oid = 1114 then .timestamp
  else .unknown

/-- Further digits of a number for `strptime`: at most `n`, and as long as the number cannot be too large. -/
def more : (n hi v : Nat) → Str → Nat × Str
  | 0, _, v, s => (v, s)
  | _ + 1, _, v, [] => (v, [])
  | n + 1, hi, v, c :: s => if v * 10 ≤ hi ∧ Decimal.isDigit c then more n hi (v * 10 + (c.toNat - 48)) s else (v, c :: s)

/-- A number of at most `n` digits for `strptime`. -/
def getNumber (lo hi n : Nat) (s : Str) : Option (Nat × Str) :=
  match s.dropWhile (· = 32) with
  | [] => none
  | c :: r =>
    if Decimal.isDigit c then
      let m := more (n - 1) hi (c.toNat - 48) r
      if lo ≤ m.1 ∧ m.1 ≤ hi then some m else none
    else none

/-- A character for `strptime`. -/
def expect (c : UInt8) : Str → Option Str
  | [] => none
  | x :: s => if x = c then some s else none

/-- `strptime` with `"%Y-%m-%d %T."`: year, month, day, hour, minute, second, and the rest; `none` is the null pointer. -/
def strptime (s : Str) : Option ((Nat × Nat × Nat × Nat × Nat × Nat) × Str) := do
  let (y, s) ← getNumber 0 9999 4 s
  let s ← expect 45 s
  let (m, s) ← getNumber 1 12 2 s
  let s ← expect 45 s
  let (d, s) ← getNumber 1 31 2 s
  let s := s.dropWhile Lexical.isspace
  let (h, s) ← getNumber 0 23 2 s
  let s ← expect 58 s
  let (i, s) ← getNumber 0 59 2 s
  let s ← expect 58 s
  let (c, s) ← getNumber 0 61 2 s
  let s ← expect 46 s
  return ((y, m, d, h, i, c), s)

/-- `atoi`: the digits in front, after white space and a sign; undefined if the number is no `int`. -/
def atoi (s : Str) : Option Int :=
  let s := s.dropWhile Lexical.isspace
  let neg := s.head? = some 45
  let s := if s.head? = some 45 ∨ s.head? = some 43 then s.tail else s
  let v : Int := Decimal.value (s.takeWhile Decimal.isDigit)
  Clock.chk (if neg then -v else v)

/-- What `make_sql_value` is given: what the memory of `isdst` of a new `calendar_time` holds (nothing, by the rules of the language), the time zone,
`mktime`, and `lexical_cast<double>`. -/
structure Env where
  memory : Option Bool := none
  zone : Calendar.Zone
  mktime : Calendar.Tm → Int
  double : Str → Option UInt64

/-- `make_sql_value` for a time, `/repo/src/database/postgresql/value.cpp:105-112`. `atoi` of the null pointer is undefined. -/
def makeTime (env : Env) (s : Str) : Option Clock.T := do
  let ((y, m, d, h, i, c), q) ← strptime s
  let usec ← atoi q
  let ct ← Calendar.makeIn env.memory env.zone env.mktime y m d h i c usec
  Calendar.toClock env.mktime ct

/-- `make_sql_value`, `/repo/src/database/postgresql/value.cpp:77-117`. The server's texts are followed by a 0 and, but for strings, have none inside. -/
def makeValue (env : Env) (s : Str) : Kind → Except Err Value
  | .bool => .ok (.bool (s.head? = some 116 || s.head? = some 84 || s.head? = some 121 || s.head? = some 89 || s.head? = some 49))
  | .string => .ok (.string s)
  | .int32 => match Lexical.intOfString Lexical.int32 (cstr s) with | some n => .ok (.int32 n) | none => .error .badCast
  | .int64 => match Lexical.intOfString Lexical.int64 (cstr s) with | some n => .ok (.int64 n) | none => .error .badCast
  | .float => match env.double (cstr s) with | some d => .ok (.float d) | none => .error .badCast
  | .timestamp => match makeTime env (cstr s) with | some t => .ok (.timestamp t) | none => .error .ub
  | .unknown => .ok (.unknown s)

/-- `str_to_sql`, `/repo/src/database/postgresql/value.cpp:119-124`; `none` is NULL. -/
def strToSql (env : Env) (oid : Nat) : Option Str → Except Err Ptr
  | none => .ok none
  | some s => match makeValue env s (kindOf oid) with | .ok v => .ok (some v) | .error e => .error e

/-! ### Results -/

/-- What the server answers with: the types of the columns, and the rows. -/
structure Table where
  types : List Nat
  rows : List (List (Option Str))
deriving DecidableEq

/-- `postgresql_result`, `/repo/src/database/postgresql/result.h:58-64`: `none` if the answer has no rows at all, as to a command. -/
structure Result where
  table : Option Table
  cur : Nat := 0
deriving DecidableEq

/-- `row_num`, `/repo/src/database/postgresql/result.cpp:49-57`. -/
def Result.rowNum (r : Result) : Nat := match r.table with | some t => t.rows.length | none => 0

/-- The loop of `fetch_row`, `/repo/src/database/postgresql/result.cpp:83-88`. `PQgetvalue` of a column that is not there is null. -/
def readRow (env : Env) : List Nat → List (Option Str) → Except Err (List Ptr)
  | [], _ => .ok []
  | _ :: _, [] => .error .ub
  | t :: ts, c :: cs =>
    match strToSql env t c with
    | .error e => .error e
    | .ok v => match readRow env ts cs with | .error e => .error e | .ok vs => .ok (v :: vs)

/-- `postgresql_result::fetch_row`, `/repo/src/database/postgresql/result.cpp:76-92`: `none` is `false`. -/
def Result.fetchRow (env : Env) (r : Result) : Except Err (Option (List Ptr)) × Result :=
  if r.rowNum ≤ r.cur then (.ok none, r)
  else
    match r.table with
    | none => (.ok none, r)
    | some t =>
      match readRow env t.types ((t.rows[r.cur]?).getD []) with
      | .error e => (.error e, r)
      | .ok vs => (.ok (some vs), { r with cur := r.cur + 1 })

/-- `postgresql_statement`: the result of the last execution, if there was one. Nothing ties it to its query but that this was prepared on the
connection, `/repo/src/database/postgresql/statement.cpp:61-69`. -/
structure Statement where
  res : Option Result := none
deriving DecidableEq

/-- `postgresql_statement::execute`, `/repo/src/database/postgresql/statement.cpp:75-109`, on a connection: `false` is a `database_error`. -/
def Statement.execute {δ : Type} (st : Statement) (e : Transact.Engine δ (List (Option Str)) Table) (net : Nat → Transact.Fate) (z : Calendar.Zone)
    (args : List Ptr) (s : Transact.Pg.Conn δ) : Except Err Bool × Statement × Transact.Pg.Conn δ :=
  match params z args with
  | .error x => (.error x, st, s)
  | .ok ps =>
    match Transact.Pg.executeStatement e net ps s with
    | (none, s) => (.ok false, st, s)
    | (some t, s) => (.ok true, ⟨some ⟨t, 0⟩⟩, s)

/-- `postgresql_statement::fetch_row`, `/repo/src/database/postgresql/statement.cpp:111-115`. -/
def Statement.fetchRow (env : Env) (st : Statement) : Except Err (Option (List Ptr)) × Statement :=
  match st.res with
  | none => (.ok none, st)
  | some r => let x := r.fetchRow env; (x.1, ⟨some x.2⟩)

/-- `fetch_row`, `n` times. -/
def Statement.fetchMany (env : Env) : Nat → Statement → List (Except Err (Option (List Ptr)))
  | 0, _ => []
  | n + 1, st => (st.fetchRow env).1 :: Statement.fetchMany env n (st.fetchRow env).2

end Verif.Postgres
