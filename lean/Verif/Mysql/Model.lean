import Verif.Sql.Model
/-!
# Arguments and rows of MySQL

`/repo/src/database/mysql/value.cpp`, and `execute` and `fetch_row` of `/repo/src/database/mysql/statement.cpp`. The client library is modelled as far as
it fills and reads the buffers of `MYSQL_BIND`; bytes are in the order of a little-endian machine.
-/
namespace Verif.Mysql
open Verif Verif.Sql

/-- `MYSQL_TIME`; the members are unsigned. -/
structure MTime where
  year : Nat := 0
  month : Nat := 0
  day : Nat := 0
  hour : Nat := 0
  minute : Nat := 0
  second : Nat := 0
  neg : Bool := false
  second_part : Nat := 0
deriving DecidableEq

/-- The numbers of the types in `mysql.h`. -/
def tDecimal : Nat := 0
@[inherit_doc tDecimal] def tTiny : Nat := 1
@[inherit_doc tDecimal] def tShort : Nat := 2
@[inherit_doc tDecimal] def tLong : Nat := 3
@[inherit_doc tDecimal] def tFloat : Nat := 4
@[inherit_doc tDecimal] def tDouble : Nat := 5
@[inherit_doc tDecimal] def tNull : Nat := 6
@[inherit_doc tDecimal] def tTimestamp : Nat := 7
@[inherit_doc tDecimal] def tLongLong : Nat := 8
@[inherit_doc tDecimal] def tDate : Nat := 10
@[inherit_doc tDecimal] def tTime : Nat := 11
@[inherit_doc tDecimal] def tDatetime : Nat := 12
@[inherit_doc tDecimal] def tBlob : Nat := 252
@[inherit_doc tDecimal] def tVarString : Nat := 253
@[inherit_doc tDecimal] def tString : Nat := 254

/-- The `k` bytes of an integer in memory. -/
def bytesOf : Nat → Nat → Str
  | 0, _ => []
  | k + 1, n => UInt8.ofNat (n % 256) :: bytesOf k (n / 256)

/-- The number that bytes are. -/
def natOf : Str → Nat
  | [] => 0
  | b :: bs => b.toNat + 256 * natOf bs

/-- The `k` bytes of a signed integer. -/
def bytesOfInt (k : Nat) (n : Int) : Str := bytesOf k (n % (2 ^ (8 * k) : Nat)).toNat

/-- The signed integer that `k` bytes are. -/
def intOf (k : Nat) (s : Str) : Int := if natOf s < 2 ^ (8 * k - 1) then natOf s else (natOf s : Int) - (2 ^ (8 * k) : Nat)

/-- The value of an `int` as `unsigned int` or `unsigned long`, of `w` bits. -/
def toUnsigned (w : Nat) (n : Int) : Nat := (n % (2 ^ w : Nat)).toNat

/-! ### Arguments -/

/-- `MYSQL_BIND` of an argument. `isNull` is `none` for a null pointer. -/
structure Bind where
  type : Nat := tDecimal
  data : Str := []
  time : MTime := {}
  length : Nat := 0
  isNull : Option Bool := some false
deriving DecidableEq

/-- `bind_length`, `/repo/src/database/mysql/value.cpp:98-120`, and the loop body of `execute`, `/repo/src/database/mysql/statement.cpp:116-122`, with `to_bind`,
`/repo/src/database/mysql/value.cpp:122-181`. A `MYSQL_TIME` is not given by its bytes. -/
def toBind (z : Calendar.Zone) : Ptr → Except Err Bind
  | none => .ok { isNull := none }
  | some (.bool b) => .ok { type := tLong, data := bytesOfInt 4 (if b then 1 else 0), length := 4 }
  | some (.string s) => .ok { type := tString, data := s, length := s.length }
  | some (.int32 n) => .ok { type := tLong, data := bytesOfInt 4 n, length := 4 }
  | some (.int64 n) => .ok { type := tLongLong, data := bytesOfInt 8 n, length := 8 }
  | some (.float d) => .ok { type := tDouble, data := bytesOf 8 d.toNat, length := 8 }
  | some (.timestamp t) =>
    match Calendar.ofClock z t with
    | none => .error .ub
    | some k => .ok { type := tTimestamp, length := 40, time := ⟨toUnsigned 32 k.year, toUnsigned 32 k.mon, toUnsigned 32 k.mday, toUnsigned 32 k.hour, toUnsigned 32 k.min,
        toUnsigned 32 k.sec, false, toUnsigned 64 k.usec⟩ }
  | some (.unknown _) => .error .database

/-- The loop of `execute`, `/repo/src/database/mysql/statement.cpp:115-123`. -/
def toBinds (z : Calendar.Zone) : List Ptr → Except Err (List Bind)
  | [] => .ok []
  | p :: ps =>
    match toBind z p with
    | .error e => .error e
    | .ok b => match toBinds z ps with | .error e => .error e | .ok bs => .ok (b :: bs)

/-- `execute` as far as `mysql_stmt_bind_param`, `/repo/src/database/mysql/statement.cpp:100-125`. -/
def bindArgs (z : Calendar.Zone) (paramCount : Nat) (args : List Ptr) : Except Err (List Bind) :=
  if paramCount ≠ args.length then .error .database else toBinds z args

/-- What the server is told by an argument. -/
inductive Told where
  | null
  | int (n : Int)
  | double (d : UInt64)
  | bytes (s : Str)
  | decimal (s : Str)
  | time (t : MTime)
deriving DecidableEq

/-- `mysql_stmt_bind_param` and `mysql_stmt_execute`: what is sent for a `MYSQL_BIND`; a null pointer for `is_null` means that it is not NULL; `none` is an
error, or that something outside of the buffer is read. -/
def sent (b : Bind) : Option Told :=
  if b.isNull = some true ∨ b.type = tNull then some .null
  else if b.data.length < b.length ∧ b.type ≠ tTimestamp then none
  else if b.type = tLong then some (.int (intOf 4 (b.data.take 4)))
  else if b.type = tLongLong then some (.int (intOf 8 (b.data.take 8)))
  else if b.type = tDouble then some (.double (UInt64.ofNat (natOf (b.data.take 8))))
  else if b.type = tString then some (.bytes (b.data.take b.length))
  else if b.type = tDecimal then some (.decimal (b.data.take b.length))
  else if b.type = tTimestamp then some (.time b.time)
  else none

/-! ### Rows -/

/-- What the server sends for a column of a row; a `float` is given by its bits. -/
inductive Cell where
  | null
  | int (n : Int)
  | float (f : UInt32)
  | double (d : UInt64)
  | bytes (s : Str)
  | time (t : MTime)
deriving DecidableEq

/-- `MYSQL_BIND` of a column, with its buffer, length and flag: `/repo/src/database/mysql/statement.cpp:160-170`. -/
structure Col where
  type : Nat
  data : Str
  time : MTime := {}
  length : Nat := 0
  null : Bool := false
deriving DecidableEq

/-- `INIT_BUF_SIZE`, `/repo/src/database/mysql/statement.cpp:150`. -/
def initBufSize : Nat := 16 * 1024

/-- A new column, `/repo/src/database/mysql/statement.cpp:155-170`. -/
def newCol (type : Nat) : Col := { type := type, data := List.replicate initBufSize 0 }

/-- The bytes by which the client library gives a cell to a column of a type. -/
def raw (type : Nat) : Cell → Str
  | .int n => bytesOfInt (if type = tTiny then 1 else if type = tShort then 2 else if type = tLong then 4 else 8) n
  | .float f => bytesOf 4 f.toNat
  | .double d => bytesOf 8 d.toNat
  | .bytes s => s
  | _ => []

/-- The client library fills the buffer as far as it goes, and gives the whole length; for NULL it sets only the flag. -/
def fill (c : Col) : Cell → Col
  | .null => { c with null := true }
  | .time t => { c with null := false, time := t }
  | x => { c with null := false, length := (raw c.type x).length, data := (raw c.type x).take c.data.length ++ c.data.drop (raw c.type x).length }

/-- The part of `fetch_row` behind `MYSQL_DATA_TRUNCATED`, `/repo/src/database/mysql/statement.cpp:179-189`. -/
def grow (c : Col) (x : Cell) : Col :=
  if c.data.length < c.length then fill { c with data := c.data ++ List.replicate (c.length + 1 - c.data.length) 0 } x else c

/-- Whether something has not found room, so that `mysql_stmt_fetch` returns `MYSQL_DATA_TRUNCATED`. -/
def truncated (c : Col) (x : Cell) : Bool :=
  match x with
  | .null => false
  | .time _ => false
  | x => c.data.length < (raw c.type x).length

/-- What `from_bind` is given besides: what the memory of `isdst` of a new `calendar_time` holds (nothing, by the rules of the language), the time zone,
`mktime`, and the conversion of `float` to `double`. -/
structure Env where
  memory : Option Bool := none
  zone : Calendar.Zone
  mktime : Calendar.Tm → Int
  widen : UInt32 → UInt64

/-- `(int)x` for an `unsigned`. -/
def toInt (n : Nat) : Int := if n % 2 ^ 32 < 2 ^ 31 then (n % 2 ^ 32 : Nat) else ((n % 2 ^ 32 : Nat) : Int) - (2 ^ 32 : Nat)

/-- `from_bind`, `/repo/src/database/mysql/value.cpp:44-96`. -/
def fromBind (env : Env) (c : Col) : Except Err Ptr :=
  if c.null then .ok none
  else if c.type = tTiny then .ok (some (.int32 (intOf 1 (c.data.take 1))))
  else if c.type = tShort then .ok (some (.int32 (intOf 2 (c.data.take 2))))
  else if c.type = tLong then .ok (some (.int32 (intOf 4 (c.data.take 4))))
  else if c.type = tLongLong then .ok (some (.int64 (intOf 8 (c.data.take 8))))
  else if c.type = tFloat then .ok (some (.float (env.widen (UInt32.ofNat (natOf (c.data.take 4))))))
  else if c.type = tDouble then .ok (some (.float (UInt64.ofNat (natOf (c.data.take 8)))))
  else if c.type = tTime ∨ c.type = tDate ∨ c.type = tDatetime ∨ c.type = tTimestamp then
    match (Calendar.makeIn env.memory env.zone env.mktime (toInt c.time.year) (toInt c.time.month) (toInt c.time.day) (toInt c.time.hour) (toInt c.time.minute)
      (toInt c.time.second) (toInt c.time.second_part)).bind (Calendar.toClock env.mktime) with
    | some t => .ok (some (.timestamp t))
    | none => .error .ub
  else if c.type = tString ∨ c.type = tBlob then if c.length ≤ c.data.length then .ok (some (.string (c.data.take c.length))) else .error .ub
  else if c.type = tNull then .ok none
  else .error .database

/-- The loop of `fetch_row`, `/repo/src/database/mysql/statement.cpp:201-202`. -/
def fromBinds (env : Env) : List Col → Except Err (List Ptr)
  | [] => .ok []
  | c :: cs =>
    match fromBind env c with
    | .error e => .error e
    | .ok v => match fromBinds env cs with | .error e => .error e | .ok vs => .ok (v :: vs)

/-- A statement that has been executed: `flds`, `binds` (empty at first), and the rows that the server has not sent yet. -/
structure Stmt where
  flds : List Nat
  binds : List Col := []
  rows : List (List Cell)
deriving DecidableEq

/-- `fetch_row`, `/repo/src/database/mysql/statement.cpp:148-205`; `none` is `false`. If the statement has no columns, `mysql_stmt_fetch` fails. -/
def Stmt.fetchRow (env : Env) (s : Stmt) : Except Err (Option (List Ptr)) × Stmt :=
  let binds := if s.binds.length = 0 then s.flds.map newCol else s.binds
  if s.flds = [] then (.error .database, s)
  else
    match s.rows with
    | [] => (.ok none, { s with binds := binds })
    | row :: rows =>
      let filled := List.zipWith fill binds row
      let rc := (List.zipWith truncated binds row).any id
      let final := if rc then List.zipWith grow filled row else filled
      let s' := { s with binds := final, rows := rows }
      match fromBinds env final with
      | .error e => (.error e, s')
      | .ok vs => (.ok (some vs), s')

/-- `fetch_row`, `n` times. -/
def Stmt.fetchMany (env : Env) : Nat → Stmt → List (Except Err (Option (List Ptr)))
  | 0, _ => []
  | n + 1, st => (st.fetchRow env).1 :: Stmt.fetchMany env n (st.fetchRow env).2

end Verif.Mysql
