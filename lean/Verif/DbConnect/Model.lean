import Verif.Decimal
/-!
# Opening and closing database connections

`/repo/src/database/postgresql/connection.cpp` and
`/repo/src/database/mysql/connection.cpp`: the parameters of `connect`, and
the handles of the client libraries. Statements and transactions are in
`Verif.Transact`.
-/
namespace Verif.DbConnect

abbrev Str := List UInt8

/-- The bytes of a text. -/
def ascii (s : String) : Str := s.toList.map (fun c => UInt8.ofNat c.toNat)

/-- `c_str()` as read by a C function. -/
def cstr (s : Str) : Str := s.takeWhile (· ≠ 0)

/-- The text made by `connect(host, port, dbname, user, password)` for
PostgreSQL, `/repo/src/database/postgresql/connection.cpp:133-139`. -/
def conninfo (host : Str) (port : UInt16) (dbname user password : Str) : Str :=
  ascii "host=" ++ host ++ ascii " " ++
  (ascii "port=" ++ Decimal.digits port.toNat ++ ascii " ") ++
  (ascii "dbname=" ++ dbname ++ ascii " ") ++
  (ascii "user=" ++ user ++ ascii " ") ++
  (ascii "password=" ++ password)

/-- What `PQconnectdb` is given, `/repo/src/database/postgresql/connection.cpp:56,86-87,122-125`. -/
def pgConnect (host : Str) (port : UInt16) (dbname user password : Str) : Str := cstr (conninfo host port dbname user password)

/-- The parameters of `mysql_real_connect`, in its order. -/
structure MyParams where
  host : Str
  user : Str
  passwd : Str
  db : Str
  port : UInt16
deriving DecidableEq

/-- `mysql_connection_impl`: what is kept and passed on,
`/repo/src/database/mysql/connection.cpp:45-53,76-83,93-100`. -/
def myImpl (host user passwd db : Str) (port : UInt16) : MyParams := ⟨cstr host, cstr user, cstr passwd, cstr db, port⟩

/-- `connect(host, port, dbname, user, password)` for MySQL,
`/repo/src/database/mysql/connection.cpp:176-183`. -/
def myConnect (host : Str) (port : UInt16) (dbname user password : Str) : MyParams := myImpl host user password dbname port

/-! ### Handles -/

/-- The client library: which handles are open, the next one, and whether
one was used or closed that was not open. -/
structure Lib where
  alive : List Nat := []
  next : Nat := 0
  misused : Bool := false
deriving DecidableEq, Repr

/-- A new handle. -/
def Lib.new (l : Lib) : Nat × Lib := (l.next, { l with alive := l.next :: l.alive, next := l.next + 1 })

/-- Use of a handle. -/
def Lib.use (l : Lib) (h : Nat) : Lib := if h ∈ l.alive then l else { l with misused := true }

/-- Closing a handle. -/
def Lib.close (l : Lib) (h : Nat) : Lib := if h ∈ l.alive then { l with alive := l.alive.erase h } else { l with misused := true }

/-- How making a handle and connecting it goes. -/
inductive Luck where
  | noHandle
  | refused
  | good
deriving DecidableEq, Repr

/-- The constructor of `postgresql_connection_impl`,
`/repo/src/database/postgresql/connection.cpp:50-65`: `none` is an exception,
after which there is no object and no destructor. -/
def pgNew (threadsafe : Bool) (luck : Luck) (l : Lib) : Option Nat × Lib :=
  if !threadsafe then (none, l)
  else
    match luck with
    | .noHandle => (none, l)
    | .refused =>
      let (h, l) := l.new
      (none, (l.use h).close h)
    | .good =>
      let (h, l) := l.new
      (some h, l.use h)

/-- `reconnect`, `/repo/src/database/postgresql/connection.cpp:75-84`: whether
the connection was still good, and whether resetting it helped. `false` is an exception. -/
def pgReconnect (good again : Bool) (h : Nat) (l : Lib) : Bool × Lib :=
  let l := l.use h
  if good then (true, l)
  else
    let l := (l.use h).use h
    (again, l)

/-- The destructor, `/repo/src/database/postgresql/connection.cpp:67-73`. -/
def pgDelete (h : Nat) (l : Lib) : Lib := l.close h

/-- `mysql_connection_impl::reconnect`,
`/repo/src/database/mysql/connection.cpp:63-91`: `ping` is whether the handle
still works. The handle afterwards, and whether there was no exception. -/
def myReconnect (ping : Bool) (luck : Luck) (conn : Option Nat) (l : Lib) : Bool × Option Nat × Lib :=
  let open_ (l : Lib) : Bool × Option Nat × Lib :=
    match luck with
    | .noHandle => (false, none, l)
    | .refused =>
      let (c, l) := l.new
      (false, none, ((l.use c).use c).close c)
    | .good =>
      let (c, l) := l.new
      (true, some c, l.use c)
  match conn with
  | some h =>
    let l := l.use h
    if ping then (true, some h, l) else open_ (l.close h)
  | none => open_ l

/-- The constructor, `/repo/src/database/mysql/connection.cpp:45-53`. If `reconnect` throws there is no object: the handle is whatever is in
`conn`, and nobody closes it. -/
def myNew (luck : Luck) (l : Lib) : Option (Option Nat) × Lib :=
  match myReconnect false luck none l with
  | (true, conn, l) => (some conn, l)
  | (false, _, l) => (none, l)

/-- The destructor, `/repo/src/database/mysql/connection.cpp:55-61`. -/
def myDelete (conn : Option Nat) (l : Lib) : Lib :=
  match conn with
  | some h => l.close h
  | none => l

end Verif.DbConnect
