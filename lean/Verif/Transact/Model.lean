/-!
# Transactions

`committer` of `/repo/src/database/util.h`, on the connections of `/repo/src/database/postgresql/connection.cpp` and
`/repo/src/database/mysql/connection.cpp`. The servers and their client libraries are modelled as far as transactions go: what a statement does to the
data is any function, and each call may be refused, or lose the connection before or after the server has done what it was told.
-/
namespace Verif.Transact

/-- What becomes of a call to the server. -/
inductive Fate where
  | fine
  | refused
  | lostBefore
  | lostAfter
deriving DecidableEq

/-- The statements of the server: which texts are SQL, and what they do to the data; `none` is an error. -/
structure Engine (δ α ρ : Type) where
  parses : String → Bool
  run : δ → String → α → Option (δ × Option ρ)
  noArgs : α

/-- The texts that begin and end transactions. -/
def control (q : String) : Bool := q = "BEGIN" || q = "COMMIT" || q = "ROLLBACK"

/-- How a block ends: at its end, with an exception, or with `std::terminate`. -/
inductive Outcome where
  | done
  | thrown
  | terminated
deriving DecidableEq

/-- `transaction(conn) { body }`: `/repo/src/database/util.h:50-63` and `:74-75`. If the constructor throws there is no destructor. `unwinding` is whether
an exception is being thrown already when the block begins, as in a destructor. An exception that leaves the destructor while an exception is being
thrown ends the program. -/
def transaction {σ : Type} (begin_ commit rollback body : σ → Bool × σ) (unwinding : Bool) (s : σ) : Outcome × σ :=
  match begin_ s with
  | (false, s) => (.thrown, s)
  | (true, s) =>
    match body s with
    | (false, s) =>
      match rollback s with
      | (true, s) => (.thrown, s)
      | (false, s) => (.terminated, s)
    | (true, s) =>
      match (if unwinding then rollback s else commit s) with
      | (true, s) => (.done, s)
      | (false, s) => (.thrown, s)

/-- A body that runs statements; the exceptions of those with `true` are caught. -/
def bodyOf {σ α : Type} (run : String × α → σ → Bool × σ) : List ((String × α) × Bool) → σ → Bool × σ
  | [], s => (true, s)
  | (q, caught) :: qs, s =>
    match run q s with
    | (true, s) => bodyOf run qs s
    | (false, s) => if caught then bodyOf run qs s else (false, s)

namespace Pg

/-- A transaction on the server: none, one with the data it sees, or one with an error behind it. -/
inductive Tx (δ : Type) where
  | idle
  | active (d : δ)
  | failed
deriving DecidableEq

/-- A connection: the data that is committed, the transaction, the prepared statement without a name (the only one that the code uses), whether
`PQstatus` is `CONNECTION_OK`, and the number of calls so far. -/
structure Conn (δ : Type) where
  db : δ
  tx : Tx δ := .idle
  prepared : Option String := none
  good : Bool := true
  calls : Nat := 0

variable {δ α ρ : Type}

/-- The end of a connection: the server forgets the transaction and the statement, and the client library notes it. -/
def Conn.drop (s : Conn δ) : Conn δ := { s with tx := .idle, prepared := none, good := false }

/-- An error in a transaction. -/
def Conn.fail (s : Conn δ) : Conn δ := match s.tx with | .active _ => { s with tx := .failed } | _ => s

/-- `PQprepare` without a name. Behind an error, only the end of the transaction is accepted. -/
def prepare (e : Engine δ α ρ) (net : Nat → Fate) (q : String) (s : Conn δ) : Bool × Conn δ :=
  if s.good = false then (false, s)
  else
    let s' := { s with calls := s.calls + 1 }
    match net s.calls with
    | .fine =>
      match s'.tx with
      | .failed => if q = "COMMIT" ∨ q = "ROLLBACK" then (true, { s' with prepared := some q }) else (false, { s' with prepared := none })
      | _ => if control q ∨ e.parses q then (true, { s' with prepared := some q }) else (false, Conn.fail { s' with prepared := none })
    | .refused => (false, Conn.fail { s' with prepared := none })
    | .lostBefore => (false, s'.drop)
    | .lostAfter => (false, s'.drop)

/-- What the server does. `COMMIT` behind an error is a `ROLLBACK`, and no error. -/
def serverExec (e : Engine δ α ρ) (q : String) (a : α) (s : Conn δ) : Option (Option ρ) × Conn δ :=
  if q = "BEGIN" then
    match s.tx with
    | .idle => (some none, { s with tx := .active s.db })
    | .active _ => (some none, s)
    | .failed => (none, s)
  else if q = "COMMIT" then
    match s.tx with
    | .active d => (some none, { s with db := d, tx := .idle })
    | _ => (some none, { s with tx := .idle })
  else if q = "ROLLBACK" then (some none, { s with tx := .idle })
  else
    match s.tx with
    | .idle =>
      match e.run s.db q a with
      | some (d, r) => (some r, { s with db := d })
      | none => (none, s)
    | .active d =>
      match e.run d q a with
      | some (d', r) => (some r, { s with tx := .active d' })
      | none => (none, { s with tx := .failed })
    | .failed => (none, s)

/-- `PQexecPrepared` without a name. A `COMMIT` that is refused has rolled back. -/
def exec (e : Engine δ α ρ) (net : Nat → Fate) (a : α) (s : Conn δ) : Option (Option ρ) × Conn δ :=
  if s.good = false then (none, s)
  else
    let s' := { s with calls := s.calls + 1 }
    match net s.calls, s.prepared with
    | .fine, some q => serverExec e q a s'
    | .fine, none => (none, s'.fail)
    | .refused, some q => if q = "COMMIT" then (none, { s' with tx := .idle }) else (none, s'.fail)
    | .refused, none => (none, s'.fail)
    | .lostBefore, _ => (none, s'.drop)
    | .lostAfter, some q => (none, (serverExec e q a s').2.drop)
    | .lostAfter, none => (none, s'.drop)

/-- `postgresql_connection_impl::get`, `/repo/src/database/postgresql/connection_def.h:49`, with `reconnect`,
`/repo/src/database/postgresql/connection.cpp:75-84`: `false` is an exception. -/
def get (net : Nat → Fate) (s : Conn δ) : Bool × Conn δ :=
  if s.good then (true, s)
  else
    let s' := { s with calls := s.calls + 1 }
    match net s.calls with
    | .fine => (true, { s' with good := true, tx := .idle, prepared := none })
    | _ => (false, s')

/-- `postgresql_connection::prepare`, `/repo/src/database/postgresql/connection.cpp:117-120`, with the constructor of the statement,
`/repo/src/database/postgresql/statement.cpp:61-69`, without the conversion of the text. -/
def prepareStatement (e : Engine δ α ρ) (net : Nat → Fate) (q : String) (s : Conn δ) : Bool × Conn δ :=
  match get net s with
  | (false, s) => (false, s)
  | (true, s) => prepare e net q s

/-- `postgresql_statement::execute`, `/repo/src/database/postgresql/statement.cpp:94-107`: `none` is an exception. -/
def executeStatement (e : Engine δ α ρ) (net : Nat → Fate) (a : α) (s : Conn δ) : Option (Option ρ) × Conn δ :=
  match get net s with
  | (false, s) => (none, s)
  | (true, s) => exec e net a s

/-- `postgresql_connection::run`, `/repo/src/database/postgresql/connection.cpp:111-115`: `false` is an exception. -/
def run (e : Engine δ α ρ) (net : Nat → Fate) (q : String × α) (s : Conn δ) : Bool × Conn δ :=
  match prepareStatement e net q.1 s with
  | (false, s) => (false, s)
  | (true, s) =>
    match executeStatement e net q.2 s with
    | (some _, s) => (true, s)
    | (none, s) => (false, s)

/-- `begin_transaction`, `commit` and `rollback`, `/repo/src/database/postgresql/connection.cpp:96-109`. -/
def begin_ (e : Engine δ α ρ) (net : Nat → Fate) : Conn δ → Bool × Conn δ := run e net ("BEGIN", e.noArgs)
@[inherit_doc begin_] def commit (e : Engine δ α ρ) (net : Nat → Fate) : Conn δ → Bool × Conn δ := run e net ("COMMIT", e.noArgs)
@[inherit_doc begin_] def rollback (e : Engine δ α ρ) (net : Nat → Fate) : Conn δ → Bool × Conn δ := run e net ("ROLLBACK", e.noArgs)

/-- A transaction on a connection to PostgreSQL. -/
def transact (e : Engine δ α ρ) (net : Nat → Fate) (body : List ((String × α) × Bool)) (unwinding : Bool) (s : Conn δ) : Outcome × Conn δ :=
  transaction (begin_ e net) (commit e net) (rollback e net) (bodyOf (run e net) body) unwinding s

end Pg

namespace My

/-- A connection: the data that is committed, the data that the transaction sees if there is one, whether the connection stands, and whether the pointer
of `mysql_connection_impl` is not null. -/
structure Conn (δ : Type) where
  db : δ
  tx : Option δ := none
  up : Bool := true
  handle : Bool := true
  calls : Nat := 0

variable {δ α ρ : Type}

/-- The results of the client library that the code tells apart, a `connection_error`, a `database_error`, or undefined behaviour. -/
inductive Err where
  | lost
  | database
  | ub
deriving DecidableEq

/-- The end of a connection. -/
def Conn.drop (s : Conn δ) : Conn δ := { s with tx := none, up := false }

/-- What the server does with a text. An error does not end the transaction; `BEGIN` commits what is there. -/
def serverExec (e : Engine δ α ρ) (q : String) (a : α) (s : Conn δ) : Bool × Conn δ :=
  if q = "BEGIN" then
    let d := s.tx.getD s.db
    (true, { s with db := d, tx := some d })
  else if q = "COMMIT" then (true, { s with db := s.tx.getD s.db, tx := none })
  else if q = "ROLLBACK" then (true, { s with tx := none })
  else
    match s.tx with
    | none => match e.run s.db q a with | some (d, _) => (true, { s with db := d }) | none => (false, s)
    | some d => match e.run d q a with | some (d', _) => (true, { s with tx := some d' }) | none => (false, s)

/-- A call to the server that runs a text: `mysql_query`, or `mysql_stmt_execute`. -/
def call (e : Engine δ α ρ) (net : Nat → Fate) (q : String) (a : α) (s : Conn δ) : Except Err Unit × Conn δ :=
  if s.up = false then (.error .lost, s)
  else
    let s' := { s with calls := s.calls + 1 }
    match net s.calls with
    | .fine => match serverExec e q a s' with | (true, s) => (.ok (), s) | (false, s) => (.error .database, s)
    | .refused => if q = "COMMIT" then (.error .database, { s' with tx := none }) else (.error .database, s')
    | .lostBefore => (.error .lost, s'.drop)
    | .lostAfter => (.error .lost, (serverExec e q a s').2.drop)

/-- `mysql_stmt_prepare`. -/
def stmtPrepare (e : Engine δ α ρ) (net : Nat → Fate) (q : String) (s : Conn δ) : Except Err Unit × Conn δ :=
  if s.up = false then (.error .lost, s)
  else
    let s' := { s with calls := s.calls + 1 }
    match net s.calls with
    | .fine => if control q ∨ e.parses q then (.ok (), s') else (.error .database, s')
    | .refused => (.error .database, s')
    | _ => (.error .lost, s'.drop)

/-- `mysql_connection_impl::reconnect`, `/repo/src/database/mysql/connection.cpp:63-91`; if the connection stands, `mysql_ping` is 0. `false` is a
`connection_error`, and the pointer is null. -/
def reconnect (net : Nat → Fate) (s : Conn δ) : Bool × Conn δ :=
  if s.handle ∧ s.up then (true, s)
  else
    let s' := { s with calls := s.calls + 1 }
    match net s.calls with
    | .fine => (true, { s' with up := true, handle := true, tx := none })
    | _ => (false, { s' with up := false, handle := false, tx := none })

/-- `mysql_connection::query`, `/repo/src/database/mysql/connection.cpp:125-140`: `false` is an exception. The callers ignore the result. -/
def query (e : Engine δ α ρ) (net : Nat → Fate) (q : String) (s : Conn δ) : Bool × Conn δ :=
  match (if s.handle then (true, s) else reconnect net s) with
  | (false, s) => (false, s)
  | (true, s) =>
    match call e net q e.noArgs s with
    | (.error .lost, s) =>
      match reconnect net s with
      | (false, s) => (false, s)
      | (true, s) => (true, (call e net q e.noArgs s).2)
    | (_, s) => (true, s)

/-- `mysql_connection::prepare`, `/repo/src/database/mysql/connection.cpp:165-174`, with the constructor of the statement,
`/repo/src/database/mysql/statement.cpp:51-70`. `mysql_stmt_init` with a null pointer is undefined behaviour. -/
def prepareStatement (e : Engine δ α ρ) (net : Nat → Fate) (q : String) (s : Conn δ) : Except Err Unit × Conn δ :=
  if s.handle = false then (.error .ub, s)
  else
    match stmtPrepare e net q s with
    | (.error .lost, s) =>
      match reconnect net s with
      | (false, s) => (.error .lost, s)
      | (true, s) => stmtPrepare e net q s
    | r => r

/-- `mysql_statement::execute`, `/repo/src/database/mysql/statement.cpp:131-145`: it throws a `database_error` also if the connection is lost. -/
def executeStatement (e : Engine δ α ρ) (net : Nat → Fate) (q : String) (a : α) (s : Conn δ) : Except Err Unit × Conn δ :=
  match call e net q a s with
  | (.ok (), s) => (.ok (), s)
  | (.error _, s) => (.error .database, s)

/-- Preparing and executing, lines 154-155 and 161-162 of `/repo/src/database/mysql/connection.cpp:154-162`. -/
def runOnce (e : Engine δ α ρ) (net : Nat → Fate) (q : String × α) (s : Conn δ) : Except Err Unit × Conn δ :=
  match prepareStatement e net q.1 s with
  | (.error x, s) => (.error x, s)
  | (.ok (), s) => executeStatement e net q.1 q.2 s

/-- `mysql_connection::run`, `/repo/src/database/mysql/connection.cpp:147-163`. -/
def run (e : Engine δ α ρ) (net : Nat → Fate) (q : String × α) (s : Conn δ) : Except Err Unit × Conn δ :=
  match (if s.handle then (true, s) else reconnect net s) with
  | (false, s) => (.error .lost, s)
  | (true, s) =>
    match runOnce e net q s with
    | (.error .lost, s) =>
      match reconnect net s with
      | (false, s) => (.error .lost, s)
      | (true, s) => runOnce e net q s
    | r => r

/-- Whether there was no exception. -/
def fine (r : Except Err Unit × Conn δ) : Bool × Conn δ := (match r.1 with | .ok () => true | .error _ => false, r.2)

/-- A transaction on a connection to MySQL, `/repo/src/database/mysql/connection.cpp:110-123`. -/
def transact (e : Engine δ α ρ) (net : Nat → Fate) (body : List ((String × α) × Bool)) (unwinding : Bool) (s : Conn δ) : Outcome × Conn δ :=
  transaction (query e net "BEGIN") (query e net "COMMIT") (query e net "ROLLBACK") (bodyOf (fun q s => fine (run e net q s)) body) unwinding s

end My

end Verif.Transact
