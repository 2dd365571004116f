import Verif.Descr.Model
/-! What it means that descriptors are neither leaked nor mixed up. -/

namespace Verif.Descr.Spec
open Verif.Descr

/-- The descriptor that an object is responsible for. -/
def held : Obj → Option Nat
  | .sock fd | .stream fd | .client fd => fd
  | .net s => s.fd
  | .srv s => if s.connected then s.fd else none
  | .gone => none

/-- Object `i` is responsible for descriptor `n`. -/
def Holds (st : State) (i n : Nat) : Prop := ∃ o, st.objs[i]? = some o ∧ held o = some n

/-- No system call was made on a wrong descriptor; the open descriptors of the program are those that its objects are responsible for; and no two objects have the same. -/
structure Tidy (st : State) : Prop where
  harmless : st.w.harm = false
  kept : ∀ n, st.w.table n = some .mine ↔ ∃ i, Holds st i n
  apart : ∀ i j n, Holds st i n → Holds st j n → i = j

/-- The program does not call `create` of a `server_socket` that is listening already. -/
def Careful (k : Kernel) : List Cmd → State → Prop
  | [], _ => True
  | c :: cs, st => (∀ i p s, c = .create i p → st.objs[i]? = some (.srv s) → s.connected = false) ∧ Careful k cs (step k st c)

/-- The program calls `accept` of a `server_socket`. -/
def Accepting (k : Kernel) : List Cmd → State → Prop
  | [], _ => False
  | c :: cs, st => (∃ i t s, c = .accept i t ∧ st.objs[i]? = some (.srv s)) ∨ Accepting k cs (step k st c)

end Verif.Descr.Spec
