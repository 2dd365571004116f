/-! Model of `/repo/src/data/optional.h`: objects holding an owning pointer, over an explicit heap. -/

namespace Verif.Optional

variable {T : Type}

/-- The program state: `ptr x` is the member `dat` of the optional variable `x` (`none` = `NULL`), `heap a` the object at
address `a` (`none` = not allocated), `next` the next address `new` returns. -/
structure State (T : Type) where
  ptr : Nat → Option Nat
  heap : Nat → Option T
  next : Nat

/-- Function update. -/
def upd {β : Type} (f : Nat → β) (a : Nat) (b : β) : Nat → β := fun x => if x = a then b else f x

/-- `new T(v)`: a fresh address. -/
def alloc (s : State T) (v : T) : Nat × State T := (s.next, { s with heap := upd s.heap s.next (some v), next := s.next + 1 })

/-- `delete dat`, `/repo/src/data/optional.h:64`; `none` = undefined behaviour (pointer not allocated). -/
def delete (s : State T) : Option Nat → Option (State T)
  | none => some s
  | some a => match s.heap a with
    | some _ => some { s with heap := upd s.heap a none }
    | none => none

/-- `optional(const optional &r)`, `/repo/src/data/optional.h:54-56`: the new `dat`. -/
def copyCtor (s : State T) (r : Option Nat) : Option (Option Nat × State T) :=
  match r with
  | none => some (none, s)
  | some a => match s.heap a with
    | some v => let (b, s') := alloc s v; some (some b, s')
    | none => none

/-- `operator=(const optional &)`, `/repo/src/data/optional.h:67-71`: copy, swap, destroy the temporary. -/
def assign (s : State T) (x y : Nat) : Option (State T) :=
  match copyCtor s (s.ptr y) with
  | none => none
  | some (d, s') =>
    let old := s'.ptr x
    delete { s' with ptr := upd s'.ptr x d } old

/-- `operator=(const T &)`, `/repo/src/data/optional.h:80-88`. -/
def assignVal (s : State T) (x : Nat) (v : T) : Option (State T) :=
  match s.ptr x with
  | some a => match s.heap a with
    | some _ => some { s with heap := upd s.heap a (some v) }
    | none => none
  | none => let (b, s') := alloc s v; some { s' with ptr := upd s'.ptr x (some b) }

/-- `*x = v` through `operator*`, `/repo/src/data/optional.h:94`. -/
def write (s : State T) (x : Nat) (v : T) : Option (State T) :=
  match s.ptr x with
  | some a => match s.heap a with
    | some _ => some { s with heap := upd s.heap a (some v) }
    | none => none
  | none => none

/-- Reading `*x`. -/
def read (s : State T) (x : Nat) : Option T :=
  match s.ptr x with
  | some a => s.heap a
  | none => none

/-- `bool_test`, `/repo/src/data/optional.h:90-92`. -/
def boolTest (s : State T) (x : Nat) : Bool := (s.ptr x).isSome

/-- `swap`, `/repo/src/data/optional.h:98-100`. -/
def swap (s : State T) (x y : Nat) : State T := { s with ptr := upd (upd s.ptr x (s.ptr y)) y (s.ptr x) }

/-- The variable goes out of scope (`/repo/src/data/optional.h:63-65`) and is default-constructed again (46-48). -/
def renew (s : State T) (x : Nat) : Option (State T) := (delete s (s.ptr x)).map (fun s => { s with ptr := upd s.ptr x none })

/-- Operations of a client program. -/
inductive Op (T : Type) where
  | assign (x y : Nat)
  | assignVal (x : Nat) (v : T)
  | write (x : Nat) (v : T)
  | swap (x y : Nat)
  | renew (x : Nat)

/-- One operation; `none` = undefined behaviour. -/
def step (s : State T) : Op T → Option (State T)
  | .assign x y => assign s x y
  | .assignVal x v => assignVal s x v
  | .write x v => write s x v
  | .swap x y => some (swap s x y)
  | .renew x => renew s x

/-- All variables default-constructed. -/
def init : State T := ⟨fun _ => none, fun _ => none, 0⟩

/-- A history. -/
def run (s : State T) : List (Op T) → Option (State T)
  | [] => some s
  | op :: ops => match step s op with
    | some s' => run s' ops
    | none => none

/-- `operator==`, `/repo/src/data/optional.h:106-113`. -/
def eq (teq : T → T → Bool) (r s : Option T) : Bool :=
  match r with
  | none => s.isNone
  | some a => match s with | some b => teq a b | none => false

/-- `operator!=`, `/repo/src/data/optional.h:115-119`. -/
def ne (teq : T → T → Bool) (r s : Option T) : Bool := !eq teq r s

/-- `operator<`, `/repo/src/data/optional.h:121-128`. -/
def lt (tlt : T → T → Bool) (r s : Option T) : Bool :=
  match r with
  | none => s.isSome
  | some a => match s with | some b => tlt a b | none => false

/-- `operator>`, `/repo/src/data/optional.h:130-134`. -/
def gt (tlt : T → T → Bool) (r s : Option T) : Bool := lt tlt s r
/-- `operator<=`, `/repo/src/data/optional.h:136-140`. -/
def le (tlt : T → T → Bool) (r s : Option T) : Bool := !lt tlt s r
/-- `operator>=`, `/repo/src/data/optional.h:142-146`. -/
def ge (tlt : T → T → Bool) (r s : Option T) : Bool := !lt tlt r s

end Verif.Optional
