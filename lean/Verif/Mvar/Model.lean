import Verif.Monitor.Model
/-!
# Model of `pfi::concurrent::mvar`

Source: `/repo/src/concurrent/mvar.h`. The mutex is recursive and the
condition is shared by all operations.
-/
namespace Verif.Mvar
open Verif.Monitor

/-- Operations. -/
inductive Op (α : Type)
  | take | put (v : α) | read | tryTake | tryPut (v : α) | swap (v : α) | empty
deriving Repr, DecidableEq

/-- Results. `failed` is `false` returned by `try_take`/`try_put`. -/
inductive Res (α : Type)
  | none | value (v : α) | failed | bool (b : Bool)
deriving Repr, DecidableEq

variable {α : Type}

/-- The loop of `take`, `put` and `read` (`/repo/src/concurrent/mvar.h:58-59`,
`72-73`, `84-85`). `swap` waits in the `take` it calls
(`/repo/src/concurrent/mvar.h:125`). -/
def guard : Op α → Option α → Bool
  | .take, s => s.isSome
  | .put _, s => s.isNone
  | .read, s => s.isSome
  | .swap _, s => s.isSome
  | _, _ => true

/-- `take` after the loop (`/repo/src/concurrent/mvar.h:60-61`). -/
def takeBody (s : Option α) : Option α × Res α :=
  match s with
  | some v => (Option.none, .value v)
  | none => (s, .none)

/-- `put` after the loop (`/repo/src/concurrent/mvar.h:74`). -/
def putBody (v : α) (_ : Option α) : Option α × Res α := (some v, .none)

/-- The critical sections. `swap` (`/repo/src/concurrent/mvar.h:120-131`)
calls `take` and `put` while it holds the recursive mutex, so that nothing
runs between them; `Props.swap_put_does_not_wait` shows that the loop of that
`put` ends at once. -/
def body : Op α → Option α → Option α × Res α
  | .take, s => takeBody s
  | .put v, s => putBody v s
  | .read, s => match s with
    | some v => (s, .value v)
    | none => (s, .none)
  | .tryTake, s => match s with
    | some _ => takeBody s
    | none => (s, .failed)
  | .tryPut v, s => match s with
    | some _ => (s, .failed)
    | none => putBody v s
  | .swap v, s => ((putBody v (takeBody s).1).1, (takeBody s).2)
  | .empty, s => (s, .bool s.isNone)

/-- Which operations call `notify_all`
(`/repo/src/concurrent/mvar.h:64`, `77`, `103`, `116`, `129`); `read`,
`empty` and failed attempts do not (`86`, `98`, `112`, `137`). -/
def notifies : Op α → Option α → Bool
  | .take, _ => true
  | .put _, _ => true
  | .read, _ => false
  | .tryTake, s => s.isSome
  | .tryPut _, s => s.isNone
  | .swap _, _ => true
  | .empty, _ => false

/-- `mvar<T>`; there are no timed operations. -/
def obj (α : Type) : Obj (Option α) (Op α) (Res α) := ⟨guard, body, notifies, fun _ => .none⟩

end Verif.Mvar
