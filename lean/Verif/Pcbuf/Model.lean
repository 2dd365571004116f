import Verif.Monitor.Model
/-!
# Model of `pfi::concurrent::pcbuf`

Source: `/repo/src/concurrent/pcbuf.h`. A bounded queue guarded by a plain
mutex and one condition.
-/
namespace Verif.Pcbuf
open Verif.Monitor

/-- Operations; `pushFor`/`popFor` are the timed ones. -/
inductive Op (α : Type)
  | push (v : α) | pushFor (v : α) | pop | popFor | clear | size | empty
deriving Repr, DecidableEq

/-- Results; `timeout` is `false` returned by a timed operation. -/
inductive Res (α : Type)
  | none | value (v : α) | timeout | num (n : Nat) | bool (b : Bool)
deriving Repr, DecidableEq

variable {α : Type}

/-- The loops (`/repo/src/concurrent/pcbuf.h:90`, `103`, `119`, `133`). -/
def guard (cap : Nat) : Op α → List α → Bool
  | .push _, q => decide (q.length < cap)
  | .pushFor _, q => decide (q.length < cap)
  | .pop, q => !q.isEmpty
  | .popFor, q => !q.isEmpty
  | _, _ => true

/-- `q.front(); q.pop_front()` (`/repo/src/concurrent/pcbuf.h:121-122`,
`138-139`). -/
def popBody : List α → List α × Res α
  | [] => ([], .none)
  | v :: q => (q, .value v)

/-- The critical sections: `q.push_back(value)`
(`/repo/src/concurrent/pcbuf.h:92`, `108`), the two pops, `clear` (`81`),
`size` (`59`), `empty` (`72`). -/
def body : Op α → List α → List α × Res α
  | .push v, q => (q ++ [v], .none)
  | .pushFor v, q => (q ++ [v], .none)
  | .pop, q => popBody q
  | .popFor, q => popBody q
  | .clear, _ => ([], .none)
  | .size, q => (q, .num q.length)
  | .empty, q => (q, .bool q.isEmpty)

/-- `notify_all` (`/repo/src/concurrent/pcbuf.h:83`, `95`, `111`, `125`,
`142`); not in `size` and `empty`. -/
def notifies : Op α → List α → Bool
  | .size, _ => false
  | .empty, _ => false
  | _, _ => true

/-- Timed operations return false when time is up
(`/repo/src/concurrent/pcbuf.h:105-106`, `135-136`). -/
def expired : Op α → Option (Res α)
  | .pushFor _ => some .timeout
  | .popFor => some .timeout
  | _ => .none

/-- `pcbuf<T>(cap)` (`/repo/src/concurrent/pcbuf.h:49-50`). -/
def obj (α : Type) (cap : Nat) : Obj (List α) (Op α) (Res α) := ⟨guard cap, body, notifies, expired⟩

end Verif.Pcbuf
