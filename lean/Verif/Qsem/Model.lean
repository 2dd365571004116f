import Verif.Monitor.Model
/-!
# Model of `pfi::concurrent::qsem`

Source: `/repo/src/concurrent/qsem.h`. `quantity` is unbounded in the model
(an `int` in the code).
-/
namespace Verif.Qsem
open Verif.Monitor

/-- Operations; `lock` and `unlock` are `wait 1` and `signal 1`
(`/repo/src/concurrent/qsem.h:80-86`). -/
inductive Op
  | wait (q : Int) | signal (q : Int)
deriving Repr, DecidableEq

/-- `while (quantity < q)` (`/repo/src/concurrent/qsem.h:57-58`). -/
def guard : Op → Int → Bool
  | .wait q, s => decide (q ≤ s)
  | .signal _, _ => true

/-- `quantity--` whatever `q` is (`/repo/src/concurrent/qsem.h:59-60`);
`quantity += q` (`/repo/src/concurrent/qsem.h:70`). -/
def body : Op → Int → Int × Bool
  | .wait _, s => (s - 1, true)
  | .signal q, s => (s + q, true)

/-- Only `signal` notifies (`/repo/src/concurrent/qsem.h:74`). -/
def notifies : Op → Int → Bool
  | .wait _, _ => false
  | .signal _, _ => true

/-- `qsem(q)` (`/repo/src/concurrent/qsem.h:46-48`). -/
def obj : Obj Int Op Bool := ⟨guard, body, notifies, fun _ => none⟩

end Verif.Qsem
