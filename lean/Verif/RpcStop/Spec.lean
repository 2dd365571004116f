import Verif.RpcStop.Model
/-!
# Specification for stopping a server (C56)
-/
namespace Verif.RpcStop.Spec
open Verif.RpcStop

/-- The states that can come up, by any sequence of steps of any threads. -/
inductive Reach : Server → Prop
  | new : Reach new
  | step {s s' t c} : Reach s → Step s t c s' → Reach s'

/-- A thread inside `wait_until_stopped`. -/
def Waiting (p : Phase) : Prop := p = .waitEnter ∨ p = .blocked ∨ p = .woken

/-- A worker thread that has not reported its end yet. -/
def Working (p : Phase) : Prop := p = .check ∨ p = .busy ∨ p = .leave

/-- A thread inside `start`. -/
def Starting (p : Phase) : Prop := ∃ k, p = .startEnter k ∨ p = .starting k

/-- The states that can come up if `wait_until_stopped` is never called while another thread is inside it. -/
inductive ReachOne : Server → Prop
  | new : ReachOne new
  | step {s s' t c} : ReachOne s → Step s t c s' → (c = .wait → ∀ u, ¬ Waiting (s.ph u)) → ReachOne s'

/-- The threads go on by themselves: no new calls and no spurious wake-ups. -/
def Internal (c : Choice) : Prop := c ≠ .spurious ∧ c ≠ .stop ∧ c ≠ .wait ∧ ∀ n, c ≠ .start n

/-- `n` such steps. -/
inductive Run : Nat → Server → Server → Prop
  | nil (s) : Run 0 s s
  | cons {n s s' s'' t c} : Internal c → Step s t c s' → Run n s' s'' → Run (n + 1) s s''

/-- No thread goes on by itself. -/
def Final (s : Server) : Prop := ∀ t c s', Internal c → ¬ Step s t c s'

/-- No call of `start` is going on. -/
def NoStart (s : Server) : Prop := ∀ t, ¬ Starting (s.ph t)

/-- Any steps but calls of `start` and spurious wake-ups. -/
inductive Later : Server → Server → Prop
  | refl (s) : Later s s
  | step {s s' s'' t c} : Later s s' → Step s' t c s'' → c ≠ .spurious → (∀ n, c ≠ .start n) → Later s s''

end Verif.RpcStop.Spec
