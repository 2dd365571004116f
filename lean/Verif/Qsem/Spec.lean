import Verif.Qsem.Model
import Verif.Monitor.Spec
/-!
# Specification of semaphores (C29)
-/
namespace Verif.Qsem.Spec
open Verif.Monitor Verif.Qsem

/-- Units a completed call returned to the semaphore. -/
def signalledBy : Op → Int
  | .signal q => q
  | .wait _ => 0

/-- Units a completed call was granted. -/
def waitedBy : Op → Int
  | .wait q => q
  | .signal _ => 0

/-- Units signalled by the calls of the list. -/
def signalled (l : List (Entry Op Bool)) : Int := (l.map (fun e => signalledBy e.op)).sum

/-- Units waited for by the calls of the list. -/
def waited (l : List (Entry Op Bool)) : Int := (l.map (fun e => waitedBy e.op)).sum

/-- The full property: the number available is initial + signalled - waited
and never negative. -/
def Accounting : Prop := ∀ (n : Int) (c : Config Int Op Bool), 0 ≤ n → Monitor.Spec.Reach obj n c →
  (∀ e ∈ c.log, 0 ≤ signalledBy e.op ∧ 0 ≤ waitedBy e.op) →
  c.st = n + signalled c.log - waited c.log ∧ 0 ≤ c.st

end Verif.Qsem.Spec
