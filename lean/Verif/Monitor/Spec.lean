import Verif.Monitor.Model
/-!
# Specification of a guarded object: one operation after the other
-/
namespace Verif.Monitor.Spec
open Verif.Monitor

variable {S Op R : Type}

/-- States reachable from `s0` under any interleaving. -/
inductive Reach (O : Obj S Op R) (s0 : S) : Config S Op R → Prop
  | start : Reach O s0 (start s0)
  | step {c c' : Config S Op R} (t : Tid) (ch : Choice Op) : Reach O s0 c →
      step O c t ch = some c' → Reach O s0 c'

/-- The entries are the results of performing the operations one after the
other from `s`, each when its guard holds, and end in `s'`. Operations that
timed out do nothing. -/
inductive Sequential (O : Obj S Op R) : S → List (Entry Op R) → S → Prop
  | nil (s : S) : Sequential O s [] s
  | done {s s' : S} {l : List (Entry Op R)} (t : Tid) (op : Op) : O.guard op s = true →
      Sequential O (O.body op s).1 l s' → Sequential O s (⟨t, op, (O.body op s).2, false⟩ :: l) s'
  | gaveUp {s s' : S} {l : List (Entry Op R)} (t : Tid) (op : Op) (r : R) : O.expired op = some r →
      Sequential O s l s' → Sequential O s (⟨t, op, r, true⟩ :: l) s'

/-- The calls of thread `t` in the log, with their results. -/
def callsOf (l : List (Entry Op R)) (t : Tid) : List (Op × R) :=
  (l.filter (fun e => e.tid == t)).map (fun e => (e.op, e.res))

/-- Every operation that makes another one's guard true notifies. -/
def Notifies (O : Obj S Op R) : Prop :=
  ∀ op op' s, O.guard op s = true → O.guard op' s = false → O.guard op' (O.body op s).1 = true →
    O.notifies op s = true

/-- `t` holds the mutex. -/
def Holding : Phase Op R → Bool
  | .test _ => true
  | .run _ => true
  | .leave _ _ _ => true
  | _ => false

/-- Perform steps; `none` if one is impossible. -/
def runs (O : Obj S Op R) : Config S Op R → List (Tid × Choice Op) → Option (Config S Op R)
  | c, [] => some c
  | c, (t, ch) :: l => match step O c t ch with
    | none => none
    | some c' => runs O c' l

end Verif.Monitor.Spec
