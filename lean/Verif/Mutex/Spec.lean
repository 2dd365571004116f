import Verif.Mutex.Model
/-!
# Specification for mutexes (C24) and waiting (C25)
-/
namespace Verif.Mutex.Spec
open Verif.Mutex

/-- States reachable under any interleaving. -/
inductive Reach (recursive : Bool) : St → Prop
  | start : Reach recursive (init recursive)
  | step {s s' : St} (t : Tid) (c : Call) : Reach recursive s → step s t c = some s' → Reach recursive s'

/-- States reachable when no thread calls `unlock` without holding the
mutex. -/
inductive ReachDisciplined (recursive : Bool) : St → Prop
  | start : ReachDisciplined recursive (init recursive)
  | step {s s' : St} (t : Tid) (c : Call) : ReachDisciplined recursive s →
      (s.pc t = .idle → c = .unlock → 0 < s.depth t) → step s t c = some s' →
      ReachDisciplined recursive s'

/-- `t` is running user code between a successful `lock` and the matching
`unlock`. -/
def Inside (s : St) (t : Tid) : Prop := s.pc t = .idle ∧ 0 < s.depth t

/-- `t` is blocked in `condition::wait`. -/
def Waiting (s : St) (t : Tid) : Prop := ∃ h c, s.pc t = .wBlk h c

/-- `t` is blocked acquiring the mutex in `lock`. -/
def Acquiring (s : St) (t : Tid) : Prop := s.pc t = .lkAcq ∨ s.pc t = .nlAcq

/-- `t` is inside a call of `lock`. -/
def InLock (s : St) (t : Tid) : Prop :=
  s.pc t ∈ [Pc.lk0, .nlAcq, .nlHold, .lkTest, .lkRead, .lkAcq, .lkCnt, .lkHold] ∨ ∃ c, s.pc t = .lkInc c

/-- `t` is inside a call of `unlock`. -/
def InUnlock (s : St) (t : Tid) : Prop :=
  s.pc t ∈ [Pc.un0, .nuHold, .nuRel, .unTest, .unRead, .unHold, .unRel] ∨ ∃ c, s.pc t = .unDec c

/-- `t` is inside a call of `condition::wait`. -/
def InWait (s : St) (t : Tid) : Prop := s.pc t ≠ .idle ∧ ¬ InLock s t ∧ ¬ InUnlock s t

/-- Perform the given steps; `none` if one of them is blocked. -/
def run : St → List (Tid × Call) → Option St
  | s, [] => some s
  | s, (t, c) :: l => match step s t c with
    | none => none
    | some s' => run s' l

end Verif.Mutex.Spec
