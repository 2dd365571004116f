import Verif.Locks.Model
/-! What lock objects should do. -/

namespace Verif.Locks.Spec
open Verif.Locks

/-- Which threads have the lock `l`, according to the objects that say that they are locked. -/
def held (os : List Obj) (l : Nat) : List (Nat × Mode) :=
  (os.filter (fun o => o.need && o.lock == l)).map (fun o => (o.tid, o.mode))

/-- Who may have a lock together: nobody else for a plain mutex, one thread for a recursive one, readers only for a read-write lock. -/
def Compatible (k : Kind) (a b : Nat × Mode) : Prop :=
  match k with
  | .plain => False
  | .recursive => a.1 = b.1
  | .rw => a.2 = .read ∧ b.2 = .read

/-- A read lock with a time limit below a nanosecond, which takes the wrong branch (line 99). -/
def tinyRead : How → Prop
  | .locker .read (some sec) => sec < 1 / 1000000000
  | .direct .read sec => 0 ≤ sec ∧ sec < 1 / 1000000000
  | _ => False

/-- What can be reached, with the constructor calls that `ok` allows. -/
inductive Reach (ok : How → Prop) (kind : Nat → Kind) (valid : Nat → Bool) : St → Prop
  | init : Reach ok kind valid (init kind valid)
  | step {s s' : St} {t : Nat} {op : Op} : Reach ok kind valid s → (∀ x l how err, op = .make x l how err → ok how) → step s t op = some s' →
      Reach ok kind valid s'

/-- What can be reached by calls of `instance()`. -/
inductive SReach : Single → Prop
  | init : SReach sinit
  | step {s s' : Single} {t : Nat} {b : Bool} : SReach s → sstep s t b = some s' → SReach s'

end Verif.Locks.Spec
