import Verif.SharedPtr.Model

/-
What is meant by sharing, watching and holding an object.
-/
namespace Verif.SharedPtr.Spec
open Verif.SharedPtr

/-- The rule a program has to keep: a pointer from `new` is taken over by one
`shared_ptr` only, and an object that was taken over is not deleted by hand. -/
def Fair (s : St) : Op → Prop
  | .own _ (some p) _ => s.aliveAt p = true ∧ ∀ k ∈ s.blocks, k.obj ≠ some p
  | .delete p => ∀ k ∈ s.blocks, k.obj ≠ some p
  | _ => True

/-- A program with `n` threads, before it does anything. -/
def start (n : Nat) : Machine := ⟨⟨[], [], [], []⟩, List.replicate n []⟩

/-- What programs that keep the rule can come to, whatever their threads do and
however they are interleaved. -/
inductive Reach (c : Classes) : Machine → Prop
  | start (n : Nat) : Reach c (start n)
  | call {m m' t op} : Reach c m → Fair m.st op → call c m t op = some m' → Reach c m'
  | work {m m' t} : Reach c m → work m t = some m' → Reach c m'

/-- No thread has anything left to give back. -/
def Quiet (m : Machine) : Prop := ∀ st ∈ m.stacks, st = []

/-- The handle `i` is a shared one that points to the object `p`. -/
def Owns (s : St) (i p : Nat) : Prop :=
  ∃ sl, s.slots[i]? = some sl ∧ sl.live = true ∧ sl.kind = .strong ∧ get s i = some p

/-- The object can be come by from a variable, by shared handles alone. -/
inductive Held (s : St) : Nat → Prop
  | var {i p sl} : s.slots[i]? = some sl → sl.home = none → Owns s i p → Held s p
  | member {i q p sl} : Held s q → s.slots[i]? = some sl → sl.home = some q → Owns s i p → Held s p

/-- The object was taken over by a `shared_ptr`, with this deleter. -/
def Taken (s : St) (p : Nat) (del : Option Nat) : Prop :=
  ∃ k ∈ s.blocks, k.obj = some p ∧ k.del = del

/-- The object was destroyed. -/
def Destroyed (s : St) (p : Nat) : Prop := ∃ d, (p, d) ∈ s.log

/-- Some steps of giving back. -/
inductive Works : Machine → Nat → Machine → Prop
  | zero {m} : Works m 0 m
  | succ {m m' m'' t n} : work m t = some m' → Works m' n m'' → Works m (n + 1) m''

/-- The number of shared handles that share with a handle of this block. -/
def sharers (s : St) (ref : Option Nat) : Nat :=
  (s.slots.filter fun x => x.live && x.kind = .strong && x.ref = ref).length

instance (s : St) (op : Op) : Decidable (Fair s op) := by
  cases op with
  | own h p d => cases p <;> simp only [Fair] <;> infer_instance
  | _ => simp only [Fair] <;> infer_instance

/-- A program given by what its threads do in turn: an operation, or a step of
giving back.  It ends with nothing when it does what cannot be done. -/
def play (c : Classes) : Machine → List (Nat × Option Op) → Option Machine
  | m, [] => some m
  | m, (t, some op) :: l => (call c m t op).bind fun m' => play c m' l
  | m, (t, none) :: l => (SharedPtr.work m t).bind fun m' => play c m' l

/-- Whether all of its operations keep the rule. -/
def playFair (c : Classes) : Machine → List (Nat × Option Op) → Bool
  | _, [] => true
  | m, (t, some op) :: l =>
    decide (Fair m.st op) && (match call c m t op with | some m' => playFair c m' l | none => true)
  | m, (t, none) :: l => match SharedPtr.work m t with | some m' => playFair c m' l | none => true

end Verif.SharedPtr.Spec
