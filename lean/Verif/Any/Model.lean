/-! Model of `any`, `/repo/src/lang/any.h`, and of `scoped_ptr`, `/repo/src/lang/scoped_ptr.h`, on a heap. Addresses are not used again, so that a pointer to
something deleted is never taken for a good one. -/

namespace Verif.Any

/-- The memory got from `new`. -/
structure Heap (α : Type) where
  cells : Nat → Option α := fun _ => none
  next : Nat := 0

/-- A function changed at one place. -/
def upd {α : Type} (f : Nat → α) (i : Nat) (v : α) : Nat → α := fun j => if j = i then v else f j

variable {α τ V : Type} [DecidableEq τ]

/-- `new`. -/
def Heap.new (h : Heap α) (x : α) : Nat × Heap α := (h.next, ⟨upd h.cells h.next (some x), h.next + 1⟩)

/-- `delete`; `none`: what is deleted is not there (any more). -/
def Heap.delete (h : Heap α) : Option Nat → Option (Heap α)
  | none => some h
  | some p => match h.cells p with
    | none => none
    | some _ => some { h with cells := upd h.cells p none }

/-- `any::holder`, `/repo/src/lang/any.h:102-116`: a type and a value of it. -/
structure Holder (τ V : Type) where
  ty : τ
  val : V
deriving DecidableEq

/-- The memory, and the objects of type `any` that are there, each with its `content` (`/repo/src/lang/any.h:118`). -/
structure State (τ V : Type) where
  heap : Heap (Holder τ V) := {}
  objs : Nat → Option (Option Nat) := fun _ => none

/-- What a program does with objects of type `any`. `oom`: `new`, or the copy constructor of the value, throws. -/
inductive Op (τ V : Type) where
  | default (x : Nat)
  | ofValue (x : Nat) (v : Holder τ V) (oom : Bool)
  | copy (x y : Nat) (oom : Bool)
  | destroy (x : Nat)
  | swap (x y : Nat)
  | assignValue (x : Nat) (v : Holder τ V) (oom : Bool)
  | assign (x y : Nat) (oom : Bool)
  | type (x : Nat)
  | cast (x : Nat) (t : τ)

/-- What the program sees. -/
inductive Obs (τ V : Type) where
  | done
  | threw
  | badCast
  | type (t : Option τ)
  | value (v : V)
deriving DecidableEq

/-- The copy constructor, `/repo/src/lang/any.h:58-60`, with `clone` (107-109): the new `content`. -/
def copyContent (h : Heap (Holder τ V)) : Option Nat → Option (Option Nat × Heap (Holder τ V))
  | none => some (none, h)
  | some p => match h.cells p with
    | none => none
    | some v => some (some (h.new v).1, (h.new v).2)

/-- One operation. `none`: undefined behaviour (something is used that is not there, or constructed where something is). -/
def step (s : State τ V) : Op τ V → Option (Obs τ V × State τ V)
  /- `/repo/src/lang/any.h:49-51` -/
  | .default x => match s.objs x with
    | some _ => none
    | none => some (.done, { s with objs := upd s.objs x (some none) })
  /- `/repo/src/lang/any.h:53-56` -/
  | .ofValue x v oom => match s.objs x with
    | some _ => none
    | none => if oom then some (.threw, s) else some (.done, ⟨(s.heap.new v).2, upd s.objs x (some (some (s.heap.new v).1))⟩)
  /- `/repo/src/lang/any.h:58-60` -/
  | .copy x y oom => match s.objs x, s.objs y with
    | none, some c =>
      if oom ∧ c ≠ none then some (.threw, s)
      else (copyContent s.heap c).map (fun r => (.done, ⟨r.2, upd s.objs x (some r.1)⟩))
    | _, _ => none
  /- `/repo/src/lang/any.h:62-64` -/
  | .destroy x => match s.objs x with
    | none => none
    | some c => (s.heap.delete c).map (fun h => (.done, ⟨h, upd s.objs x none⟩))
  /- `/repo/src/lang/any.h:66-69` -/
  | .swap x y => match s.objs x, s.objs y with
    | some c, some d => some (.done, { s with objs := upd (upd s.objs x (some d)) y (some c) })
    | _, _ => none
  /- `/repo/src/lang/any.h:71-75`: the temporary gets the old content and is destroyed. -/
  | .assignValue x v oom => match s.objs x with
    | none => none
    | some c =>
      if oom then some (.threw, s)
      else ((s.heap.new v).2.delete c).map (fun h => (.done, ⟨h, upd s.objs x (some (some (s.heap.new v).1))⟩))
  /- `/repo/src/lang/any.h:77-80`: the parameter is a copy, gets the old content and is destroyed. -/
  | .assign x y oom => match s.objs x, s.objs y with
    | some c, some d =>
      if oom ∧ d ≠ none then some (.threw, s)
      else (copyContent s.heap d).bind (fun r => (r.2.delete c).map (fun h => (.done, ⟨h, upd s.objs x (some r.1)⟩)))
    | _, _ => none
  /- `/repo/src/lang/any.h:82-84`; `none` stands for `void`. -/
  | .type x => match s.objs x with
    | none => none
    | some none => some (.type none, s)
    | some (some p) => (s.heap.cells p).map (fun v => (.type (some v.ty), s))
  /- `/repo/src/lang/any.h:86-91`, and `any_cast` (121-125) -/
  | .cast x t => match s.objs x with
    | none => none
    | some none => some (.badCast, s)
    | some (some p) => (s.heap.cells p).map (fun v => if v.ty = t then (.value v.val, s) else (.badCast, s))

/-- A program: what it sees, and what is left. -/
def run (s : State τ V) : List (Op τ V) → Option (List (Obs τ V) × State τ V)
  | [] => some ([], s)
  | op :: ops => (step s op).bind (fun r => (run r.2 ops).map (fun q => (r.1 :: q.1, q.2)))

/-! ### `scoped_ptr` -/

/-- The memory, and the objects of type `scoped_ptr` that are there, each with its pointer (`/repo/src/lang/scoped_ptr.h:65`). -/
structure PState (V : Type) where
  heap : Heap V := {}
  ptrs : Nat → Option (Option Nat) := fun _ => none

/-- What a program does with objects of type `scoped_ptr`: it constructs and resets them with the result of `new`, or with nothing. -/
inductive POp (V : Type) where
  | construct (x : Nat) (v : Option V)
  | reset (x : Nat) (v : Option V)
  | swap (x y : Nat)
  | deref (x : Nat)
  | test (x : Nat)
  | destroy (x : Nat)

/-- What the program sees. -/
inductive PObs (V : Type) where
  | done
  | value (v : V)
  | test (b : Bool)
deriving DecidableEq

/-- `new`, or the null pointer. -/
def Heap.newOpt (h : Heap V) : Option V → Option Nat × Heap V
  | none => (none, h)
  | some v => (some (h.new v).1, (h.new v).2)

/-- `reset`, `/repo/src/lang/scoped_ptr.h:53-56`: the temporary gets the old pointer and is destroyed (45). -/
def reset (s : PState V) (x : Nat) (p : Option Nat) : Option (PState V) :=
  match s.ptrs x with
  | none => none
  | some c => (s.heap.delete c).map (fun h => ⟨h, upd s.ptrs x (some p)⟩)

/-- One operation. `none`: undefined behaviour. -/
def pstep (s : PState V) : POp V → Option (PObs V × PState V)
  /- `/repo/src/lang/scoped_ptr.h:44` -/
  | .construct x v => match s.ptrs x with
    | some _ => none
    | none => some (.done, ⟨(s.heap.newOpt v).2, upd s.ptrs x (some (s.heap.newOpt v).1)⟩)
  /- `/repo/src/lang/scoped_ptr.h:53-56` -/
  | .reset x v => (reset { s with heap := (s.heap.newOpt v).2 } x (s.heap.newOpt v).1).map (fun s => (.done, s))
  /- `/repo/src/lang/scoped_ptr.h:57-59` -/
  | .swap x y => match s.ptrs x, s.ptrs y with
    | some c, some d => some (.done, { s with ptrs := upd (upd s.ptrs x (some d)) y (some c) })
    | _, _ => none
  /- `/repo/src/lang/scoped_ptr.h:49-51` -/
  | .deref x => match s.ptrs x with
    | some (some p) => (s.heap.cells p).map (fun v => (.value v, s))
    | _ => none
  /- `/repo/src/lang/scoped_ptr.h:47` -/
  | .test x => match s.ptrs x with
    | none => none
    | some c => some (.test c.isSome, s)
  /- `/repo/src/lang/scoped_ptr.h:45` -/
  | .destroy x => match s.ptrs x with
    | none => none
    | some c => (s.heap.delete c).map (fun h => (.done, ⟨h, upd s.ptrs x none⟩))

/-- A program. -/
def prun (s : PState V) : List (POp V) → Option (List (PObs V) × PState V)
  | [] => some ([], s)
  | op :: ops => (pstep s op).bind (fun r => (prun r.2 ops).map (fun q => (r.1 :: q.1, q.2)))

end Verif.Any
