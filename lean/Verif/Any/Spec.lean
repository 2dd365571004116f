import Verif.Any.Model
/-! What `any` and `scoped_ptr` should be: variables that hold values, without pointers and memory. -/

namespace Verif.Any.Spec
open Verif.Any

variable {τ V : Type} [DecidableEq τ]

/-- The objects that are there, each with its value or nothing. -/
abbrev Vars (α : Type) := Nat → Option (Option α)

/-- The meaning of an operation on values; `none`: the program uses a variable that is not there or constructs one that is. -/
def means (s : Vars (Holder τ V)) : Op τ V → Option (Obs τ V × Vars (Holder τ V))
  | .default x => if s x = none then some (.done, upd s x (some none)) else none
  | .ofValue x v oom => if s x = none then (if oom then some (.threw, s) else some (.done, upd s x (some (some v)))) else none
  | .copy x y oom => match s x, s y with
    | none, some none => some (.done, upd s x (some none))
    | none, some (some v) => if oom then some (.threw, s) else some (.done, upd s x (some (some v)))
    | _, _ => none
  | .destroy x => if s x = none then none else some (.done, upd s x none)
  | .swap x y => match s x, s y with
    | some a, some b => some (.done, upd (upd s x (some b)) y (some a))
    | _, _ => none
  | .assignValue x v oom => if s x = none then none else if oom then some (.threw, s) else some (.done, upd s x (some (some v)))
  | .assign x y oom => match s x, s y with
    | some _, some none => some (.done, upd s x (some none))
    | some _, some (some v) => if oom then some (.threw, s) else some (.done, upd s x (some (some v)))
    | _, _ => none
  | .type x => (s x).map (fun a => (.type (a.map Holder.ty), s))
  | .cast x t => (s x).map (fun a => (match a with | some v => if v.ty = t then .value v.val else .badCast | none => .badCast, s))

/-- A program. -/
def meansAll (s : Vars (Holder τ V)) : List (Op τ V) → Option (List (Obs τ V) × Vars (Holder τ V))
  | [] => some ([], s)
  | op :: ops => (means s op).bind (fun r => (meansAll r.2 ops).map (fun q => (r.1 :: q.1, q.2)))

/-- The meaning of an operation on scoped pointers; a program must not follow the null pointer either. -/
def pmeans (s : Vars V) : POp V → Option (PObs V × Vars V)
  | .construct x v => if s x = none then some (.done, upd s x (some v)) else none
  | .reset x v => if s x = none then none else some (.done, upd s x (some v))
  | .swap x y => match s x, s y with
    | some a, some b => some (.done, upd (upd s x (some b)) y (some a))
    | _, _ => none
  | .deref x => match s x with
    | some (some v) => some (.value v, s)
    | _ => none
  | .test x => (s x).map (fun a => (.test a.isSome, s))
  | .destroy x => if s x = none then none else some (.done, upd s x none)

/-- A program. -/
def pmeansAll (s : Vars V) : List (POp V) → Option (List (PObs V) × Vars V)
  | [] => some ([], s)
  | op :: ops => (pmeans s op).bind (fun r => (pmeansAll r.2 ops).map (fun q => (r.1 :: q.1, q.2)))

/-- No leak: all memory in use belongs to an object that is there. -/
def NoLeak {α : Type} (h : Heap α) (objs : Nat → Option (Option Nat)) : Prop := ∀ p, h.cells p ≠ none → ∃ x, objs x = some (some p)

/-- No sharing: each piece of memory belongs to one object. -/
def NoSharing (objs : Nat → Option (Option Nat)) : Prop := ∀ x y p, objs x = some (some p) → objs y = some (some p) → x = y

end Verif.Any.Spec
