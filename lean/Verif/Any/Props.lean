import Verif.Any.Lemmas
/-! Property C73: objects of type `any` behave as variables that hold values, and `any` and `scoped_ptr` neither leak nor share nor use memory twice. -/

namespace Verif.Any.Props
open Verif.Any Verif.Any.Spec Verif.Any.Lemmas

variable {τ V : Type} [DecidableEq τ]

/-- Any program with objects of type `any` sees what it would see with plain variables (so that copies are independent of each other, an assignment that throws
changes nothing, and a cast gives the value back exactly if the type is right); its behaviour is undefined only if it uses objects that are not there. -/
theorem any_is_a_variable (ops : List (Op τ V)) : (run {} ops).map Prod.fst = (meansAll (fun _ => none) ops).map Prod.fst := by
  have h := run_sim ops {} (fun _ => none) Inv.start
  cases hm : meansAll (fun _ => none) ops with
  | none =>
    rw [hm] at h
    have h : run {} ops = none := h
    rw [h]
    rfl
  | some q =>
    rw [hm] at h
    obtain ⟨s, h1, _⟩ := h
    rw [h1]
    rfl

/-- At any moment, all memory belongs to one object each. -/
theorem any_owns (ops : List (Op τ V)) (obs : List (Obs τ V)) (s : State τ V) (h : run {} ops = some (obs, s)) :
    NoLeak s.heap s.objs ∧ NoSharing s.objs ∧ ((∀ x, s.objs x = none) → ∀ p, s.heap.cells p = none) := by
  have hs := run_sim ops {} (fun _ => none) Inv.start
  cases hm : meansAll (fun _ => none) ops with
  | none =>
    rw [hm] at hs
    have hs : run {} ops = none := hs
    rw [hs] at h
    cases h
  | some q =>
    rw [hm] at hs
    obtain ⟨s', h1, i⟩ := hs
    rw [h1] at h
    cases h
    refine ⟨i.leak, i.sharing, fun he p => ?_⟩
    cases hc : s.heap.cells p with
    | none => rfl
    | some v =>
      obtain ⟨x, hx⟩ := i.leak p (by rw [hc]; exact fun e => by cases e)
      rw [he x] at hx
      cases hx

/-- A program with copies, assignments (one of an object to itself, one that throws), wrong and right casts and destructors. -/
def program : List (Op Nat Nat) :=
  [.default 0, .ofValue 1 ⟨7, 70⟩ false, .copy 2 1 false, .assignValue 1 ⟨8, 80⟩ false, .cast 2 7, .cast 1 7, .cast 1 8, .assign 0 2 false, .assign 2 2 false,
   .assign 0 1 true, .swap 0 1, .type 0, .type 1, .cast 2 7, .destroy 0, .default 0, .type 0, .cast 0 7, .assign 1 0 false, .type 1, .destroy 0, .destroy 1, .destroy 2]

example : (run {} program).map Prod.fst = some [.done, .done, .done, .done, .value 70, .badCast, .value 80, .done, .done, .threw, .done, .type (some 8), .type (some 7),
    .value 70, .done, .done, .type none, .badCast, .done, .type none, .done, .done, .done] := by decide
/-- What is undefined: destroying an object twice. -/
example : (run {} [.ofValue 0 ⟨7, 70⟩ false, .destroy 0, .destroy 0] : Option (List (Obs Nat Nat) × _)).isNone = true := by decide
example : ∃ obs s, run {} program = some (obs, s) ∧ (∀ x, s.objs x = none) ∧ s.heap.next = 5 := by
  refine ⟨_, _, rfl, fun x => ?_, rfl⟩
  by_cases h0 : x = 0
  · subst h0; rfl
  · by_cases h1 : x = 1
    · subst h1; rfl
    · by_cases h2 : x = 2
      · subst h2; rfl
      · simp [upd, h0, h1, h2]

/-- Any program that gives scoped pointers only fresh objects sees what it would see with plain variables, and its behaviour is undefined only if it uses
scoped pointers that are not there or follows one that is null. -/
theorem scoped_is_a_variable (ops : List (POp V)) : (prun {} ops).map Prod.fst = (pmeansAll (fun _ => none) ops).map Prod.fst := by
  have h := prun_sim ops {} (fun _ => none) Inv.start
  cases hm : pmeansAll (fun _ => none) ops with
  | none =>
    rw [hm] at h
    have h : prun {} ops = none := h
    rw [h]
    rfl
  | some q =>
    rw [hm] at h
    obtain ⟨s, h1, _⟩ := h
    rw [h1]
    rfl

/-- At any moment, all memory belongs to one scoped pointer each. -/
theorem scoped_owns (ops : List (POp V)) (obs : List (PObs V)) (s : PState V) (h : prun {} ops = some (obs, s)) :
    NoLeak s.heap s.ptrs ∧ NoSharing s.ptrs ∧ ((∀ x, s.ptrs x = none) → ∀ p, s.heap.cells p = none) := by
  have hs := prun_sim ops {} (fun _ => none) Inv.start
  cases hm : pmeansAll (fun _ => none) ops with
  | none =>
    rw [hm] at hs
    have hs : prun {} ops = none := hs
    rw [hs] at h
    cases h
  | some q =>
    rw [hm] at hs
    obtain ⟨s', h1, i⟩ := hs
    rw [h1] at h
    cases h
    refine ⟨i.leak, i.sharing, fun he p => ?_⟩
    cases hc : s.heap.cells p with
    | none => rfl
    | some v =>
      obtain ⟨x, hx⟩ := i.leak p (by rw [hc]; exact fun e => by cases e)
      rw [he x] at hx
      cases hx

example : (prun {} [.construct 0 (some 5), .construct 1 none, .test 1, .deref 0, .swap 0 1, .test 0, .deref 1, .reset 1 (some 6), .deref 1, .reset 1 none,
    .reset 0 (some 9), .destroy 1, .deref 0, .destroy 0]).map Prod.fst =
    some [.done, .done, .test false, .value 5, .done, .test false, .value 5, .done, .value 6, .done, .done, .done, .value (9 : Nat), .done] := by decide

/-- A scoped pointer reset to what it has already deletes it and keeps the pointer: following the pointer, resetting it again and destroying it are undefined. -/
theorem scoped_reset_self (s : PState V) (x p : Nat) (v : V) (hx : s.ptrs x = some (some p)) (hp : s.heap.cells p = some v) :
    ∃ s', reset s x (some p) = some s' ∧ pstep s' (.test x) = some (.test true, s') ∧ pstep s' (.deref x) = none ∧ pstep s' (.destroy x) = none ∧
      ∀ q, reset s' x q = none := by
  refine ⟨⟨{ s.heap with cells := upd s.heap.cells p none }, upd s.ptrs x (some (some p))⟩, by simp [reset, hx, Heap.delete, hp], ?_, ?_, ?_, ?_⟩
  · simp [pstep, upd_same]
  · simp [pstep, upd_same]
  · simp [pstep, upd_same, Heap.delete]
  · intro q
    simp [reset, upd_same, Heap.delete]

example : ∃ s, prun {} [.construct 0 (some 5)] = some ([.done], s) ∧ s.ptrs 0 = some (some 0) ∧ s.heap.cells 0 = some 5 := ⟨_, rfl, rfl, rfl⟩

end Verif.Any.Props
