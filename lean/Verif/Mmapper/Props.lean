import Verif.Mmapper.Lemmas
/-! Property C74: a mapper shows the bytes of the file it was opened with, and releases what it has. -/

namespace Verif.Mmapper.Props
open Verif.Mmapper Verif.Mmapper.Spec Verif.Mmapper.Lemmas

/-- The beginning: files, and nothing open. -/
def start (files : Nat → Option (List UInt8)) : State := ⟨{ files := files }, fun _ => none⟩

/-- A program without moves sees of its mappers what it should: `open` fails without any effect or shows the bytes of the file, which are shared with all other
mappers of it and all other processes. Only a program that uses mappers that are not there, or bytes beyond the end or of closed mappers, is undefined.
Missing: moves (see `move_unmaps`). -/
theorem mapper_is_a_view_partial (files : Nat → Option (List UInt8)) (ops : List Op) (h : ∀ op ∈ ops, NotMove op) :
    match run (start files) ops with
    | .error .undefined => meansAll { files := files } ops = none
    | .error .impossible => True
    | .ok (obs, s) => ∃ w, meansAll { files := files } ops = some (obs, w) ∧ s.os.files = w.files := by
  have h := run_sim ops (start files) _ (Inv.start files) h
  cases hr : run (start files) ops with
  | error e =>
    rw [hr] at h
    cases e <;> exact h
  | ok q =>
    rw [hr] at h
    obtain ⟨w, h1, h2⟩ := h
    exact ⟨w, h1, h2.files⟩

/-- At any moment every descriptor and every mapping belongs to one mapper; after the last mapper is closed or destroyed none is left. Missing: moves. -/
theorem mapper_owns_partial (files : Nat → Option (List UInt8)) (ops : List Op) (h : ∀ op ∈ ops, NotMove op) (obs : List Obs) (s : State)
    (hr : run (start files) ops = .ok (obs, s)) :
    Owned s ∧ ((∀ x m, s.objs x = some m → m.ptr = none) → (∀ i, s.os.fds i = none) ∧ ∀ a, s.os.maps a = none) := by
  have hs := run_sim ops (start files) _ (Inv.start files) h
  rw [hr] at hs
  obtain ⟨w, h1, i⟩ := hs
  refine ⟨i.owned, fun hc => ⟨fun j => ?_, fun a => ?_⟩⟩
  · cases hj : s.os.fds j with
    | none => rfl
    | some f =>
      obtain ⟨x, m, e, hm⟩ := i.owned.fds j (by rw [hj]; exact fun e => by cases e)
      rcases i.cases x with ⟨g, _⟩ | ⟨m', v, g1, g2, g3, g4⟩
      · rw [g] at e; cases e
      · rw [g1] at e; cases e
        cases hf : v.file with
        | none => rw [hf] at g4; rw [g4.2] at hm; cases hm
        | some f =>
          rw [hf] at g4
          obtain ⟨a, fd, k, _⟩ := g4
          rw [hc x m g1] at k
          cases k
  · cases hj : s.os.maps a with
    | none => rfl
    | some f =>
      obtain ⟨x, m, e, hm⟩ := i.owned.maps a (by rw [hj]; exact fun e => by cases e)
      rw [hc x m e] at hm
      cases hm

/-- Four files. -/
def disk : Nat → Option (List UInt8) := fun n => if n = 0 then some [65, 66, 67] else if n = 1 then some [] else if n = 2 then some [70, 71] else if n = 3 then some [72, 73, 74] else none

/-- Two mappers of one file; opens that fail; an open mapper opened again, with the old descriptor number used again later. -/
def program : List Op :=
  [.create 0, .open 0 5 .openFails, .open 0 1 (.mmapFails 3), .isOpen 0, .open 0 0 (.succeed 3 100), .get 0 1, .create 1, .open 1 0 (.succeed 4 200),
   .set 1 2 90, .get 0 2, .extern 0 0 80, .get 1 0, .open 0 2 (.fstatFails 5), .size 0, .open 0 2 (.succeed 5 300), .size 0, .get 0 1, .swap 0 1, .get 0 2,
   .create 2, .open 2 2 (.succeed 3 100), .get 2 0, .destroy 0, .destroy 2, .close 1, .isOpen 1, .size 1, .destroy 1]

example : ∀ op ∈ program, NotMove op := by simp [program, NotMove]
example : (run (start disk) program).map Prod.fst = .ok [.done, .result (-1), .result (-1), .isOpen false, .result 0, .byte 66, .done, .result 0, .done, .byte 90,
    .done, .byte 80, .result (-1), .size 3, .result 0, .size 2, .byte 71, .done, .byte 90, .done, .result 0, .byte 70, .done, .done, .result 0, .isOpen false, .size 2,
    .done] := rfl
/-- An empty file cannot be opened. -/
example : (run (start disk) [.create 0, .open 0 1 (.succeed 3 100)]).map Prod.fst = .error .impossible := rfl

/-- The move constructor closes and unmaps what it moves: the new mapper says that it is open, but reading it is a fault, or shows other memory. -/
theorem move_unmaps : ¬ ∀ (files : Nat → Option (List UInt8)) (ops : List Op),
    match run (start files) ops with
    | .error .undefined => meansAll { files := files } ops = none
    | .error .impossible => True
    | .ok (obs, _) => (meansAll { files := files } ops).map Prod.fst = some obs := by
  intro h
  have := h disk [.create 0, .open 0 0 (.succeed 3 100), .moveConstruct 1 0, .get 1 1]
  cases this

/-- The same for the assignment. -/
theorem move_assignment_unmaps : ∃ ops, run (start disk) ops = .error .undefined ∧
    (meansAll { files := disk } ops).map Prod.fst = some [.done, .result 0, .done, .done, .isOpen true, .size 3, .byte 66] :=
  ⟨[.create 0, .open 0 0 (.succeed 3 100), .create 1, .moveAssign 1 0, .isOpen 1, .size 1, .get 1 1], rfl, rfl⟩

/-- Worse, when another mapper has got the descriptor and the address again: the mapper moved to shows the wrong file, and destroying it closes the other one. -/
theorem move_closes_another :
    (run (start disk) [.create 0, .open 0 0 (.succeed 3 100), .moveConstruct 1 0, .create 2, .open 2 3 (.succeed 3 100), .get 1 1]).map Prod.fst =
      .ok [.done, .result 0, .done, .done, .result 0, .byte 73] ∧
    (meansAll { files := disk } [.create 0, .open 0 0 (.succeed 3 100), .moveConstruct 1 0, .create 2, .open 2 3 (.succeed 3 100), .get 1 1]).map Prod.fst =
      some [.done, .result 0, .done, .done, .result 0, .byte 66] ∧
    (run (start disk) [.create 0, .open 0 0 (.succeed 3 100), .moveConstruct 1 0, .create 2, .open 2 3 (.succeed 3 100), .destroy 1, .get 2 0]).map Prod.fst =
      .error .undefined ∧
    (meansAll { files := disk } [.create 0, .open 0 0 (.succeed 3 100), .moveConstruct 1 0, .create 2, .open 2 3 (.succeed 3 100), .destroy 1, .get 2 0]).map
      Prod.fst = some [.done, .result 0, .done, .done, .result 0, .done, .byte 72] := ⟨rfl, rfl, rfl, rfl⟩

end Verif.Mmapper.Props
