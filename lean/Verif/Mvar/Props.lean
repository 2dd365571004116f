import Verif.Mvar.Spec
import Verif.Monitor.Props
/-!
# C26: mvars
-/
namespace Verif.Mvar.Props
open Verif.Monitor Verif.Monitor.Spec Verif.Mvar Verif.Mvar.Spec

variable {α : Type}

/-- The invariant behind the theorems below. -/
theorem balance {s s' : Option α} {l : List (Entry (Op α) (Res α))}
    (h : Sequential (obj α) s l s') : s.toList ++ puts l = takes l ++ s'.toList := by
  induction h with
  | nil => simp [puts, takes]
  | @done s s' l t op hg _ ih =>
    simp only [puts, takes, List.flatMap_cons] at ih ⊢
    cases op <;> cases s <;> simp_all [obj, guard, body, takeBody, putBody, putBy, takenBy]
  | gaveUp t op r he _ _ => cases he

/-- C26: under every interleaving, the values put (the initial one first) are
the values taken so far, in that order, followed by the value that is in the
mvar: every value is taken at most once, takes return the values in put
order and no value is lost by being overwritten. -/
theorem mvar_fifo {s0 : Option α} {c : Config (Option α) (Op α) (Res α)}
    (h : Reach (obj α) s0 c) : s0.toList ++ puts c.log = takes c.log ++ c.st.toList :=
  balance (Monitor.Props.sequential h)

/-- C26: in the order of the critical sections no value is put while another
one is inside: at any point of the history at most one more value has been
put than taken. -/
theorem put_never_overwrites {s0 : Option α} {c : Config (Option α) (Op α) (Res α)}
    (h : Reach (obj α) s0 c) {l1 l2 : List (Entry (Op α) (Res α))} (hl : c.log = l1 ++ l2) :
    ∃ o : Option α, s0.toList ++ puts l1 = takes l1 ++ o.toList := by
  have hs := Monitor.Props.sequential h
  rw [hl] at hs
  clear hl h
  generalize c.st = s' at hs
  suffices ∃ o, Sequential (obj α) s0 l1 o by
    obtain ⟨o, ho⟩ := this
    exact ⟨o, balance ho⟩
  induction l1 generalizing s0 with
  | nil => exact ⟨s0, .nil _⟩
  | cons e l1 ih =>
    cases hs with
    | done t op hg hr => obtain ⟨o, ho⟩ := ih hr; exact ⟨o, .done t op hg ho⟩
    | gaveUp t op r he hr => cases he

/-- Results: `take`, `read` and `swap` always return a value; the `try`
operations fail exactly when they cannot proceed; `read` and `take` return
the value that is in the mvar, and `read` leaves it there. -/
theorem results {s s' : Option α} {t : Tid} {op : Op α} {r : Res α} {b : Bool}
    (h : Sequential (obj α) s [⟨t, op, r, b⟩] s') :
    (op = .take → ∃ v, s = some v ∧ r = .value v ∧ s' = none) ∧
    (∀ v, op = .put v → s = none ∧ s' = some v) ∧
    (op = .read → ∃ v, s = some v ∧ r = .value v ∧ s' = s) ∧
    (op = .tryTake → (r = .failed ∧ s = none ∧ s' = none ∨ ∃ v, s = some v ∧ r = .value v ∧ s' = none)) ∧
    (∀ v, op = .tryPut v → (r = .failed ∧ s ≠ none ∧ s' = s ∨ r ≠ .failed ∧ s = none ∧ s' = some v)) ∧
    (∀ v, op = .swap v → ∃ w, s = some w ∧ r = .value w ∧ s' = some v) ∧
    (op = .empty → r = .bool s.isNone ∧ s' = s) := by
  cases h with
  | done _ _ hg hr =>
    cases hr
    cases op <;> cases s <;> simp_all [obj, guard, body, takeBody, putBody]
  | gaveUp _ _ _ he _ => cases he

/-- The `put` called inside `swap` never waits. -/
theorem swap_put_does_not_wait (s : Option α) (v : α) (h : guard (.swap v) s = true) :
    guard (.put v) (takeBody s).1 = true := by
  cases s <;> simp_all [guard, takeBody]

/-- Every operation that enables another one notifies. -/
theorem notifies_enough : Notifies (obj α) := by
  intro op op' s h1 h2 h3
  cases op <;> cases op' <;> cases s <;>
    simp_all [obj, guard, body, takeBody, putBody, notifies]

/-- C26: no thread is left waiting for a value (or for room) that is there. -/
theorem mvar_no_lost_wakeup {s0 : Option α} {c : Config (Option α) (Op α) (Res α)}
    (h : Reach (obj α) s0 c) (hq : ∀ u, c.ph u = .idle ∨ ∃ op, c.ph u = .waiting op) {t : Tid}
    {op : Op α} (hw : c.ph t = .waiting op) :
    (op = .take ∨ op = .read ∨ ∃ v, op = .swap v) ∧ c.st = none ∨
    (∃ v, op = .put v) ∧ c.st ≠ none := by
  have := Monitor.Props.no_lost_wakeup h notifies_enough hq hw
  cases op <;> cases hs : c.st <;> simp_all [obj, guard]

/-- Two threads: 0 takes and has to wait, 1 puts 7, then 0 gets it. -/
example : ∃ c : Config (Option Nat) (Op Nat) (Res Nat), Reach (obj Nat) none c ∧
    takes c.log = [7] ∧ puts c.log = [7] ∧ c.returned 0 = [(.take, .value 7)] ∧ c.st = none := by
  have hd : (runs (obj Nat) (start none) [(0, .call .take), (0, .go), (0, .go), (1, .call (.put 7)), (1, .go),
    (1, .go), (1, .go), (1, .go), (1, .go), (0, .go), (0, .go), (0, .go), (0, .go), (0, .go)]).isSome := by decide
  exact ⟨_, Lemmas.reach_runs .start _ (Option.some_get hd).symm, by decide +revert, by decide +revert, by decide +revert, by decide +revert⟩

/-- A state in which everyone is idle or waiting, and someone is waiting. -/
example : ∃ c : Config (Option Nat) (Op Nat) (Res Nat), Reach (obj Nat) none c ∧
    (∀ u, c.ph u = .idle ∨ ∃ op, c.ph u = .waiting op) ∧ c.ph 0 = .waiting .take := by
  have hd : (runs (obj Nat) (start none) [(0, .call .take), (0, .go), (0, .go)]).isSome := by decide
  refine ⟨_, Lemmas.reach_runs .start _ (Option.some_get hd).symm, ?_, rfl⟩
  intro u
  match u with
  | 0 => exact .inr ⟨.take, rfl⟩
  | _ + 1 => exact .inl rfl

end Verif.Mvar.Props
