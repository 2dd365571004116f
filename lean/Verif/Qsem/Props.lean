import Verif.Qsem.Spec
import Verif.Monitor.Props
/-!
# C29: semaphores
-/
namespace Verif.Qsem.Props
open Verif.Monitor Verif.Monitor.Spec Verif.Qsem Verif.Qsem.Spec

/-- Number of completed waits. -/
def waits (l : List (Entry Op Bool)) : Nat := (l.filter (fun e => e.op matches .wait _)).length

theorem account {s s' : Int} {l : List (Entry Op Bool)} (h : Sequential obj s l s') :
    s' = s + signalled l - waits l := by
  induction h with
  | nil => simp [signalled, waits]
  | @done s s' l t op hg _ ih =>
    rw [ih]
    cases op <;> simp [obj, body, signalled, signalledBy, waits] <;> omega
  | gaveUp t op r he _ _ => cases he

theorem nonneg {s s' : Int} {l : List (Entry Op Bool)} (h : Sequential obj s l s') (h0 : 0 ≤ s)
    (hq : ∀ e ∈ l, (∀ q, e.op = .wait q → 1 ≤ q) ∧ (∀ q, e.op = .signal q → 0 ≤ q)) : 0 ≤ s' := by
  induction h with
  | nil => exact h0
  | @done s s' l t op hg _ ih =>
    apply ih _ (fun e he => hq e (List.mem_cons_of_mem _ he))
    have := hq _ List.mem_cons_self
    cases op with
    | wait q => have := this.1 q rfl; simp [obj, body, guard] at hg ⊢; omega
    | signal q => have := this.2 q rfl; simp [obj, body]; omega
  | gaveUp t op r he _ _ => cases he

/-- C29, what the code does instead: every wait takes one unit, however many
it asked for. -/
theorem qsem_takes_one {n : Int} {c : Config Int Op Bool} (h : Reach obj n c) :
    c.st = n + signalled c.log - waits c.log := account (Monitor.Props.sequential h)

/-- C29 for `wait(1)` (`lock` and `unlock` among them), any signals: the
number available is initial + signalled - waited. Missing for the full
property: waits for more than one unit, for which it is false
(`qsem_accounting_fails`). -/
theorem qsem_accounting_partial {n : Int} {c : Config Int Op Bool} (h : Reach obj n c)
    (h1 : ∀ e ∈ c.log, ∀ q, e.op = .wait q → q = 1) :
    c.st = n + signalled c.log - waited c.log := by
  rw [qsem_takes_one h]
  have : (waits c.log : Int) = waited c.log := by
    generalize c.log = l at h1
    clear h
    induction l with
    | nil => rfl
    | cons e l ih =>
      have ih := ih (fun e he => h1 e (List.mem_cons_of_mem _ he))
      have h0 := h1 e List.mem_cons_self
      have hw : waited (e :: l) = waitedBy e.op + waited l := by simp [waited]
      rw [hw, ← ih]
      cases ho : e.op with
      | wait q => obtain rfl := h0 q ho; simp [ho, waitedBy, waits]; omega
      | signal q => simp [ho, waitedBy, waits]
  rw [this]

/-- C29: the number available is never negative, if waits ask for at least
one unit and signals are not negative. -/
theorem qsem_nonneg {n : Int} {c : Config Int Op Bool} (h : Reach obj n c) (hn : 0 ≤ n)
    (hq : ∀ e ∈ c.log, (∀ q, e.op = .wait q → 1 ≤ q) ∧ (∀ q, e.op = .signal q → 0 ≤ q)) : 0 ≤ c.st :=
  nonneg (Monitor.Props.sequential h) hn hq

/-- A wait is granted only when that many units are available. -/
theorem wait_needs_units {s s' : Int} {t : Tid} {q : Int} {r b : Bool}
    (h : Sequential obj s [⟨t, .wait q, r, b⟩] s') : q ≤ s ∧ r = true := by
  cases h with
  | done _ _ hg _ => exact ⟨by simpa [obj, guard] using hg, rfl⟩
  | gaveUp _ _ _ he _ => cases he

/-- C29 fails: `wait(3)` on a semaphore with 4 units succeeds twice. -/
theorem qsem_accounting_fails : ¬ Accounting := by
  intro h
  have hd : (runs obj (start 4) [(0, .call (.wait 3)), (0, .go), (0, .go), (0, .go), (0, .go),
    (1, .call (.wait 3)), (1, .go), (1, .go), (1, .go), (1, .go)]).isSome := by decide
  have := h 4 _ (by decide) (Lemmas.reach_runs .start _ (Option.some_get hd).symm) (by decide +revert)
  revert this hd
  decide

/-- The same execution: two waits for 3 units each have returned true. -/
example : ∃ c, Reach obj 4 c ∧ c.returned 0 = [(.wait 3, true)] ∧ c.returned 1 = [(.wait 3, true)] := by
  have hd : (runs obj (start 4) [(0, .call (.wait 3)), (0, .go), (0, .go), (0, .go), (0, .go),
    (1, .call (.wait 3)), (1, .go), (1, .go), (1, .go), (1, .go)]).isSome := by decide
  exact ⟨_, Lemmas.reach_runs .start _ (Option.some_get hd).symm, by decide +revert, by decide +revert⟩

/-- Every operation that enables another one notifies. -/
theorem notifies_enough : Notifies obj := by
  intro op op' s h1 h2 h3
  cases op <;> cases op' <;> simp_all [obj, guard, body, notifies] <;> omega

/-- C29: no thread is left waiting for units that are there. -/
theorem qsem_no_lost_wakeup {n : Int} {c : Config Int Op Bool} (h : Reach obj n c)
    (hq : ∀ u, c.ph u = .idle ∨ ∃ op, c.ph u = .waiting op) {t : Tid} {q : Int}
    (hw : c.ph t = .waiting (.wait q)) : c.st < q := by
  have := Monitor.Props.no_lost_wakeup h notifies_enough hq hw
  simpa [obj, guard] using this

/-- `wait(1)` twice on 2 units, one signal of 3: 3 are left. -/
example : ∃ c, Reach obj 2 c ∧ c.st = 3 ∧ waited c.log = 2 ∧ signalled c.log = 3 := by
  have hd : (runs obj (start 2) [(0, .call (.wait 1)), (0, .go), (0, .go), (0, .go), (0, .go),
    (1, .call (.wait 1)), (1, .go), (1, .go), (1, .go), (1, .go),
    (0, .call (.signal 3)), (0, .go), (0, .go), (0, .go)]).isSome := by decide
  exact ⟨_, Lemmas.reach_runs .start _ (Option.some_get hd).symm, by decide +revert, by decide +revert, by decide +revert⟩

end Verif.Qsem.Props
