import Verif.Monitor.Lemmas
/-!
# What holds of every object guarded by a mutex and a condition
-/
namespace Verif.Monitor.Props
open Verif.Monitor Verif.Monitor.Spec Verif.Monitor.Lemmas

variable {S Op R : Type}

/-- Under every interleaving the operations behave as if performed one after
the other, in the order of their critical sections. -/
theorem sequential {O : Obj S Op R} {s0 : S} {c : Config S Op R} (h : Reach O s0 c) :
    Sequential O s0 c.log c.st := (inv_reach h).seq

/-- Between calls, the calls of a thread in that order are exactly the calls
that have returned to it, with the results they returned, in the order in
which it made them: each call takes effect exactly once, while it is in
progress. -/
theorem effects_once {O : Obj S Op R} {s0 : S} {c : Config S Op R} (h : Reach O s0 c) {t : Tid}
    (hi : c.ph t = .idle) : callsOf c.log t = c.returned t := by
  have := (inv_reach h).ret t
  rw [hi] at this
  simpa [pending] using this

/-- A call that has not run its critical section has had no effect: nothing
of the thread is in the log beyond its returned calls. -/
theorem no_effect_before {O : Obj S Op R} {s0 : S} {c : Config S Op R} (h : Reach O s0 c) {t : Tid}
    {op : Op} (hi : c.ph t = .enter op ∨ c.ph t = .waiting op ∨ c.ph t = .woken op ∨ c.ph t = .test op) :
    callsOf c.log t = c.returned t := by
  have := (inv_reach h).ret t
  rcases hi with hi | hi | hi | hi <;> rw [hi] at this <;> simpa [pending] using this

/-- At most one thread is in a critical section. -/
theorem one_holder {O : Obj S Op R} {s0 : S} {c : Config S Op R} (h : Reach O s0 c) {t u : Tid}
    (ht : Holding (c.ph t) = true) (hu : Holding (c.ph u) = true) : t = u := by
  have h1 := ((inv_reach h).lock t).2 ht
  have h2 := ((inv_reach h).lock u).2 hu
  rw [h1] at h2
  exact Option.some.inj h2

/-- No wake-up is lost: if the operations that can make a guard true notify,
then a thread is never left waiting for something that has happened once all
running operations have finished. -/
theorem no_lost_wakeup {O : Obj S Op R} {s0 : S} {c : Config S Op R} (h : Reach O s0 c)
    (hN : Notifies O) (hq : ∀ u, c.ph u = .idle ∨ ∃ op, c.ph u = .waiting op) {t : Tid} {op : Op}
    (hw : c.ph t = .waiting op) : O.guard op c.st = false := by
  by_cases hg : O.guard op c.st = true
  · obtain ⟨u, hu⟩ := (inv_reach h).wake hN t op hw hg
    rcases hq u with e | ⟨o, e⟩ <;> rw [e] at hu <;> exact hu.elim
  · simpa using hg

/-- There is always a thread that can go on: a mutex owner is never
blocked. -/
theorem holder_can_proceed {O : Obj S Op R} {s0 : S} {c : Config S Op R} (h : Reach O s0 c) {t : Tid}
    (hl : c.lock = some t) : (step O c t .go).isSome := by
  have := ((inv_reach h).lock t).1 hl
  unfold step
  cases hp : c.ph t <;> rw [hp] at this <;> simp only [Holding] at this
  case test op => dsimp only; split <;> rfl
  case run op => rfl
  case leave op r n => cases n <;> rfl
  all_goals cases this

end Verif.Monitor.Props
