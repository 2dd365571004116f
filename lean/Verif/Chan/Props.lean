import Verif.Chan.Lemmas
import Verif.Monitor.Props
/-!
# C28: channels
-/
namespace Verif.Chan.Props
open Verif.Chan Verif.Chan.Spec Verif.Chan.Lemmas Verif.Monitor

set_option linter.unusedSectionVars false

variable {α : Type} [DecidableEq α]

/-- C28: under every interleaving of writes, reads, ungets, duplications and
destructions, when no write is in progress, each end of the group has read —
and ungot — exactly from the stream of values written (to any end) since it
joined, in the order of the writes: what remains of that stream is what is in
its queue. -/
theorem chan_stream {s : St α} (h : Reach s) (hq : Quiet s) {c : Nat} (hc : c ∈ s.members) :
    consume (s.writes.drop (s.since c)) (s.hist c) = some (s.dat c) := by
  have := (inv_reach h).stream c hc
  have h0 : pend s c = [] := by unfold pend; rw [hq]
  rwa [h0, List.append_nil] at this

/-- C28: without unget, the values read at an end followed by those in its
queue are the values written since it joined, each exactly once and in write
order. -/
theorem chan_reads_all_once {s : St α} (h : Reach s) (hq : Quiet s) {c : Nat} (hc : c ∈ s.members)
    (hn : ∀ v, .unget v ∉ s.hist c) : s.writes.drop (s.since c) = reads (s.hist c) ++ s.dat c :=
  consume_reads _ _ hn (chan_stream h hq hc)

/-- C28: also while a write is in progress nothing is lost or reordered: at
most the value being written is still on its way. -/
theorem chan_stream_during_write {s : St α} (h : Reach s) {c : Nat} (hc : c ∈ s.members) :
    ∃ l, l.length ≤ 1 ∧ consume (s.writes.drop (s.since c)) (s.hist c) = some (s.dat c ++ l) := by
  refine ⟨pend s c, ?_, (inv_reach h).stream c hc⟩
  unfold pend
  split
  · simp
  · unfold onWay; split
    · split <;> simp
    · simp

/-- C28: what a write, a dup and a read do. A write adds its value to the end
of the group's sequence; -/
theorem write_appends {s s' : St α} {t : Tid} {v : α} {call : Call α} (hp : s.ph t = .wAcq v)
    (hs : step s t call = some s') : s'.writes = s.writes ++ [v] := by
  unfold step at hs
  rw [hp] at hs
  dsimp only at hs
  split at hs <;> cases hs
  rfl

/-- a write is finished — the mutex of the link is given back — only when the
value has been put into every end of the group; -/
theorem write_reaches_all {s : St α} (h : Reach s) {t : Tid} {v : α} (hp : s.ph t = .wPut v [])
    {c : Nat} (hc : c ∈ s.members) :
    consume (s.writes.drop (s.since c)) (s.hist c) = some (s.dat c) := by
  have inv := inv_reach h
  have := inv.stream c hc
  have hl := (inv.lock t).2 (by rw [hp]; rfl)
  have h0 : pend s c = [] := by unfold pend; rw [hl]; dsimp only; rw [hp]; rfl
  rwa [h0, List.append_nil] at this

/-- a dup makes a new, empty end that starts at the current position; -/
theorem dup_starts_now {s s' : St α} (h : Reach s) {t : Tid} {call : Call α} (hp : s.ph t = .dIns)
    (hs : step s t call = some s') :
    ∃ c, c ∉ s.members ∧ s'.members = s.members ++ [c] ∧ s'.dat c = [] ∧ s'.hist c = [] ∧
      s'.since c = s.writes.length ∧ ∀ c' ∈ s.members, s'.dat c' = s.dat c' ∧ s'.since c' = s.since c' := by
  have inv := inv_reach h
  unfold step at hs
  rw [hp] at hs
  cases hs
  refine ⟨s.next, fun hm => Nat.lt_irrefl _ (inv.fresh _ hm), rfl, by simp [upd], by simp [upd], by simp [upd], ?_⟩
  intro c' hc'
  have := inv.fresh c' hc'
  constructor <;> simp [upd, Nat.ne_of_lt this]

/-- a read returns the first value of the queue, an unget puts one in
front. -/
theorem read_takes_front {s s' : St α} {t : Tid} {c : Nat} (hp : s.ph t = .idle)
    (hs : step s t (.read c) = some s') :
    ∃ v, s.dat c = v :: s'.dat c ∧ s'.hist c = s.hist c ++ [.read v] ∧
      ∀ c', c' ≠ c → s'.dat c' = s.dat c' ∧ s'.hist c' = s.hist c' := by
  unfold step at hs
  rw [hp] at hs
  dsimp only at hs
  split at hs
  · cases hs
  · rename_i v q hd
    cases hs
    exact ⟨v, by simp [upd, hd], by simp [upd], fun c' hc' => by simp [upd, hc']⟩

/-- The position in the group's sequence at which an end joined never
changes. -/
theorem since_is_fixed {s s' : St α} (h : Reach s) {t : Tid} {call : Call α} {c : Nat}
    (hc : c ∈ s.members) (hs : step s t call = some s') : s'.since c = s.since c := by
  have inv := inv_reach h
  have := inv.fresh c hc
  unfold step at hs
  cases hp : s.ph t <;> rw [hp] at hs <;> (try dsimp only at hs)
  case idle => cases call <;> (try dsimp only at hs) <;> (try split at hs) <;> cases hs <;> rfl
  case dIns => cases hs; simp [upd, Nat.ne_of_lt this]
  case wPut v rem => cases rem <;> cases hs <;> rfl
  all_goals (try split at hs) <;> cases hs <;> rfl

/-- One end on its own is an object whose operations are atomic; every
operation that enables a read notifies, so -/
theorem end_notifies_enough : Monitor.Spec.Notifies (endObj α) := by
  intro op op' s h1 h2 h3
  cases op <;> cases op' <;> cases s <;> simp_all [endObj, guard, body, notifies]

/-- no reader is left waiting at an end with something to read. -/
theorem end_no_lost_wakeup {c : Config (List α) (Op α) (Res α)}
    (h : Monitor.Spec.Reach (endObj α) [] c) (hq : ∀ u, c.ph u = .idle ∨ ∃ op, c.ph u = .waiting op)
    {t : Tid} (hw : c.ph t = .waiting .read) : c.st = [] := by
  have := Monitor.Props.no_lost_wakeup h end_notifies_enough hq hw
  simpa [endObj, guard] using this

/-- Nothing but reading from an empty end waits. -/
theorem end_waits_iff (op : Op α) (q : List α) : (endObj α).guard op q = false ↔ op = .read ∧ q = [] := by
  cases op <;> cases q <;> simp [endObj, guard]

/-- The steps of the group on one end are what the end does as an object. -/
theorem end_steps_agree (v : α) (q : List α) :
    ((endObj α).body (.put v) q).1 = q ++ [v] ∧ ((endObj α).body (.unget v) q).1 = v :: q ∧
    ((endObj α).body .read (v :: q)) = (q, .value v) ∧ ((endObj α).guard .read q = false ↔ q = []) := by
  refine ⟨rfl, rfl, rfl, ?_⟩
  cases q <;> simp [endObj, guard]

/-- Thread 0 writes 5, thread 1 duplicates the channel, thread 0 writes 6;
end 0 has read 5 and end 1 has 6 to read. -/
example : ∃ s : St Nat, Reach s ∧ Quiet s ∧ s.members = [0, 1] ∧ reads (s.hist 0) = [5] ∧
    s.dat 0 = [6] ∧ s.dat 1 = [6] ∧ s.since 1 = 1 := by
  have hd : (runs (init : St Nat) [(0, .write 5), (0, .dup), (0, .dup), (0, .dup), (1, .dup), (1, .dup), (1, .dup),
    (1, .dup), (0, .write 6), (0, .dup), (0, .dup), (1, .read 0), (0, .dup), (0, .dup)]).isSome := by decide
  exact ⟨_, reach_runs .start _ (Option.some_get hd).symm, rfl, rfl, rfl, rfl, rfl, rfl⟩

end Verif.Chan.Props
