import Verif.Pcbuf.Spec
import Verif.Monitor.Props
/-!
# C27: bounded buffers
-/
namespace Verif.Pcbuf.Props
open Verif.Monitor Verif.Monitor.Spec Verif.Pcbuf Verif.Pcbuf.Spec

variable {α : Type} {cap : Nat}

theorem bounded {s s' : List α} {l : List (Entry (Op α) (Res α))}
    (h : Sequential (obj α cap) s l s') (hs : s.length ≤ cap) : s'.length ≤ cap := by
  induction h with
  | nil => exact hs
  | @done s s' l t op hg _ ih =>
    apply ih
    cases op <;> cases s <;> simp_all [obj, guard, body, popBody] <;> omega
  | gaveUp t op r he _ ih => exact ih hs

theorem balance {s s' : List α} {l : List (Entry (Op α) (Res α))}
    (h : Sequential (obj α cap) s l s') (hc : NoClear l) : s ++ pushed l = popped l ++ s' := by
  induction h with
  | nil => simp [pushed, popped]
  | @done s s' l t op hg _ ih =>
    have ih := ih (fun e he => hc e (List.mem_cons_of_mem _ he))
    have h0 := hc _ List.mem_cons_self
    simp only [pushed, popped, List.flatMap_cons] at ih ⊢
    cases op <;> cases s <;> simp_all [obj, guard, body, popBody, pushedBy, poppedBy]
  | gaveUp t op r he _ ih =>
    have ih := ih (fun e he => hc e (List.mem_cons_of_mem _ he))
    simp only [pushed, popped, List.flatMap_cons] at ih ⊢
    cases op <;> simp_all [obj, expired, pushedBy, poppedBy]
    all_goals (subst he; simp [ih])

theorem split {s s' : List α} {l1 l2 : List (Entry (Op α) (Res α))}
    (h : Sequential (obj α cap) s (l1 ++ l2) s') :
    ∃ m, Sequential (obj α cap) s l1 m ∧ Sequential (obj α cap) m l2 s' := by
  induction l1 generalizing s with
  | nil => exact ⟨s, .nil _, h⟩
  | cons e l1 ih =>
    cases h with
    | done t op hg hr => obtain ⟨m, h1, h2⟩ := ih hr; exact ⟨m, .done t op hg h1, h2⟩
    | gaveUp t op r he hr => obtain ⟨m, h1, h2⟩ := ih hr; exact ⟨m, .gaveUp t op r he h1, h2⟩

/-- C27: under every interleaving the buffer never holds more than its
capacity. -/
theorem pcbuf_bounded {c : Config (List α) (Op α) (Res α)} (h : Reach (obj α cap) [] c) :
    c.st.length ≤ cap := bounded (Monitor.Props.sequential h) (Nat.zero_le _)

/-- C27: without `clear`, the values pushed are the values popped, in that
order, followed by the contents: nothing is lost, duplicated or reordered,
and a timed operation that returns false has no effect. -/
theorem pcbuf_fifo {c : Config (List α) (Op α) (Res α)} (h : Reach (obj α cap) [] c)
    (hc : NoClear c.log) : pushed c.log = popped c.log ++ c.st :=
  balance (Monitor.Props.sequential h) hc

/-- C27: `clear` empties the buffer; from then on the same holds of the
values pushed after it. -/
theorem pcbuf_fifo_since_clear {c : Config (List α) (Op α) (Res α)} (h : Reach (obj α cap) [] c)
    {l1 l2 : List (Entry (Op α) (Res α))} {e : Entry (Op α) (Res α)} (hl : c.log = l1 ++ e :: l2)
    (he : e.op = .clear) (hc : NoClear l2) : pushed l2 = popped l2 ++ c.st := by
  have hs := Monitor.Props.sequential h
  rw [hl] at hs
  obtain ⟨m, _, h2⟩ := split hs
  cases h2 with
  | done t op hg hr =>
    dsimp only at he; subst he
    simpa [obj, body] using balance hr hc
  | gaveUp t op r hx _ => dsimp only at he; subst he; cases hx

/-- C27: what each call returns and does: pushes happen only below capacity,
pops return the oldest value, `size` and `empty` tell the truth, and a timed
call returns false exactly when it did nothing. -/
theorem results {s s' : List α} {t : Tid} {op : Op α} {r : Res α} {b : Bool}
    (h : Sequential (obj α cap) s [⟨t, op, r, b⟩] s') :
    (∀ v, op = .push v → s.length < cap ∧ s' = s ++ [v]) ∧
    (∀ v, op = .pushFor v → (r ≠ .timeout ∧ s.length < cap ∧ s' = s ++ [v] ∨ r = .timeout ∧ s' = s)) ∧
    (op = .pop → ∃ v, s = v :: s' ∧ r = .value v) ∧
    (op = .popFor → ((∃ v, s = v :: s' ∧ r = .value v) ∨ r = .timeout ∧ s' = s)) ∧
    (op = .clear → s' = []) ∧
    (op = .size → r = .num s.length ∧ s' = s) ∧
    (op = .empty → r = .bool s.isEmpty ∧ s' = s) := by
  cases h with
  | done _ _ hg hr =>
    cases hr
    cases op <;> cases s <;> simp_all [obj, guard, body, popBody]
  | gaveUp _ _ _ he hr =>
    cases hr
    cases op <;> simp_all [obj, expired]

/-- Every operation that enables another one notifies. -/
theorem notifies_enough : Notifies (obj α cap) := by
  intro op op' s h1 h2 h3
  cases op <;> simp_all [obj, body, notifies]

/-- C27: no thread is left waiting for room or for values that are there. -/
theorem pcbuf_no_lost_wakeup {c : Config (List α) (Op α) (Res α)}
    (h : Reach (obj α cap) [] c) (hq : ∀ u, c.ph u = .idle ∨ ∃ op, c.ph u = .waiting op) {t : Tid}
    {op : Op α} (hw : c.ph t = .waiting op) :
    (∃ v, op = .push v ∨ op = .pushFor v) ∧ c.st.length = cap ∨ (op = .pop ∨ op = .popFor) ∧ c.st = [] := by
  have := Monitor.Props.no_lost_wakeup h notifies_enough hq hw
  have hb := pcbuf_bounded h
  cases op <;> simp_all [obj, guard]
  all_goals omega

/-- Thread 0 fills a buffer of capacity 1, thread 1 waits to push; thread 0
pops and thread 1 proceeds. -/
example : ∃ c : Config (List Nat) (Op Nat) (Res Nat), Reach (obj Nat 1) [] c ∧
    popped c.log = [5] ∧ pushed c.log = [5, 6] ∧ c.st = [6] ∧ c.returned 0 = [(.push 5, .none), (.pop, .value 5)] := by
  have hd : (runs (obj Nat 1) (start []) [(0, .call (.push 5)), (0, .go), (0, .go), (0, .go), (0, .go), (0, .go),
    (1, .call (.push 6)), (1, .go), (1, .go), (0, .call .pop), (0, .go), (0, .go), (0, .go), (0, .go), (0, .go),
    (1, .go), (1, .go), (1, .go)]).isSome := by decide
  exact ⟨_, Lemmas.reach_runs .start _ (Option.some_get hd).symm, by decide +revert, by decide +revert, by decide +revert, by decide +revert⟩

/-- A timed push that gives up. -/
example : ∃ c : Config (List Nat) (Op Nat) (Res Nat), Reach (obj Nat 0) [] c ∧
    pushed c.log = [] ∧ c.returned 0 = [(.pushFor 5, .timeout)] := by
  have hd : (runs (obj Nat 0) (start []) [(0, .call (.pushFor 5)), (0, .go), (0, .go), (0, .go), (0, .expire),
    (0, .go)]).isSome := by decide
  exact ⟨_, Lemmas.reach_runs .start _ (Option.some_get hd).symm, by decide +revert, by decide +revert⟩

end Verif.Pcbuf.Props
