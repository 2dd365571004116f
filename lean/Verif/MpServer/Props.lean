import Verif.MpServer.Lemmas
/-!
# C80: running, stopping and joining an RPC server
-/
namespace Verif.MpServer.Props
open Verif.MpServer Verif.MpServer.Spec Verif.MpServer.Lemmas

/-- A server that is used as it should be never does anything undefined,
however the steps of the threads are mixed: no null pointer is followed, and
no worker touches the server after it was destroyed. -/
theorem defined_partial {timed : Bool} {s : State} (h : Reach timed s) : s.ub = false := (inv_reach h).ub

/-- Whenever a call of the owner returns that takes more than one step, all
workers have ended; except when `run` was told not to wait. So it is with
`join`, with a synchronous `run`, and with a `run` that failed. -/
theorem return_means_ended_partial {timed : Bool} {s s' : State} {e : Ev} (h : Reach timed s)
    (hb : s.owner ≠ .idle) (ha : ∀ i n, s.owner ≠ .starting i n false) (hs : step s e = some s')
    (hi : s'.owner = .idle) : ∀ w, ¬ Alive s' w := by
  have i := inv_reach h
  have hown := i.owner
  obtain ⟨_, s1, hs1, h1⟩ := step_cases hs
  have hd : s.destroyed = false := by
    cases hd : s.destroyed with
    | false => rfl
    | true => exact absurd (i.dest hd).1 hb
  have hs1 : s' = s1 := by simpa [hd] using hs1
  subst hs1
  rcases h1 with ⟨w, _, h1⟩ | ⟨_, h1⟩
  · obtain ⟨_, p, f, rfl⟩ := workerStep_shape h1
    exact absurd hi hb
  · unfold ownerStep at h1
    cases e with
    | create ok => simp [hb] at h1
    | run n b => simp [hb] at h1
    | join => simp [hb] at h1
    | destroy => simp [hb] at h1
    | start ok =>
      simp only at h1
      split at h1
      · rename_i a n sync ho
        cases h1
        exfalso
        cases sync with
        | false => exact ha _ _ ho
        | true =>
          unfold startNext at hi
          split at hi
          · split at hi <;> cases hi
          · cases hi
      · cases h1
    | stopFlag => simp only at h1; cases h1; exact absurd hi hb
    | stopClose => simp only at h1; split at h1 <;> cases h1; exact absurd hi hb
    | joinNext =>
      simp only at h1
      split at h1
      · rename_i k ho
        simp only [joinNext] at h1
        split at h1
        · rw [Option.map_eq_some_iff] at h1; obtain ⟨s2, _, rfl⟩ := h1; cases hi
        · rename_i hge
          cases h1
          rw [OwnerOk, ho] at hown
          intro w hw
          obtain ⟨k', hk⟩ := List.mem_iff_getElem?.1 (i.alive w hw)
          exact hown.2.2 k' _ (by have := (List.getElem?_eq_some_iff.1 hk).1; omega) hk trivial
      · rename_i j k ho
        simp only [failNext] at h1
        split at h1
        · rw [Option.map_eq_some_iff] at h1; obtain ⟨s2, _, rfl⟩ := h1; cases hi
        · rename_i hge
          cases h1
          rw [OwnerOk, ho] at hown
          intro w hw
          obtain ⟨k', hk⟩ := List.mem_iff_getElem?.1 (i.alive w hw)
          exact hown.2.2.2 k' _ (by omega) hk trivial
      · cases h1
    | _ => simp at h1

/-- When `run` has come to the end of starting threads, there are exactly as
many as it was asked for, each has its own worker, and no worker of an earlier
`run` is left. -/
theorem run_starts_partial {timed : Bool} {s : State} {i n : Nat} {sync : Bool} (h : Reach timed s)
    (ho : s.owner = .starting i n sync) (hi : n ≤ i) :
    ∃ ws : List Nat, s.threads = ws.map .run ∧ ws.length = n ∧ ws.Nodup ∧ ∀ w, Alive s w → w ∈ ws := by
  have inv := inv_reach h
  have hown := inv.owner
  rw [OwnerOk, ho] at hown
  obtain ⟨hlen, hle, hrun, _⟩ := hown
  have key : ∀ l : List Slot, (∀ x ∈ l, ∃ w, x = .run w) → l = (l.filterMap idOf).map .run := by
    intro l hl
    induction l with
    | nil => rfl
    | cons x l ih =>
      obtain ⟨w, rfl⟩ := hl x List.mem_cons_self
      rw [List.filterMap_cons_some (f := idOf) (a := .run w) (b := w) rfl, List.map_cons,
        ← ih fun x hx => hl x (List.mem_cons_of_mem _ hx)]
  have hall : ∀ x ∈ s.threads, ∃ w, x = .run w := by
    intro x hx
    obtain ⟨k, hk⟩ := List.mem_iff_getElem?.1 hx
    obtain ⟨w, hw⟩ := hrun k (by have := (List.getElem?_eq_some_iff.1 hk).1; omega)
    rw [hk] at hw
    exact ⟨w, Option.some.inj hw⟩
  have e := key s.threads hall
  refine ⟨s.threads.filterMap idOf, e, ?_, inv.nodup, fun w hw => ids_mem.2 (inv.alive w hw)⟩
  have := congrArg List.length e
  rw [List.length_map] at this
  omega

/-- Between `run` and the next `stop` the server listens. -/
theorem running_listens_partial {timed : Bool} {s : State} (h : Reach timed s) (hr : s.running = true)
    (hd : s.destroyed = false) : s.listening ≠ none := ((inv_reach h).runs hr).2 hd

/-- After a stop everything comes to rest: there is a number of steps that the
threads cannot exceed together without a further call, and when nothing
happens by itself any more, the calls of the owner have returned and all
workers have ended; except that without a timeout workers whose clients keep
silent go on waiting, and the owner for them. -/
theorem stop_ends_partial {timed : Bool} {s : State} (h : Reach timed s) (hr : s.running = false) :
    ∃ bound, ∀ n s', Goes n s s' → n ≤ bound ∧ (Rest s' →
      (∀ w, Alive s' w → timed = false ∧ s'.workers[w]? = some .recv) ∧
      ((∀ w, ¬ Alive s' w) → s'.owner = .idle)) := by
  refine ⟨total s, fun n s' hg => ?_⟩
  obtain ⟨h1, h2⟩ := goes_bound hg hr
  have hr' := goes_reach hg h
  have i := inv_reach hr'
  refine ⟨by omega, fun hrest => ⟨fun w hw => ?_, rest_idle i hrest⟩⟩
  obtain ⟨a, b⟩ := rest_alive i h2 hrest w hw
  exact ⟨(reach_timed hr').symm.trans b, a⟩

/-- So with a timeout, `stop` makes every call of `join` or `run` return and
every worker end. -/
theorem stop_ends_timed {s s' : State} {n : Nat} (h : Reach true s) (hr : s.running = false) (hg : Goes n s s')
    (hrest : Rest s') : s'.owner = .idle ∧ ∀ w, ¬ Alive s' w := by
  obtain ⟨_, hb⟩ := stop_ends_partial h hr
  obtain ⟨h1, h2⟩ := (hb n s' hg).2 hrest
  have hd : ∀ w, ¬ Alive s' w := fun w hw => by cases (h1 w hw).1
  exact ⟨h2 hd, hd⟩

/-! ### Where the code does not do what it should -/

/-- The owner has called `run` for one thread and waits; the worker has a
client that says nothing; another thread has called `stop`. -/
def silent : List Ev := [.create true, .run 1 true, .start true, .start true, .test 0, .fetch 0, .accept 0 .conn,
  .setup 0 true, .test 0, .stopFlag, .stopClose]

/-- Without a timeout a client that says nothing keeps `run` (or `join`) from
returning after `stop`: nothing can happen any more. -/
theorem silent_client : ∃ s, Reach false s ∧ s.running = false ∧ s.owner = .joining 0 ∧ Rest s := by
  refine ⟨⟨false, false, none, 1, [.run 0], [.recv], .joining 0, 0, false, false, false⟩,
    play_reach (es := silent) .new (by decide +kernel), rfl, rfl, ?_⟩
  intro e he
  cases e with
  | start ok => rfl
  | joinNext => decide
  | stopClose => decide
  | test w => cases w <;> simp [step, Ev.worker, workerStep]
  | fetch w => cases w <;> simp [step, Ev.worker, workerStep]
  | setup w ok => cases w <;> simp [step, Ev.worker, workerStep]
  | accept w r => cases w <;> simp [step, Ev.worker, workerStep]
  | receive w r =>
    cases r with
    | timeout => cases w <;> simp [step, Ev.worker, workerStep]
    | _ => exact he.elim
  | _ => cases he

/-- `join` after a `run` whose second of three threads could not be started
follows a null pointer. -/
theorem failed_run_join : ∃ s, Any true s ∧ s.ub = true :=
  ⟨⟨true, false, none, 1, [.joined, .fresh, .null], [.done], .joining 3, 0, false, false, true⟩,
    play_any (es := [.create true, .run 3 false, .start true, .start false, .test 0, .joinNext, .joinNext, .join,
      .joinNext, .joinNext, .joinNext]) .new (by decide +kernel), rfl⟩

/-- `stop`, `create` and `run` without `join` in between: the old worker goes
on, so that two workers run after `run(1)`; and when later `join` returns, the
old worker is still there. -/
theorem restart_without_join : ∃ s, Any true s ∧ s.owner = .idle ∧ s.threads = [] ∧ s.running = false ∧ Alive s 0 ∧
    ∃ s0, Any true s0 ∧ s0.running = true ∧ s0.threads.length = 1 ∧ Alive s0 0 ∧ Alive s0 1 :=
  ⟨⟨true, false, none, 2, [], [.fetch, .done], .idle, 0, false, false, false⟩,
    play_any (es := [.create true, .run 1 false, .start true, .start true, .stopFlag, .stopClose, .create true,
      .run 1 false, .start true, .start true, .test 0, .stopFlag, .stopClose, .test 1, .join, .joinNext, .joinNext])
      .new (by decide +kernel),
    rfl, rfl, rfl, ⟨.fetch, rfl, by simp⟩,
    ⟨true, true, some 1, 2, [.run 1], [.head, .head], .idle, 0, false, false, false⟩,
    play_any (es := [.create true, .run 1 false, .start true, .start true, .stopFlag, .stopClose, .create true,
      .run 1 false, .start true, .start true]) .new (by decide +kernel),
    rfl, rfl, ⟨.head, rfl, by simp⟩, ⟨.head, rfl, by simp⟩⟩

/-- The destructor neither stops nor joins: after `stop` without `join` a
worker still uses the server. -/
theorem destroyed_too_early : ∃ s, Any true s ∧ s.ub = true :=
  ⟨⟨true, false, none, 1, [], [.done], .idle, 0, true, false, true⟩,
    play_any (es := [.create true, .run 1 false, .start true, .start true, .stopFlag, .stopClose, .destroy, .test 0])
      .new (by decide +kernel), rfl⟩

/-- `create` between `stop` and `join`: a worker that had not yet read the
descriptor waits for clients of the new socket, and `join` for the worker,
timeout or not. -/
theorem create_before_join : ∃ s, Any true s ∧ s.running = false ∧ s.owner = .joining 0 ∧ Rest s := by
  refine ⟨⟨true, false, some 1, 2, [.run 0], [.acc (some 1)], .joining 0, 0, false, false, false⟩,
    play_any (es := [.create true, .run 1 false, .start true, .start true, .test 0, .stopFlag, .stopClose,
      .create true, .fetch 0, .join]) .new (by decide +kernel), rfl, rfl, ?_⟩
  intro e he
  cases e with
  | start ok => rfl
  | joinNext => decide
  | stopClose => decide
  | test w => cases w <;> simp [step, Ev.worker, workerStep]
  | fetch w => cases w <;> simp [step, Ev.worker, workerStep]
  | setup w ok => cases w <;> simp [step, Ev.worker, workerStep]
  | accept w r =>
    cases r with
    | closed => cases w <;> simp [step, Ev.worker, workerStep, acceptStep]
    | _ => exact he.elim
  | receive w r => cases w <;> simp [step, Ev.worker, workerStep]
  | _ => cases he

/-- A `stop` that is overtaken by `run` closes the socket of the server that
runs again: `running()` says true for ever, and nobody can connect. -/
theorem stop_overtaken : ∃ s, Any true s ∧ s.running = true ∧ s.closing = 0 ∧ s.listening = none :=
  ⟨⟨true, true, none, 1, [.run 1], [.done, .head], .idle, 0, false, false, false⟩,
    play_any (es := [.create true, .run 1 false, .start true, .start true, .stopFlag, .test 0, .join, .joinNext,
      .joinNext, .run 1 false, .start true, .start true, .stopClose]) .new (by decide +kernel), rfl, rfl, rfl⟩

/-- Even when the server is used as it should be, a worker can serve a
connection that was made to another socket of the program: it has read the
descriptor, which is then closed by `stop` and given to somebody else before
it calls `accept`. -/
theorem serves_foreign : ∃ s, Reach true s ∧ s.foreign = true :=
  ⟨⟨true, false, none, 1, [.run 0], [.setup], .joining 0, 0, false, true, false⟩,
    play_reach (es := [.create true, .run 1 true, .start true, .start true, .test 0, .fetch 0, .stopFlag, .stopClose,
      .accept 0 .foreign]) .new (by decide +kernel), rfl⟩

/-- `run(0)` returns true at once, with a running server that has no worker. -/
theorem no_workers : ∃ s, Reach true s ∧ s.running = true ∧ s.owner = .idle ∧ s.workers = [] :=
  ⟨⟨true, true, some 0, 1, [], [], .idle, 0, false, false, false⟩,
    play_reach (es := [.create true, .run 0 true, .start true, .joinNext]) .new (by decide +kernel), rfl, rfl, rfl⟩

/-! ### Examples -/

/-- A life of a server: two threads, one client, stop, join, again with one
thread, and its end. -/
def life : List Ev := [.create true, .run 2 false, .start true, .start true, .start true, .test 0, .test 1, .fetch 1,
  .accept 1 .conn, .setup 1 true, .test 1, .receive 1 .msg, .test 1, .stopFlag, .fetch 0, .join, .stopClose,
  .accept 0 .closed, .test 0, .joinNext, .receive 1 .timeout, .test 1, .joinNext, .joinNext, .create true, .run 1 true,
  .start true, .start true, .stopFlag, .test 2, .joinNext, .stopClose, .joinNext, .destroy]

example : ∃ s, Reach true s ∧ s.destroyed = true ∧ s.workers = [.done, .done, .done] :=
  ⟨⟨true, false, none, 2, [], [.done, .done, .done], .idle, 0, true, false, false⟩,
    play_reach (es := life) .new (by decide +kernel), rfl, rfl⟩

/-- The hypotheses of `stop_ends_partial` and `stop_ends_timed` in the middle
of that life, with work left to do. -/
example : ∃ s, Reach true s ∧ s.running = false ∧ Alive s 0 ∧ Alive s 1 ∧ s.owner = .joining 0 :=
  ⟨⟨true, false, some 0, 1, [.run 0, .run 1], [.acc (some 0), .recv], .joining 0, 1, false, false, false⟩,
    play_reach (es := life.take 16) .new (by decide +kernel), rfl, ⟨_, rfl, by simp⟩, ⟨_, rfl, by simp⟩, rfl⟩

/-- Of `run_starts_partial`. -/
example : ∃ s, Reach true s ∧ s.owner = .starting 2 2 false :=
  ⟨⟨true, true, some 0, 1, [.run 0, .run 1], [.head, .head], .starting 2 2 false, 0, false, false, false⟩,
    play_reach (es := life.take 4) .new (by decide +kernel), rfl⟩

end Verif.MpServer.Props
