import Verif.RpcStop.Lemmas
/-!
# C56: stopping an RPC server
-/
namespace Verif.RpcStop.Props
open Verif.RpcStop Verif.RpcStop.Spec Verif.RpcStop.Lemmas

/-- A server is stopped only when all its workers have reported their end; -/
theorem stopped_no_workers {s : Server} (h : Reach s) (hs : s.st = .stopped) (t : Tid) : ¬ Working (s.ph t) := by
  intro hw
  have i := inv_reach h
  have := working_pos i.workers hw
  have := i.stopped hs
  omega

/-- and a call of `wait_until_stopped` returns only from a stopped server. -/
theorem wait_returns_stopped {s s' : Server} {t : Tid} {c : Choice} (h : Reach s) (hw : Waiting (s.ph t)) (hs : Step s t c s')
    (hr : ¬ Waiting (s'.ph t)) : s.st = .stopped ∧ ∀ u, ¬ Working (s.ph u) := by
  have key := wait_leaves hw hs.1 hr
  exact ⟨key, stopped_no_workers h key⟩

/-- Threads never block each other: as long as a thread is neither outside the server nor waiting for its end, some thread can go on. -/
theorem no_deadlock {s : Server} (h : Reach s) {t : Tid} (ht : s.ph t ≠ .idle) (hb : s.ph t ≠ .blocked) : ¬ Final s := by
  intro hf
  rcases final_idle (inv_reach h) hf t with e | e
  · exact ht e
  · exact hb e

/-- When `start` returns true after creating at least one thread, the server is running and has a worker. -/
theorem start_starts {s s' : Server} {t : Tid} {c : Choice} (h : Reach s) (ht : ∃ k, s.ph t = .starting k) (hs : Step s t c s')
    (hr : s'.ph t = .idle) (hc : c ≠ .fail) (hn : s.nthreads ≠ 0) : s'.st = .running ∧ s'.spawned = true :=
  start_leaves (inv_reach h) ht hs.1 hr hc hn

/-- When `stop` returns, the server is not running. -/
theorem stop_not_running {s s' : Server} {t : Tid} {c : Choice} (h : Reach s) (ht : s.ph t = .stopEnter ∨ ∃ k, s.ph t = .exiting k)
    (hs : Step s t c s') (hr : s'.ph t = .idle) : s'.st ≠ .running :=
  stop_leaves (inv_reach h) ht hs.1 hr

/-- Once a server is not running and no call of `start` is going on, the threads come to rest, in a bounded number of steps. -/
theorem comes_to_rest {s : Server} (h : Reach s) (hs : s.st ≠ .running) (hn : NoStart s) :
    ∃ B, ∀ n s', Run n s s' → n ≤ B := by
  obtain ⟨M, hm, hM⟩ := (inv_reach h).finite
  exact ⟨_, fun n s' hr => run_bound hm hr hs hn hM⟩

/-- Then the server is stopped, if it had a worker at all, and all threads have left it, but for those inside `wait_until_stopped`. -/
theorem stop_stops {s s' : Server} {n : Nat} (h : Reach s) (hs : s.st ≠ .running) (hn : NoStart s) (hw : s.spawned = true ∨ s.st = .stopped)
    (hr : Run n s s') (hf : Final s') :
    s'.st = .stopped ∧ ∀ t, s'.ph t = .idle ∨ s'.ph t = .blocked := by
  obtain ⟨h1, h2, h3, h4, h5⟩ := run_keeps hr h hs hn
  have i := inv_reach h1
  have hid := final_idle i hf
  refine ⟨?_, hid⟩
  rcases hw with hw | hw
  · rcases i.spawned (h4.trans hw) with hp | hp
    · obtain ⟨L, _, hL, e⟩ := i.workers
      cases L with
      | nil => simp at e; omega
      | cons t L =>
        have := (hL t).1 (List.mem_cons_self ..)
        rcases hid t with e | e <;> simp [Working, e] at this
    · exact hp
  · exact h5 hw

/-- C56, partial: and also those, if there is never more than one at a time. Missing: several waiting threads, see `two_waiters`, and a server
without workers, see `no_workers`. -/
theorem stop_wakes_partial {s s' : Server} {n : Nat} (h : ReachOne s) (hs : s.st ≠ .running) (hn : NoStart s)
    (hw : s.spawned = true ∨ s.st = .stopped) (hr : Run n s s') (hf : Final s') : s'.st = .stopped ∧ ∀ t, s'.ph t = .idle := by
  obtain ⟨h1, h2⟩ := stop_stops (reach_of_one h) hs hn hw hr hf
  refine ⟨h1, fun t => ?_⟩
  rcases h2 t with e | e
  · exact e
  · obtain ⟨u, hu⟩ := (inv_one (run_one hr h)).coming t h1 e
    rcases h2 u with e | e <;> rw [e] at hu <;> cases hu

/-- C56 fails with two waiting threads: `notify_one` wakes one of them. The server stops, everybody else leaves, and the other thread waits
for ever, whatever is called except `start`, unless the system wakes it by itself. -/
theorem two_waiters : ∃ s, Reach s ∧ s.spawned = true ∧ s.st = .stopped ∧ s.ph 3 = .blocked ∧
    ∀ s', Later s s' → s'.st = .stopped ∧ s'.ph 3 = .blocked := by
  let l : List (Tid × Choice) := [(0, .start 1), (0, .go), (0, .with 1), (0, .go), (2, .wait), (3, .wait), (2, .go), (3, .go), (0, .stop),
    (0, .go), (0, .go), (0, .go), (1, .go), (1, .go), (1, .with 2), (2, .go)]
  have e : (play l new).map (fun s => (s.spawned, s.st, s.ph 0, s.ph 1, s.ph 2, s.ph 3)) =
      some (true, .stopped, .idle, .idle, .idle, .blocked) := by decide
  obtain ⟨s, hs, e⟩ := Option.map_eq_some_iff.1 e
  simp only [Prod.mk.injEq] at e
  obtain ⟨e0, e1, e2, e3, e4, e5⟩ := e
  have hd : Dead s := by
    refine ⟨by simp [e1], fun t => ?_⟩
    by_cases ht : t ∈ [0, 1, 2, 3]
    · simp only [List.mem_cons, List.not_mem_nil, or_false] at ht
      rcases ht with rfl | rfl | rfl | rfl <;> simp [*, Waiting]
    · have := play_other hs (u := t) (by simp only [l]; simp at ht ⊢; grind)
      simp [this, new]
  refine ⟨s, play_reach .new hs, e0, e1, e5, fun s' hl => ?_⟩
  obtain ⟨_, h2, h3⟩ := dead_later hl hd
  exact ⟨h2.trans e1, h3 3 e5⟩

/-- C56 also fails without workers, after `start` with 0 threads or when the first thread cannot be created (as `serv` does, which then calls
`stop`): the server never gets stopped. -/
theorem no_workers : (∃ s, Reach s ∧ s.st = .stopping ∧ s.ph 0 = .idle ∧ ∀ s', Later s s' → s'.st = .stopping) := by
  let l : List (Tid × Choice) := [(0, .start 4), (0, .go), (0, .fail), (0, .stop), (0, .go), (0, .go), (0, .go), (0, .go), (0, .go), (0, .go)]
  have e : (play l new).map (fun s => (s.st, s.ph 0)) = some (.stopping, .idle) := by decide
  obtain ⟨s, hs, e⟩ := Option.map_eq_some_iff.1 e
  simp only [Prod.mk.injEq] at e
  obtain ⟨e1, e2⟩ := e
  have hd : Dead s := by
    refine ⟨by simp [e1], fun t => ?_⟩
    by_cases ht : t = 0
    · simp [*]
    · have := play_other hs (u := t) (by simp only [l]; simp; grind)
      simp [this, new]
  exact ⟨s, play_reach .new hs, e1, e2, fun s' hl => (dead_later hl hd).2.1.trans e1⟩

/-- The hypotheses of `stop_wakes_partial` are met: two workers, thread 9 waiting inside the server, thread 0 about to return from `stop`,
one worker in the middle of a request. -/
example : ∃ s, ReachOne s ∧ s.st = .stopping ∧ NoStart s ∧ s.spawned = true ∧ s.ph 9 = .blocked ∧ s.ph 1 = .busy ∧ s.ph 2 = .leave := by
  let l : List (Tid × Choice) := [(0, .start 2), (0, .go), (0, .with 1), (0, .with 2), (0, .go), (1, .go), (2, .go)]
  let l' : List (Tid × Choice) := [(9, .go), (0, .stop), (0, .go), (0, .go), (0, .go), (0, .go), (2, .go), (2, .go)]
  have e : (play l new).map (fun s => ((s.ph 0, s.ph 1, s.ph 2, s.ph 9), ((step s 9 .wait).bind (play l')).map fun s =>
      (s.st, s.spawned, s.ph 0, s.ph 1, s.ph 2, s.ph 9))) =
      some ((.idle, .busy, .busy, .idle), some (.stopping, true, .idle, .busy, .leave, .blocked)) := by rfl
  obtain ⟨s, hs, e⟩ := Option.map_eq_some_iff.1 e
  simp only [Prod.mk.injEq] at e
  obtain ⟨⟨e0, e1, e2, e9⟩, e⟩ := e
  obtain ⟨s', hs', e⟩ := Option.map_eq_some_iff.1 e
  obtain ⟨s1, hw, hs'⟩ := Option.bind_eq_some_iff.1 hs'
  simp only [Prod.mk.injEq] at e
  obtain ⟨f1, f2, f3, f4, f5, f6⟩ := e
  have h1 : ReachOne s := play_one (by decide) .new hs
  have hother : ∀ t, t ∉ [0, 1, 2, 9] → s.ph t = .idle ∧ s'.ph t = .idle := by
    intro t ht
    have a : s.ph t = .idle := play_other hs (u := t) (by simp only [l]; simp at ht ⊢; grind)
    have b := step_other hw (u := t) (by simp at ht; grind) (by simp)
    have c := play_other hs' (u := t) (by simp only [l']; simp at ht ⊢; grind)
    exact ⟨a, by rw [c, b, a]⟩
  have h2 : ReachOne s1 := by
    refine .step h1 ⟨hw, by simp⟩ (fun _ u => ?_)
    by_cases hu : u ∈ [0, 1, 2, 9]
    · simp only [List.mem_cons, List.not_mem_nil, or_false] at hu
      rcases hu with rfl | rfl | rfl | rfl <;> simp [*, Waiting]
    · simp [(hother u hu).1, Waiting]
  refine ⟨s', play_one (by decide) h2 hs', f1, fun u => ?_, f2, f6, f4, f5⟩
  by_cases hu : u ∈ [0, 1, 2, 9]
  · simp only [List.mem_cons, List.not_mem_nil, or_false] at hu
    rcases hu with rfl | rfl | rfl | rfl <;> simp [*, Starting]
  · simp [(hother u hu).2, Starting]

end Verif.RpcStop.Props
