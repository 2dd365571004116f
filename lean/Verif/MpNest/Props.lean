import Verif.MpNest.LemmasPatient
/-!
# MessagePack-RPC calls within calls: properties (C112)
-/
namespace Verif.MpNest.Props
open Verif.MpNest Verif.MpNest.Spec Verif.MpNest.Lemmas

/-- **C112a.** Clients with timeouts never wait for ever, however the functions call each other and whatever the order of events: from every state, if no more clients
come, only so many events can happen; when none can, each caller has its answer or has given up, and all threads of all servers are free. -/
theorem all_end {s : State} (hn : ∀ k, 0 < s.n k) :
    ∃ bound, ∀ es s', (∀ e ∈ es, Inner e) → run s es = some s' →
      es.length ≤ bound ∧
      (Rest s' → s.acts.length ≤ s'.acts.length ∧ (∀ i < s'.acts.length, Answered s' i ∨ GivenUp s' i) ∧ ∀ k, busy s' k = 0) := by
  refine ⟨(s.acts.map work).sum, fun es s' he h => ?_⟩
  obtain ⟨b1, b2, b3⟩ := inner_run es he h
  refine ⟨by omega, fun hr => ⟨b3, fun i hi => ?_, ?_⟩⟩
  · have hd := rest_done (by rw [b2]; exact hn) hr _ (List.getElem_mem hi)
    have hg := List.getElem?_eq_getElem hi
    generalize s'.acts[i] = a at hd hg
    obtain ⟨fs, top, w⟩ := a
    cases w with
    | waits => exact absurd rfl hd.2.2
    | answered => exact .inl ⟨_, hg, rfl⟩
    | gaveUp => exact .inr ⟨_, hg, rfl⟩
  · intro k
    rw [busy_eq]
    exact done_free (rest_done (by rw [b2]; exact hn) hr) k

/-- A function that calls its own server, which has one thread: locked up without timeouts. Here the function gives up, then the client
does, and all ends, with the inner call run for nobody. -/
example : ∃ s, run (start fun _ => 1) [.arrive (.node 0 [.node 0 []]), .accept 0, .call 0, .giveUp 0 0, .giveUp 0 0, .close 0, .accept 1, .reply 1] = some s ∧
    GivenUp s 0 ∧ GivenUp s 1 ∧ busy s 0 = 0 := ⟨_, rfl, ⟨_, rfl, rfl⟩, ⟨_, rfl, rfl⟩, rfl⟩

/-- **C112b.** No server ever uses more threads than it has, those of calls that were given up included. -/
theorem threads_bounded {n : Nat → Nat} {s : State} (hs : Reach n s) (k : Nat) : busy s k ≤ n k := by
  obtain ⟨es, hes⟩ := hs
  rw [busy_eq]
  exact (bounded k es (s := start n) (Nat.zero_le _) hes).2

example : ∃ s, run (start fun _ => 1) [.arrive (.node 0 [.node 1 []]), .accept 0, .call 0, .accept 0, .giveUp 0 0] = some s ∧ busy s 0 = 1 ∧ busy s 1 = 1 :=
  ⟨_, rfl, rfl, rfl⟩

/-- **C112c (finding).** Once anyone has given up within a call without catching the exception, the one who made the call never gets an answer, not even one
that says so, unless a function in between catches: it ends only by its own timeout. -/
theorem failure_spreads {n : Nat → Nat} {s s' s'' : State} {i j : Nat} {es : List Ev} (hs : Reach n s) (h : step s (.giveUp i j) = some s')
    (hc : ∀ j more, Ev.caught i j more ∉ es) (hr : run s' es = some s'') : ¬ Answered s'' i := by
  obtain ⟨_, b, _, hb, hd, _⟩ := give_up hs h
  obtain ⟨a, ha, hda⟩ := doomed_run i es hc ⟨b, hb, hd⟩ hr
  rintro ⟨b, hb, hw⟩
  rw [ha] at hb
  cases hb
  rcases hda with h | ⟨_, h⟩ <;> rw [hw] at h <;> cases h

/-- Without `hc` it would be false: the second function gives up and throws, the first catches its own timeout, and the client gets an answer. -/
example : ∃ s, run (start fun _ => 1) [.arrive (.node 0 [.node 1 [.node 2 []]]), .accept 0, .call 0, .accept 0, .call 0, .giveUp 0 0, .caught 0 0 true, .reply 0] = some s ∧
    Answered s 0 := ⟨_, rfl, ⟨_, rfl, rfl⟩⟩

/-- If it is the function that was called itself that gives up, or the caller, nothing can help. -/
theorem thrown_unanswered {n : Nat → Nat} {s s' s'' : State} {i j : Nat} {es : List Ev} {a : Act} (hs : Reach n s) (hi : s.acts[i]? = some a)
    (hj : a.frames.length ≤ j + 1) (h : step s (.giveUp i j) = some s') (hr : run s' es = some s'') : ¬ Answered s'' i := by
  obtain ⟨a', b, ha', hb, _, hd⟩ := give_up hs h
  rw [hi] at ha'
  cases ha'
  obtain ⟨a, ha, hda⟩ := lost_run i es ⟨b, hb, hd hj⟩ hr
  rintro ⟨b, hb, hw⟩
  rw [ha] at hb
  cases hb
  rcases hda with h | ⟨_, _, h⟩ <;> rw [hw] at h <;> cases h

/-- The function called itself gives up on the one that it calls: one waits, so `j = 0`. -/
example : ∃ s s', run (start fun _ => 2) [.arrive (.node 0 [.node 1 []]), .accept 0, .call 0, .accept 0] = some s ∧
    (∃ a, s.acts[0]? = some a ∧ a.frames.length ≤ 0 + 1) ∧ step s (.giveUp 0 0) = some s' := ⟨_, _, rfl, ⟨_, rfl, by decide⟩, rfl⟩

/-- The function asks two others; the first is too slow, and the client can only wait for its own timeout. -/
example : ∃ s, run (start fun _ => 2) [.arrive (.node 0 [.node 1 [], .node 1 []]), .accept 0, .call 0, .accept 0, .giveUp 0 0, .reply 1] = some s ∧
    (∃ a, s.acts[0]? = some a ∧ a.who = .waits ∧ a.top = .silent 0) ∧ busy s 1 = 0 ∧ busy s 0 = 1 :=
  ⟨_, rfl, ⟨_, rfl, rfl, rfl⟩, rfl, rfl⟩

/-- **C112d (finding).** For every server and every function, the function can still be begun, and run to its end, after all who had asked for
it have given up. -/
theorem runs_for_nobody (n : Nat → Nat) (k : Nat) (hk : 0 < n k) :
    ∃ s s', run (start n) [.arrive (.node k []), .giveUp 0 0] = some s ∧ GivenUp s 0 ∧ busy s k = 0 ∧
      step s (.accept 0) = some s' ∧ busy s' k = 1 := by
  refine ⟨⟨n, [⟨[], .queued (.node k []), .gaveUp⟩]⟩, ⟨n, [⟨[], .running k [], .gaveUp⟩]⟩, rfl, ⟨_, rfl, rfl⟩, rfl, ?_, ?_⟩
  · have : State.used ⟨n, [⟨[], .queued (.node k []), .gaveUp⟩]⟩ k = 0 := rfl
    simp [step, this, hk]
  · simp [busy, holds]

example : (0 : Nat) < (fun _ => 4 : Nat → Nat) 2 := by decide

/-- **C112e (finding).** A client who gives up and tries again, up to any number `m` of times, and then gets an answer, may have had the function run once for each time. -/
theorem runs_again (n : Nat → Nat) (k : Nat) (hk : 0 < n k) (m : Nat) :
    ∃ es s, run (start n) es = some s ∧ s.acts.length = m + 1 ∧ (∀ i < m, GivenUp s i) ∧ Answered s m ∧ begun es = m + 1 := by
  have key : ∀ m, ∃ es, run (start n) es = some ⟨n, List.replicate m ⟨[], .done, .gaveUp⟩⟩ ∧ begun es = m := by
    intro m
    induction m with
    | zero => exact ⟨[], rfl, rfl⟩
    | succ m ih =>
      obtain ⟨es, h, hb⟩ := ih
      refine ⟨es ++ [.arrive (.node k []), .giveUp m 0, .accept m, .reply m], ?_, ?_⟩
      · rw [run_append, h, Option.bind_some]
        simp [run, step, State.used, Act.threads, Top.threads, waiting, hk, List.replicate_succ']
      · rw [begun_append, hb]; rfl
  obtain ⟨es, h, hb⟩ := key m
  refine ⟨es ++ [.arrive (.node k []), .accept m, .reply m], ⟨n, List.replicate m ⟨[], .done, .gaveUp⟩ ++ [⟨[], .done, .answered⟩]⟩, ?_, by simp, fun i hi => ?_, ?_, ?_⟩
  · rw [run_append, h, Option.bind_some]
    simp [run, step, State.used, Act.threads, Top.threads, waiting, hk]
  · exact ⟨⟨[], .done, .gaveUp⟩, by simp [List.getElem?_append_left, hi], rfl⟩
  · exact ⟨⟨[], .done, .answered⟩, by simp, rfl⟩
  · rw [begun_append, hb]; rfl

example : ∃ s, run (start fun _ => 1) [.arrive (.node 0 []), .giveUp 0 0, .arrive (.node 0 []), .accept 0, .reply 0, .accept 1, .reply 1] = some s ∧ GivenUp s 0 ∧ Answered s 1 :=
  ⟨_, rfl, ⟨_, rfl, rfl⟩, ⟨_, rfl, rfl⟩⟩

/-- **C112f.** No function is begun more often than it was asked for: the library never calls twice by itself, whatever is given up. -/
theorem at_most_once {n : Nat → Nat} {es : List Ev} {s : State} (h : run (start n) es = some s) : begun es ≤ asked es := by
  have := (left_run es h).1
  have h0 : lefts (start n) = 0 := rfl
  omega

/-- **C112g.** If nobody gives up and all clients have their answers, each call, with those inside of it, was begun exactly once. -/
theorem exactly_once_partial {n : Nat → Nat} {es : List Ev} {s : State} (h : run (start n) es = some s) (hp : Patient es)
    (ha : ∀ i < s.acts.length, Answered s i) : begun es = asked es := by
  have := (left_run es h).2 hp
  have h0 : lefts (start n) = 0 := rfl
  have h1 : lefts s = 0 := by
    refine left_answered fun a hm => ?_
    obtain ⟨i, hi⟩ := List.mem_iff_getElem?.1 hm
    obtain ⟨b, hb, hw⟩ := ha i (List.getElem?_eq_some_iff.1 hi).1
    rw [hi] at hb
    cases hb
    exact sound ⟨es, h⟩ a hm hw
  omega

example : ∃ s, run (start fun _ => 1) [.arrive (.node 0 [.node 1 [], .node 1 []]), .accept 0, .call 0, .accept 0, .reply 0, .call 0, .accept 0, .reply 0, .reply 0] = some s ∧
    s.acts.length = 1 ∧ Answered s 0 ∧ asked [.arrive (.node 0 [.node 1 [], .node 1 []])] = 3 := ⟨_, rfl, rfl, ⟨_, rfl, rfl⟩, rfl⟩

/-- Given up after the first of two calls inside: the second is never made. -/
example : ∃ s, run (start fun _ => 1) [.arrive (.node 0 [.node 1 [], .node 1 []]), .accept 0, .call 0, .accept 0, .giveUp 0 0, .reply 1, .giveUp 0 0, .close 0] = some s ∧
    busy s 0 = 0 ∧ busy s 1 = 0 ∧ begun [.accept 0, .accept 0] = 2 := ⟨_, rfl, rfl, rfl, rfl⟩

/-- **C112h.** A function that catches the timeout of a call to its own server, which has no thread left for it, is not locked up: the client gets an answer,
and the call inside is run for nobody. -/
theorem caught_answered (n : Nat → Nat) (k : Nat) (hk : n k = 1) :
    (∃ s, run (start n) [.arrive (.node k [.node k []]), .accept 0, .call 0] = some s ∧ busy s k = n k ∧ step s (.accept 0) = none) ∧
    ∃ s, run (start n) [.arrive (.node k [.node k []]), .accept 0, .call 0, .caught 0 0 true, .reply 0, .accept 1, .reply 1] = some s ∧
      Answered s 0 ∧ GivenUp s 1 ∧ busy s k = 0 := by
  have h1 : ∀ a, State.used ⟨n, a⟩ k = (a.map (Act.threads k)).sum := fun _ => rfl
  refine ⟨⟨⟨n, [⟨[(k, [])], .queued (.node k []), .waits⟩]⟩, ?_, ?_, ?_⟩, ⟨n, [⟨[], .done, .answered⟩, ⟨[], .done, .gaveUp⟩]⟩, ?_, ⟨_, rfl, rfl⟩, ⟨_, rfl, rfl⟩, rfl⟩
  · simp [start, run, step, h1, Act.threads, Top.threads, waiting, hk]
  · simp [busy, holds, hk]
  · simp [step, h1, Act.threads, Top.threads, waiting, one, hk]
  · simp [start, run, step, h1, Act.threads, Top.threads, waiting, hk]

example : (fun _ => 1 : Nat → Nat) 3 = 1 := rfl

/-- **C112i.** If each server has more threads than may wait at once for all clients together, no one has to give up: as long as nobody does, the
servers go on, for a bounded number of events, until everyone has an answer. -/
theorem enough_threads {n : Nat → Nat} {es : List Ev} {s : State} (h : run (start n) es = some s) (hp : Patient es) (hb : ∀ k, needs k es < n k) :
    ∃ bound, ∀ es' s', (∀ e ∈ es', Inner e) → Patient es' → run s es' = some s' →
      es'.length ≤ bound ∧ (Stuck s' → ∀ i < s.acts.length, Answered s' i) := by
  obtain ⟨ms, m, rfl, hm, rfl⟩ := back_run es hp (m := RpcNest.Many.start n) h
  obtain ⟨bound, hB⟩ := RpcNest.Many.Props.all_answered_partial ⟨ms, hm⟩ fun k => by
    have h1 := demands_run k ms hm
    have h2 := hb k
    rw [needs_map] at h2
    have h0 : RpcNest.Many.Spec.demands (RpcNest.Many.start n) k = 0 := rfl
    omega
  refine ⟨bound, fun es' s' hi hp' h' => ?_⟩
  obtain ⟨ms', m', rfl, hm', rfl⟩ := back_run es' hp' h'
  obtain ⟨b1, b2⟩ := hB ms' m' (fun e he => inner_ev (hi _ (List.mem_map_of_mem he))) hm'
  refine ⟨by simpa using b1, fun hst i hlt => ?_⟩
  obtain ⟨a, ha, hd⟩ := b2 (stuck_rest hst) i (by simpa [forget] using hlt)
  exact ⟨forgetAct a, by simp [forget, ha], by simp [forgetAct, hd]⟩

/-- Two clients whose functions call their own server once: three threads are enough. -/
example : ∃ s, run (start fun _ => 3) [.arrive (.node 0 [.node 0 []]), .arrive (.node 0 [.node 0 []]), .accept 0, .accept 1, .call 0, .call 1] = some s ∧
    needs 0 [.arrive (.node 0 [.node 0 []]), .arrive (.node 0 [.node 0 []])] = 2 := ⟨_, rfl, by decide +kernel⟩

end Verif.MpNest.Props
