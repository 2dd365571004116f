import Verif.RpcPool.Lemmas
/-!
# C109: every client of an RPC server gets its turn
-/
namespace Verif.RpcPool.Props
open Verif.RpcPool Verif.RpcPool.Spec Verif.RpcPool.Lemmas

variable {σ α β : Type} {f : σ → α → σ × β}

/-- Whatever the clients and threads do, the requests of each client are run
once each and in their order: those that were run are a beginning of those it has. -/
theorem in_order {n : Nat} {timeout : Bool} {d : σ} {s : State σ α β} (h : Reach f n timeout d s) {i : Nat} {reqs : List α}
    (hg : s.given[i]? = some reqs) : ran s i <+: reqs := by
  have hi := inv_reach h
  by_cases hc : ∃ c ∈ conns s, c.id = i
  · obtain ⟨c, hc, rfl⟩ := hc
    obtain ⟨q, h1, h2⟩ := hi.open_ c hc
    rw [hg] at h1
    cases h1
    exact ⟨_, h2⟩
  · rw [hi.closed i reqs hg fun c h e => hc ⟨c, h, e⟩]
    exact List.prefix_rfl

/-- The answers are those of the functions, on data that all earlier requests
have been at, of whichever clients. -/
theorem answers {n : Nat} {timeout : Bool} {d : σ} {s : State σ α β} (h : Reach f n timeout d s) :
    Replays f d s.log s.data := (inv_reach h).replay

/-- If the functions keep their data in parts and no two clients use the same part, every
client gets the answers that it would get if it were alone. -/
theorem as_if_alone {κ τ : Type} {key : α → κ} {f : (κ → τ) → α → (κ → τ) × β} (hf : InParts key f) {n : Nat} {timeout : Bool}
    {d : κ → τ} {s : State (κ → τ) α β} (h : Reach f n timeout d s) (hk : OwnKeys key s) (i : Nat) :
    ∃ d', Replays f d (s.log.filter fun e => e.1 = i) d' := by
  have hi := inv_reach h
  refine alone hf i hi.replay (fun e he e' he' h1 h2 => ?_) d fun _ _ _ => rfl
  obtain ⟨q, a, b⟩ := logged_given hi he
  obtain ⟨q', a', b'⟩ := logged_given hi he'
  exact hk _ _ q q' a a' (by rw [h1]; exact fun h => h2 h.symm) _ b _ b'

/-- Without this they can see each other: of two clients that add to one number each
may get the sum of both. -/
theorem not_alone : ∃ (f : Nat → Nat → Nat × Nat) (s : State Nat Nat Nat), Reach f 2 false 0 s ∧
    s.log = [(0, 5, 5), (1, 7, 12)] ∧ ¬ ∃ d', Replays f 0 (s.log.filter fun e => e.1 = 1) d' := by
  refine ⟨fun d r => (d + r, d + r), _, ⟨[.arrive [5] true, .arrive [7] true, .test 0, .test 1, .accept 0, .accept 1, .serve 0, .serve 1], rfl⟩, rfl, ?_⟩
  rintro ⟨d', h⟩
  simp at h
  cases h

/-- No connection is with two threads, and none that is with a thread waits. -/
theorem one_thread {n : Nat} {timeout : Bool} {d : σ} {s : State σ α β} (h : Reach f n timeout d s) {i w : Nat}
    (hw : With s w i) : (∀ v, With s v i → v = w) ∧ ¬ Waits s i := by
  have hu := (inv_reach h).uniq
  obtain ⟨c, hc, rfl⟩ := hw
  obtain ⟨a, b, e, hs⟩ := split_set hc
  have hA : conns s = (s.queue ++ a.filterMap connOf) ++ c :: b.filterMap connOf := by simp [conns, e, connOf]
  rw [hA, List.map_append, List.map_cons, List.nodup_append, List.nodup_cons] at hu
  refine ⟨?_, ?_⟩
  · rintro v ⟨c', hc', hid⟩
    refine Classical.byContradiction fun hne => ?_
    have h1 : (s.workers.set w .check)[v]? = some (.busy c') := by rw [List.getElem?_set_ne (Ne.symm hne), hc']
    rw [hs] at h1
    have h2 := List.mem_of_getElem? h1
    rcases List.mem_append.1 h2 with h | h
    · exact hu.2.2 c'.id (List.mem_map.2 ⟨c', by simp; exact .inr ⟨_, h, rfl⟩, rfl⟩) c.id (by simp) hid
    · rcases List.mem_cons.1 h with h | h
      · cases h
      · exact hu.2.1.1 (List.mem_map.2 ⟨c', List.mem_filterMap.2 ⟨_, h, rfl⟩, hid⟩)
  · rintro ⟨c', hc', hid⟩
    exact hu.2.2 c'.id (List.mem_map.2 ⟨c', by simp [hc'], rfl⟩) c.id (by simp) hid

/-- Connections are taken in the order in which the clients came. -/
theorem first_come {n : Nat} {timeout : Bool} {d : σ} {s : State σ α β} (h : Reach f n timeout d s) :
    s.taken = List.range s.taken.length := by
  have hf := (inv_reach h).fifo
  have hp : s.taken <+: List.range s.given.length := ⟨_, hf⟩
  have := List.prefix_iff_eq_take.1 hp
  rw [List.take_range] at this
  have hl : s.taken.length ≤ s.given.length := by simpa using hp.length_le
  rwa [Nat.min_eq_left hl] at this

/-- If every client closes its connection at some time, or the server has
a timeout, then all requests are answered: the threads come to rest in a bounded number of steps, in
whatever order they go on, and then each client has been served to its end. -/
theorem all_served_partial {n : Nat} {timeout : Bool} {d : σ} {s : State σ α β} (h : Reach f n timeout d s) (hn : 0 < n)
    (hr : s.running = true) (hE : Ending s) : ∃ bound, ∀ es s', (∀ e ∈ es, Inner e) → run f s es = some s' →
      es.length ≤ bound ∧ (Rest f s' → s'.queue = [] ∧ ∀ i reqs, s.given[i]? = some reqs → ran s' i = reqs) := by
  refine ⟨work s, fun es s' he hrun => ?_⟩
  obtain ⟨h1, h2, h3, h4, h5⟩ := inner_run es he hrun
  refine ⟨by omega, fun hrest => ?_⟩
  have hi := inv_run es (inv_reach h) hrun
  have hacc : ∀ x ∈ s'.workers, x = .accepting ∧ s'.queue = [] := by
    intro x hx
    obtain ⟨w, hw⟩ := List.mem_iff_getElem?.1 hx
    rcases rest_worker hrest (h5 hE) hw with h | h
    · exact ⟨h.1, h.2.2⟩
    · exact absurd (h ▸ hx) (hi.alive (h2.trans hr))
  have hq : s'.queue = [] := by
    have : 0 < s'.workers.length := by rw [hi.size]; exact hn
    exact (hacc _ (List.getElem_mem this)).2
  refine ⟨hq, fun i reqs hg => hi.closed i reqs (h4 ▸ hg) fun c hc => ?_⟩
  rcases mem_conns.1 hc with h | h
  · rw [hq] at h; cases h
  · have := (hacc _ h).1
    cases this

/-- Nobody can be held up by those who come later: if the connections that are open
now all end, a client that waits is taken after a bounded number of steps of the
threads, however many clients come meanwhile, whatever they do; and as long as it waits the
threads can go on. -/
theorem turn_comes_partial {n : Nat} {timeout : Bool} {d : σ} {s : State σ α β} (h : Reach f n timeout d s) (hn : 0 < n)
    (hr : s.running = true) (hE : Ending s) {i : Nat} (hw : Waits s i) : ∃ bound, ∀ es s', NoStop es → run f s es = some s' →
      Waits s' i → innerSteps es ≤ bound ∧ ∃ e, Inner e ∧ (step f s' e).isSome = true := by
  obtain ⟨c, hc, rfl⟩ := hw
  obtain ⟨pre, post, hq⟩ := List.append_of_mem hc
  refine ⟨ahead pre s, fun es s' he hrun hw' => ?_⟩
  have hA : EndAhead pre s := hE.imp id fun h => ⟨fun x hx => h.1 x (by simp [hq, hx]), h.2⟩
  obtain ⟨h1, h2, pre', post', h3, h4⟩ := ahead_run es he (inv_reach h) hr hq hA hrun hw'
  refine ⟨h2, ?_⟩
  have hi := inv_run es (inv_reach h) hrun
  obtain ⟨x, hx⟩ : ∃ x, s'.workers[0]? = some x := by
    have : 0 < s'.workers.length := by rw [hi.size]; exact hn
    exact ⟨_, List.getElem?_eq_getElem this⟩
  cases x with
  | check => exact ⟨.test 0, trivial, by simp only [step, hx]; rfl⟩
  | accepting =>
    refine ⟨.accept 0, trivial, ?_⟩
    cases hq' : s'.queue with
    | nil => rw [hq'] at h3; simp at h3
    | cons c q => simp only [step, hx, hq']; rfl
  | busy c =>
    obtain ⟨j, reqs, cl⟩ := c
    cases reqs with
    | cons r rs => exact ⟨.serve 0, trivial, by simp only [step, hx]; rfl⟩
    | nil =>
      have hcl : (cl || s'.timeout) = true := by
        rcases h4 with h | h
        · simp [h]
        · have := h.2 _ (List.mem_of_getElem? hx)
          simp only at this
          simp [this]
      exact ⟨.leave 0, trivial, by simp only [step, hx, hcl]; rfl⟩
  | ended => exact absurd (List.mem_of_getElem? hx) (hi.alive h1)

/-- The same is true of stopping: if every client closes its connection, or the
server has a timeout, then after `stop` all threads end. -/
theorem stop_ends_partial {n : Nat} {timeout : Bool} {d : σ} {s : State σ α β} (h : Reach f n timeout d s)
    (hr : s.running = false) (hE : Ending s) : ∃ bound, ∀ es s', (∀ e ∈ es, Inner e) → run f s es = some s' →
      es.length ≤ bound ∧ (Rest f s' → s'.workers = List.replicate n .ended) := by
  refine ⟨work s, fun es s' he hrun => ?_⟩
  obtain ⟨h1, h2, h3, h4, h5⟩ := inner_run es he hrun
  refine ⟨by omega, fun hrest => ?_⟩
  have hi := inv_run es (inv_reach h) hrun
  rw [← hi.size]
  refine List.eq_replicate_iff.2 ⟨rfl, fun x hx => ?_⟩
  obtain ⟨w, hw⟩ := List.mem_iff_getElem?.1 hx
  rcases rest_worker hrest (h5 hE) hw with h | h
  · rw [h2, hr] at h; cases h.2.1
  · exact h

/-- Without a timeout this is not so if clients keep their connections, as every
`rpc_client` does until it is destroyed: as many silent clients as the server has threads
lock all others out for ever, whatever these ask. -/
theorem locked_out (f : σ → α → σ × β) (n : Nat) (d : σ) (reqs : List α) (closes : Bool) : ∃ s : State σ α β, Reach f n false d s ∧ Waits s n ∧
    s.given[n]? = some reqs ∧ ∀ es s', run f s es = some s' → Waits s' n ∧ ran s' n = [] := by
  obtain ⟨s, h1, h2, h3, h4, h5, h6, h7, h8⟩ := occupy_all (f := f) n false d ([] : List α) false n (Nat.le_refl n)
  refine ⟨{ s with queue := s.queue ++ [⟨s.given.length, reqs, closes⟩], given := s.given ++ [reqs] },
    ⟨(List.range n).flatMap (occupy [] false) ++ [.arrive reqs closes], by rw [run_append, h1]; rfl⟩, ⟨⟨n, reqs, closes⟩, ?_, rfl⟩, ?_, ?_⟩
  · simp [h7]
  · simp [h7]
  · intro es s' hrun
    obtain ⟨a, b⟩ := locked_run es (by exact h3) (by
      intro w hw
      simp only [h8, Nat.sub_self, List.replicate_zero, List.append_nil, List.length_map, List.length_range] at hw
      exact ⟨w, by simp [h8, hw]⟩) hrun
    refine ⟨⟨⟨n, reqs, closes⟩, b _ (by simp [h7]), rfl⟩, ?_⟩
    rw [ran, a]
    simp [h5]

/-- With a timeout it does not last for ever, but as long as the others like: for every number of steps there are clients, as many as there are
threads, with whom the threads can be busy for that long while another waits. The timeout does not count while they send something, and no client
has to make room for another. -/
theorem kept_waiting (f : σ → α → σ × β) (n : Nat) (hn : 0 < n) (timeout : Bool) (d : σ) (r : α) (reqs : List α) (steps : Nat) :
    ∃ (s s' : State σ α β) (es : List (Ev α)), Reach f n timeout d s ∧ s.running = true ∧ Ending s ∧ Waits s n ∧ s.given.length = n + 1 ∧
      (∀ e ∈ es, Inner e) ∧ es.length = steps ∧ run f s es = some s' ∧ Waits s' n := by
  obtain ⟨s, h1, h2, h3, h4, h5, h6, h7, h8⟩ := occupy_all (f := f) n timeout d (List.replicate steps r) true n (Nat.le_refl n)
  rw [Nat.sub_self, List.replicate_zero, List.append_nil] at h8
  have hg : s.given.length = n := by rw [h7]; simp
  obtain ⟨s', r1, r2⟩ := serve_all (f := f) 0 0 true (List.replicate steps r)
    { s with queue := s.queue ++ [⟨s.given.length, reqs, true⟩], given := s.given ++ [reqs] } (by simp [h8, hn])
  have hw : ∀ t : State σ α β, t.queue = s.queue ++ [⟨s.given.length, reqs, true⟩] → Waits t n := by
    intro t ht
    exact ⟨⟨n, reqs, true⟩, by simp [ht, hg], rfl⟩
  refine ⟨{ s with queue := s.queue ++ [⟨s.given.length, reqs, true⟩], given := s.given ++ [reqs] }, s', _,
    ⟨(List.range n).flatMap (occupy (List.replicate steps r) true) ++ [.arrive reqs true], by rw [run_append, h1]; rfl⟩, h2, .inr ⟨?_, ?_⟩,
    hw _ rfl, by simp [hg], ?_, List.length_replicate.trans List.length_replicate, r1, hw _ r2⟩
  · intro c hc
    simp only [h4, List.nil_append, List.mem_singleton] at hc
    rw [hc]
  · intro c hc
    simp only [h8, List.mem_map] at hc
    obtain ⟨i, _, e⟩ := hc
    cases e
    rfl
  · intro e he
    rw [List.eq_of_mem_replicate he]
    trivial

/-- And one silent client keeps a server without timeout from ending after `stop`. -/
theorem held_up {n : Nat} {d : σ} {s : State σ α β} (h : Reach f n false d s) {w : Nat} (hw : Silenced s w)
    {es : List (Ev α)} {s' : State σ α β} (hrun : run f s es = some s') : Silenced s' w ∧ s'.workers[w]? ≠ some .ended := by
  have := silenced_run es (inv_reach h).tmo hw hrun
  refine ⟨this, fun h => ?_⟩
  obtain ⟨i, hi⟩ := this
  rw [hi] at h
  cases h

/-! ### Examples -/

/-- A counter: requests add to it. -/
def count (d r : Nat) : Nat × Nat := (d + r, d + r)

/-- Two threads, three clients. -/
def day : List (Ev Nat) :=
  [.arrive [1, 2] true, .test 0, .arrive [10] false, .test 1, .accept 1, .serve 1, .accept 0, .serve 0, .arrive [100] true, .serve 1]

example : (run count (start 2 true 0) day).map (fun s => (s.log, s.taken, s.data)) =
    some ([(0, 1, 1), (1, 10, 11), (0, 2, 13)], [0, 1], 13) := rfl

/-- Counters with names: a request adds to the counter it names. -/
def counters (d : Nat → Nat) (r : Nat × Nat) : (Nat → Nat) × Nat :=
  (fun k => if k = r.1 then d k + r.2 else d k, d r.1 + r.2)

example : InParts Prod.fst counters :=
  ⟨fun d d' r h => by simp [counters, h], fun d r k h => by simp [counters, h]⟩

example : ∃ s : State (Nat → Nat) (Nat × Nat) Nat, Reach counters 2 false (fun _ => 0) s ∧ OwnKeys Prod.fst s ∧
    s.log = [(0, (3, 5), 5), (1, (4, 7), 7), (0, (3, 1), 6)] := by
  have key : ∀ s : State (Nat → Nat) (Nat × Nat) Nat, s.given = [[(3, 5), (3, 1)], [(4, 7)]] → OwnKeys Prod.fst s := by
    intro s hs i j ri rj hi hj hne a ha b hb
    rw [hs] at hi hj
    match i, j, hi, hj with
    | 0, 0, _, _ => exact absurd rfl hne
    | 1, 1, _, _ => exact absurd rfl hne
    | 0, 1, hi, hj => cases hi; cases hj; simp at ha hb; rcases ha with rfl | rfl <;> subst hb <;> decide
    | 1, 0, hi, hj => cases hi; cases hj; simp at ha hb; rcases hb with rfl | rfl <;> subst ha <;> decide
    | i + 2, _, hi, _ => cases hi
    | 0, j + 2, _, hj => cases hj
    | 1, j + 2, _, hj => cases hj
  exact ⟨_, ⟨[.arrive [(3, 5), (3, 1)] true, .arrive [(4, 7)] true, .test 0, .test 1, .accept 0, .accept 1, .serve 0, .serve 1, .serve 0], rfl⟩, key _ rfl, rfl⟩

example : ∃ s, Reach count 2 true 0 s ∧ s.running = true ∧ Ending s ∧ Waits s 2 ∧ With s 1 0 :=
  ⟨_, ⟨day, rfl⟩, rfl, .inl rfl, ⟨⟨2, [100], true⟩, .head _, rfl⟩, ⟨⟨0, [], true⟩, rfl, rfl⟩⟩

example : ∃ s : State Nat Nat Nat, Reach count 1 false 0 s ∧ s.running = false ∧ Silenced s 0 :=
  ⟨_, ⟨[.arrive [5] false, .test 0, .accept 0, .serve 0, .stop], rfl⟩, rfl, 0, rfl⟩

/-- A hundred requests of one client, and another one waits. -/
example : ∃ (s s' : State Nat Nat Nat) (es : List (Ev Nat)), Reach count 1 true 0 s ∧ es.length = 100 ∧ run count s es = some s' ∧ Waits s' 1 := by
  obtain ⟨s, s', es, h1, _, _, _, _, _, h2, h3, h4⟩ := kept_waiting count 1 (by decide) true 0 7 [1] 100
  exact ⟨s, s', es, h1, h2, h3, h4⟩

end Verif.RpcPool.Props
