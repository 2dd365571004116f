import Verif.RpcPool.Spec
/-!
# Lemmas about the worker threads of an RPC server
-/
namespace Verif.RpcPool.Lemmas
open Verif.RpcPool Verif.RpcPool.Spec

variable {σ α β : Type} {f : σ → α → σ × β}

theorem split_set {γ : Type} {l : List γ} {w : Nat} {x : γ} (h : l[w]? = some x) :
    ∃ a b, l = a ++ x :: b ∧ ∀ y, l.set w y = a ++ y :: b := by
  induction l generalizing w with
  | nil => simp at h
  | cons z l ih =>
    cases w with
    | zero => exact ⟨[], l, by simpa using h, fun y => rfl⟩
    | succ w =>
      obtain ⟨a, b, e, h'⟩ := ih (by simpa using h)
      exact ⟨z :: a, b, by rw [e]; rfl, fun y => by rw [List.set_cons_succ, h']; rfl⟩

theorem run_append (s : State σ α β) (as bs : List (Ev α)) :
    run f s (as ++ bs) = (run f s as).bind fun s => run f s bs := by
  induction as generalizing s with
  | nil => rfl
  | cons e as ih =>
    simp only [List.cons_append, run]
    cases step f s e with
    | none => rfl
    | some s' => exact ih s'

/-- The connection of a thread. -/
def connOf : W α → Option (Conn α)
  | .busy c => some c
  | _ => none

/-- All open connections. -/
def conns (s : State σ α β) : List (Conn α) := s.queue ++ s.workers.filterMap connOf

/-- What holds in all states. -/
structure Inv (n : Nat) (timeout : Bool) (d : σ) (f : σ → α → σ × β) (s : State σ α β) : Prop where
  size : s.workers.length = n
  tmo : s.timeout = timeout
  uniq : ((conns s).map Conn.id).Nodup
  open_ : ∀ c ∈ conns s, ∃ reqs, s.given[c.id]? = some reqs ∧ ran s c.id ++ c.reqs = reqs
  closed : ∀ i reqs, s.given[i]? = some reqs → (∀ c ∈ conns s, c.id ≠ i) → ran s i = reqs
  logged : ∀ e ∈ s.log, e.1 < s.given.length
  replay : Replays f d s.log s.data
  fifo : s.taken ++ s.queue.map Conn.id = List.range s.given.length
  alive : s.running = true → .ended ∉ s.workers

theorem replays_snoc {d d' : σ} {l : List (Nat × α × β)} (h : Replays f d l d') (i : Nat) (r : α) :
    Replays f d (l ++ [(i, r, (f d' r).2)]) (f d' r).1 := by
  induction h with
  | nil d => exact .cons (.nil _)
  | cons h ih => exact .cons ih

theorem inv_start (n : Nat) (timeout : Bool) (d : σ) : Inv n timeout d f (start n timeout d : State σ α β) := by
  have hc : conns (start n timeout d : State σ α β) = [] := by
    simp [conns, start, List.filterMap_replicate, connOf]
  refine ⟨by simp [start], rfl, by simp [hc], by simp [hc], by simp [start], by simp [start], .nil _, rfl, ?_⟩
  intro _ h
  simp [start, List.mem_replicate] at h

theorem ran_snoc (s s' : State σ α β) (i j : Nat) (r : α) (b : β) (h : s'.log = s.log ++ [(i, r, b)]) :
    ran s' j = if i = j then ran s j ++ [r] else ran s j := by
  simp only [ran, h, List.filter_append, List.map_append]
  by_cases e : i = j
  · subst e; simp
  · simp [e]

theorem ran_same (s s' : State σ α β) (j : Nat) (h : s'.log = s.log) : ran s' j = ran s j := by
  simp only [ran, h]

/-- A step that moves connections about but runs nothing. -/
theorem inv_move {n : Nat} {timeout : Bool} {d : σ} {s s' : State σ α β} (hi : Inv n timeout d f s)
    (h1 : s'.workers.length = s.workers.length) (h2 : s'.timeout = s.timeout) (hd : s'.data = s.data) (hl : s'.log = s.log)
    (hg : s'.given = s.given) (hq : s'.taken ++ s'.queue.map Conn.id = s.taken ++ s.queue.map Conn.id)
    (hp : (conns s').Perm (conns s)) (ha : s'.running = true → .ended ∉ s'.workers) : Inv n timeout d f s' := by
  refine ⟨h1.trans hi.size, h2.trans hi.tmo, (hp.map _).nodup_iff.2 hi.uniq, ?_, ?_, ?_, ?_, ?_, ha⟩
  · intro c hc
    rw [hg, ran_same s s' _ hl]; exact hi.open_ c (hp.subset hc)
  · intro i reqs h hn
    rw [ran_same s s' _ hl]; exact hi.closed i reqs (hg ▸ h) fun c hc => hn c (hp.symm.subset hc)
  · rw [hl, hg]; exact hi.logged
  · rw [hl, hd]; exact hi.replay
  · rw [hq, hg]; exact hi.fifo

theorem inv_step {n : Nat} {timeout : Bool} {d : σ} {s s' : State σ α β} {e : Ev α} (hi : Inv n timeout d f s)
    (h : step f s e = some s') : Inv n timeout d f s' := by
  cases e with
  | arrive reqs closes =>
    simp only [step, Option.some.injEq] at h
    subst h
    have hlt : ∀ c ∈ conns s, c.id < s.given.length := by
      intro c hc
      obtain ⟨r, h, _⟩ := hi.open_ c hc
      exact (List.getElem?_eq_some_iff.1 h).1
    have hperm : ∀ q : Conn α, (s.queue ++ [q] ++ s.workers.filterMap connOf).Perm (q :: conns s) := by
      intro q
      rw [List.append_assoc]
      exact (List.perm_middle (l₁ := s.queue))
    have hnone : ran s s.given.length = [] := by
      simp only [ran, List.map_eq_nil_iff, List.filter_eq_nil_iff]
      intro e he
      have := hi.logged e he
      simp only [decide_eq_true_eq]; omega
    refine ⟨hi.size, hi.tmo, ?_, ?_, ?_, ?_, hi.replay, ?_, hi.alive⟩
    · simp only [conns]
      refine ((hperm _).map _).nodup_iff.2 ?_
      rw [List.map_cons, List.nodup_cons]
      refine ⟨?_, hi.uniq⟩
      intro hm
      obtain ⟨c, hc, e⟩ := List.mem_map.1 hm
      have := hlt c hc
      simp only at e
      omega
    · intro c hc
      rcases List.mem_cons.1 ((hperm _).subset hc) with rfl | hc
      · refine ⟨reqs, by simp, ?_⟩
        change ran s s.given.length ++ reqs = reqs
        rw [hnone]; rfl
      · obtain ⟨r, h1, h2⟩ := hi.open_ c hc
        exact ⟨r, by rw [List.getElem?_append_left (hlt c hc)]; exact h1, h2⟩
    · intro i r h1 h2
      have hne : i ≠ s.given.length := by
        rintro rfl
        exact h2 ⟨s.given.length, reqs, closes⟩ ((hperm _).symm.subset (by simp)) rfl
      have hlt' : i < s.given.length := by
        have := (List.getElem?_eq_some_iff.1 h1).1
        simp only [List.length_append, List.length_cons, List.length_nil] at this
        omega
      rw [List.getElem?_append_left hlt'] at h1
      exact hi.closed i r h1 fun c hc => h2 c ((hperm _).symm.subset (List.mem_cons_of_mem _ hc))
    · intro e he
      have := hi.logged e he
      simp only [List.length_append, List.length_cons, List.length_nil]; omega
    · simp only [List.map_append, List.map_cons, List.map_nil, List.length_append, List.length_cons, List.length_nil]
      rw [← List.append_assoc, hi.fifo, List.range_succ]
  | stop =>
    simp only [step, Option.some.injEq] at h
    subst h
    exact inv_move hi rfl rfl rfl rfl rfl rfl (.refl _) (by intro h; cases h)
  | test w =>
    simp only [step] at h
    split at h
    · rename_i hw
      cases h
      obtain ⟨a, b, e, hs⟩ := split_set hw
      refine inv_move hi (by simp) rfl rfl rfl rfl rfl ?_ ?_
      · simp only [conns, hs]; simp only [e]
        cases s.running <;> simp [List.filterMap_cons, connOf]
      · intro hr
        simp only at hr
        have := hi.alive hr
        simp only [hs, hr, if_true]
        rw [e] at this
        simpa using this
    · cases h
  | accept w =>
    simp only [step] at h
    split at h
    · rename_i c q hw hq
      cases h
      obtain ⟨a, b, e, hs⟩ := split_set hw
      refine inv_move hi (by simp) rfl rfl rfl rfl (by simp [hq]) ?_ ?_
      · simp only [conns, hs]
        simp only [e, hq, List.filterMap_append, List.filterMap_cons, connOf, List.cons_append]
        rw [← List.append_assoc]
        refine List.perm_middle.trans ?_
        rw [List.append_assoc]
      · intro hr
        have := hi.alive hr
        simp only [hs]
        rw [e] at this
        simpa using this
    · cases h
  | wake w =>
    simp only [step] at h
    split at h
    · rename_i hw hr
      cases h
      obtain ⟨a, b, e, hs⟩ := split_set hw
      refine inv_move hi (by simp) rfl rfl rfl rfl rfl ?_ ?_
      · simp only [conns, hs]; simp [e, List.filterMap_cons, connOf]
      · intro h; simp only [hr] at h; cases h
    · cases h
  | serve w =>
    simp only [step] at h
    split at h
    · rename_i i r rs cl hw
      simp only [Option.some.injEq] at h
      obtain ⟨a, b, e, hs⟩ := split_set hw
      -- the connections before and after
      let A := s.queue ++ a.filterMap connOf
      let B := b.filterMap connOf
      have hA : conns s = A ++ ⟨i, r :: rs, cl⟩ :: B := by simp [conns, e, connOf, A, B]
      have hB : conns s' = A ++ ⟨i, rs, cl⟩ :: B := by
        rw [← h]; simp [conns, hs, connOf, A, B]
      subst h
      refine ⟨by simp [hi.size], hi.tmo, ?_, ?_, ?_, ?_, replays_snoc hi.replay i r, hi.fifo, ?_⟩
      · have := hi.uniq
        rw [hA] at this
        rw [hB]
        simpa using this
      · have hu := hi.uniq
        rw [hA] at hu
        simp only [List.map_append, List.map_cons, List.nodup_append, List.nodup_cons, List.mem_cons, List.mem_map] at hu
        intro c hc
        rw [hB] at hc
        rw [ran_snoc s _ i c.id r _ rfl]
        have hmem : c = ⟨i, rs, cl⟩ ∨ c ∈ A ∨ c ∈ B := by
          rcases List.mem_append.1 hc with h | h
          · exact .inr (.inl h)
          · rcases List.mem_cons.1 h with h | h
            · exact .inl h
            · exact .inr (.inr h)
        rcases hmem with rfl | hm
        · obtain ⟨q, h1, h2⟩ := hi.open_ ⟨i, r :: rs, cl⟩ (by rw [hA]; simp)
          refine ⟨q, h1, ?_⟩
          rw [if_pos rfl, List.append_assoc]
          exact h2
        · have hne : ¬ i = c.id := by
            intro h
            rcases hm with hm | hm
            · exact hu.2.2 c.id ⟨c, hm, rfl⟩ i (.inl rfl) h.symm
            · exact hu.2.1.1 ⟨c, hm, h.symm⟩
          rw [if_neg hne]
          exact hi.open_ c (by rw [hA]; rcases hm with hm | hm <;> simp [hm])
      · intro j q h1 h2
        have hne : ¬ i = j := by
          intro h
          exact h2 ⟨i, rs, cl⟩ (by rw [hB]; simp) h
        rw [ran_snoc s _ i j r _ rfl, if_neg hne]
        refine hi.closed j q h1 ?_
        intro c hc
        rw [hA] at hc
        rcases List.mem_append.1 hc with h | h
        · exact h2 c (by rw [hB]; simp [h])
        · rcases List.mem_cons.1 h with rfl | h
          · exact hne
          · exact h2 c (by rw [hB]; simp [h])
      · intro x hx
        rcases List.mem_append.1 hx with h | h
        · exact hi.logged x h
        · rw [List.mem_singleton] at h
          subst h
          obtain ⟨q, h1, _⟩ := hi.open_ ⟨i, r :: rs, cl⟩ (by rw [hA]; simp)
          exact (List.getElem?_eq_some_iff.1 h1).1
      · intro hr
        have := hi.alive hr
        simp only [hs]
        rw [e] at this
        simpa using this
    · cases h
  | leave w =>
    simp only [step] at h
    split at h
    · rename_i i cl hw
      split at h
      · simp only [Option.some.injEq] at h
        obtain ⟨a, b, e, hs⟩ := split_set hw
        let A := s.queue ++ a.filterMap connOf
        let B := b.filterMap connOf
        have hA : conns s = A ++ ⟨i, [], cl⟩ :: B := by simp [conns, e, connOf, A, B]
        have hB : conns s' = A ++ B := by
          rw [← h]; simp [conns, hs, List.filterMap_cons, connOf, A, B]
        subst h
        have hsub : ∀ c ∈ A ++ B, c ∈ conns s := by
          intro c hc; rw [hA]
          rcases List.mem_append.1 hc with h | h <;> simp [h]
        refine ⟨by simp [hi.size], hi.tmo, ?_, ?_, ?_, hi.logged, hi.replay, hi.fifo, ?_⟩
        · rw [hB]
          have := hi.uniq
          rw [hA] at this
          have hsl : List.Sublist (A ++ B) (A ++ ⟨i, [], cl⟩ :: B) := (List.Sublist.refl A).append (List.sublist_cons_self _ B)
          exact (hsl.map Conn.id).nodup this
        · intro c hc
          rw [hB] at hc
          exact hi.open_ c (hsub c hc)
        · intro j q h1 h2
          rw [hB] at h2
          by_cases hj : i = j
          · subst hj
            obtain ⟨q', h3, h4⟩ := hi.open_ ⟨i, [], cl⟩ (by rw [hA]; simp)
            simp only [List.append_nil] at h4
            change s.given[i]? = some q at h1
            simp only at h3
            rw [h3] at h1
            cases h1
            exact h4
          · refine hi.closed j q h1 ?_
            intro c hc
            rw [hA] at hc
            rcases List.mem_append.1 hc with h | h
            · exact h2 c (by simp [h])
            · rcases List.mem_cons.1 h with rfl | h
              · exact hj
              · exact h2 c (by simp [h])
        · intro hr
          have := hi.alive hr
          simp only [hs]
          rw [e] at this
          simpa using this
      · cases h
    · cases h

theorem inv_run {n : Nat} {timeout : Bool} {d : σ} (es : List (Ev α)) {s s' : State σ α β} (hi : Inv n timeout d f s)
    (h : run f s es = some s') : Inv n timeout d f s' := by
  induction es generalizing s with
  | nil => cases h; exact hi
  | cons e es ih =>
    simp only [run, Option.bind_eq_some_iff] at h
    obtain ⟨t, h1, h2⟩ := h
    exact ih (inv_step hi h1) h2

theorem inv_reach {n : Nat} {timeout : Bool} {d : σ} {s : State σ α β} (h : Reach f n timeout d s) : Inv n timeout d f s :=
  let ⟨es, h⟩ := h; inv_run es (inv_start n timeout d) h

/-! ### Data in parts -/

theorem alone {κ τ : Type} {key : α → κ} {f : (κ → τ) → α → (κ → τ) × β} (hf : InParts key f) (i : Nat) {d d'' : κ → τ}
    {l : List (Nat × α × β)} (h : Replays f d l d'') (hk : ∀ e ∈ l, ∀ e' ∈ l, e.1 = i → e'.1 ≠ i → key e.2.1 ≠ key e'.2.1) :
    ∀ d1 : κ → τ, (∀ e ∈ l, e.1 = i → d (key e.2.1) = d1 (key e.2.1)) →
      ∃ d2, Replays f d1 (l.filter fun e => e.1 = i) d2 := by
  induction h with
  | nil d => intro d1 _; exact ⟨d1, .nil _⟩
  | @cons d d'' j r l h ih =>
    intro d1 hd
    have ih := ih fun e he e' he' => hk e (by simp [he]) e' (by simp [he'])
    by_cases hj : j = i
    · subst hj
      have hr := hd (j, r, (f d r).2) (by simp) rfl
      simp only at hr
      have h1 := hf.1 d d1 r hr
      obtain ⟨d2, h2⟩ := ih (f d1 r).1 fun e he hi => by
        by_cases hke : key e.2.1 = key r
        · rw [hke]; exact h1.2
        · rw [hf.2 d r _ hke, hf.2 d1 r _ hke]; exact hd e (by simp [he]) hi
      refine ⟨d2, ?_⟩
      rw [List.filter_cons, if_pos (by simp), h1.1]
      exact .cons h2
    · obtain ⟨d2, h2⟩ := ih d1 fun e he hi => by
        have hne := hk e (by simp [he]) (j, r, (f d r).2) (by simp) hi hj
        rw [hf.2 d r _ hne]; exact hd e (by simp [he]) hi
      exact ⟨d2, by rw [List.filter_cons, if_neg (by simp [hj])]; exact h2⟩

theorem logged_given {n : Nat} {timeout : Bool} {d : σ} {s : State σ α β} (hi : Inv n timeout d f s) {e : Nat × α × β} (he : e ∈ s.log) :
    ∃ reqs, s.given[e.1]? = some reqs ∧ e.2.1 ∈ reqs := by
  have hlt := hi.logged e he
  have hr : e.2.1 ∈ ran s e.1 := List.mem_map.2 ⟨e, List.mem_filter.2 ⟨he, by simp⟩, rfl⟩
  refine ⟨_, List.getElem?_eq_getElem hlt, ?_⟩
  by_cases hc : ∃ c ∈ conns s, c.id = e.1
  · obtain ⟨c, hc, hid⟩ := hc
    obtain ⟨q, h1, h2⟩ := hi.open_ c hc
    rw [hid, List.getElem?_eq_getElem hlt] at h1
    cases h1
    rw [← h2, hid]
    exact List.mem_append_left _ hr
  · rw [← hi.closed e.1 _ (List.getElem?_eq_getElem hlt) fun c h h' => hc ⟨c, h, h'⟩]
    exact hr

/-! ### Progress -/

/-- What a thread still has to do. -/
def load (running : Bool) : W α → Nat
  | .check => 1
  | .accepting => if running then 0 else 2
  | .busy c => c.reqs.length + 2
  | .ended => 0

/-- What all still have to do. -/
def work (s : State σ α β) : Nat :=
  (s.queue.map fun c => c.reqs.length + 3).sum + (s.workers.map (load s.running)).sum

theorem work_step {s s' : State σ α β} {e : Ev α} (he : Inner e) (h : step f s e = some s') :
    work s' < work s ∧ s'.running = s.running ∧ s'.timeout = s.timeout ∧ s'.given = s.given := by
  cases e with
  | arrive reqs closes => exact he.elim
  | stop => exact he.elim
  | test w =>
    simp only [step] at h
    split at h
    · rename_i hw
      cases h
      obtain ⟨a, b, e, hs⟩ := split_set hw
      refine ⟨?_, rfl, rfl, rfl⟩
      simp only [work, hs]
      simp only [e, List.map_append, List.map_cons, List.sum_append, List.sum_cons]
      cases s.running <;> simp only [load, if_true, if_false, Bool.false_eq_true] <;> omega
    · cases h
  | accept w =>
    simp only [step] at h
    split at h
    · rename_i c q hw hq
      cases h
      obtain ⟨a, b, e, hs⟩ := split_set hw
      refine ⟨?_, rfl, rfl, rfl⟩
      simp only [work, hs]
      simp only [e, hq, List.map_append, List.map_cons, List.sum_append, List.sum_cons, load]
      omega
    · cases h
  | wake w =>
    simp only [step] at h
    split at h
    · rename_i hw hr
      cases h
      obtain ⟨a, b, e, hs⟩ := split_set hw
      refine ⟨?_, rfl, rfl, rfl⟩
      simp only [work, hs]
      simp only [e, List.map_append, List.map_cons, List.sum_append, List.sum_cons, load, hr]
      simp only [Bool.false_eq_true, if_false]
      omega
    · cases h
  | serve w =>
    simp only [step] at h
    split at h
    · rename_i i r rs cl hw
      cases h
      obtain ⟨a, b, e, hs⟩ := split_set hw
      refine ⟨?_, rfl, rfl, rfl⟩
      simp only [work, hs]
      simp only [e, List.map_append, List.map_cons, List.sum_append, List.sum_cons, load, List.length_cons]
      omega
    · cases h
  | leave w =>
    simp only [step] at h
    split at h
    · rename_i i cl hw
      split at h
      · cases h
        obtain ⟨a, b, e, hs⟩ := split_set hw
        refine ⟨?_, rfl, rfl, rfl⟩
        simp only [work, hs]
        simp only [e, List.map_append, List.map_cons, List.sum_append, List.sum_cons, load, List.length_nil]
        omega
      · cases h
    · cases h

theorem conns_step {s s' : State σ α β} {e : Ev α} (he : Inner e) (h : step f s e = some s') :
    ∀ c ∈ conns s', ∃ c' ∈ conns s, c'.closes = c.closes := by
  cases e with
  | arrive reqs closes => exact he.elim
  | stop => exact he.elim
  | test w =>
    simp only [step] at h
    split at h
    · rename_i hw
      cases h
      obtain ⟨a, b, e, hs⟩ := split_set hw
      intro c hc
      refine ⟨c, ?_, rfl⟩
      simp only [conns, hs] at hc ⊢
      simp only [e]
      cases hr : s.running <;> simp [hr, connOf] at hc ⊢ <;> exact hc
    · cases h
  | accept w =>
    simp only [step] at h
    split at h
    · rename_i c q hw hq
      cases h
      obtain ⟨a, b, e, hs⟩ := split_set hw
      intro x hx
      refine ⟨x, ?_, rfl⟩
      simp only [conns, hs] at hx ⊢
      simp only [e, hq, List.filterMap_append, List.filterMap_cons, connOf, List.mem_append, List.mem_cons] at hx ⊢
      rcases hx with h | h | h | h
      · exact .inl (.inr h)
      · exact .inr (.inl h)
      · exact .inl (.inl h)
      · exact .inr (.inr h)
    · cases h
  | wake w =>
    simp only [step] at h
    split at h
    · rename_i hw hr
      cases h
      obtain ⟨a, b, e, hs⟩ := split_set hw
      intro c hc
      refine ⟨c, ?_, rfl⟩
      simp only [conns, hs] at hc ⊢
      simp only [e]
      simpa [connOf] using hc
    · cases h
  | serve w =>
    simp only [step] at h
    split at h
    · rename_i i r rs cl hw
      cases h
      obtain ⟨a, b, e, hs⟩ := split_set hw
      intro c hc
      simp only [conns, hs] at hc ⊢
      simp only [e, List.filterMap_append, List.filterMap_cons, connOf, List.mem_append, List.mem_cons] at hc ⊢
      rcases hc with h | h | h | h
      · exact ⟨c, .inl h, rfl⟩
      · exact ⟨c, .inr (.inl h), rfl⟩
      · exact ⟨⟨i, r :: rs, cl⟩, .inr (.inr (.inl rfl)), by rw [h]⟩
      · exact ⟨c, .inr (.inr (.inr h)), rfl⟩
    · cases h
  | leave w =>
    simp only [step] at h
    split at h
    · rename_i i cl hw
      split at h
      · cases h
        obtain ⟨a, b, e, hs⟩ := split_set hw
        intro c hc
        refine ⟨c, ?_, rfl⟩
        simp only [conns, hs] at hc ⊢
        simp only [e, List.filterMap_append, List.filterMap_cons, connOf, List.mem_append, List.mem_cons] at hc ⊢
        rcases hc with h | h | h
        · exact .inl h
        · exact .inr (.inl h)
        · exact .inr (.inr (.inr h))
      · cases h
    · cases h

theorem mem_conns {s : State σ α β} {c : Conn α} : c ∈ conns s ↔ c ∈ s.queue ∨ .busy c ∈ s.workers := by
  simp only [conns, List.mem_append, List.mem_filterMap]
  refine or_congr .rfl ⟨?_, fun h => ⟨_, h, rfl⟩⟩
  rintro ⟨x, hx, h⟩
  cases x with
  | busy c' => simp only [connOf, Option.some.injEq] at h; exact h ▸ hx
  | _ => simp [connOf] at h

theorem ending_conns {s : State σ α β} : Ending s ↔ s.timeout = true ∨ ∀ c ∈ conns s, c.closes = true := by
  simp only [Ending, mem_conns]
  refine or_congr .rfl ⟨fun h c hc => hc.elim (h.1 c) (h.2 c), fun h => ⟨fun c hc => h c (.inl hc), fun c hc => h c (.inr hc)⟩⟩

theorem inner_run (es : List (Ev α)) (he : ∀ e ∈ es, Inner e) {s s' : State σ α β} (h : run f s es = some s') :
    es.length + work s' ≤ work s ∧ s'.running = s.running ∧ s'.timeout = s.timeout ∧ s'.given = s.given ∧
      (Ending s → Ending s') := by
  induction es generalizing s with
  | nil => cases h; exact ⟨by simp, rfl, rfl, rfl, id⟩
  | cons e es ih =>
    simp only [run, Option.bind_eq_some_iff] at h
    obtain ⟨t, h1, h2⟩ := h
    obtain ⟨a1, a2, a3, a4⟩ := work_step (he e (by simp)) h1
    obtain ⟨b1, b2, b3, b4, b5⟩ := ih (fun e h => he e (by simp [h])) h2
    refine ⟨by simp only [List.length_cons]; omega, b2.trans a2, b3.trans a3, b4.trans a4, fun hE => b5 ?_⟩
    rw [ending_conns] at hE ⊢
    rcases hE with h | h
    · exact .inl (a3.trans h)
    · refine .inr fun c hc => ?_
      obtain ⟨c', hc', e'⟩ := conns_step (he e (by simp)) h1 c hc
      rw [← e']; exact h c' hc'

/-- Threads at rest. -/
theorem rest_worker {s : State σ α β} (hr : Rest f s) (hE : Ending s) {w : Nat} {x : W α} (hw : s.workers[w]? = some x) :
    (x = .accepting ∧ s.running = true ∧ s.queue = []) ∨ x = .ended := by
  cases x with
  | check =>
    have := hr (.test w) trivial
    simp [step, hw] at this
  | accepting =>
    refine .inl ⟨rfl, ?_, ?_⟩
    · have := hr (.wake w) trivial
      cases h : s.running with
      | true => rfl
      | false => simp [step, hw, h] at this
    · have := hr (.accept w) trivial
      cases h : s.queue with
      | nil => rfl
      | cons c q => simp [step, hw, h] at this
  | busy c =>
    obtain ⟨i, reqs, cl⟩ := c
    cases reqs with
    | cons r rs =>
      have := hr (.serve w) trivial
      simp [step, hw] at this
    | nil =>
      have := hr (.leave w) trivial
      have hcl : (cl || s.timeout) = true := by
        rcases hE with h | h
        · simp [h]
        · have := h.2 _ (List.mem_of_getElem? hw)
          simp only at this
          simp [this]
      simp [step, hw, hcl] at this
  | ended => exact .inr rfl

/-! ### Those who come later -/

/-- What the threads have to do before they take the connection behind `pre`. -/
def ahead (pre : List (Conn α)) (s : State σ α β) : Nat :=
  (pre.map fun c => c.reqs.length + 3).sum + (s.workers.map (load s.running)).sum

/-- The connections with threads and those in `pre` end. -/
def EndAhead (pre : List (Conn α)) (s : State σ α β) : Prop :=
  s.timeout = true ∨ (∀ c ∈ pre, c.closes = true) ∧ ∀ c, .busy c ∈ s.workers → c.closes = true

theorem ahead_step {s s' : State σ α β} {e : Ev α} {pre post : List (Conn α)} {c : Conn α} (hr : s.running = true) (he : e ≠ .stop)
    (hq : s.queue = pre ++ c :: post) (hE : EndAhead pre s) (h : step f s e = some s') :
    s'.running = true ∧ (c.id ∈ s'.taken ∨ ∃ pre' post', s'.queue = pre' ++ c :: post' ∧ EndAhead pre' s' ∧
      (if Inner e then 1 else 0) + ahead pre' s' ≤ ahead pre s) := by
  cases e with
  | arrive reqs closes =>
    simp only [step, Option.some.injEq] at h; subst h
    refine ⟨hr, .inr ⟨pre, post ++ [⟨s.given.length, reqs, closes⟩], by simp [hq], hE, ?_⟩⟩
    simp [Inner, ahead]
  | stop => exact absurd rfl he
  | test w =>
    simp only [step] at h
    split at h
    · rename_i hw
      cases h
      obtain ⟨a, b, e, hs⟩ := split_set hw
      refine ⟨hr, .inr ⟨pre, post, hq, ?_, ?_⟩⟩
      · refine hE.imp id fun h => ⟨h.1, fun x hx => h.2 x ?_⟩
        simp only [hs, hr, if_true] at hx
        rw [e]
        simpa using hx
      · rw [if_pos (show Inner (Ev.test w) from trivial)]; simp only [ahead, hs]
        simp only [e, List.map_append, List.map_cons, List.sum_append, List.sum_cons, hr, load, if_true]
        omega
    · cases h
  | accept w =>
    simp only [step] at h
    split at h
    · rename_i c' q hw hq'
      cases h
      obtain ⟨a, b, e, hs⟩ := split_set hw
      refine ⟨hr, ?_⟩
      cases pre with
      | nil =>
        left
        rw [hq] at hq'
        cases hq'
        simp
      | cons p pre =>
        rw [hq] at hq'
        cases hq'
        refine .inr ⟨pre, post, rfl, ?_, ?_⟩
        · refine hE.imp id fun h => ⟨fun x hx => h.1 x (by simp [hx]), fun x hx => ?_⟩
          simp only [hs, List.mem_append, List.mem_cons] at hx
          have h2 := h.2 x
          rw [e] at h2
          rcases hx with hx | hx | hx
          · exact h2 (by simp [hx])
          · cases hx; exact h.1 _ (by simp)
          · exact h2 (by simp [hx])
        · rw [if_pos (show Inner (Ev.accept w) from trivial)]; simp only [ahead, hs]
          simp only [e, List.map_append, List.map_cons, List.sum_append, List.sum_cons, hr, load, if_true]
          omega
    · cases h
  | wake w =>
    simp only [step] at h
    split at h
    · rename_i hw hr'; rw [hr] at hr'; cases hr'
    · cases h
  | serve w =>
    simp only [step] at h
    split at h
    · rename_i i r rs cl hw
      cases h
      obtain ⟨a, b, e, hs⟩ := split_set hw
      refine ⟨hr, .inr ⟨pre, post, hq, ?_, ?_⟩⟩
      · refine hE.imp id fun h => ⟨h.1, fun x hx => ?_⟩
        simp only [hs, List.mem_append, List.mem_cons] at hx
        have h2 := h.2
        rw [e] at h2
        rcases hx with hx | hx | hx
        · exact h2 x (by simp [hx])
        · cases hx; exact h2 ⟨i, r :: rs, cl⟩ (by simp)
        · exact h2 x (by simp [hx])
      · rw [if_pos (show Inner (Ev.serve w) from trivial)]; simp only [ahead, hs]
        simp only [e, List.map_append, List.map_cons, List.sum_append, List.sum_cons, load, List.length_cons]
        omega
    · cases h
  | leave w =>
    simp only [step] at h
    split at h
    · rename_i i cl hw
      split at h
      · cases h
        obtain ⟨a, b, e, hs⟩ := split_set hw
        refine ⟨hr, .inr ⟨pre, post, hq, ?_, ?_⟩⟩
        · refine hE.imp id fun h => ⟨h.1, fun x hx => h.2 x ?_⟩
          simp only [hs, List.mem_append, List.mem_cons] at hx
          rw [e]
          rcases hx with hx | hx | hx
          · simp [hx]
          · cases hx
          · simp [hx]
        · rw [if_pos (show Inner (Ev.leave w) from trivial)]; simp only [ahead, hs]
          simp only [e, List.map_append, List.map_cons, List.sum_append, List.sum_cons, load, List.length_nil]
          omega
      · cases h
    · cases h

theorem taken_step {s s' : State σ α β} {e : Ev α} (h : step f s e = some s') {i : Nat} (hi : i ∈ s.taken) : i ∈ s'.taken := by
  cases e <;> simp only [step] at h <;> (try split at h) <;> (try split at h) <;> first
    | (cases h; done)
    | (cases h; exact hi)
    | (cases h; exact List.mem_append_left _ hi)

theorem taken_run (es : List (Ev α)) {s s' : State σ α β} (h : run f s es = some s') {i : Nat} (hi : i ∈ s.taken) : i ∈ s'.taken := by
  induction es generalizing s with
  | nil => cases h; exact hi
  | cons e es ih =>
    simp only [run, Option.bind_eq_some_iff] at h
    obtain ⟨t, h1, h2⟩ := h
    exact ih h2 (taken_step h1 hi)

theorem ahead_run {n : Nat} {timeout : Bool} {d : σ} (es : List (Ev α)) (he : NoStop es) {s s' : State σ α β} {pre post : List (Conn α)} {c : Conn α}
    (hi : Inv n timeout d f s) (hr : s.running = true) (hq : s.queue = pre ++ c :: post) (hE : EndAhead pre s) (h : run f s es = some s')
    (hw : Waits s' c.id) : s'.running = true ∧ innerSteps es ≤ ahead pre s ∧ ∃ pre' post', s'.queue = pre' ++ c :: post' ∧ EndAhead pre' s' := by
  induction es generalizing s pre post with
  | nil => cases h; exact ⟨hr, Nat.zero_le _, pre, post, hq, hE⟩
  | cons e es ih =>
    simp only [run, Option.bind_eq_some_iff] at h
    obtain ⟨t, h1, h2⟩ := h
    have hne : e ≠ .stop := fun h => he (by simp [h])
    obtain ⟨hrt, h3⟩ := ahead_step hr hne hq hE h1
    rcases h3 with h3 | ⟨pre', post', hq', hE', hm⟩
    · exfalso
      have ht := taken_run es h2 h3
      have hf := (inv_run es (inv_step hi h1) h2).fifo
      have hn : (List.range s'.given.length).Nodup := List.nodup_range
      rw [← hf, List.nodup_append] at hn
      obtain ⟨c', hc', e'⟩ := hw
      exact hn.2.2 c.id ht c'.id (List.mem_map.2 ⟨c', hc', rfl⟩) e'.symm
    · obtain ⟨a1, a2, a3⟩ := ih (fun h => he (by simp [h])) (inv_step hi h1) hrt hq' hE' h2
      refine ⟨a1, ?_, a3⟩
      simp only [innerSteps, List.filter_cons, decide_eq_true_eq] at a2 ⊢
      split at hm <;> rename_i h4
      · rw [if_pos h4, List.length_cons]; omega
      · rw [if_neg h4]; omega

/-! ### Silence -/

theorem silenced_step {s s' : State σ α β} {e : Ev α} (ht : s.timeout = false) {w : Nat} (hw : Silenced s w)
    (h : step f s e = some s') : Silenced s' w ∧ s'.timeout = false := by
  obtain ⟨i, hw⟩ := hw
  have key : ∀ (v : Nat) (x : W α), (∀ y, s.workers[v]? = some y → y ≠ .busy ⟨i, [], false⟩) → (s.workers.set v x)[w]? = some (.busy ⟨i, [], false⟩) := by
    intro v x hv
    by_cases e : v = w
    · subst e; exact absurd rfl (hv _ hw)
    · rw [List.getElem?_set_ne e, hw]
  cases e with
  | arrive reqs closes => simp only [step, Option.some.injEq] at h; subst h; exact ⟨⟨i, hw⟩, ht⟩
  | stop => simp only [step, Option.some.injEq] at h; subst h; exact ⟨⟨i, hw⟩, ht⟩
  | test v =>
    simp only [step] at h
    split at h
    · rename_i hv
      cases h
      exact ⟨⟨i, key v _ fun y hy => by rw [hv] at hy; cases hy; simp⟩, ht⟩
    · cases h
  | accept v =>
    simp only [step] at h
    split at h
    · rename_i hv hq
      cases h
      exact ⟨⟨i, key v _ fun y hy => by rw [hv] at hy; cases hy; simp⟩, ht⟩
    · cases h
  | wake v =>
    simp only [step] at h
    split at h
    · rename_i hv hq
      cases h
      exact ⟨⟨i, key v _ fun y hy => by rw [hv] at hy; cases hy; simp⟩, ht⟩
    · cases h
  | serve v =>
    simp only [step] at h
    split at h
    · rename_i hv
      cases h
      exact ⟨⟨i, key v _ fun y hy => by rw [hv] at hy; cases hy; simp⟩, ht⟩
    · cases h
  | leave v =>
    simp only [step] at h
    split at h
    · rename_i j cl hv
      split at h
      · rename_i hc
        cases h
        rw [ht, Bool.or_false] at hc
        subst hc
        exact ⟨⟨i, key v _ fun y hy => by rw [hv] at hy; cases hy; simp⟩, ht⟩
      · cases h
    · cases h

theorem silenced_run (es : List (Ev α)) {s s' : State σ α β} (ht : s.timeout = false) {w : Nat} (hw : Silenced s w)
    (h : run f s es = some s') : Silenced s' w := by
  induction es generalizing s with
  | nil => cases h; exact hw
  | cons e es ih =>
    simp only [run, Option.bind_eq_some_iff] at h
    obtain ⟨t, h1, h2⟩ := h
    obtain ⟨a, b⟩ := silenced_step ht hw h1
    exact ih b a h2

/-- With all threads silenced nothing is taken and nothing is run. -/
theorem locked_step {s s' : State σ α β} {e : Ev α} (ht : s.timeout = false) (hw : ∀ w, w < s.workers.length → Silenced s w)
    (h : step f s e = some s') : s'.workers = s.workers ∧ s'.log = s.log ∧ s'.timeout = false ∧ ∀ c ∈ s.queue, c ∈ s'.queue := by
  have key : ∀ (w : Nat) (x : W α), s.workers[w]? = some x → ∃ i, x = W.busy ⟨i, [], false⟩ := by
    intro w x hx
    obtain ⟨i, h⟩ := hw w (List.getElem?_eq_some_iff.1 hx).1
    rw [h] at hx; exact ⟨i, (Option.some.inj hx).symm⟩
  cases e with
  | arrive reqs closes =>
    simp only [step, Option.some.injEq] at h; subst h; exact ⟨rfl, rfl, ht, fun c hc => by simp [hc]⟩
  | stop => simp only [step, Option.some.injEq] at h; subst h; exact ⟨rfl, rfl, ht, fun c hc => hc⟩
  | test v =>
    simp only [step] at h
    split at h
    · rename_i hv; obtain ⟨i, h'⟩ := key v _ hv; cases h'
    · cases h
  | accept v =>
    simp only [step] at h
    split at h
    · rename_i hv hq; obtain ⟨i, h'⟩ := key v _ hv; cases h'
    · cases h
  | wake v =>
    simp only [step] at h
    split at h
    · rename_i hv hq; obtain ⟨i, h'⟩ := key v _ hv; cases h'
    · cases h
  | serve v =>
    simp only [step] at h
    split at h
    · rename_i hv; obtain ⟨i, h'⟩ := key v _ hv; cases h'
    · cases h
  | leave v =>
    simp only [step] at h
    split at h
    · rename_i j cl hv
      obtain ⟨i, h'⟩ := key v _ hv
      cases h'
      rw [ht] at h
      simp at h
    · cases h

theorem locked_run (es : List (Ev α)) {s s' : State σ α β} (ht : s.timeout = false)
    (hw : ∀ w, w < s.workers.length → Silenced s w) (h : run f s es = some s') :
    s'.log = s.log ∧ ∀ c ∈ s.queue, c ∈ s'.queue := by
  induction es generalizing s with
  | nil => cases h; exact ⟨rfl, fun c hc => hc⟩
  | cons e es ih =>
    simp only [run, Option.bind_eq_some_iff] at h
    obtain ⟨t, h1, h2⟩ := h
    obtain ⟨a1, a2, a3, a4⟩ := locked_step ht hw h1
    have hw' : ∀ w, w < t.workers.length → Silenced t w := by
      intro w hl; rw [a1] at hl
      obtain ⟨i, hi⟩ := hw w hl
      exact ⟨i, by rw [a1]; exact hi⟩
    obtain ⟨b1, b2⟩ := ih a3 hw' h2
    exact ⟨b1.trans a2, fun c hc => b2 c (a4 c hc)⟩

/-- Clients with the same requests take the threads one after the other. -/
def occupy (L : List α) (cl : Bool) (w : Nat) : List (Ev α) := [.arrive L cl, .test w, .accept w]

theorem occupy_all (n : Nat) (tmo : Bool) (d : σ) (L : List α) (cl : Bool) : ∀ k, k ≤ n → ∃ s : State σ α β,
    run f (start n tmo d) ((List.range k).flatMap (occupy L cl)) = some s ∧ s.running = true ∧ s.timeout = tmo ∧
      s.queue = [] ∧ s.log = [] ∧ s.data = d ∧ s.given = List.replicate k L ∧
      s.workers = (List.range k).map (fun i => .busy ⟨i, L, cl⟩) ++ List.replicate (n - k) .check := by
  intro k
  induction k with
  | zero => intro _; exact ⟨start n tmo d, rfl, rfl, rfl, rfl, rfl, rfl, rfl, by simp [start]⟩
  | succ k ih =>
    intro hk
    obtain ⟨s, h1, h2, h3, h4, h5, h6, h7, h8⟩ := ih (by omega)
    have hlen : ((List.range k).map (fun i => (W.busy ⟨i, L, cl⟩ : W α))).length = k := by simp
    have hrep : List.replicate (n - k) (W.check : W α) = .check :: List.replicate (n - (k + 1)) .check := by
      rw [show n - k = (n - (k + 1)) + 1 by omega, List.replicate_succ]
    have hw : s.workers[k]? = some .check := by
      rw [h8, hrep, List.getElem?_append_right (by simp)]; simp
    have hlt : k < s.workers.length := (List.getElem?_eq_some_iff.1 hw).1
    refine ⟨{ s with
      workers := s.workers.set k (.busy ⟨k, L, cl⟩), given := s.given ++ [L], taken := s.taken ++ [k] }, ?_, h2, h3, h4, h5, h6, ?_, ?_⟩
    · rw [List.range_succ, List.flatMap_append, run_append, h1]
      have hg : s.given.length = k := by rw [h7]; simp
      have ha : (s.workers.set k W.accepting)[k]? = some .accepting := by
        rw [List.getElem?_set_self hlt]
      simp only [Option.bind_some, List.flatMap_cons, List.flatMap_nil, List.append_nil, occupy, run, step, hw, h2, h4, hg,
        if_true, List.nil_append, ha, List.set_set]
    · rw [h7]; exact (List.replicate_succ' ..).symm
    · simp only [h8, hrep]
      rw [List.set_append_right _ _ (by simp), hlen, Nat.sub_self, List.set_cons_zero, List.range_succ, List.map_append,
        List.append_assoc]
      rfl

/-- A thread serves all requests of its client. -/
theorem serve_all (w i : Nat) (cl : Bool) : ∀ (L : List α) (s : State σ α β), s.workers[w]? = some (.busy ⟨i, L, cl⟩) →
    ∃ s', run f s (List.replicate L.length (.serve w)) = some s' ∧ s'.queue = s.queue := by
  intro L
  induction L with
  | nil => intro s _; exact ⟨s, rfl, rfl⟩
  | cons r L ih =>
    intro s hw
    have hlt : w < s.workers.length := (List.getElem?_eq_some_iff.1 hw).1
    obtain ⟨s', h1, h2⟩ := ih { s with workers := s.workers.set w (.busy ⟨i, L, cl⟩), data := (f s.data r).1, log := s.log ++ [(i, r, (f s.data r).2)] }
      (by rw [List.getElem?_set_self hlt])
    refine ⟨s', ?_, h2⟩
    simp only [List.length_cons, List.replicate_succ, run, step, hw, Option.bind_some]
    exact h1

end Verif.RpcPool.Lemmas
