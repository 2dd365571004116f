import Verif.RpcStop.Spec
/-!
# Lemmas for C56
-/
namespace Verif.RpcStop.Lemmas
open Verif.RpcStop Verif.RpcStop.Spec

/-- What holds in every state. -/
structure Inv (s : Server) : Prop where
  lock : ∀ t, s.lock = some t ↔ ∃ k, s.ph t = .starting k ∨ s.ph t = .exiting k
  workers : ∃ L : List Tid, L.Nodup ∧ (∀ t, t ∈ L ↔ Working (s.ph t)) ∧ s.num = L.length
  stopped : s.st = .stopped → s.num = 0
  spawned : s.spawned = true → 0 < s.num ∨ s.st = .stopped
  starting : ∀ t k, s.ph t = .starting k → s.st = .running
  finite : ∃ M : List Tid, M.Nodup ∧ ∀ t, s.ph t ≠ .idle → t ∈ M
  exiting : ∀ t k, s.ph t = .exiting k → s.st = .stopping
  started : ∀ t k, s.ph t = .starting k → s.nthreads = k ∨ s.spawned = true

theorem inv_new : Inv new :=
  ⟨by simp [new], ⟨[], by simp [new, Working]⟩, by simp [new], by simp [new], by simp [new], ⟨[], by simp [new]⟩, by simp [new], by simp [new]⟩

theorem workers_keep {s s' : Server} (h : ∃ L : List Tid, L.Nodup ∧ (∀ t, t ∈ L ↔ Working (s.ph t)) ∧ s.num = L.length)
    (hn : s'.num = s.num) (hp : ∀ t, Working (s'.ph t) ↔ Working (s.ph t)) :
    ∃ L : List Tid, L.Nodup ∧ (∀ t, t ∈ L ↔ Working (s'.ph t)) ∧ s'.num = L.length := by
  obtain ⟨L, h1, h2, h3⟩ := h
  exact ⟨L, h1, fun t => (h2 t).trans (hp t).symm, hn.trans h3⟩

theorem workers_remove {s : Server} {t : Tid} {p : Phase}
    (h : ∃ L : List Tid, L.Nodup ∧ (∀ t, t ∈ L ↔ Working (s.ph t)) ∧ s.num = L.length) (ht : Working (s.ph t)) (hp : ¬ Working p) :
    ∃ L : List Tid, L.Nodup ∧ (∀ u, u ∈ L ↔ Working (upd s.ph t p u)) ∧ s.num - 1 = L.length := by
  obtain ⟨L, h1, h2, h3⟩ := h
  have hm := (h2 t).2 ht
  refine ⟨L.erase t, h1.erase t, fun u => ?_, ?_⟩
  · rw [h1.mem_erase_iff, h2 u]
    unfold upd
    split <;> simp_all
  · rw [List.length_erase_of_mem hm, h3]
    have := List.length_pos_of_mem hm
    omega

theorem working_pos {s : Server} (h : ∃ L : List Tid, L.Nodup ∧ (∀ t, t ∈ L ↔ Working (s.ph t)) ∧ s.num = L.length) {t : Tid}
    (ht : Working (s.ph t)) : 0 < s.num := by
  obtain ⟨L, h1, h2, h3⟩ := h
  have := List.length_pos_of_mem ((h2 t).2 ht)
  omega

theorem finite_upd {ph : Tid → Phase} {t : Tid} (h : ∃ M : List Tid, M.Nodup ∧ ∀ t, ph t ≠ .idle → t ∈ M) (p : Phase) :
    ∃ M : List Tid, M.Nodup ∧ ∀ u, upd ph t p u ≠ .idle → u ∈ M := by
  obtain ⟨M, h0, h⟩ := h
  by_cases ht : t ∈ M
  · refine ⟨M, h0, fun u hu => ?_⟩
    unfold upd at hu
    split at hu
    · simp [*]
    · exact h u hu
  · refine ⟨t :: M, List.nodup_cons.2 ⟨ht, h0⟩, fun u hu => ?_⟩
    unfold upd at hu
    split at hu
    · simp [*]
    · exact List.mem_cons_of_mem _ (h u hu)

/-- Goes through the cases of a step. -/
local macro "steps" h:ident hp:ident : tactic => `(tactic| (
  unfold step testStopped at $h:ident
  split at $h:ident <;> rename_i $hp:ident
  all_goals (try (split at $h:ident))
  all_goals (try (split at $h:ident))
  all_goals (try (split at $h:ident))
  all_goals (try (cases $h:ident; done))
  all_goals simp only [Option.some.injEq] at $h:ident
  all_goals (try (split at $h:ident))
  all_goals subst $h:ident))

theorem step_lock {s s' : Server} {t : Tid} {c : Choice} (i : Inv s) (h : step s t c = some s') (u : Tid) :
    s'.lock = some u ↔ ∃ k, s'.ph u = .starting k ∨ s'.ph u = .exiting k := by
  have hu := i.lock u
  have ht := i.lock t
  steps h hp
  all_goals simp only [hp] at ht
  all_goals simp only [upd]
  all_goals (by_cases e : u = t)
  all_goals simp_all
  all_goals grind

theorem step_workers {s s' : Server} {t : Tid} {c : Choice} (i : Inv s) (h : step s t c = some s') :
    ∃ L : List Tid, L.Nodup ∧ (∀ t, t ∈ L ↔ Working (s'.ph t)) ∧ s'.num = L.length := by
  have hw := i.workers
  steps h hp
  all_goals try (refine workers_keep hw rfl (fun u => ?_); simp only [upd]; split <;> simp_all [Working]; done)
  · rename_i k _ u hu
    obtain ⟨L, h1, h2, h3⟩ := hw
    refine ⟨u :: L, List.nodup_cons.2 ⟨fun h => ?_, h1⟩, fun v => ?_, ?_⟩
    · have := (h2 u).1 h
      simp [Working, hu] at this
    · have := h2 v
      simp only [upd, List.mem_cons]
      by_cases e : v = u
      · simp [e, Working]
      · by_cases e' : v = t
        · subst e'; simp_all [Working]
        · simp [e, e', this]
    · simp only [h3, List.length_cons]; omega
  · exact workers_remove hw (by simp [hp, Working]) (by simp [Working])
  · exact workers_remove hw (by simp [hp, Working]) (by simp [Working])
  · rename_i u hu
    refine workers_keep hw rfl (fun v => ?_)
    simp only [upd]
    split
    · simp_all [Working]
    · split <;> simp_all [Working]

theorem step_stopped {s s' : Server} {t : Tid} {c : Choice} (i : Inv s) (h : step s t c = some s') : s'.st = .stopped → s'.num = 0 := by
  have hw := i.stopped
  have hwk := i.workers
  have hs := i.starting t
  steps h hp
  all_goals try (simp_all; done)
  all_goals
    intro h
    have := working_pos hwk (t := t) (by simp [hp, Working])
    simp only at h ⊢
    first
    | omega
    | have := hw h; omega

theorem step_spawned {s s' : Server} {t : Tid} {c : Choice} (i : Inv s) (h : step s t c = some s') :
    s'.spawned = true → 0 < s'.num ∨ s'.st = .stopped := by
  have hw := i.spawned
  have hwk := i.workers
  steps h hp
  all_goals try (simp_all; done)
  obtain ⟨L, _, _, h3⟩ := hwk
  intro _
  left
  simp only [h3]
  omega

theorem step_starting {s s' : Server} {t : Tid} {c : Choice} (i : Inv s) (h : step s t c = some s') (u : Tid) (k : Nat) :
    s'.ph u = .starting k → s'.st = .running := by
  have hw := i.starting u
  have hl := i.lock u
  have ht := i.lock t
  steps h hp
  all_goals try (simp only [upd]; split <;> simp_all; done)
  all_goals (simp only [upd]; split <;> (try split) <;> simp_all)

theorem step_finite {s s' : Server} {t : Tid} {c : Choice} (i : Inv s) (h : step s t c = some s') :
    ∃ M : List Tid, M.Nodup ∧ ∀ t, s'.ph t ≠ .idle → t ∈ M := by
  have hw := i.finite
  steps h hp
  all_goals first | exact finite_upd hw _ | exact finite_upd (finite_upd hw _) _

theorem step_exiting {s s' : Server} {t : Tid} {c : Choice} (i : Inv s) (h : step s t c = some s') (u : Tid) (k : Nat) :
    s'.ph u = .exiting k → s'.st = .stopping := by
  have hw := i.exiting u
  have hl := i.lock u
  have ht := i.lock t
  steps h hp
  all_goals (simp only [upd]; split <;> (try split) <;> simp_all)

theorem step_started {s s' : Server} {t : Tid} {c : Choice} (i : Inv s) (h : step s t c = some s') (u : Tid) (k : Nat) :
    s'.ph u = .starting k → s'.nthreads = k ∨ s'.spawned = true := by
  have hw := i.started u
  have hl := i.lock u
  have ht := i.lock t
  steps h hp
  all_goals (simp only [upd]; split <;> (try split) <;> simp_all)

theorem inv_step {s s' : Server} {t : Tid} {c : Choice} (i : Inv s) (h : step s t c = some s') : Inv s' :=
  ⟨step_lock i h, step_workers i h, step_stopped i h, step_spawned i h, step_starting i h, step_finite i h, step_exiting i h, step_started i h⟩

theorem inv_reach {s : Server} (h : Reach s) : Inv s := by
  induction h with
  | new => exact inv_new
  | step _ hs ih => exact inv_step ih hs.1

theorem reach_of_one {s : Server} (h : ReachOne s) : Reach s := by
  induction h with
  | new => exact .new
  | step _ hs _ ih => exact .step ih hs

/-! ### Coming to rest -/

/-- How many steps a thread may still take by itself. -/
def weight : Phase → Nat
  | .stopEnter => 1
  | .exiting k => k + 1
  | .waitEnter => 1
  | .woken => 1
  | .busy => 5
  | .check => 4
  | .leave => 3
  | .signal => 2
  | _ => 0

def total (M : List Tid) (ph : Tid → Phase) : Nat := (M.map fun t => weight (ph t)).sum

theorem total_congr {M : List Tid} {ph : Tid → Phase} {t : Tid} {p : Phase} (h : t ∉ M) : total M (upd ph t p) = total M ph := by
  unfold total
  congr 1
  apply List.map_congr_left
  intro u hu
  have : u ≠ t := fun e => h (e ▸ hu)
  simp [upd, this]

theorem total_upd {M : List Tid} {ph : Tid → Phase} {t : Tid} {p : Phase} (hm : M.Nodup) (h : t ∈ M) :
    total M (upd ph t p) + weight (ph t) = total M ph + weight p := by
  induction M with
  | nil => cases h
  | cons v M ih =>
    rw [List.nodup_cons] at hm
    by_cases e : v = t
    · subst e
      have := total_congr (ph := ph) (p := p) hm.1
      simp only [total, List.map_cons, List.sum_cons, upd] at this ⊢
      simp only [if_true]
      omega
    · have hv : upd ph t p v = ph v := by simp [upd, e]
      have := ih hm.2 (by simpa [Ne.symm e] using h)
      simp only [total, List.map_cons, List.sum_cons, hv] at this ⊢
      omega

theorem covered {M : List Tid} {ph : Tid → Phase} {t : Tid} (hM : ∀ t, ph t ≠ .idle → t ∈ M) (ht : ph t ≠ .idle) (p : Phase) :
    ∀ u, upd ph t p u ≠ .idle → u ∈ M := by
  intro u hu
  by_cases e : u = t
  · exact e ▸ hM t ht
  · exact hM u (by simpa [upd, e] using hu)

/-- A step of a thread by itself, when the server is not running. -/
theorem internal_step {s s' : Server} {t : Tid} {c : Choice} (hs : s.st ≠ .running) (hn : NoStart s)
    (hc : Internal c) (h : step s t c = some s') {M : List Tid} (hm : M.Nodup) (hM : ∀ t, s.ph t ≠ .idle → t ∈ M) :
    s'.st ≠ .running ∧ NoStart s' ∧ s'.spawned = s.spawned ∧ (s.st = .stopped → s'.st = .stopped) ∧
      (∀ t, s'.ph t ≠ .idle → t ∈ M) ∧ total M s'.ph < total M s.ph := by
  have hst := hn t
  obtain ⟨c1, c2, c3, c4⟩ := hc
  have key1 : ∀ p, ¬ Starting p → ∀ u, ¬ Starting (upd s.ph t p u) := by
    intro p hp u
    unfold upd
    split
    · exact hp
    · exact hn u
  have key2 : ∀ p, s.ph t ≠ .idle → weight p < weight (s.ph t) → total M (upd s.ph t p) < total M s.ph := by
    intro p hi hw
    have := total_upd (ph := s.ph) (p := p) hm (hM t hi)
    omega
  steps h hp
  all_goals (try (simp [hp, Starting] at hst; done))
  all_goals (try (simp at c1 c2 c3 c4; done))
  all_goals try (
    refine ⟨?_, key1 _ ?_, ?_, ?_, covered hM ?_ _, key2 _ ?_ ?_⟩ <;> simp_all [Starting, weight]
    done)
  rename_i u hu
  have htu : u ≠ t := fun e => by rw [e, hp] at hu; cases hu
  have hu' : upd s.ph t .idle u = .blocked := by simp [upd, htu, hu]
  refine ⟨hs, fun v => ?_, rfl, id, covered (covered hM (by simp [hp]) _) (by simp [hu']) _, ?_⟩
  · unfold upd
    dsimp only
    split
    · simp [Starting]
    · exact key1 .idle (by simp [Starting]) v
  · have h1 := total_upd (ph := s.ph) (p := .idle) hm (hM t (by simp [hp]))
    have h2 := total_upd (ph := upd s.ph t .idle) (p := .woken) hm (hM u (by simp [hu]))
    rw [hp] at h1
    rw [hu'] at h2
    simp only [weight] at h1 h2
    show total M (upd (upd s.ph t .idle) u .woken) < _
    omega

theorem run_bound {M : List Tid} (hm : M.Nodup) {n : Nat} {s s' : Server} (h : Run n s s') (hs : s.st ≠ .running) (hn : NoStart s)
    (hM : ∀ t, s.ph t ≠ .idle → t ∈ M) : n ≤ total M s.ph := by
  induction h with
  | nil => exact Nat.zero_le _
  | cons hc hst _ ih =>
    obtain ⟨h1, h2, _, _, h5, h6⟩ := internal_step hs hn hc hst.1 hm hM
    have := ih h1 h2 h5
    omega

theorem run_keeps {n : Nat} {s s' : Server} (h : Run n s s') (i : Reach s) (hs : s.st ≠ .running) (hn : NoStart s) :
    Reach s' ∧ s'.st ≠ .running ∧ NoStart s' ∧ s'.spawned = s.spawned ∧ (s.st = .stopped → s'.st = .stopped) := by
  induction h with
  | nil => exact ⟨i, hs, hn, rfl, id⟩
  | cons hc hst _ ih =>
    obtain ⟨M, hm, hM⟩ := (inv_reach i).finite
    obtain ⟨h1, h2, h3, h4, _, _⟩ := internal_step hs hn hc hst.1 hm hM
    obtain ⟨g1, g2, g3, g4, g5⟩ := ih (.step i hst) h1 h2
    exact ⟨g1, g2, g3, g4.trans h3, fun h => g5 (h4 h)⟩

theorem run_one {n : Nat} {s s' : Server} (h : Run n s s') (i : ReachOne s) : ReachOne s' := by
  induction h with
  | nil => exact i
  | cons hc hst _ ih => exact ih (.step i hst (fun e => absurd e hc.2.2.1))

/-! ### Threads do not block each other -/

theorem internal_go : Internal .go := ⟨by simp, by simp, by simp, by simp⟩
theorem internal_fail : Internal .fail := ⟨by simp, by simp, by simp, by simp⟩
theorem internal_with (u : Tid) : Internal (.with u) := ⟨by simp, by simp, by simp, by simp⟩

theorem not_final {s : Server} {t : Tid} {c : Choice} (hc : Internal c) (h : (step s t c).isSome = true) (hs : s.ph t ≠ .signal) : ¬ Final s := by
  intro hf
  obtain ⟨s', e⟩ := Option.isSome_iff_exists.1 h
  exact hf t c s' hc ⟨e, fun h => absurd h hs⟩

theorem final_idle {s : Server} (i : Inv s) (hf : Final s) (t : Tid) : s.ph t = .idle ∨ s.ph t = .blocked := by
  cases hl : s.lock with
  | some u =>
    exfalso
    obtain ⟨k, hk | hk⟩ := (i.lock u).1 hl
    · cases k with
      | zero => exact not_final (t := u) internal_go (by unfold step; simp [hk]) (by simp [hk]) hf
      | succ k => exact not_final (t := u) internal_fail (by unfold step; simp [hk]) (by simp [hk]) hf
    · cases k with
      | zero => exact not_final (t := u) internal_go (by unfold step; simp [hk]) (by simp [hk]) hf
      | succ k => exact not_final (t := u) internal_go (by unfold step; simp [hk]) (by simp [hk]) hf
  | none =>
    have hno : ∀ k, s.ph t ≠ .starting k ∧ s.ph t ≠ .exiting k := by
      intro k
      have := i.lock t
      rw [hl] at this
      constructor <;> intro h
      · have := this.2 ⟨k, .inl h⟩; cases this
      · have := this.2 ⟨k, .inr h⟩; cases this
    cases hp : s.ph t with
    | idle => exact .inl rfl
    | blocked => exact .inr rfl
    | starting k => exact absurd hp (hno k).1
    | exiting k => exact absurd hp (hno k).2
    | signal =>
      exfalso
      by_cases hb : ∃ u, s.ph u = .blocked
      · obtain ⟨u, hu⟩ := hb
        exact hf t (.with u) _ (internal_with u) ⟨by unfold step; simp only [hp, hu]; rfl, fun _ h => by cases h⟩
      · exact hf t .go _ internal_go ⟨by unfold step; simp only [hp]; rfl, fun _ _ u hu => hb ⟨u, hu⟩⟩
    | leave => exact absurd hf (not_final internal_go (t := t) (by unfold step; simp only [hp, hl]; simp only [if_true]; split <;> rfl) (by simp [hp]))
    | check => exact absurd hf (not_final internal_go (t := t) (by unfold step; simp only [hp, hl]; simp only [if_true]; split <;> rfl) (by simp [hp]))
    | stopEnter => exact absurd hf (not_final internal_go (t := t) (by unfold step; simp only [hp, hl]; simp only [if_true]; split <;> rfl) (by simp [hp]))
    | startEnter n => exact absurd hf (not_final internal_go (t := t) (by unfold step; simp [hp, hl]) (by simp [hp]))
    | waitEnter => exact absurd hf (not_final internal_go (t := t) (by unfold step; simp [hp, hl]) (by simp [hp]))
    | woken => exact absurd hf (not_final internal_go (t := t) (by unfold step; simp [hp, hl]) (by simp [hp]))
    | busy => exact absurd hf (not_final internal_go (t := t) (by unfold step; simp [hp]) (by simp [hp]))

/-! ### One waiting thread -/

structure InvOne (s : Server) : Prop where
  one : ∀ t u, Waiting (s.ph t) → Waiting (s.ph u) → t = u
  coming : ∀ t, s.st = .stopped → s.ph t = .blocked → ∃ u, s.ph u = .signal

theorem one_step {s s' : Server} {t : Tid} {c : Choice} (i : InvOne s) (h : step s t c = some s')
    (hc : c = .wait → ∀ u, ¬ Waiting (s.ph u)) (a b : Tid) : Waiting (s'.ph a) → Waiting (s'.ph b) → a = b := by
  have hab := i.one a b
  have hat := i.one a t
  have hbt := i.one b t
  have hA := fun e => hc e a
  have hB := fun e => hc e b
  clear hc
  steps h hp
  all_goals simp only [upd]
  all_goals grind [Waiting]

theorem coming_step {s s' : Server} {t : Tid} {c : Choice} (i : InvOne s) (h : Step s t c s') (v : Tid) :
    s'.st = .stopped → s'.ph v = .blocked → ∃ u, s'.ph u = .signal := by
  have hv := i.coming v
  have hone := i.one v
  obtain ⟨h, hsig⟩ := h
  steps h hp
  all_goals simp only [upd]
  all_goals grind [Waiting]

theorem inv_one {s : Server} (h : ReachOne s) : InvOne s := by
  induction h with
  | new => exact ⟨by simp [new, Waiting], by simp [new]⟩
  | step _ hs hc ih => exact ⟨one_step ih hs.1 hc, coming_step ih hs⟩

/-! ### What never changes again -/

/-- All threads have left a server that is not running, but for those waiting. -/
structure Dead (s : Server) : Prop where
  st : s.st ≠ .running
  ph : ∀ t, s.ph t = .idle ∨ s.ph t = .stopEnter ∨ Waiting (s.ph t)

theorem dead_step' {s s' : Server} {t : Tid} {c : Choice} (i : Dead s) (h : step s t c = some s') (h1 : c ≠ .spurious)
    (h2 : ∀ n, c ≠ .start n) (u : Tid) : (s'.ph u = .idle ∨ s'.ph u = .stopEnter ∨ Waiting (s'.ph u)) ∧ s'.st = s.st ∧
      (s.ph u = .blocked → s'.ph u = .blocked) := by
  have hu := i.ph u
  have ht := i.ph t
  have hst := i.st
  steps h hp
  all_goals simp only [upd]
  all_goals grind [Waiting]

theorem dead_later {s s' : Server} (h : Later s s') (i : Dead s) :
    Dead s' ∧ s'.st = s.st ∧ ∀ u, s.ph u = .blocked → s'.ph u = .blocked := by
  induction h with
  | refl => exact ⟨i, rfl, fun _ => id⟩
  | step _ hs h1 h2 ih =>
    obtain ⟨i', e, hb⟩ := ih
    have key := dead_step' i' hs.1 h1 h2
    have e' := (key 0).2.1
    exact ⟨⟨by rw [e']; exact i'.st, fun u => (key u).1⟩, e'.trans e, fun u h => (key u).2.2 (hb u h)⟩

theorem wait_leaves {s s' : Server} {t : Tid} {c : Choice} (hw : Waiting (s.ph t)) (h : step s t c = some s') (hr : ¬ Waiting (s'.ph t)) :
    s.st = .stopped := by
  steps h hp
  all_goals simp only [upd] at hr
  all_goals grind [Waiting]

theorem stop_leaves {s s' : Server} {t : Tid} {c : Choice} (i : Inv s) (hw : s.ph t = .stopEnter ∨ ∃ k, s.ph t = .exiting k)
    (h : step s t c = some s') (hr : s'.ph t = .idle) : s'.st ≠ .running := by
  have hx := i.exiting t
  steps h hp
  all_goals simp only [upd] at hr
  all_goals grind

theorem start_leaves {s s' : Server} {t : Tid} {c : Choice} (i : Inv s) (hw : ∃ k, s.ph t = .starting k)
    (h : step s t c = some s') (hr : s'.ph t = .idle) (hc : c ≠ .fail) (hn : s.nthreads ≠ 0) : s'.st = .running ∧ s'.spawned = true := by
  have hx := i.starting t
  have hy := i.started t
  steps h hp
  all_goals simp only [upd] at hr
  all_goals grind

/-! ### Executions given by a list -/

/-- Runs a list of choices; a notification must wake somebody here. -/
def play : List (Tid × Choice) → Server → Option Server
  | [], s => some s
  | (t, c) :: l, s => if s.ph t = .signal ∧ c = .go then none else (step s t c).bind (play l)

theorem play_reach {l : List (Tid × Choice)} {s s' : Server} (hr : Reach s) (h : play l s = some s') : Reach s' := by
  induction l generalizing s with
  | nil => cases h; exact hr
  | cons x l ih =>
    unfold play at h
    split at h
    · cases h
    · rename_i hn
      obtain ⟨s1, h1, h2⟩ := Option.bind_eq_some_iff.1 h
      exact ih (.step hr ⟨h1, fun a b => absurd ⟨a, b⟩ hn⟩) h2

theorem play_one {l : List (Tid × Choice)} (hl : ∀ x ∈ l, x.2 ≠ .wait) {s s' : Server} (hr : ReachOne s) (h : play l s = some s') :
    ReachOne s' := by
  induction l generalizing s with
  | nil => cases h; exact hr
  | cons x l ih =>
    unfold play at h
    split at h
    · cases h
    · rename_i hn
      obtain ⟨s1, h1, h2⟩ := Option.bind_eq_some_iff.1 h
      exact ih (fun y hy => hl y (List.mem_cons_of_mem _ hy))
        (.step hr ⟨h1, fun a b => absurd ⟨a, b⟩ hn⟩ (fun e => absurd e (hl x (List.mem_cons_self ..)))) h2

theorem step_other {s s' : Server} {t : Tid} {c : Choice} (h : step s t c = some s') {u : Tid} (hu : u ≠ t) (hc : c ≠ .with u) :
    s'.ph u = s.ph u := by
  steps h hp
  all_goals simp only [upd]
  all_goals grind

theorem play_other {l : List (Tid × Choice)} {s s' : Server} (h : play l s = some s') {u : Tid}
    (hu : ∀ x ∈ l, x.1 ≠ u ∧ x.2 ≠ .with u) : s'.ph u = s.ph u := by
  induction l generalizing s with
  | nil => cases h; rfl
  | cons x l ih =>
    unfold play at h
    split at h
    · cases h
    · obtain ⟨s1, h1, h2⟩ := Option.bind_eq_some_iff.1 h
      have hx := hu x (List.mem_cons_self ..)
      rw [ih h2 (fun y hy => hu y (List.mem_cons_of_mem _ hy)), step_other h1 (Ne.symm hx.1) hx.2]

end Verif.RpcStop.Lemmas
