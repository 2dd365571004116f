import Verif.Mutex.Lemmas
/-!
# C24: mutexes. C25: waiting on a condition.
-/
namespace Verif.Mutex.Props
open Verif.Mutex Verif.Mutex.Spec Verif.Mutex.Lemmas

/-! ### C24: recursive mutexes -/

/-- C24: two threads are never between `lock` and `unlock` at the same
time. -/
theorem recursive_exclusive {s : St} (h : Reach true s) {t u : Tid} (ht : Inside s t)
    (hu : Inside s u) : t = u := by
  have inv := invR_reach h
  have h1 := (inv.own t).2 (by rw [ht.1]; simpa [claim] using ht.2)
  have h2 := (inv.own u).2 (by rw [hu.1]; simpa [claim] using hu.2)
  rw [h1] at h2
  exact Option.some.inj h2

/-- C24: between calls, a thread owns the native mutex exactly when it has
locked more often than it has unlocked: the last unlock releases it and no
earlier one does. -/
theorem recursive_owned_iff_depth {s : St} (h : Reach true s) {t : Tid} (ht : s.pc t = .idle) :
    s.owner = some t ↔ 0 < s.depth t := by
  have := (invR_reach h).own t
  rw [ht] at this
  simpa [claim] using this

/-- C24: an `unlock` by a thread that does not hold the mutex changes no
shared variable, and if it returns it returns false. -/
theorem recursive_unlock_by_nonholder {s s' : St} (h : Reach true s) {t : Tid} {c : Call}
    (hin : InUnlock s t) (hd : s.depth t = 0) (hs : step s t c = some s') :
    s'.owner = s.owner ∧ s'.holder = s.holder ∧ s'.cnt = s.cnt ∧ s'.depth = s.depth ∧
      (s'.pc t = .idle ∧ s'.res t = false ∨ InUnlock s' t) := by
  have inv := invR_reach h
  have hc := inv.cond t
  have hh := inv.hold t
  have hn := inv.nonneg
  unfold step at hs
  rcases hin with hin | ⟨c', hin⟩
  · simp only [List.mem_cons, List.not_mem_nil, or_false] at hin
    rcases hin with e | e | e | e | e | e | e <;> rw [e] at hs hc hh <;>
      simp only [claim, hd] at hc hh hs
    · rw [if_neg (by omega)] at hs
      cases hs
      simp [upd, InUnlock]
    · rw [if_neg (fun e => by simpa using hh.1 e.symm)] at hs
      cases hs
      simp [upd]
    all_goals omega
  · rw [hin] at hc
    simp only [claim] at hc
    omega

/-- C24: an `unlock` by the holder, if it returns, returns true and lowers
the depth by one. -/
theorem recursive_unlock_by_holder {s s' : St} (h : Reach true s) {t : Tid} {c : Call}
    (hin : InUnlock s t) (hd : 0 < s.depth t) (hs : step s t c = some s') :
    (s'.pc t = .idle ∧ s'.res t = true ∧ s'.depth t = s.depth t - 1) ∨
      (InUnlock s' t ∧ s'.depth t = s.depth t) := by
  have inv := invR_reach h
  have hc := inv.cond t
  have hh := inv.hold t
  have ho := inv.own t
  have hn := inv.nonneg
  unfold step at hs
  rcases hin with hin | ⟨c', hin⟩
  · simp only [List.mem_cons, List.not_mem_nil, or_false] at hin
    rcases hin with e | e | e | e | e | e | e <;> rw [e] at hs hc hh ho <;>
      simp only [claim] at hc hh hs ho
    · rw [if_neg (by omega)] at hs
      cases hs
      simp [upd, InUnlock]
    · rw [if_pos ((hh.2 (by simpa using hd)).symm)] at hs
      cases hs
      simp [upd, InUnlock]
    · cases hs; simp [upd, InUnlock]
    · cases hs; simp [upd, InUnlock]
    · rw [if_pos (by simpa using ho)] at hs
      cases hs; simp [upd]
  · rw [hin] at hs
    dsimp only at hs
    split at hs <;> cases hs <;> simp [upd, InUnlock]

/-- C24: a `lock` that returns returns true and raises the depth by one. -/
theorem lock_counts {r : Bool} {s s' : St} (_ : Reach r s) {t : Tid} {c : Call}
    (hin : InLock s t) (hs : step s t c = some s') :
    (s'.pc t = .idle ∧ s'.res t = true ∧ s'.depth t = s.depth t + 1) ∨
      (InLock s' t ∧ s'.depth t = s.depth t) := by
  unfold step at hs
  rcases hin with hin | ⟨c', hin⟩
  · simp only [List.mem_cons, List.not_mem_nil, or_false] at hin
    rcases hin with e | e | e | e | e | e | e | e <;> rw [e] at hs <;> dsimp only at hs
    · cases hs; split <;> simp [upd, InLock]
    · split at hs <;> cases hs; simp [upd, InLock]
    · cases hs; simp [upd]
    · cases hs; split <;> simp [upd, InLock]
    · cases hs; simp [upd, InLock]
    · split at hs <;> cases hs; simp [upd, InLock]
    · cases hs; simp [upd, InLock]
    · cases hs; simp [upd]
  · rw [hin] at hs
    cases hs; simp [upd]

/-- C24: only the thread that owns the native mutex changes `holder` or
`cnt`, and no step of another thread takes the mutex away from its owner. -/
theorem recursive_owner_undisturbed {s s' : St} (h : Reach true s) {t u : Tid} {c : Call}
    (hu : s.owner = some u) (hne : u ≠ t) (hs : step s t c = some s') :
    s'.owner = some u ∧ s'.holder = s.holder ∧ s'.cnt = s.cnt ∧ s'.pc u = s.pc u ∧
      s'.depth u = s.depth u := by
  have inv := invR_reach h
  have ho := inv.own t
  have hc := inv.cond t
  have hot := step_other hs hne
  refine ⟨?_, ?_, ?_, hot.1, hot.2.1⟩ <;>
  · unfold step at hs
    have hnt : ¬ s.owner = some t := by rw [hu]; simpa using hne
    generalize hp : s.pc t = p at hs ho hc
    cases p <;> simp only [claim] at ho hc <;> dsimp only at hs
    case idle => cases c <;> cases hs <;> first | exact hu | rfl
    case lkAcq => rw [if_neg (by rw [hu]; simp)] at hs; cases hs
    case wBlk => rw [if_neg (by rw [hu]; simp)] at hs; cases hs
    all_goals first
      | exact absurd (ho.2 rfl) hnt
      | (simp only [iff_true] at ho; exact absurd ho hnt)
      | (cases hs; first | exact hu | rfl)
      | (split at hs <;> cases hs <;> first | exact hu | rfl)

/-- C24: no `unlock` or `wait` ever reaches a native mutex its caller does
not own, whatever the threads do. -/
theorem recursive_no_ub {s : St} (h : Reach true s) : s.ub = false := (invR_reach h).noub

/-- C24: a thread blocked in `lock` can proceed as soon as there is no
owner. -/
theorem free_mutex_can_be_locked {s : St} {t : Tid} (ha : Acquiring s t) (hf : s.owner = none)
    (c : Call) : (step s t c).isSome := by
  unfold step
  rcases ha with e | e <;> rw [e] <;> simp [hf]

/-- C24: the owner of a recursive mutex is never blocked. -/
theorem recursive_owner_can_proceed {s : St} (h : Reach true s) {t : Tid}
    (ho : s.owner = some t) (c : Call) : (step s t c).isSome := by
  have := ((invR_reach h).own t).1 ho
  unfold step
  generalize hp : s.pc t = p at this
  cases p <;> simp only [claim] at this <;> dsimp only
  case idle => cases c <;> rfl
  case lkAcq => cases this
  case nlAcq => cases this
  case wBlk => cases this
  all_goals (try split) <;> rfl

/-! ### C24: plain mutexes -/

/-- C24: mutual exclusion for plain mutexes, as long as no thread unlocks a
mutex it does not hold. -/
theorem plain_exclusive_partial {s : St} (h : ReachDisciplined false s) {t u : Tid} (ht : Inside s t)
    (hu : Inside s u) : t = u := by
  have inv := invN_reach h
  have h1 := (inv.own t).2 (by rw [ht.1]; simpa [claimN] using ht.2)
  have h2 := (inv.own u).2 (by rw [hu.1]; simpa [claimN] using hu.2)
  rw [h1] at h2
  exact Option.some.inj h2

/-- C24: between calls the mutex is owned exactly by the thread that has
locked and not yet unlocked it; nobody holds it twice. -/
theorem plain_owned_iff_depth_partial {s : St} (h : ReachDisciplined false s) {t : Tid}
    (ht : s.pc t = .idle) : (s.owner = some t ↔ s.depth t = 1) ∧ s.depth t ≤ 1 := by
  have inv := invN_reach h
  have ho := inv.own t
  have hc := inv.cond t
  rw [ht] at ho hc
  simp only [claimN] at ho hc
  refine ⟨ho.trans ?_, hc.1⟩
  simp only [decide_eq_true_eq]
  omega

/-- C24: disciplined use never reaches a native mutex the caller does not
own. -/
theorem plain_no_ub_partial {s : St} (h : ReachDisciplined false s) : s.ub = false := (invN_reach h).noub

/-- Thread 0 locks a mutex and thread 1 unlocks it. -/
def misuse : List (Tid × Call) :=
  [(0, .lock), (0, .lock), (0, .lock), (0, .lock), (1, .unlock), (1, .unlock), (1, .unlock),
    (1, .unlock)]

/-- C24 fails for plain mutexes: `unlock` by a thread that does not hold the
mutex does not fail; it clears `holder` and calls `pthread_mutex_unlock` on
a mutex locked by another thread, which is undefined. -/
theorem plain_unlock_by_nonholder_is_undefined :
    ∃ s, Reach false s ∧ Inside s 0 ∧ s.holder = -1 ∧ s.ub = true := by
  refine ⟨(run (init false) misuse).get (by decide), reach_run .start misuse (Option.some_get _).symm,
    ⟨by decide, by decide⟩, by decide, by decide⟩

/-! ### C25 -/

/-- C25: while a thread waits it does not own the mutex, however often it had
locked it. -/
theorem wait_gives_up_the_mutex {s : St} {t : Tid} (hw : Waiting s t)
    (h : Reach true s ∨ ReachDisciplined false s) : s.owner ≠ some t := by
  obtain ⟨h', c, e⟩ := hw
  rcases h with h | h
  · intro ho
    have := ((invR_reach h).own t).1 ho
    rw [e] at this; simp [claim] at this
  · intro ho
    have := ((invN_reach h).own t).1 ho
    rw [e] at this; simp [claimN] at this

/-- C25: a thread waiting on a condition wakes only when nobody owns the
mutex, and it can wake whenever nobody does. -/
theorem wakes_iff_free {s : St} {t : Tid} (hw : Waiting s t) (c : Call) :
    (step s t c).isSome ↔ s.owner = none := by
  obtain ⟨h', c', e⟩ := hw
  unfold step
  rw [e]
  by_cases ho : s.owner = none <;> simp [ho]

/-- C25: a wait never changes the depth of its caller. -/
theorem wait_keeps_depth {s s' : St} {t : Tid} {c : Call} (hin : InWait s t)
    (hs : step s t c = some s') : s'.depth = s.depth := by
  obtain ⟨h0, h1, h2⟩ := hin
  unfold step at hs
  simp only [InLock, InUnlock, not_or, not_exists, List.mem_cons, List.not_mem_nil, or_false] at h1 h2
  generalize hp : s.pc t = p at hs h0 h1 h2
  cases p <;> dsimp only at hs <;> simp at h0 h1 h2
  all_goals first
    | (cases hs; rfl)
    | (split at hs <;> cases hs <;> rfl)

/-- C25: whenever a thread that holds a recursive mutex is between calls — in
particular when its wait has returned — `holder` and `cnt` say that it holds
the mutex as often as it had locked it. -/
theorem recursive_holder_and_count {s : St} (h : Reach true s) {t : Tid} (ht : Inside s t) :
    s.owner = some t ∧ s.holder = ident t ∧ s.cnt = s.depth t := by
  have inv := invR_reach h
  have h1 := inv.own t
  have h2 := inv.hold t
  have h3 := inv.cond t
  rw [ht.1] at h1 h2 h3
  simp only [claim] at h1 h2 h3
  have hd : decide (0 < s.depth t) = true := by simpa using ht.2
  exact ⟨h1.2 hd, h2.2 hd, h3 ht.2⟩

/-- C25: the same for a plain mutex, which is held once. -/
theorem plain_holder {s : St} (h : ReachDisciplined false s) {t : Tid} (ht : Inside s t) :
    s.owner = some t ∧ s.holder = ident t ∧ s.depth t = 1 := by
  have inv := invN_reach h
  have h1 := inv.own t
  have h3 := inv.cond t
  rw [ht.1] at h1 h3
  simp only [claimN] at h1 h3
  have := ht.2
  exact ⟨h1.2 (by simpa using ht.2), h3.2.2 ht.2, by omega⟩

/-- C25: a wait by a thread that does not hold the mutex returns at once and
changes nothing. -/
theorem wait_by_nonholder {s s' : St} (h : Reach true s ∨ ReachDisciplined false s) {t : Tid} {c : Call}
    (hin : s.pc t = .wTest) (hd : s.depth t = 0) (hs : step s t c = some s') :
    s'.pc t = .idle ∧ s'.owner = s.owner ∧ s'.holder = s.holder ∧ s'.cnt = s.cnt ∧
      s'.depth = s.depth := by
  have hh : ¬ ident t = s.holder := by
    intro e
    rcases h with h | h
    · have := ((invR_reach h).hold t).1 e.symm
      rw [hin] at this; simp [claim, hd] at this
    · have := (invN_reach h).cond t
      rw [hin] at this
      simp only [claimN, hd] at this
      have := this.2.1 e.symm
      omega
  unfold step at hs
  rw [hin] at hs
  dsimp only at hs
  rw [if_neg hh] at hs
  cases hs
  simp [upd]

/-- C25: a wait by a holder does reach `pthread_cond_wait`. -/
theorem wait_by_holder {s s' : St} (h : Reach true s ∨ ReachDisciplined false s) {t : Tid} {c : Call}
    (hin : s.pc t = .wTest) (hd : 0 < s.depth t) (hs : step s t c = some s') : InWait s' t := by
  have hh : ident t = s.holder := by
    rcases h with h | h
    · exact (((invR_reach h).hold t).2 (by rw [hin]; simpa [claim] using hd)).symm
    · have := (invN_reach h).cond t
      rw [hin] at this
      simp only [claimN] at this
      exact (this.2.2 hd).symm
  unfold step at hs
  rw [hin] at hs
  dsimp only at hs
  rw [if_pos hh] at hs
  cases hs
  simp [upd, InWait, InLock, InUnlock]

/-! ### Concrete executions -/

/-- Thread 0 locks a recursive mutex twice and waits. -/
def twiceAndWait : List (Tid × Call) :=
  (List.replicate 6 (0, Call.lock)) ++ [(0, .lock), (0, .lock), (0, .lock), (0, .lock), (0, .lock)] ++
    List.replicate 7 (0, Call.wait)

/-- It is then waiting with depth 2 and the mutex is free. -/
example : ∃ s, Reach true s ∧ Waiting s 0 ∧ s.depth 0 = 2 ∧ s.owner = none :=
  ⟨(run (init true) twiceAndWait).get (by decide), reach_run .start twiceAndWait (Option.some_get _).symm,
    ⟨1, 2, by decide⟩, by decide, by decide⟩

/-- Thread 1 then locks and unlocks, and thread 0 returns holding it twice. -/
example : ∃ s, Reach true s ∧ Inside s 0 ∧ s.depth 0 = 2 ∧ s.cnt = 2 ∧ s.res 1 = true :=
  ⟨(run (init true) (twiceAndWait ++ List.replicate 6 (1, .lock) ++ List.replicate 7 (1, .unlock) ++
      List.replicate 3 (0, .wait))).get (by decide),
    reach_run .start _ (Option.some_get _).symm, ⟨by decide, by decide⟩, by decide, by decide, by decide⟩

/-- Thread 1's unlock of a recursive mutex held by thread 0 fails. -/
example : ∃ s, Reach true s ∧ InUnlock s 1 ∧ s.depth 1 = 0 ∧ Inside s 0 :=
  ⟨(run (init true) (List.replicate 6 (0, Call.lock) ++ [(1, .unlock)])).get (by decide),
    reach_run .start _ (Option.some_get _).symm, .inl (by decide), by decide, ⟨by decide, by decide⟩⟩

/-- A disciplined execution of a plain mutex in which thread 0 is inside. -/
example : ∃ s, ReachDisciplined false s ∧ Inside s 0 := by
  refine ⟨(run (init false) (List.replicate 4 (0, Call.lock))).get (by decide), ?_, ⟨by decide, by decide⟩⟩
  exact .step 0 .lock (.step 0 .lock (.step 0 .lock (.step 0 .lock .start (by decide) rfl) (by decide) rfl)
    (by decide) rfl) (by decide) rfl

end Verif.Mutex.Props
