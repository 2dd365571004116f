import Verif.Thread.Spec
/-!
# C31: the life cycle of threads
-/
namespace Verif.Thread.Props
open Verif.Thread Verif.Thread.Spec

/-- While running, the handle is that of the newest thread, which is
joinable; all others are finished. -/
structure Inv (s : St) : Prop where
  noub : s.ub = false
  run : s.running = true → s.alive = true → ∃ l, s.native = l ++ [.joinable] ∧ s.tid = l.length + 1 ∧
    .joinable ∉ l
  stop : s.running = false → .joinable ∉ s.native

theorem inv_init (f : Bool) : Inv (init f) := by constructor <;> simp [init]

theorem finish_ok {s : St} (h : Inv s) (hr : s.running = true) (ha : s.alive = true) (how : Native) (ok : Bool) :
    finish s how ok = if ok then ({ s with native := s.native.dropLast ++ [how] }, true) else (s, false) := by
  obtain ⟨l, h1, h2, _⟩ := h.run hr ha
  unfold finish
  rw [h2]
  dsimp only
  rw [h1, if_pos (by simp)]
  simp

theorem inv_call {s s' : St} {c : Call} {ok b : Bool} (h : Inv s) (hs : call s c ok = some (s', b)) :
    Inv s' := by
  unfold call at hs
  split at hs
  · rename_i ha
    cases c with
    | start =>
      simp only [Option.some.injEq] at hs
      unfold start at hs
      split at hs
      · cases hs; exact h
      · split at hs
        · cases hs; exact h
        · rename_i hnr
          have hstop := h.stop (by simpa using hnr)
          cases ok <;> simp [create] at hs
          · obtain ⟨rfl, rfl⟩ := hs
            exact ⟨h.noub, by simp, fun _ => hstop⟩
          · obtain ⟨rfl, rfl⟩ := hs
            exact ⟨h.noub, fun _ _ => ⟨s.native, rfl, rfl, hstop⟩, by simp⟩
    | join =>
      simp only [Option.some.injEq] at hs
      unfold join at hs
      split at hs
      · cases hs; exact h
      · rename_i hr
        have hr : s.running = true := by simpa using hr
        rw [finish_ok h hr ha] at hs
        cases ok <;> simp at hs
        · obtain ⟨rfl, rfl⟩ := hs; exact h
        · obtain ⟨rfl, rfl⟩ := hs
          obtain ⟨l, h1, h2, h3⟩ := h.run hr ha
          exact ⟨h.noub, by simp, fun _ => by simp [h1, h3]⟩
    | detach =>
      simp only [Option.some.injEq] at hs
      unfold detach at hs
      split at hs
      · cases hs; exact h
      · rename_i hr
        have hr : s.running = true := by simpa using hr
        rw [finish_ok h hr ha] at hs
        cases ok <;> simp at hs
        · obtain ⟨rfl, rfl⟩ := hs; exact h
        · obtain ⟨rfl, rfl⟩ := hs
          obtain ⟨l, h1, h2, h3⟩ := h.run hr ha
          exact ⟨h.noub, by simp, fun _ => by simp [h1, h3]⟩
    | destroy =>
      simp only [Option.some.injEq] at hs
      unfold destroy at hs
      cases hs
      split
      · rename_i hr
        unfold detach
        rw [hr, finish_ok h hr ha]
        cases ok
        · exact ⟨h.noub, by simp, by simp [hr]⟩
        · obtain ⟨l, h1, h2, h3⟩ := h.run hr ha
          refine ⟨h.noub, by simp, fun _ => by simp [h1, h3]⟩
      · rename_i hr
        exact ⟨h.noub, by simp, h.stop⟩
  · cases hs

theorem inv_run {f : Bool} {h : Hist} {s : St} (hr : Run f h s) : Inv s := by
  induction hr with
  | nil => exact inv_init f
  | snoc c ok _ hs ih => exact inv_call ih hs

theorem finish_hasF (s : St) (how : Native) (ok : Bool) : (finish s how ok).1.hasF = s.hasF := by
  unfold finish
  split
  · rfl
  · split
    · split <;> rfl
    · rfl

theorem detach_hasF (s : St) (ok : Bool) : (detach s ok).1.hasF = s.hasF := by
  unfold detach
  split
  · rfl
  · have := finish_hasF s .detached ok
    split <;> rename_i h <;> rw [h] at this <;> exact this

theorem call_hasF {s s' : St} {c : Call} {ok b : Bool} (hs : call s c ok = some (s', b)) :
    s'.hasF = s.hasF := by
  unfold call at hs
  split at hs
  · simp only [Option.some.injEq] at hs
    have e : s' = (s', b).1 := rfl
    rw [e, ← hs]
    cases c with
    | start =>
      dsimp only
      unfold start
      split
      · rfl
      · split
        · rfl
        · cases ok <;> rfl
    | join =>
      dsimp only
      unfold join
      split
      · rfl
      · have := finish_hasF s .joined ok
        split <;> rename_i h <;> rw [h] at this <;> exact this
    | detach => exact detach_hasF s ok
    | destroy =>
      dsimp only [destroy]
      split
      · exact detach_hasF s ok
      · rfl
  · cases hs

theorem hasF_const {f : Bool} {h : Hist} {s : St} (hr : Run f h s) : s.hasF = f := by
  induction hr with
  | nil => rfl
  | snoc c ok _ hs ih => rw [call_hasF hs, ih]

/-- C31: whatever the history of calls and whatever the system answers, no
join, detach or destructor is issued on a dead or invalid handle. -/
theorem thread_no_ub {f : Bool} {h : Hist} {s : St} (hr : Run f h s) : s.ub = false := (inv_run hr).noub

/-- C31: `start` succeeds exactly when the object is not running — given a
non-empty function and a system that can create threads. -/
theorem start_iff {f : Bool} {h : Hist} {s s' : St} {b ok : Bool} (hr : Run f h s)
    (hs : call s .start ok = some (s', b)) : b = (f && !s.running && ok) := by
  have hf := hasF_const hr
  unfold call at hs
  split at hs
  · simp only [Option.some.injEq] at hs
    unfold start at hs
    rw [hf] at hs
    cases f
    · cases hs; rfl
    · cases hrun : s.running
      · rw [hrun] at hs
        cases ok <;> simp [create] at hs <;> simp [← hs.2]
      · rw [hrun] at hs
        cases hs; rfl
  · cases hs

/-- C31: `join` succeeds exactly when the object is running and the native
join succeeds, and then it is no longer running. -/
theorem join_iff {f : Bool} {h : Hist} {s s' : St} {b ok : Bool} (hr : Run f h s)
    (hs : call s .join ok = some (s', b)) :
    b = (s.running && ok) ∧ s'.running = (s.running && !b) := by
  have inv := inv_run hr
  unfold call at hs
  split at hs
  · rename_i ha
    simp only [Option.some.injEq] at hs
    unfold join at hs
    cases hrun : s.running
    · rw [hrun] at hs; cases hs; simp [hrun]
    · rw [finish_ok inv hrun ha, hrun] at hs
      cases ok <;> simp at hs <;> obtain ⟨rfl, rfl⟩ := hs <;> simp [hrun]
  · cases hs

/-- C31: the same for `detach`. -/
theorem detach_iff {f : Bool} {h : Hist} {s s' : St} {b ok : Bool} (hr : Run f h s)
    (hs : call s .detach ok = some (s', b)) :
    b = (s.running && ok) ∧ s'.running = (s.running && !b) := by
  have inv := inv_run hr
  unfold call at hs
  split at hs
  · rename_i ha
    simp only [Option.some.injEq] at hs
    unfold detach at hs
    cases hrun : s.running
    · rw [hrun] at hs; cases hs; simp [hrun]
    · rw [finish_ok inv hrun ha, hrun] at hs
      cases ok <;> simp at hs <;> obtain ⟨rfl, rfl⟩ := hs <;> simp [hrun]
  · cases hs

/-- C31: as long as the object lives, the successful starts and the
successful joins and detaches alternate: the object is running exactly when
there is one more start. -/
theorem start_join_alternate {f : Bool} {h : Hist} {s : St} (hr : Run f h s) (ha : s.alive = true) :
    starts h = ends h + (if s.running then 1 else 0) := by
  induction hr with
  | nil => rfl
  | @snoc h s s' b c ok hr hs ih =>
    have hal : s.alive = true := by
      unfold call at hs
      split at hs
      · assumption
      · cases hs
    have ih := ih hal
    cases c with
    | start =>
      have hb := start_iff hr hs
      have hrun' : s'.running = (s.running || b) := by
        unfold call at hs
        rw [if_pos hal] at hs
        simp only [Option.some.injEq] at hs
        unfold start at hs
        split at hs
        · cases hs; simp
        · split at hs
          · rename_i hrun; cases hs; simp [hrun]
          · rename_i hrun
            have hrun : s.running = false := by simpa using hrun
            cases ok <;> simp [create] at hs <;> obtain ⟨rfl, rfl⟩ := hs <;> simp [hrun]
      rw [hrun']
      simp only [starts, ends, List.filter_append, List.length_append] at ih ⊢
      rw [ih]
      cases hrun : s.running <;> cases hbb : b <;> simp_all
    | join =>
      obtain ⟨h1, h2⟩ := join_iff hr hs
      rw [h2]
      simp only [starts, ends, List.filter_append, List.length_append] at ih ⊢
      rw [ih]
      cases hrun : s.running <;> cases hbb : b <;> simp_all
    | detach =>
      obtain ⟨h1, h2⟩ := detach_iff hr hs
      rw [h2]
      simp only [starts, ends, List.filter_append, List.length_append] at ih ⊢
      rw [ih]
      cases hrun : s.running <;> cases hbb : b <;> simp_all
    | destroy =>
      unfold call at hs
      rw [if_pos hal] at hs
      simp only [Option.some.injEq] at hs
      unfold destroy at hs
      cases hs
      simp at ha

/-- C31: no native thread is leaked: once the object is destroyed, or is not
running, every native thread it created has been joined or detached (unless
the system refused the detach in the destructor). -/
theorem no_leak {f : Bool} {h : Hist} {s : St} (hr : Run f h s) (hn : s.running = false) :
    .joinable ∉ s.native := (inv_run hr).stop hn

/-- The destructor detaches a running thread. -/
theorem destroy_detaches {f : Bool} {h : Hist} {s s' : St} {b : Bool} (hr : Run f h s)
    (hs : call s .destroy true = some (s', b)) : s'.running = false ∧ .joinable ∉ s'.native := by
  have h1 := inv_call (inv_run hr) hs
  have inv := inv_run hr
  suffices s'.running = false from ⟨this, h1.stop this⟩
  unfold call at hs
  split at hs
  · rename_i ha
    simp only [Option.some.injEq] at hs
    unfold destroy at hs
    cases hs
    dsimp only
    split
    · rename_i hrun; unfold detach; rw [hrun, finish_ok inv hrun ha]; rfl
    · rename_i hrun; simpa using hrun
  · cases hs

/-- Start, join, start again, a second start refused, destroy. -/
example : ∃ s, Run true [(.start, true, true), (.join, true, true), (.start, true, true), (.start, true, false),
    (.destroy, true, true)] s ∧ s.native = [.joined, .detached] ∧ s.ub = false :=
  ⟨_, .snoc .destroy true (.snoc .start true (.snoc .start true (.snoc .join true (.snoc .start true .nil rfl)
    rfl) rfl) rfl) rfl, rfl, rfl⟩

end Verif.Thread.Props
