import Verif.RwMutex.Spec
/-!
# C30: reader-writer locks
-/
namespace Verif.RwMutex.Props
open Verif.RwMutex Verif.RwMutex.Spec

theorem lockOf_mem {h : List (Tid × Mode)} {t : Tid} {x : Tid × Mode} (e : lockOf h t = some x) :
    x ∈ h ∧ x.1 = t := by
  unfold lockOf at e
  have h1 := List.mem_of_find?_eq_some e
  have h2 := List.find?_some e
  exact ⟨h1, by simpa using h2⟩

theorem exclusive_native {h h' : List (Tid × Mode)} {t : Tid} {m : Mode} {err r : Int}
    (he : Exclusive h) (hn : native h t m err = some (h', r)) : Exclusive h' := by
  unfold native at hn
  split at hn
  · split at hn
    · rename_i hg
      cases hn
      cases m with
      | read =>
        left
        intro x hx
        rcases List.mem_cons.1 hx with rfl | hx
        · rfl
        · simpa using (List.all_eq_true.1 hg x hx)
      | write =>
        right
        have : h = [] := by simpa [grantable] using hg
        exact ⟨t, by rw [this]⟩
    · cases hn
  · cases hn; exact he

theorem exclusive_erase {h : List (Tid × Mode)} (x : Tid × Mode) (he : Exclusive h) :
    Exclusive (h.erase x) := by
  rcases he with he | ⟨t, rfl⟩
  · exact .inl fun y hy => he y (List.mem_of_mem_erase hy)
  · by_cases hx : x = (t, .write)
    · subst hx; left; simp
    · right; exact ⟨t, List.erase_of_not_mem (by simpa using hx)⟩

/-- C30: the native lock never has a reader together with a writer, nor two
writers, whatever is called. -/
theorem rw_exclusive {ok : Call → Prop} {v : Bool} {s : St} (h : Reach ok v s) : Exclusive s.holders := by
  induction h with
  | start => left; simp [init]
  | step t c err _ _ _ hs ih =>
    unfold call at hs
    split at hs
    · split at hs
      · split at hs
        · rename_i hn; cases hs; exact exclusive_native ih hn
        · cases hs
      · split at hs
        · cases hs; exact exclusive_erase _ ih
        · cases hs; exact ih
    · cases hs; exact ih

/-- C30: every locking call except `read_lock(sec)` with `sec < 1e-9` returns
true exactly when it acquired the lock, and otherwise leaves the lock alone. -/
theorem rw_result_partial {s s' : St} {t : Tid} {c : Call} {m : Mode} {err : Int} {b : Bool}
    (hc : NotTinyRead c) (hm : Asks c m) (hs : call s t c err = some (s', b)) :
    (b = true → s'.holders = (t, m) :: s.holders ∧ grantable s.holders m = true) ∧
    (b = false → s'.holders = s.holders) := by
  have hm : mode c = some m := by rcases hm with rfl | ⟨tiny, rfl⟩ <;> rfl
  unfold call at hs
  split at hs
  · rw [hm] at hs
    dsimp only at hs
    split at hs
    · rename_i h r hn
      cases hs
      have hw : wrap c r = decide (r = 0) := by
        unfold wrap
        split
        · exact absurd rfl hc
        · rfl
      rw [hw]
      unfold native at hn
      split at hn
      · split at hn
        · rename_i hg; cases hn; simp [hg]
        · cases hn
      · rename_i he; cases hn; simp [he]
    · cases hs
  · cases hs; simp

/-- C30: with those calls only, threads have exactly the locks they were told
they have, these exclude each other, and no thread unlocks what it does not
have. Missing for the full property: `read_lock(sec)` with `sec < 1e-9`, for
which it is false (`rw_truthful_fails`). -/
theorem rw_truthful_partial {v : Bool} {s : St} (h : Reach NotTinyRead v s) :
    s.told = s.holders ∧ Exclusive s.told ∧ s.ub = false := by
  have key : s.told = s.holders ∧ s.ub = false := by
    induction h with
    | start => exact ⟨rfl, rfl⟩
    | @step s s' b t c err _ hok hu hs ih =>
      cases hm : mode c with
      | some m =>
        have hr := rw_result_partial (m := m) hok (by cases c <;> simp_all [mode, Asks]) hs
        unfold call at hs
        split at hs
        · rw [hm] at hs
          dsimp only at hs
          split at hs
          · rename_i h r hn
            cases hs
            refine ⟨?_, ih.2⟩
            dsimp only at hr ⊢
            cases hw : wrap c r with
            | true => simp only [if_true]; rw [(hr.1 hw).1, ih.1]
            | false => simp only [Bool.false_eq_true, if_false]; rw [hr.2 hw, ih.1]
          · cases hs
        · cases hs; exact ih
      | none =>
        have hc : c = .unlock := by cases c <;> simp_all [mode]
        obtain ⟨m, hmem⟩ := hu hc
        unfold call at hs
        split at hs
        · rw [hm] at hs
          dsimp only at hs
          split at hs
          · cases hs; dsimp only; rw [ih.1]; exact ⟨rfl, ih.2⟩
          · rename_i hn
            rw [ih.1] at hmem
            unfold lockOf at hn
            have := List.find?_eq_none.1 hn (t, m) hmem
            simp at this
        · cases hs; exact ih
  exact ⟨key.1, by rw [key.1]; exact rw_exclusive h, key.2⟩

/-- C30: an unlock gives up one of the caller's own locks. -/
theorem rw_unlock_own {s s' : St} {t : Tid} {err : Int} {b : Bool} (hv : s.valid = true)
    {m : Mode} (hm : (t, m) ∈ s.holders) (hs : call s t .unlock err = some (s', b)) :
    b = true ∧ ∃ x ∈ s.holders, x.1 = t ∧ s'.holders = s.holders.erase x := by
  unfold call at hs
  rw [if_pos hv] at hs
  dsimp only [mode] at hs
  split at hs
  · rename_i x hx
    cases hs
    obtain ⟨h1, h2⟩ := lockOf_mem hx
    exact ⟨rfl, x, h1, h2, rfl⟩
  · rename_i hn
    have := List.find?_eq_none.1 hn (t, m) hm
    simp at this

/-- C30: a lock that can be granted can be acquired. -/
theorem rw_can_acquire {s : St} {t : Tid} {c : Call} {m : Mode} (hv : s.valid = true)
    (hm : Asks c m) (hg : grantable s.holders m = true) : (call s t c 0).isSome := by
  have hm : mode c = some m := by rcases hm with rfl | ⟨tiny, rfl⟩ <;> rfl
  unfold call
  rw [if_pos hv, hm]
  simp [native, hg]

/-- An object whose initialisation failed never grants anything. -/
theorem rw_invalid {ok : Call → Prop} {s : St} (h : Reach ok false s) : s = init false := by
  induction h with
  | start => rfl
  | step t c err _ _ _ hs ih =>
    subst ih
    unfold call at hs
    simp [init] at hs
    exact hs.1.symm

/-- C30, what the code does: a `read_lock(sec)` with `sec < 1e-9` returns
true exactly when it did not get the lock. -/
theorem tiny_read_inverted {s s' : St} {t : Tid} {err : Int} {b : Bool} (hv : s.valid = true)
    (hs : call s t (.lockFor .read true) err = some (s', b)) :
    (b = true → s'.holders = s.holders) ∧ (b = false → s'.holders = (t, .read) :: s.holders) := by
  unfold call at hs
  rw [if_pos hv] at hs
  simp only [mode] at hs
  split at hs
  · rename_i h r hn
    cases hs
    unfold native at hn
    split at hn
    · split at hn
      · cases hn; simp [wrap]
      · cases hn
    · rename_i he; cases hn; simp [wrap, he]
  · cases hs

/-- Thread 0 has the write lock and thread 1 is told that it has a read
lock. -/
theorem rw_truthful_fails : ¬ Truthful := by
  intro h
  have h1 : Reach (fun _ => True) true ⟨true, [(0, .write)], [(0, .write)], false⟩ :=
    .step 0 (.lock .write) 0 .start trivial (by simp) (b := true) (by decide)
  have h2 : Reach (fun _ => True) true ⟨true, [(0, .write)], [(1, .read), (0, .write)], false⟩ :=
    .step 1 (.lockFor .read true) 16 h1 trivial (by simp) (b := true) (by decide)
  have := (h _ h2).1
  revert this
  decide

/-- Its unlock is then undefined. -/
theorem tiny_read_then_unlock_is_undefined : ∃ s, Reach (fun _ => True) true s ∧ s.ub = true := by
  have h1 : Reach (fun _ => True) true ⟨true, [(0, .write)], [(0, .write)], false⟩ :=
    .step 0 (.lock .write) 0 .start trivial (by simp) (b := true) (by decide)
  have h2 : Reach (fun _ => True) true ⟨true, [(0, .write)], [(1, .read), (0, .write)], false⟩ :=
    .step 1 (.lockFor .read true) 16 h1 trivial (by simp) (b := true) (by decide)
  have h3 : Reach (fun _ => True) true ⟨true, [(0, .write)], [(1, .read), (0, .write)], true⟩ :=
    .step 1 .unlock 0 h2 trivial (fun _ => ⟨.read, by decide⟩) (b := false) (by decide)
  exact ⟨_, h3, rfl⟩

/-- Two readers at the same time. -/
example : ∃ s, Reach NotTinyRead true s ∧ s.told = [(1, .read), (0, .read)] := by
  have h1 : Reach NotTinyRead true ⟨true, [(0, .read)], [(0, .read)], false⟩ :=
    .step 0 (.lock .read) 0 .start (by simp [NotTinyRead]) (by simp) (b := true) (by decide)
  have h2 : Reach NotTinyRead true ⟨true, [(1, .read), (0, .read)], [(1, .read), (0, .read)], false⟩ :=
    .step 1 (.lockFor .read false) 0 h1 (by simp [NotTinyRead]) (by simp) (b := true) (by decide)
  exact ⟨_, h2, rfl⟩

end Verif.RwMutex.Props
