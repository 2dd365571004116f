import Verif.CsvIter.Lemmas
/-! # Iterators over CSV: the theorems -/
namespace Verif.CsvIter.Props
open Verif.CsvIter Verif.CsvIter.Spec Verif.CsvIter.Lemmas

/-- A text with three rows: `a,b`, `c`, `d,e,f`. -/
def three : Str := [97, 44, 98, 10, 99, 10, 100, 44, 101, 44, 102, 10]

/-- The loop `for (csv_iterator it(c), q; it != q; ++it) use(*it);`, begun
whenever, sees exactly the rows that `parse_csv` would return for the rest of
the text. -/
theorem loop_rows {s : State} {rs : List (List Str)} (h : Csv.parseFrom s.P = some rs) :
    ∃ s', step s .make = some s' ∧ ∀ rs', Loop s.iters.length s' rs' ↔ rs' = rs := by
  have main : ∀ (rs : List (List Str)) (s : State) (n : Nat) (it : Iter), s.iter n = some it → it.p = true → Csv.parseFrom s.P = some rs →
      ∃ s', inc s n = some s' ∧ ∀ rs', Loop n s' rs' ↔ rs' = rs := by
    intro rs
    induction rs with
    | nil =>
      intro s n it hit hp h
      rw [Csv.parseFrom] at h
      split at h
      · cases h
      · rename_i P hP
        refine ⟨_, by unfold inc; rw [hit]; simp only [hp, next, hP]; rfl, ?_⟩
        have hi := iter_set_self (s := { s with P := P, hasNext := false }) (some { it with cached := false, p := false }) (iter_lt hit)
        have he : IsEnd { s with P := P, hasNext := false, iters := s.iters.set n (some { it with cached := false, p := false }) } n :=
          ⟨_, hi, rfl⟩
        intro rs'
        constructor
        · intro hl
          cases hl with
          | stop => rfl
          | row h1 => exact absurd he h1
        · rintro rfl
          exact .stop he
      · split at h
        · cases h
        · split at h <;> cases h
    | cons r rs ih =>
      intro s n it hit hp h
      rw [Csv.parseFrom] at h
      split at h
      · cases h
      · cases h
      · rename_i P hP
        split at h
        · cases h
        · rename_i r' hr
          split at h
          · cases h
          · rename_i rs'' hrs
            cases h
            have hi := iter_set_self (s := { s with P := P, hasNext := true }) (some { it with cached := false, p := true }) (iter_lt hit)
            obtain ⟨s2, h2, hl2⟩ := ih { s with P := P, hasNext := true, iters := s.iters.set n (some { it with cached := false, p := true }) } n _ hi rfl hrs
            refine ⟨_, by unfold inc; rw [hit]; simp only [hp, next, hP]; rfl, ?_⟩
            have hne : ¬ IsEnd { s with P := P, hasNext := true, iters := s.iters.set n (some { it with cached := false, p := true }) } n := by
              rintro ⟨i, h1, h3⟩
              rw [hi] at h1
              cases h1
              cases h3
            have hd : deref { s with P := P, hasNext := true, iters := s.iters.set n (some { it with cached := false, p := true }) } n = .row r := by
              unfold deref
              rw [hi]
              simp [hr]
            have ha : arrow { s with P := P, hasNext := true, iters := s.iters.set n (some { it with cached := false, p := true }) } n = .row r := by
              unfold arrow
              rw [hi]
              simp [hr]
            intro rs'
            constructor
            · intro hl
              cases hl with
              | stop h1 => exact absurd h1 hne
              | row _ g1 _ g3 g4 =>
                rw [hd] at g1
                cases g1
                have g3 : inc _ n = some _ := g3
                rw [h2] at g3
                cases g3
                rw [(hl2 _).1 g4]
            · rintro rfl
              exact .row hne hd ha h2 ((hl2 _).2 rfl)
  exact main rs (push s ⟨true, false, [], [], 0⟩) s.iters.length _ (iter_push_new _ _) rfl h

example : Csv.parseFrom (start three).P = some [[[97], [98]], [[99]], [[100], [101], [102]]] := by decide +kernel

/-- The loop `while (c.next()) use(c.get());` sees the same rows. -/
theorem while_rows {s : State} {rs : List (List Str)} (h : Csv.parseFrom s.P = some rs) : ∀ rs', While s rs' ↔ rs' = rs := by
  induction rs generalizing s with
  | nil =>
    rw [Csv.parseFrom] at h
    split at h
    · cases h
    · rename_i P hP
      have hs : step s .next = some { s with P := P, hasNext := false } := by simp only [step, next, hP]
      intro rs'
      constructor
      · intro hl
        cases hl with
        | stop => rfl
        | row h1 h2 => rw [hs] at h1; cases h1; cases h2
      · rintro rfl
        exact .stop hs rfl
    · split at h
      · cases h
      · split at h <;> cases h
  | cons r rs ih =>
    rw [Csv.parseFrom] at h
    split at h
    · cases h
    · cases h
    · rename_i P hP
      split at h
      · cases h
      · rename_i r' hr
        split at h
        · cases h
        · rename_i rs'' hrs
          cases h
          have hs : step s .next = some { s with P := P, hasNext := true } := by simp only [step, next, hP]
          have hl2 := ih (s := { s with P := P, hasNext := true }) hrs
          intro rs'
          constructor
          · intro hl
            cases hl with
            | stop h1 h2 => rw [hs] at h1; cases h1; cases h2
            | row h1 h2 h3 h4 =>
              rw [hs] at h1
              cases h1
              rw [hr] at h3
              cases h3
              rw [(hl2 _).1 h4]
          · rintro rfl
            exact .row hs rfl hr ((hl2 _).2 rfl)

example : While (start [97, 10]) [[[97]]] := (while_rows (by decide +kernel) _).2 rfl

/-- A parser at its end does not say so before `next` has failed: a loop that
tests `end` instead sees one row too many, an empty one. -/
theorem end_late : ∃ s, run (start three) [.next, .next, .next] = some s ∧ s.P.p = [] ∧ atEnd s = false ∧
    ∃ s', run s [.next] = some s' ∧ Csv.row s'.P = some [] ∧ atEnd s' = true := by
  refine ⟨(run (start three) [.next, .next, .next]).get (by decide +kernel), by simp, by decide +kernel, by decide +kernel,
    (run ((run (start three) [.next, .next, .next]).get (by decide +kernel)) [.next]).get (by decide +kernel), by simp, by decide +kernel, by decide +kernel⟩

/-- A copy keeps the row that was the current one when it was made, whatever is
done with the parser and all other iterators. -/
theorem copy_keeps {t : Str} {os os' : List Op} {s s₁ s₂ : State} {m : Nat} {it : Iter} (h : run (start t) os = some s)
    (hm : s.iter m = some it) (hp : it.p = true) (hc : step s (.copy m) = some s₁) (h₂ : run s₁ os' = some s₂)
    (ho : ∀ o ∈ os', ¬ Touches s.iters.length o) :
    ∃ r, Csv.row s.P = some r ∧ deref s₂ s.iters.length = .row r ∧ arrow s₂ s.iters.length = .row r ∧
      (it.cached = false → deref s m = .row r) := by
  obtain ⟨r, hr⟩ := readable_run (s := start t) ⟨[], rfl⟩ h
  have hc : copy s m = some s₁ := hc
  obtain ⟨it', hm', rfl⟩ := copy_eq hc
  rw [hm] at hm'
  cases hm'
  rw [if_pos hp] at h₂
  have hlen : s.iters.length < (push s (copyOf s)).iters.length := by simp [push]
  have he := run_other h₂ ho hlen
  rw [iter_push_new] at he
  obtain ⟨d1, d2⟩ := deref_copy he hr
  refine ⟨r, hr, d1, d2, ?_⟩
  intro hca
  unfold deref
  rw [hm]
  simp [hca, hp, hr]

/-- `*it++` is the row before the increment, if the compiler returns the object itself. -/
theorem post_increment {t : Str} {os os' : List Op} {s s₁ s₂ : State} {m : Nat} (h : run (start t) os = some s)
    (hc : step s (.postInc true m) = some s₁) (h₂ : run s₁ os' = some s₂) (ho : ∀ o ∈ os', ¬ Touches s.iters.length o) :
    ∃ r, Csv.row s.P = some r ∧ deref s₂ s.iters.length = .row r := by
  obtain ⟨r, hr⟩ := readable_run (s := start t) ⟨[], rfl⟩ h
  obtain ⟨s1, s2, h1, h2, h3, _⟩ := postInc_eq hc
  have := h3 rfl
  subst this
  obtain ⟨it, hm, e1⟩ := copy_eq h1
  obtain ⟨it', b, P, hi', hp', hn, e2⟩ := inc_eq h2
  have hlt := iter_lt hm
  rw [e1, iter_push_old _ hlt, hm] at hi'
  cases hi'
  rw [if_pos hp'] at e1
  have hlen : s.iters.length < s1.iters.length := by rw [e1]; simp [push]
  obtain ⟨g1, g2⟩ := inc_other h2 (m := s.iters.length) (by omega)
  have he := run_other h₂ ho (by omega)
  rw [g1, e1, iter_push_new] at he
  exact ⟨r, hr, (deref_copy he hr).1⟩

example : (run (start three) [.make, .postInc true 0]).map (fun s => (deref s 0, deref s 1)) = some (.row [[99]], .row [[97], [98]]) := by decide +kernel

/-- If the compiler returns a copy, `*it++` is the row after the increment. -/
theorem post_increment_copied :
    (run (start three) [.make, .postInc false 0]).map (fun s => (deref s 0, deref s 2)) = some (.row [[99]], .row [[99]]) := by decide +kernel

/-- Without assignments no program reads memory that is gone: every iterator
yields a row, or throws if it is at the end. -/
theorem no_dangling {t : Str} {os : List Op} {s : State} (ho : ∀ o ∈ os, NoAssign o) (h : run (start t) os = some s) {n : Nat} {it : Iter}
    (hn : s.iter n = some it) : deref s n ≠ .ub := by
  have hi := inv_run (inv_start t) ho h
  unfold deref
  rw [hn]
  dsimp only
  split
  · rename_i hc
    obtain ⟨r, hr⟩ : ∃ r, it.cur.mapM (readPtr s) = some r := by
      refine mapM_some (fun q hq => ?_)
      obtain ⟨h1, h2, x, h3⟩ := hi.own n it hn hc q hq
      refine ⟨x, ?_⟩
      unfold readPtr
      rw [h1, hn]
      dsimp only
      rw [if_pos h2.symm]
      exact h3
    rw [hr]
    intro hc; cases hc
  · split
    · intro hc; cases hc
    · obtain ⟨r, hr⟩ := hi.readable
      rw [hr]
      intro hc; cases hc

example : (run (start three) [.make, .copy 0, .inc 0, .copy 0, .destroy 0, .inc 1]).map (fun s => (deref s 1, deref s 2)) =
    some (.row [[100], [101], [102]], .row [[99]]) := by decide +kernel

/-- Assignment copies the pointers of a copy: once the source is destroyed the target dangles. -/
theorem assign_dangles : ∃ s it, run (start three) [.make, .makeEnd, .copy 0, .assign 1 2, .destroy 2] = some s ∧ s.iter 1 = some it ∧ it.p = true ∧
    deref s 1 = .ub := by
  refine ⟨(run (start three) [.make, .makeEnd, .copy 0, .assign 1 2, .destroy 2]).get (by decide +kernel),
    ((run (start three) [.make, .makeEnd, .copy 0, .assign 1 2, .destroy 2]).get (by decide +kernel)).iter 1 |>.get (by decide +kernel), by simp, by simp, by decide +kernel, by decide +kernel⟩

/-- An iterator assigned from one that was not made by copying reads the parser, and never dangles. -/
theorem assign_plain {s s' : State} {n m : Nat} {b : Iter} (hm : s.iter m = some b) (hc : b.cached = false) (h : step s (.assign n m) = some s') :
    deref s' n = deref s m := by
  have h : assign s n m = some s' := h
  unfold assign at h
  split at h
  · rename_i a b' ha hb
    rw [hm] at hb
    cases hb
    split at h
    · rename_i e; cases h; rw [e]
    · cases h
      unfold deref
      rw [iter_set_self _ (iter_lt ha), hm]
      simp [hc]
  · cases h

example : ∃ s s' b, run (start three) [.make, .makeEnd] = some s ∧ s.iter 0 = some b ∧ b.cached = false ∧ step s (.assign 1 0) = some s' ∧
    deref s' 1 = .row [[97], [98]] := by
  refine ⟨(run (start three) [.make, .makeEnd]).get (by decide +kernel),
    (step ((run (start three) [.make, .makeEnd]).get (by decide +kernel)) (.assign 1 0)).get (by decide +kernel),
    (((run (start three) [.make, .makeEnd]).get (by decide +kernel)).iter 0).get (by decide +kernel), by simp, by simp, by decide +kernel, by simp, by decide +kernel⟩

/-- A copy of a copy holds another row than the copy, once the parser has moved. -/
theorem copy_of_copy :
    (run (start three) [.make, .copy 0, .inc 0, .copy 1]).map (fun s => (deref s 1, deref s 2)) = some (.row [[97], [98]], .row [[99]]) := by decide +kernel

/-- All iterators over a parser move together: incrementing one changes what
every other one that is no copy sees, and both then see the same row. -/
theorem move_together {s s' : State} {n m : Nat} {b : Iter} (hm : s.iter m = some b) (hb : b.cached = false)
    (hp : b.p = true) (h : step s (.inc n) = some s') (he : ¬ IsEnd s' n) : deref s' m = deref s' n := by
  have h : inc s n = some s' := h
  obtain ⟨it, c, P, hit, _, _, e⟩ := inc_eq h
  have hn' : s'.iter n = some { it with cached := false, p := c } := by
    rw [e]; exact iter_set_self (s := { s with P := P, hasNext := c }) _ (iter_lt hit)
  have hc : c = true := by
    cases c with
    | true => rfl
    | false => exact absurd ⟨_, hn', rfl⟩ he
  by_cases hmn : m = n
  · rw [hmn]
  · have hm' := (inc_other h hmn).1
    rw [hm] at hm'
    unfold deref
    rw [hm', hn']
    simp [hb, hp, hc]

example : (run (start three) [.make, .make, .inc 1]).map (fun s => (deref s 0, deref s 1)) =
    some (.row [[100], [101], [102]], .row [[100], [101], [102]]) := by decide +kernel

/-- When one iterator has come to the end, another one has not noticed: it is not equal to the end, and yields an empty row. -/
theorem end_unnoticed : ∃ s, run (start three) [.make, .make, .inc 0, .inc 0] = some s ∧ IsEnd s 0 ∧ ¬ IsEnd s 1 ∧ deref s 1 = .row [] := by
  refine ⟨(run (start three) [.make, .make, .inc 0, .inc 0]).get (by decide +kernel), by simp,
    ⟨(((run (start three) [.make, .make, .inc 0, .inc 0]).get (by decide +kernel)).iter 0).get (by decide +kernel), by simp, by decide +kernel⟩, ?_, by decide +kernel⟩
  rintro ⟨it, h1, h2⟩
  have : ((run (start three) [.make, .make, .inc 0, .inc 0]).get (by decide +kernel)).iter 1 |>.all (fun it => it.p) := by decide +kernel
  rw [h1] at this
  unfold eq at h2
  simp at this h2
  simp [this] at h2

/-- Iterators are equal only at the end: one that is not there is not equal to itself. -/
theorem equal_iff (s : State) (n m : Nat) (a b : Iter) (hn : s.iter n = some a) (hm : s.iter m = some b) :
    eq a b = true ↔ IsEnd s n ∧ IsEnd s m := by
  unfold IsEnd
  rw [hn, hm]
  simp only [Option.some.injEq, exists_eq_left']
  unfold eq
  cases a.p <;> cases b.p <;> simp

/-- At the end `*it` throws an exception, and `it->` is a null pointer. -/
theorem at_end {t : Str} {os : List Op} {s : State} (h : run (start t) os = some s) {n : Nat} (he : IsEnd s n) :
    deref s n = .throws ∧ arrow s n = .ub := by
  obtain ⟨it, h1, h2⟩ := he
  have hp : it.p = false := by
    unfold eq at h2
    simpa using h2
  have hc := plain_run (s := start t) (fun n it hn => by simp [start, State.iter] at hn) h n it h1 hp
  unfold deref arrow
  rw [h1]
  simp [hc, hp]

example : ∃ s, run (start []) [.make] = some s ∧ IsEnd s 0 := ⟨_, rfl, _, rfl, rfl⟩

/-- Incrementing an iterator at the end is undefined. -/
theorem inc_end {s : State} {n : Nat} (h : IsEnd s n) : step s (.inc n) = none := by
  obtain ⟨it, h1, h2⟩ := h
  have hp : it.p = false := by
    unfold eq at h2
    simpa using h2
  simp only [step, inc, h1, hp, if_true]

example : IsEnd (makeEnd (start three)) 0 := ⟨_, rfl, rfl⟩

/-- Before the first `next`, a parser is not at its end, not even over an empty text. -/
theorem not_at_end (t : Str) : atEnd (start t) = false := rfl

end Verif.CsvIter.Props
