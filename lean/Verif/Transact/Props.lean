import Verif.Transact.Lemmas
/-!
# Transactions: what the code guarantees

C69: a `transaction` block takes effect as a whole or not at all. On PostgreSQL this is so wherever the connection is lost (`pg_all_or_nothing`), if the
body lets the exceptions through. On MySQL it is so only while the connection stands (`my_all_or_nothing_partial`): the theorems `my_…` at the end
are the ways in which it fails.
-/
namespace Verif.Transact.Props
open Verif.Transact Verif.Transact.Spec Verif.Transact.Lemmas

variable {δ α ρ : Type}

/-- **A transaction on PostgreSQL is all or nothing**, wherever calls are refused and connections lost: a block that ends normally has done all its
statements, one that ends with an exception all or none of them, and if the program is terminated none are done. -/
theorem pg_all_or_nothing (e : Engine δ α ρ) (net : Nat → Fate) (qs : List (String × α)) (hq : Plain qs) (s : Pg.Conn δ) (hs : s.tx = .idle) :
    match Pg.transact e net (through qs) false s with
    | (.done, s') => allOf e qs s.db = some s'.db ∧ s'.tx = .idle
    | (.thrown, s') => s'.db = s.db ∨ allOf e qs s.db = some s'.db
    | (.terminated, s') => s'.db = s.db := by
  unfold Pg.transact transaction
  have hb := begin_spec (e := e) (net := net) s hs
  cases hb' : Pg.begin_ e net s with
  | mk b s₁ =>
    rw [hb'] at hb
    cases b with
    | false => exact .inl hb.1
    | true =>
      obtain ⟨ht, hg⟩ := hb.2 rfl
      have hb1 : s₁.db = s.db := hb.1
      have hy := body_spec (e := e) (net := net) qs hq s₁ s.db ht hg
      dsimp only
      cases hy' : bodyOf (Pg.run e net) (through qs) s₁ with
      | mk b s₂ =>
        rw [hy'] at hy
        obtain ⟨y1, y2, y3⟩ := hy
        dsimp only at y1 y2 y3
        cases b with
        | false =>
          have hr := rollback_spec (e := e) (net := net) s₂ y2
          dsimp only
          cases hr' : Pg.rollback e net s₂ with
          | mk b s₃ =>
            rw [hr'] at hr
            have hr1 : s₃.db = s₂.db := hr.1
            cases b with
            | false => exact hr1.trans (y1.trans hb1)
            | true => exact .inl (hr1.trans (y1.trans hb1))
        | true =>
          obtain ⟨d', z1, z2, z3⟩ := y3 rfl
          have hc := commit_spec (e := e) (net := net) s₂ d' z2 z3
          dsimp only
          rw [if_neg (by decide)]
          cases hc' : Pg.commit e net s₂ with
          | mk b s₃ =>
            rw [hc'] at hc
            obtain ⟨c1, c2⟩ := hc
            dsimp only at c1 c2
            cases b with
            | false =>
              rcases c2 with h | h
              · exact .inl (h.trans (y1.trans hb1))
              · exact .inr (by rw [h]; exact z1)
            | true => exact ⟨by rw [(c1 rfl).1]; exact z1, (c1 rfl).2⟩

/-- So if a statement has an error, nothing is done. -/
theorem pg_error_undoes (e : Engine δ α ρ) (net : Nat → Fate) (qs : List (String × α)) (hq : Plain qs) (s : Pg.Conn δ) (hs : s.tx = .idle)
    (h : allOf e qs s.db = none) : (Pg.transact e net (through qs) false s).2.db = s.db ∧ (Pg.transact e net (through qs) false s).1 ≠ .done := by
  have := pg_all_or_nothing e net qs hq s hs
  cases ht : Pg.transact e net (through qs) false s with
  | mk o s' =>
    rw [ht] at this
    cases o with
    | done => rw [h] at this; cases this.1
    | thrown =>
      rcases this with h' | h'
      · exact ⟨h', fun e => by cases e⟩
      · rw [h] at h'; cases h'
    | terminated => exact ⟨this, fun e => by cases e⟩

/-- Without trouble on the way and without an error, all is done. -/
theorem pg_commits (e : Engine δ α ρ) (net : Nat → Fate) (hn : ∀ n, net n = .fine) (qs : List (String × α)) (hq : Plain qs) (s : Pg.Conn δ)
    (hs : s.tx = .idle) (hg : s.good = true) (d : δ) (h : allOf e qs s.db = some d) :
    (Pg.transact e net (through qs) false s).1 = .done ∧ (Pg.transact e net (through qs) false s).2.db = d := by
  unfold Pg.transact transaction Pg.begin_ Pg.commit
  obtain ⟨k, hk⟩ := fine_run (e := e) hn ("BEGIN", e.noArgs) s hg (by rw [hs]; intro h; cases h) (.inl control_begin)
  rw [hk]
  simp only [Pg.serverExec, if_true, hs, Option.isSome_some]
  obtain ⟨s', h1, h2, h3, h4⟩ := fine_body (e := e) hn qs hq { s with tx := .active s.db, prepared := some "BEGIN", calls := k } s.db d rfl hg h
  rw [h1]
  obtain ⟨k', hk'⟩ := fine_run (e := e) hn ("COMMIT", e.noArgs) s' h3 (by rw [h2]; intro h; cases h) (.inl control_commit)
  simp [hk', Pg.serverExec, h2]

/-- A block in a destructor that runs because of an exception does nothing, whatever it reports. -/
theorem pg_unwinding_discards (e : Engine δ α ρ) (net : Nat → Fate) (qs : List (String × α)) (hq : Plain qs) (s : Pg.Conn δ) (hs : s.tx = .idle) :
    (Pg.transact e net (through qs) true s).2.db = s.db := by
  unfold Pg.transact transaction
  have hb := begin_spec (e := e) (net := net) s hs
  cases hb' : Pg.begin_ e net s with
  | mk b s₁ =>
    rw [hb'] at hb
    cases b with
    | false => exact hb.1
    | true =>
      obtain ⟨ht, hg⟩ := hb.2 rfl
      have hy := body_spec (e := e) (net := net) qs hq s₁ s.db ht hg
      dsimp only
      cases hy' : bodyOf (Pg.run e net) (through qs) s₁ with
      | mk b s₂ =>
        rw [hy'] at hy
        have hr := rollback_spec (e := e) (net := net) s₂ hy.2.1
        cases b <;> dsimp only <;> (try rw [if_pos rfl]) <;> cases hr' : Pg.rollback e net s₂ with
        | mk b s₃ => rw [hr'] at hr; cases b <;> exact hr.1.trans (hy.1.trans hb.1)

/-- **A statement outside a transaction is done once, or, with an exception, once or not at all** (PostgreSQL). -/
theorem pg_runs_once (e : Engine δ α ρ) (net : Nat → Fate) (q : String × α) (hq : control q.1 = false) (s : Pg.Conn δ) (hs : s.tx = .idle) :
    match Pg.run e net q s with
    | (true, s') => allOf e [q] s.db = some s'.db ∧ s'.tx = .idle
    | (false, s') => (s'.db = s.db ∨ allOf e [q] s.db = some s'.db) ∧ s'.tx = .idle := by
  have h := run_idle (e := e) (net := net) q hq s hs
  cases hr : Pg.run e net q s with
  | mk b s' =>
    rw [hr] at h
    obtain ⟨h1, h2, h3⟩ := h
    dsimp only at h1 h2 h3
    have hx : ∀ d' r, e.parses q.1 = true → e.run s.db q.1 q.2 = some (d', r) → allOf e [q] s.db = some d' := by
      intro d' r hp he; simp [allOf, hp, he]
    cases b with
    | true => obtain ⟨r, hp, he⟩ := h2 rfl; exact ⟨hx _ r hp he, h1⟩
    | false => exact ⟨h3.imp id (fun ⟨r, hp, he⟩ => hx _ r hp he), h1⟩

/-- **A statement outside a transaction is done once, or, with an exception, once or not at all** (MySQL, where `run` tries again), and `run` is defined
whatever has happened to the connection. -/
theorem my_runs_once (e : Engine δ α ρ) (net : Nat → Fate) (q : String × α) (hq : control q.1 = false) (s : My.Conn δ) (hs : s.tx = none) :
    match My.run e net q s with
    | (.ok (), s') => allOf e [q] s.db = some s'.db ∧ s'.tx = none
    | (.error x, s') => x ≠ .ub ∧ (s'.db = s.db ∨ allOf e [q] s.db = some s'.db) ∧ s'.tx = none := by
  have h := my_run (e := e) (net := net) q hq s hs
  cases hr : My.run e net q s with
  | mk r s' =>
    rw [hr] at h
    obtain ⟨h1, h2, h3, h4⟩ := h
    dsimp only at h1 h2 h3 h4
    have hx : ∀ d' r, e.parses q.1 = true → e.run s.db q.1 q.2 = some (d', r) → allOf e [q] s.db = some d' := by
      intro d' r hp he; simp [allOf, hp, he]
    cases r with
    | ok u => obtain ⟨r, hp, he⟩ := h3 rfl; exact ⟨hx _ r hp he, h1⟩
    | error x => exact ⟨fun h => h2 (by rw [h]), h4.imp id (fun ⟨r, hp, he⟩ => hx _ r hp he), h1⟩

/-- **A transaction on MySQL is all or nothing while no call is refused and the connection is not lost**: it does all statements, or, if one of them has
an error, ends with an exception and does nothing. Missing: the connection may be lost, and `BEGIN` and `COMMIT` refused; see below. -/
theorem my_all_or_nothing_partial (e : Engine δ α ρ) (net : Nat → Fate) (hn : ∀ n, net n = .fine) (qs : List (String × α)) (hq : Plain qs) (s : My.Conn δ)
    (hs : s.tx = none) :
    match allOf e qs s.db with
    | some d => (My.transact e net (through qs) false s).1 = .done ∧ (My.transact e net (through qs) false s).2.db = d ∧
        (My.transact e net (through qs) false s).2.tx = none
    | none => (My.transact e net (through qs) false s).1 = .thrown ∧ (My.transact e net (through qs) false s).2.db = s.db ∧
        (My.transact e net (through qs) false s).2.tx = none := by
  unfold My.transact transaction
  obtain ⟨k, hk⟩ := my_fine_query (e := e) hn "BEGIN" s (.inl hs)
  rw [hk]
  simp only [My.serverExec, if_true, hs, Option.getD_none]
  obtain ⟨s', h1, h2, h3, h4, h5⟩ := my_fine_body (e := e) hn qs hq { s with tx := some s.db, up := true, handle := true, calls := k } rfl rfl s.db rfl
  rw [h1]
  cases ha : allOf e qs s.db with
  | some d =>
    obtain ⟨k', hk'⟩ := my_fine_query (e := e) hn "COMMIT" s' (.inr ⟨h3, h4⟩)
    have := h5 d ha
    simp [hk', My.serverExec, this]
  | none =>
    obtain ⟨k', hk'⟩ := my_fine_query (e := e) hn "ROLLBACK" s' (.inr ⟨h3, h4⟩)
    simpa [hk', My.serverExec] using h2

/-! ## Where it fails, and cases that meet the hypotheses

The data is a list of numbers, "add" puts a number in front of it, and "oops" is an error. -/

/-- A server for the examples. -/
def demo : Engine (List Nat) Nat Unit where
  parses q := q = "add" || q = "oops"
  run d q a := if q = "add" then some (a :: d, none) else none
  noArgs := 0

/-- The calls go well but for those that are given. -/
def but (l : List (Nat × Fate)) (n : Nat) : Fate := (l.lookup n).getD .fine

/-- Two numbers are added. -/
theorem pg_commits_example : allOf demo [("add", 1), ("add", 2)] [] = some [2, 1] ∧ Plain [("add", 1), ("add", 2)] ∧
    (Pg.transact demo (but []) (through [("add", 1), ("add", 2)]) false ⟨[], .idle, none, true, 0⟩).1 = .done ∧
    (Pg.transact demo (but []) (through [("add", 1), ("add", 2)]) false ⟨[], .idle, none, true, 0⟩).2.db = [2, 1] := by
  refine ⟨by decide, by unfold Plain; decide, by decide, by decide⟩

/-- The connection is lost behind the first of two statements, and comes back: an exception, and nothing is done. -/
theorem pg_lost_example : (Pg.transact demo (but [(4, .lostBefore)]) (through [("add", 1), ("add", 2)]) false ⟨[], .idle, none, true, 0⟩).1 = .thrown ∧
    (Pg.transact demo (but [(4, .lostBefore)]) (through [("add", 1), ("add", 2)]) false ⟨[], .idle, none, true, 0⟩).2.db = [] := by
  refine ⟨by decide, by decide⟩

/-- The answer to `COMMIT` is lost: an exception, although all is done. -/
theorem pg_lost_answer : (Pg.transact demo (but [(7, .lostAfter)]) (through [("add", 1), ("add", 2)]) false ⟨[], .idle, none, true, 0⟩).1 = .thrown ∧
    (Pg.transact demo (but [(7, .lostAfter)]) (through [("add", 1), ("add", 2)]) false ⟨[], .idle, none, true, 0⟩).2.db = [2, 1] := by
  refine ⟨by decide, by decide⟩

/-- If the body catches the exception of a statement, the block ends normally, and nothing is done: the server takes `COMMIT` for `ROLLBACK` then, and
the code does not look at its answer. -/
theorem pg_caught_error_lost : (Pg.transact demo (but []) [(("add", 1), false), (("oops", 0), true)] false ⟨[], .idle, none, true, 0⟩).1 = .done ∧
    (Pg.transact demo (but []) [(("add", 1), false), (("oops", 0), true)] false ⟨[], .idle, none, true, 0⟩).2.db = [] := by
  refine ⟨by decide, by decide⟩

/-- If the body catches the exception of a lost connection, what follows is done without the rest. -/
theorem pg_caught_loss_splits :
    (Pg.transact demo (but [(4, .lostBefore)]) [(("add", 1), false), (("add", 2), true), (("add", 3), false)] false ⟨[], .idle, none, true, 0⟩).1 = .done ∧
    (Pg.transact demo (but [(4, .lostBefore)]) [(("add", 1), false), (("add", 2), true), (("add", 3), false)] false ⟨[], .idle, none, true, 0⟩).2.db = [3] := by
  refine ⟨by decide, by decide⟩

/-- If the connection is lost in the body and does not come back, the program ends: `rollback` throws while the exception is being thrown. -/
theorem pg_lost_terminates : (Pg.transact demo (but [(4, .lostBefore), (5, .lostBefore)]) (through [("add", 1), ("add", 2)]) false
    ⟨[], .idle, none, true, 0⟩).1 = .terminated := by
  decide

/-- In a destructor that runs because of an exception, the block reports success and has done nothing. -/
theorem pg_unwinding_done : (Pg.transact demo (but []) (through [("add", 1)]) true ⟨[], .idle, none, true, 0⟩).1 = .done ∧
    (Pg.transact demo (but []) (through [("add", 1)]) true ⟨[], .idle, none, true, 0⟩).2.db = [] := by
  refine ⟨by decide, by decide⟩

/-- MySQL: if the connection is lost before the second statement, the block ends normally, the first statement is not done, and the second is. -/
theorem my_loss_splits : (My.transact demo (but [(3, .lostBefore)]) (through [("add", 1), ("add", 2)]) false ⟨[], none, true, true, 0⟩).1 = .done ∧
    (My.transact demo (but [(3, .lostBefore)]) (through [("add", 1), ("add", 2)]) false ⟨[], none, true, true, 0⟩).2.db = [2] := by
  refine ⟨by decide, by decide⟩

/-- MySQL: if the connection is lost before `COMMIT`, the block ends normally, and nothing is done. -/
theorem my_commit_lost : (My.transact demo (but [(5, .lostBefore)]) (through [("add", 1), ("add", 2)]) false ⟨[], none, true, true, 0⟩).1 = .done ∧
    (My.transact demo (but [(5, .lostBefore)]) (through [("add", 1), ("add", 2)]) false ⟨[], none, true, true, 0⟩).2.db = [] := by
  refine ⟨by decide, by decide⟩

/-- MySQL: if `COMMIT` is refused, the block ends normally, and nothing is done. -/
theorem my_commit_refused : (My.transact demo (but [(5, .refused)]) (through [("add", 1), ("add", 2)]) false ⟨[], none, true, true, 0⟩).1 = .done ∧
    (My.transact demo (but [(5, .refused)]) (through [("add", 1), ("add", 2)]) false ⟨[], none, true, true, 0⟩).2.db = [] := by
  refine ⟨by decide, by decide⟩

/-- MySQL: if `BEGIN` is refused, a block that ends with an exception has done the statements before. -/
theorem my_begin_refused : (My.transact demo (but [(0, .refused)]) (through [("add", 1), ("oops", 2)]) false ⟨[], none, true, true, 0⟩).1 = .thrown ∧
    (My.transact demo (but [(0, .refused)]) (through [("add", 1), ("oops", 2)]) false ⟨[], none, true, true, 0⟩).2.db = [1] := by
  refine ⟨by decide, by decide⟩

/-- MySQL: if a connection is lost and does not come back, `run` throws, and `prepare` on the same connection is then undefined behaviour. -/
theorem my_prepare_undefined :
    (My.run demo (but [(0, .lostBefore), (1, .refused), (2, .refused)]) ("add", 1) ⟨[], none, true, true, 0⟩).1 = .error .lost ∧
    (My.prepareStatement demo (but []) "add" (My.run demo (but [(0, .lostBefore), (1, .refused), (2, .refused)]) ("add", 1) ⟨[], none, true, true, 0⟩).2).1 =
      .error .ub := by
  refine ⟨rfl, rfl⟩

/-- `pg_all_or_nothing`, `pg_error_undoes`, `pg_unwinding_discards` and the two `runs_once`: there are such connections and statements. -/
example : Plain [("add", 1), ("oops", 2)] ∧ allOf demo [("add", 1), ("oops", 2)] [] = none ∧ control "add" = false ∧
    (⟨[], .idle, none, true, 0⟩ : Pg.Conn (List Nat)).tx = .idle := by
  refine ⟨by unfold Plain; decide, by decide, by decide, rfl⟩

/-- The statements that begin and end transactions are these three. -/
theorem control_words (q : String) : control q = true ↔ q ∈ ["BEGIN", "COMMIT", "ROLLBACK"] := by
  simp [control, or_assoc]

end Verif.Transact.Props
