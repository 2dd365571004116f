import Verif.Transact.Spec
/-! Helper lemmas on transactions. -/

namespace Verif.Transact.Lemmas
open Verif.Transact Verif.Transact.Spec

section Pg
open Verif.Transact.Pg
variable {δ α ρ : Type} {e : Engine δ α ρ} {net : Nat → Fate}

theorem get_spec (s : Conn δ) (h : s.good = false → s.tx = .idle) : (get net s).2.db = s.db ∧ (get net s).2.tx = s.tx ∧
    ((get net s).1 = true → (get net s).2.good = true) ∧ ((get net s).1 = false → (get net s).2.good = false) := by
  unfold Pg.get
  cases hg : s.good with
  | true => simp [hg]
  | false => simp only [Bool.false_eq_true, if_false]; rw [h hg]; cases net s.calls <;> simp_all

theorem get_good (s : Conn δ) (h : s.good = true) : get net s = (true, s) := by unfold Pg.get; rw [if_pos h]

theorem prepare_db (q : String) (s : Conn δ) : (prepare e net q s).2.db = s.db := by
  unfold prepare Conn.fail Conn.drop
  split
  · rfl
  · dsimp only
    repeat' split
    all_goals rfl

theorem prepare_good (q : String) (s : Conn δ) (h : (prepare e net q s).1 = true) :
    (prepare e net q s).2.good = true ∧ (prepare e net q s).2.tx = s.tx ∧ (prepare e net q s).2.prepared = some q ∧
    (control q = false → e.parses q = true) := by
  unfold prepare at h ⊢
  split at h
  · simp at h
  · rename_i hg
    rw [if_neg hg]
    have hg : s.good = true := by simpa using hg
    dsimp only at h ⊢
    cases hf : net s.calls with
    | refused => simp [hf] at h
    | lostBefore => simp [hf] at h
    | lostAfter => simp [hf] at h
    | fine =>
      rw [hf] at h
      dsimp only at h ⊢
      cases ht : s.tx with
      | failed =>
        rw [ht] at h
        dsimp only at h ⊢
        split at h
        · rename_i hq
          rw [if_pos hq]
          refine ⟨hg, rfl, rfl, ?_⟩
          rcases hq with rfl | rfl <;> simp [control]
        · simp at h
      | idle =>
        rw [ht] at h
        dsimp only at h ⊢
        split at h
        · rename_i hq
          rw [if_pos hq]
          refine ⟨hg, rfl, rfl, ?_⟩
          intro hc; simpa [hc] using hq
        · simp at h
      | active d =>
        rw [ht] at h
        dsimp only at h ⊢
        split at h
        · rename_i hq
          rw [if_pos hq]
          refine ⟨hg, rfl, rfl, ?_⟩
          intro hc; simpa [hc] using hq
        · simp at h

/-- After preparing without success there is no transaction, or one with an error behind it, or it is as before. -/
theorem prepare_inv (q : String) (s : Conn δ) (h : s.good = false → s.tx = .idle) :
    ((prepare e net q s).2.good = false → (prepare e net q s).2.tx = .idle) ∧
    ((prepare e net q s).1 = false → ∀ d, (prepare e net q s).2.tx ≠ .active d) := by
  unfold prepare Conn.fail Conn.drop
  split
  · rename_i hg; exact ⟨h, fun _ d e => by rw [h hg] at e; cases e⟩
  · rename_i hg
    dsimp only
    cases net s.calls <;> dsimp only <;> cases ht : s.tx <;> (repeat' split) <;> simp_all

theorem control_begin : control "BEGIN" = true := by decide
theorem control_commit : control "COMMIT" = true := by decide
theorem control_rollback : control "ROLLBACK" = true := by decide

theorem exec_inv (a : α) (s : Conn δ) (h : s.good = false → s.tx = .idle) :
    (exec e net a s).2.good = false → (exec e net a s).2.tx = .idle := by
  unfold exec serverExec Conn.fail Conn.drop
  split
  · exact h
  · dsimp only
    repeat' split
    all_goals simp_all

/-- Preparing and executing. -/
theorem run_cases (q : String × α) (s : Conn δ) (hi : s.good = false → s.tx = .idle) :
    (run e net q s).1 = false ∧ (run e net q s).2.db = s.db ∧ (∀ d, (run e net q s).2.tx ≠ .active d) ∧
      ((run e net q s).2.good = false → (run e net q s).2.tx = .idle) ∨
    ∃ s₁ : Conn δ, s₁.db = s.db ∧ s₁.tx = s.tx ∧ s₁.good = true ∧ s₁.prepared = some q.1 ∧ (control q.1 = false → e.parses q.1 = true) ∧
      run e net q s = ((exec e net q.2 s₁).1.isSome, (exec e net q.2 s₁).2) := by
  have hg := get_spec (net := net) s hi
  unfold run prepareStatement
  cases h : get net s with
  | mk b s₀ =>
    rw [h] at hg
    cases b with
    | false =>
      left
      refine ⟨rfl, hg.1, ?_, ?_⟩
      · intro d e
        have hsg : s.good = false := by
          cases hsg : s.good with
          | false => rfl
          | true => rw [get_good s hsg] at h; cases h
        have := hg.2.1
        rw [hi hsg] at this
        dsimp only at e this
        rw [this] at e; cases e
      · intro _
        have hsg : s.good = false := by
          cases hsg : s.good with
          | false => rfl
          | true => rw [get_good s hsg] at h; cases h
        exact hg.2.1.trans (hi hsg)
    | true =>
      dsimp only
      have hgood : s₀.good = true := hg.2.2.1 rfl
      have hp := prepare_db (e := e) (net := net) q.1 s₀
      have hpi := prepare_inv (e := e) (net := net) q.1 s₀ (fun hf => by rw [hgood] at hf; cases hf)
      have hpg := prepare_good (e := e) (net := net) q.1 s₀
      cases hpr : prepare e net q.1 s₀ with
      | mk b s₁ =>
        rw [hpr] at hp hpi hpg
        cases b with
        | false => left; exact ⟨rfl, hp.trans hg.1, hpi.2 rfl, hpi.1⟩
        | true =>
          right
          have hpg := hpg rfl
          refine ⟨s₁, hp.trans hg.1, hpg.2.1.trans hg.2.1, hpg.1, hpg.2.2.1, hpg.2.2.2, ?_⟩
          dsimp only
          unfold executeStatement
          rw [get_good s₁ hpg.1]
          dsimp only
          cases exec e net q.2 s₁ with
          | mk r s₂ => cases r <;> rfl

theorem control_split (q : String) (h : control q = false) : q ≠ "BEGIN" ∧ q ≠ "COMMIT" ∧ q ≠ "ROLLBACK" := by
  simpa [control, and_assoc] using h

theorem run_inv (q : String × α) (s : Conn δ) (hi : s.good = false → s.tx = .idle) :
    (run e net q s).2.good = false → (run e net q s).2.tx = .idle := by
  rcases run_cases (e := e) (net := net) q s hi with h | ⟨s₁, h1, h2, h3, h4, h5, h6⟩
  · exact h.2.2.2
  · rw [h6]; exact exec_inv _ _ (fun hf => by rw [h3] at hf; cases hf)

/-- A statement in a transaction. -/
theorem run_active (q : String × α) (hq : control q.1 = false) (s : Conn δ) (d : δ) (hs : s.tx = .active d) (hg : s.good = true) :
    (run e net q s).2.db = s.db ∧
    ((run e net q s).1 = true → ∃ d' r, e.parses q.1 = true ∧ e.run d q.1 q.2 = some (d', r) ∧ (run e net q s).2.tx = .active d' ∧ (run e net q s).2.good = true) := by
  obtain ⟨c1, c2, c3⟩ := control_split _ hq
  rcases run_cases (e := e) (net := net) q s (fun hf => by rw [hg] at hf; cases hf) with h | ⟨s₁, h1, h2, h3, h4, h5, h6⟩
  · exact ⟨h.2.1, fun ht => by rw [h.1] at ht; cases ht⟩
  · rw [h6, ← h1]
    unfold exec serverExec Conn.fail Conn.drop
    simp only [h3, h4, h2, hs, Bool.true_eq_false, if_false]
    cases net s₁.calls <;> dsimp only
    · cases he : e.run d q.1 q.2 with
      | none => simp [c1, c2, c3]
      | some p => obtain ⟨d', r⟩ := p; simp [h5 hq, c1, c2, c3]
    · simp [c2]
    · simp
    · cases he : e.run d q.1 q.2 with
      | none => simp [c1, c2, c3]
      | some p => simp [c1, c2, c3]

theorem rollback_spec (s : Conn δ) (hi : s.good = false → s.tx = .idle) :
    (rollback e net s).2.db = s.db ∧ ((rollback e net s).1 = true → (rollback e net s).2.tx = .idle) := by
  unfold rollback
  rcases run_cases (e := e) (net := net) ("ROLLBACK", e.noArgs) s hi with h | ⟨s₁, h1, h2, h3, h4, h5, h6⟩
  · exact ⟨h.2.1, fun ht => by rw [h.1] at ht; cases ht⟩
  · rw [h6, ← h1]
    unfold exec serverExec Conn.fail Conn.drop
    simp only [h3, h4, Bool.true_eq_false, if_false]
    cases net s₁.calls <;> dsimp only <;> simp
    split <;> rfl

theorem commit_spec (s : Conn δ) (d : δ) (hs : s.tx = .active d) (hg : s.good = true) :
    ((commit e net s).1 = true → (commit e net s).2.db = d ∧ (commit e net s).2.tx = .idle) ∧
    ((commit e net s).2.db = s.db ∨ (commit e net s).2.db = d) := by
  unfold commit
  rcases run_cases (e := e) (net := net) ("COMMIT", e.noArgs) s (fun hf => by rw [hg] at hf; cases hf) with h | ⟨s₁, h1, h2, h3, h4, h5, h6⟩
  · exact ⟨(fun ht => by rw [h.1] at ht; cases ht), .inl h.2.1⟩
  · rw [h6, ← h1]
    unfold exec serverExec Conn.fail Conn.drop
    simp only [h3, h4, h2, hs, Bool.true_eq_false, if_false]
    cases net s₁.calls <;> dsimp only <;> simp

theorem begin_spec (s : Conn δ) (hs : s.tx = .idle) :
    (begin_ e net s).2.db = s.db ∧ ((begin_ e net s).1 = true → (begin_ e net s).2.tx = .active s.db ∧ (begin_ e net s).2.good = true) := by
  unfold begin_
  rcases run_cases (e := e) (net := net) ("BEGIN", e.noArgs) s (fun _ => hs) with h | ⟨s₁, h1, h2, h3, h4, h5, h6⟩
  · exact ⟨h.2.1, fun ht => by rw [h.1] at ht; cases ht⟩
  · rw [h6, ← h1]
    unfold exec serverExec Conn.fail Conn.drop
    simp only [h3, h4, h2, hs, Bool.true_eq_false, if_false]
    cases net s₁.calls <;> simp

theorem bodyOf_through {σ : Type} (f : String × α → σ → Bool × σ) (q : String × α) (qs : List (String × α)) (s : σ) :
    bodyOf f (through (q :: qs)) s = match f q s with | (true, s) => bodyOf f (through qs) s | (false, s) => (false, s) := by
  rw [through, List.map_cons, bodyOf]
  cases f q s with
  | mk b s => cases b <;> rfl

theorem body_spec (qs : List (String × α)) (hq : Plain qs) (s : Conn δ) (d : δ) (hs : s.tx = .active d) (hg : s.good = true) :
    (bodyOf (run e net) (through qs) s).2.db = s.db ∧
    ((bodyOf (run e net) (through qs) s).2.good = false → (bodyOf (run e net) (through qs) s).2.tx = .idle) ∧
    ((bodyOf (run e net) (through qs) s).1 = true → ∃ d', allOf e qs d = some d' ∧ (bodyOf (run e net) (through qs) s).2.tx = .active d' ∧
      (bodyOf (run e net) (through qs) s).2.good = true) := by
  induction qs generalizing s d with
  | nil => exact ⟨rfl, fun hf => (by rw [show (bodyOf (run e net) (through []) s).2 = s from rfl, hg] at hf; cases hf), fun _ => ⟨d, rfl, hs, hg⟩⟩
  | cons q qs ih =>
    have h := run_active (e := e) (net := net) q (hq q (by simp)) s d hs hg
    have hinv := run_inv (e := e) (net := net) q s (fun hf => by rw [hg] at hf; cases hf)
    rw [bodyOf_through]
    cases hr : run e net q s with
    | mk b s₁ =>
      rw [hr] at h hinv
      cases b with
      | false => exact ⟨h.1, hinv, fun hf => by cases hf⟩
      | true =>
        obtain ⟨d', r, hp, he, ht, hg'⟩ := h.2 rfl
        have := ih (fun x hx => hq x (by simp [hx])) s₁ d' ht hg'
        refine ⟨this.1.trans h.1, this.2.1, fun hb => ?_⟩
        obtain ⟨d'', h1, h2⟩ := this.2.2 hb
        refine ⟨d'', ?_, h2⟩
        simp only [allOf, hp, if_true, he]
        exact h1

theorem prepare_idle (q : String) (s : Conn δ) (hs : s.tx = .idle) : (prepare e net q s).2.tx = .idle := by
  unfold prepare Conn.fail Conn.drop
  split
  · exact hs
  · dsimp only
    rw [hs]
    cases net s.calls <;> dsimp only
    split <;> rfl

theorem exec_idle (a : α) (s : Conn δ) (hs : s.tx = .idle) (h : ∀ q, s.prepared = some q → control q = false) : (exec e net a s).2.tx = .idle := by
  unfold exec
  split
  · exact hs
  · cases hp : s.prepared with
    | none => dsimp only; cases net s.calls <;> simp [Conn.fail, Conn.drop, hs]
    | some q =>
      obtain ⟨c1, c2, c3⟩ := control_split _ (h q hp)
      dsimp only
      cases net s.calls <;> simp only [serverExec, c1, c2, c3, if_false, hs, Conn.fail, Conn.drop]
      split <;> rfl

theorem run_bad_idle (q : String × α) (s : Conn δ) (hs : s.tx = .idle) (_h : (run e net q s).1 = false) (hq : control q.1 = false) :
    (run e net q s).2.tx = .idle := by
  have hg := get_spec (net := net) s (fun _ => hs)
  unfold run prepareStatement
  cases h : Pg.get net s with
  | mk b s₀ =>
    rw [h] at hg
    have h0 : s₀.tx = .idle := hg.2.1.trans hs
    cases b with
    | false => exact h0
    | true =>
      dsimp only
      have hp := prepare_idle (e := e) (net := net) q.1 s₀ h0
      have hpg := prepare_good (e := e) (net := net) q.1 s₀
      cases hpr : prepare e net q.1 s₀ with
      | mk b s₁ =>
        rw [hpr] at hp hpg
        cases b with
        | false => exact hp
        | true =>
          have hpg := hpg rfl
          dsimp only
          unfold executeStatement
          rw [get_good s₁ hpg.1]
          dsimp only
          have := exec_idle (e := e) (net := net) q.2 s₁ hp (fun x hx => by
            have := hpg.2.2.1.symm.trans hx
            rw [← Option.some.inj this]; exact hq)
          cases hx : exec e net q.2 s₁ with
          | mk r s₂ => rw [hx] at this; cases r <;> exact this

/-- A statement outside a transaction. -/
theorem run_idle (q : String × α) (hq : control q.1 = false) (s : Conn δ) (hs : s.tx = .idle) :
    (run e net q s).2.tx = .idle ∧
    ((run e net q s).1 = true → ∃ r, e.parses q.1 = true ∧ e.run s.db q.1 q.2 = some ((run e net q s).2.db, r)) ∧
    ((run e net q s).2.db = s.db ∨ ∃ r, e.parses q.1 = true ∧ e.run s.db q.1 q.2 = some ((run e net q s).2.db, r)) := by
  obtain ⟨c1, c2, c3⟩ := control_split _ hq
  rcases run_cases (e := e) (net := net) q s (fun _ => hs) with h | ⟨s₁, h1, h2, h3, h4, h5, h6⟩
  · refine ⟨?_, (fun ht => by rw [h.1] at ht; cases ht), .inl h.2.1⟩
    have hb := run_bad_idle (e := e) (net := net) q s hs h.1
    exact hb hq
  · rw [h6, ← h1]
    unfold exec serverExec Conn.fail Conn.drop
    simp only [h3, h4, h2, hs, Bool.true_eq_false, if_false]
    cases net s₁.calls <;> dsimp only
    · cases he : e.run s₁.db q.1 q.2 with
      | none => simp [c1, c2, c3]
      | some p => obtain ⟨d', r⟩ := p; simp [c1, c2, c3, h5 hq]
    · simp [c2]
    · simp
    · cases he : e.run s₁.db q.1 q.2 with
      | none => simp [c1, c2, c3]
      | some p => obtain ⟨d', r⟩ := p; simp [c1, c2, c3, h5 hq]

/-! Without trouble on the way. -/

theorem fine_run (hn : ∀ n, net n = .fine) (q : String × α) (s : Conn δ) (hg : s.good = true) (hf : s.tx ≠ .failed) :
    (control q.1 = true ∨ e.parses q.1 = true) → ∃ k, run e net q s =
      (((serverExec e q.1 q.2 { s with prepared := some q.1, calls := k }).1).isSome, (serverExec e q.1 q.2 { s with prepared := some q.1, calls := k }).2) := by
  intro hq
  refine ⟨s.calls + 1 + 1, ?_⟩
  have hp : prepare e net q.1 s = (true, { s with prepared := some q.1, calls := s.calls + 1 }) := by
    unfold prepare
    rw [if_neg (by rw [hg]; decide)]
    simp only [hn]
    cases ht : s.tx with
    | failed => exact absurd ht hf
    | idle => rw [if_pos hq]
    | active d => rw [if_pos hq]
  unfold run prepareStatement
  rw [get_good s hg]
  dsimp only
  rw [hp]
  dsimp only
  unfold executeStatement
  rw [get_good { s with prepared := some q.1, calls := s.calls + 1 } hg]
  dsimp only
  have hx : exec e net q.2 { s with prepared := some q.1, calls := s.calls + 1 } =
      serverExec e q.1 q.2 { s with prepared := some q.1, calls := s.calls + 1 + 1 } := by
    unfold exec
    rw [if_neg (by rw [hg]; decide)]
    simp only [hn]
  rw [hx]
  cases serverExec e q.1 q.2 { s with prepared := some q.1, calls := s.calls + 1 + 1 } with
  | mk r s' => cases r <;> rfl

theorem fine_body (hn : ∀ n, net n = .fine) (qs : List (String × α)) (hq : Plain qs) (s : Conn δ) (d d' : δ) (hs : s.tx = .active d) (hg : s.good = true)
    (h : allOf e qs d = some d') : ∃ s', bodyOf (run e net) (through qs) s = (true, s') ∧ s'.tx = .active d' ∧ s'.good = true ∧ s'.db = s.db := by
  induction qs generalizing s d with
  | nil => cases h; exact ⟨s, rfl, hs, hg, rfl⟩
  | cons q qs ih =>
    obtain ⟨c1, c2, c3⟩ := control_split _ (hq q (by simp))
    simp only [allOf] at h
    cases hp : e.parses q.1 with
    | false => simp [hp] at h
    | true =>
      rw [hp, if_pos rfl] at h
      cases hr : e.run d q.1 q.2 with
      | none => simp [hr] at h
      | some p =>
        obtain ⟨d₁, r⟩ := p
        rw [hr] at h
        obtain ⟨k, hk⟩ := fine_run (e := e) hn q s hg (by rw [hs]; intro h; cases h) (.inr hp)
        rw [bodyOf_through, hk]
        simp only [serverExec, c1, c2, c3, if_false, hs, hr, Option.isSome_some]
        obtain ⟨s', h1, h2, h3, h4⟩ := ih (fun x hx => hq x (by simp [hx])) { s with tx := .active d₁, prepared := some q.1, calls := k } d₁ rfl hg h
        exact ⟨s', h1, h2, h3, h4⟩

end Pg

section My
open Verif.Transact.My
variable {δ α ρ : Type} {e : Engine δ α ρ} {net : Nat → Fate}

/-- Preparing outside a transaction. -/
theorem my_stmtPrepare (q : String) (s : Conn δ) (hs : s.tx = none) :
    (stmtPrepare e net q s).2.tx = none ∧ (stmtPrepare e net q s).2.db = s.db ∧ (stmtPrepare e net q s).2.handle = s.handle ∧
    (stmtPrepare e net q s).1 ≠ .error .ub ∧ ((stmtPrepare e net q s).1 = .ok () → (control q = true ∨ e.parses q = true)) := by
  unfold stmtPrepare Conn.drop
  split
  · simp [hs]
  · dsimp only
    cases net s.calls <;> dsimp only <;> simp [hs]
    split <;> simp_all

theorem my_reconnect (s : Conn δ) (hs : s.tx = none) :
    (reconnect net s).2.tx = none ∧ (reconnect net s).2.db = s.db ∧ ((reconnect net s).1 = true → (reconnect net s).2.handle = true) := by
  unfold reconnect
  split
  · rename_i h; exact ⟨hs, rfl, fun _ => h.1⟩
  · dsimp only
    cases net s.calls <;> simp

theorem my_prepareStatement (q : String) (s : Conn δ) (hs : s.tx = none) :
    (prepareStatement e net q s).2.tx = none ∧ (prepareStatement e net q s).2.db = s.db ∧
    ((prepareStatement e net q s).1 = .error .ub → s.handle = false) ∧
    ((prepareStatement e net q s).1 = .ok () → (control q = true ∨ e.parses q = true)) := by
  unfold prepareStatement
  split
  · rename_i h; exact ⟨hs, rfl, (fun _ => h), (fun h => by cases h)⟩
  · have h1 := my_stmtPrepare (e := e) (net := net) q s hs
    cases hp : stmtPrepare e net q s with
    | mk r s₁ =>
      rw [hp] at h1
      obtain ⟨a1, a2, a3, a4, a5⟩ := h1
      dsimp only at a1 a2 a3 a4 a5
      cases r with
      | ok u => exact ⟨a1, a2, (fun h => by cases h), a5⟩
      | error x =>
        cases x with
        | database => exact ⟨a1, a2, (fun h => by cases h), a5⟩
        | ub => exact absurd rfl a4
        | lost =>
          dsimp only
          have h2 := my_reconnect (net := net) s₁ a1
          cases hr : reconnect net s₁ with
          | mk b s₂ =>
            rw [hr] at h2
            obtain ⟨b1, b2, b3⟩ := h2
            dsimp only at b1 b2 b3
            cases b with
            | false => exact ⟨b1, b2.trans a2, (fun h => by cases h), (fun h => by cases h)⟩
            | true =>
              have h3 := my_stmtPrepare (e := e) (net := net) q s₂ b1
              exact ⟨h3.1, h3.2.1.trans (b2.trans a2), (fun h => absurd h h3.2.2.2.1), h3.2.2.2.2⟩

theorem my_call (q : String) (a : α) (hq : control q = false) (s : Conn δ) (hs : s.tx = none) :
    (call e net q a s).2.tx = none ∧
    ((call e net q a s).1 = .ok () → ∃ r, e.run s.db q a = some ((call e net q a s).2.db, r)) ∧
    ((call e net q a s).2.db = s.db ∨ ∃ r, e.run s.db q a = some ((call e net q a s).2.db, r)) := by
  obtain ⟨c1, c2, c3⟩ := control_split _ hq
  unfold call serverExec Conn.drop
  split
  · simp [hs]
  · dsimp only
    cases net s.calls <;> dsimp only <;> simp_all only
    · cases he : e.run s.db q a with
      | none => simp
      | some p => obtain ⟨d, r⟩ := p; simp
    · simp
    · simp
    · cases he : e.run s.db q a with
      | none => simp
      | some p => obtain ⟨d, r⟩ := p; simp

theorem my_runOnce (q : String × α) (hq : control q.1 = false) (s : Conn δ) (hs : s.tx = none) :
    (runOnce e net q s).2.tx = none ∧
    ((runOnce e net q s).1 = .error .ub → s.handle = false) ∧
    ((runOnce e net q s).1 = .error .lost → (runOnce e net q s).2.db = s.db) ∧
    ((runOnce e net q s).1 = .ok () → ∃ r, e.parses q.1 = true ∧ e.run s.db q.1 q.2 = some ((runOnce e net q s).2.db, r)) ∧
    ((runOnce e net q s).2.db = s.db ∨ ∃ r, e.parses q.1 = true ∧ e.run s.db q.1 q.2 = some ((runOnce e net q s).2.db, r)) := by
  have h1 := my_prepareStatement (e := e) (net := net) q.1 s hs
  unfold runOnce
  cases hp : prepareStatement e net q.1 s with
  | mk r s₁ =>
    rw [hp] at h1
    obtain ⟨a1, a2, a3, a4⟩ := h1
    dsimp only at a1 a2 a3 a4
    cases r with
    | error x => exact ⟨a1, (fun h => a3 h), (fun _ => a2), (fun h => by cases h), .inl a2⟩
    | ok u =>
      have hpar : e.parses q.1 = true := by simpa [hq] using a4 rfl
      have h2 := my_call (e := e) (net := net) q.1 q.2 hq s₁ a1
      dsimp only
      unfold executeStatement
      rw [a2] at h2
      cases hc : call e net q.1 q.2 s₁ with
      | mk r s₂ =>
        rw [hc] at h2
        obtain ⟨b1, b2, b3⟩ := h2
        dsimp only at b1 b2 b3
        cases r with
        | error x => exact ⟨b1, (fun h => by cases h), (fun h => by cases h), (fun h => by cases h), b3.imp id (fun ⟨r, hr⟩ => ⟨r, hpar, hr⟩)⟩
        | ok u => exact ⟨b1, (fun h => by cases h), (fun h => by cases h), (fun _ => (b2 rfl).imp fun r hr => ⟨hpar, hr⟩), b3.imp id (fun ⟨r, hr⟩ => ⟨r, hpar, hr⟩)⟩

theorem my_run (q : String × α) (hq : control q.1 = false) (s : Conn δ) (hs : s.tx = none) :
    (My.run e net q s).2.tx = none ∧ (My.run e net q s).1 ≠ .error .ub ∧
    ((My.run e net q s).1 = .ok () → ∃ r, e.parses q.1 = true ∧ e.run s.db q.1 q.2 = some ((My.run e net q s).2.db, r)) ∧
    ((My.run e net q s).2.db = s.db ∨ ∃ r, e.parses q.1 = true ∧ e.run s.db q.1 q.2 = some ((My.run e net q s).2.db, r)) := by
  have h0 : ∃ b s₀, (if s.handle then (true, s) else reconnect net s) = (b, s₀) ∧ s₀.tx = none ∧ s₀.db = s.db ∧ (b = true → s₀.handle = true) := by
    split
    · rename_i h; exact ⟨_, _, rfl, hs, rfl, fun _ => h⟩
    · have := my_reconnect (net := net) s hs
      exact ⟨_, _, rfl, this⟩
  obtain ⟨b, s₀, h0, a1, a2, a3⟩ := h0
  unfold My.run
  rw [h0]
  cases b with
  | false => exact ⟨a1, (fun h => by cases h), (fun h => by cases h), .inl a2⟩
  | true =>
    dsimp only
    have h1 := my_runOnce (e := e) (net := net) q hq s₀ a1
    have ha3 := a3 rfl
    rw [← a2]
    cases hr : runOnce e net q s₀ with
    | mk r s₁ =>
      rw [hr] at h1
      obtain ⟨b1, b2, b3, b4, b5⟩ := h1
      dsimp only at b1 b2 b3 b4 b5
      have hnub : (r : Except Err Unit) ≠ .error .ub := fun h => by have := b2 h; rw [ha3] at this; cases this
      cases r with
      | ok u => exact ⟨b1, hnub, b4, b5⟩
      | error x =>
        cases x with
        | database => exact ⟨b1, hnub, b4, b5⟩
        | ub => exact absurd rfl hnub
        | lost =>
          dsimp only
          have b3 := b3 rfl
          have h2 := my_reconnect (net := net) s₁ b1
          cases hr : reconnect net s₁ with
          | mk b s₂ =>
            rw [hr] at h2
            obtain ⟨c1, c2, c3⟩ := h2
            dsimp only at c1 c2 c3
            cases b with
            | false => exact ⟨c1, (fun h => by cases h), (fun h => by cases h), .inl (c2.trans b3)⟩
            | true =>
              have h3 := my_runOnce (e := e) (net := net) q hq s₂ c1
              rw [c2, b3] at h3
              refine ⟨h3.1, (fun h => ?_), h3.2.2.2.1, h3.2.2.2.2⟩
              have := h3.2.1 h; rw [c3 rfl] at this; cases this

/-! Without trouble on the way. -/

theorem my_fine_query (hn : ∀ n, net n = .fine) (q : String) (s : Conn δ) (hs : s.tx = none ∨ (s.up = true ∧ s.handle = true)) : ∃ k,
    query e net q s = (true, (serverExec e q e.noArgs { s with up := true, handle := true, calls := k }).2) := by
  have hcall : ∀ s : Conn δ, s.up = true → call e net q e.noArgs s =
      (if (serverExec e q e.noArgs { s with calls := s.calls + 1 }).1 then .ok () else .error .database, (serverExec e q e.noArgs { s with calls := s.calls + 1 }).2) := by
    intro s hu
    unfold call
    rw [if_neg (by rw [hu]; decide)]
    simp only [hn]
    cases serverExec e q e.noArgs { s with calls := s.calls + 1 } with
    | mk b s' => cases b <;> rfl
  unfold query
  cases hh : s.handle with
  | true =>
    rw [if_pos rfl]
    cases hu : s.up with
    | true =>
      refine ⟨s.calls + 1, ?_⟩
      dsimp only
      rw [hcall s hu, show ({ s with calls := s.calls + 1 } : Conn δ) = { s with up := true, handle := true, calls := s.calls + 1 } from by rw [hu, hh]]
      cases (serverExec e q e.noArgs { s with up := true, handle := true, calls := s.calls + 1 }).1 <;> rfl
    | false =>
      have hs : s.tx = none := by rcases hs with h | h; exact h; rw [hu] at h; cases h.1
      refine ⟨s.calls + 1 + 1, ?_⟩
      have hc : call e net q e.noArgs s = (.error .lost, s) := by unfold call; rw [if_pos hu]
      have hr : reconnect net s = (true, { s with up := true, handle := true, tx := none, calls := s.calls + 1 }) := by
        unfold reconnect
        rw [if_neg (by rw [hu]; simp)]
        simp only [hn]
      dsimp only
      rw [hc]
      dsimp only
      rw [hr]
      dsimp only
      rw [hcall _ rfl, hs]
  | false =>
    rw [if_neg (by decide)]
    have hs : s.tx = none := by rcases hs with h | h; exact h; rw [hh] at h; cases h.2
    refine ⟨s.calls + 1 + 1, ?_⟩
    have hr : reconnect net s = (true, { s with up := true, handle := true, tx := none, calls := s.calls + 1 }) := by
      unfold reconnect
      rw [if_neg (by rw [hh]; simp)]
      simp only [hn]
    rw [hr]
    dsimp only
    rw [hcall _ rfl, hs]
    cases (serverExec e q e.noArgs { db := s.db, tx := none, up := true, handle := true, calls := s.calls + 1 + 1 }).1 <;> rfl

theorem my_fine_run (hn : ∀ n, net n = .fine) (q : String × α) (hq : control q.1 = false) (s : Conn δ) (hu : s.up = true) (hh : s.handle = true) (d : δ)
    (hs : s.tx = some d) : ∃ k, fine (My.run e net q s) =
      match (if e.parses q.1 then e.run d q.1 q.2 else none) with
      | some (d', _) => (true, { s with tx := some d', calls := k })
      | none => (false, { s with calls := k }) := by
  obtain ⟨c1, c2, c3⟩ := control_split _ hq
  unfold My.run
  rw [hh, if_pos rfl]
  dsimp only
  unfold runOnce prepareStatement stmtPrepare
  simp only [hh, hu, hn, hq, Bool.true_eq_false, if_false, Bool.false_eq_true, false_or]
  cases hp : e.parses q.1 with
  | false => exact ⟨s.calls + 1, by simp [fine]⟩
  | true =>
    refine ⟨s.calls + 1 + 1, ?_⟩
    simp only [if_true, executeStatement, call, hn, Bool.true_eq_false, if_false, serverExec, c1, c2, c3, hs]
    cases e.run d q.1 q.2 with
    | none => simp [fine]
    | some p => simp [fine]

theorem my_fine_body (hn : ∀ n, net n = .fine) (qs : List (String × α)) (hq : Plain qs) (s : Conn δ) (hu : s.up = true) (hh : s.handle = true) (d : δ)
    (hs : s.tx = some d) : ∃ s', (bodyOf (fun q s => fine (My.run e net q s)) (through qs) s) = ((allOf e qs d).isSome, s') ∧ s'.db = s.db ∧
      s'.up = true ∧ s'.handle = true ∧ (∀ d', allOf e qs d = some d' → s'.tx = some d') := by
  induction qs generalizing s d with
  | nil => exact ⟨s, rfl, rfl, hu, hh, fun d' h => by cases h; exact hs⟩
  | cons q qs ih =>
    obtain ⟨k, hk⟩ := my_fine_run (e := e) hn q (hq q (by simp)) s hu hh d hs
    rw [bodyOf_through, hk]
    simp only [allOf]
    cases (if e.parses q.1 then e.run d q.1 q.2 else none) with
    | none => exact ⟨_, rfl, rfl, hu, hh, fun d' h => by cases h⟩
    | some p =>
      obtain ⟨d₁, r⟩ := p
      obtain ⟨s', h⟩ := ih (fun x hx => hq x (by simp [hx])) { s with tx := some d₁, calls := k } hu hh d₁ rfl
      exact ⟨s', h⟩

end My

end Verif.Transact.Lemmas
