import Verif.Monitor.Spec
/-!
# Invariants of guarded objects
-/
namespace Verif.Monitor.Lemmas
open Verif.Monitor Verif.Monitor.Spec

variable {S Op R : Type}

theorem seq_append {O : Obj S Op R} {s s' s'' : S} {l l' : List (Entry Op R)}
    (h : Sequential O s l s') (h' : Sequential O s' l' s'') : Sequential O s (l ++ l') s'' := by
  induction h with
  | nil => exact h'
  | done t op hg _ ih => exact .done t op hg (ih h')
  | gaveUp t op r he _ ih => exact .gaveUp t op r he (ih h')

theorem callsOf_append (l l' : List (Entry Op R)) (t : Tid) :
    callsOf (l ++ l') t = callsOf l t ++ callsOf l' t := by simp [callsOf]

/-- The part of a call that has run but not returned. -/
def pending : Phase Op R → List (Op × R)
  | .leave op r _ => [(op, r)]
  | .notify op r => [(op, r)]
  | _ => []

/-- A notification that is on its way. -/
def Notifying : Phase Op R → Prop
  | .leave _ _ n => n = true
  | .notify _ _ => True
  | _ => False

structure Inv (O : Obj S Op R) (s0 : S) (c : Config S Op R) : Prop where
  lock : ∀ t, c.lock = some t ↔ Holding (c.ph t) = true
  ready : ∀ t op, c.ph t = .run op → O.guard op c.st = true
  seq : Sequential O s0 c.log c.st
  ret : ∀ t, callsOf c.log t = c.returned t ++ pending (c.ph t)
  wake : Notifies O → ∀ t op, c.ph t = .waiting op → O.guard op c.st = true → ∃ u, Notifying (c.ph u)

theorem inv_start (O : Obj S Op R) (s0 : S) : Inv O s0 (start s0) := by
  constructor
  · simp [start, Holding]
  · simp [start]
  · exact .nil _
  · simp [start, callsOf, pending]
  · simp [start]

theorem holding_wakeAll (ph : Tid → Phase Op R) (t : Tid) :
    Holding (wakeAll ph t) = Holding (ph t) := by
  unfold wakeAll; split
  · rename_i h; rw [h]; rfl
  · rfl

theorem pending_wakeAll (ph : Tid → Phase Op R) (t : Tid) :
    pending (wakeAll ph t) = pending (ph t) := by
  unfold wakeAll; split
  · rename_i h; rw [h]; rfl
  · rfl

theorem wakeAll_run {ph : Tid → Phase Op R} {t : Tid} {op : Op} (h : wakeAll ph t = .run op) :
    ph t = .run op := by
  unfold wakeAll at h; split at h
  · cases h
  · exact h

theorem wakeAll_not_waiting (ph : Tid → Phase Op R) (t : Tid) (op : Op) :
    wakeAll ph t ≠ .waiting op := by
  unfold wakeAll; split
  · intro h; cases h
  · rename_i h; intro e; exact h op e

theorem upd_same {α : Type} (f : Tid → α) (t : Tid) (v : α) : upd f t v t = v := by simp [upd]
theorem upd_ne {α : Type} (f : Tid → α) {t u : Tid} (v : α) (h : u ≠ t) : upd f t v u = f u := by
  simp [upd, h]

/-- Steps that change neither the state nor the log nor the returned calls. -/
theorem inv_quiet {O : Obj S Op R} {s0 : S} {c : Config S Op R} (h : Inv O s0 c) (t : Tid)
    (p : Phase Op R) (lk : Option Tid)
    (hlk : lk = some t ↔ Holding p = true) (hoth : ∀ u, u ≠ t → (lk = some u ↔ c.lock = some u))
    (hrun : ∀ op, p = .run op → O.guard op c.st = true)
    (hpend : pending p = pending (c.ph t))
    (hw : ∀ op, p = .waiting op → O.guard op c.st = false)
    (hn : Notifying (c.ph t) → Notifying p) :
    Inv O s0 { c with lock := lk, ph := upd c.ph t p } := by
  constructor
  · intro u
    by_cases hu : u = t
    · subst hu; simpa [upd] using hlk
    · dsimp only; rw [hoth u hu, upd_ne _ _ hu]; exact h.lock u
  · intro u op
    by_cases hu : u = t
    · subst hu; dsimp only; rw [upd_same]; exact hrun op
    · dsimp only; rw [upd_ne _ _ hu]; exact h.ready u op
  · exact h.seq
  · intro u
    by_cases hu : u = t
    · subst hu; dsimp only; rw [upd_same, hpend]; exact h.ret u
    · dsimp only; rw [upd_ne _ _ hu]; exact h.ret u
  · intro hN u op
    dsimp only
    intro he hg
    have hex : ∃ u, Notifying (c.ph u) := by
      by_cases hu : u = t
      · subst hu; rw [upd_same] at he; rw [hw op he] at hg; cases hg
      · rw [upd_ne _ _ hu] at he; exact h.wake hN u op he hg
    obtain ⟨v, hv⟩ := hex
    refine ⟨v, ?_⟩
    by_cases hvt : v = t
    · subst hvt; rw [upd_same]; exact hn hv
    · rw [upd_ne _ _ hvt]; exact hv

/-- Steps of the lock holder that append an entry. -/
theorem inv_entry {O : Obj S Op R} {s0 : S} {c : Config S Op R} (h : Inv O s0 c) (t : Tid)
    (lk : Option Tid) (s' : S) (op : Op) (r : R) (n to : Bool)
    (hlk : lk = some t) (hoth : ∀ u, u ≠ t → (lk = some u ↔ c.lock = some u))
    (hown : c.lock = some t ∨ s' = c.st)
    (hpend : pending (c.ph t) = []) (hn : ¬ Notifying (c.ph t))
    (hseq : Sequential O c.st [⟨t, op, r, to⟩] s')
    (hwake : Notifies O → ∀ op', O.guard op' c.st = false → O.guard op' s' = true → n = true) :
    Inv O s0 { c with lock := lk, st := s', ph := upd c.ph t (.leave op r n),
                      log := c.log ++ [⟨t, op, r, to⟩] } := by
  constructor
  · intro u
    by_cases hu : u = t
    · subst hu; simp [upd, hlk, Holding]
    · dsimp only; rw [hoth u hu, upd_ne _ _ hu]; exact h.lock u
  · intro u op'
    by_cases hu : u = t
    · subst hu; dsimp only; rw [upd_same]; intro e; cases e
    · dsimp only; rw [upd_ne _ _ hu]
      intro e
      rcases hown with ho | rfl
      · have := (h.lock u).2 (by rw [e]; rfl)
        rw [ho] at this
        exact absurd (Option.some.inj this).symm hu
      · exact h.ready u op' e
  · exact seq_append h.seq hseq
  · intro u
    dsimp only
    rw [callsOf_append, h.ret u]
    by_cases hu : u = t
    · subst hu; rw [upd_same, hpend]; simp [callsOf, pending]
    · rw [upd_ne _ _ hu]; simp [callsOf, Ne.symm hu]
  · intro hN u op'
    dsimp only
    intro he hg
    by_cases hu : u = t
    · subst hu; rw [upd_same] at he; cases he
    · rw [upd_ne _ _ hu] at he
      cases hb : O.guard op' c.st with
      | true =>
        obtain ⟨v, hv⟩ := h.wake hN u op' he hb
        refine ⟨v, ?_⟩
        have : v ≠ t := by rintro rfl; exact hn hv
        rw [upd_ne _ _ this]; exact hv
      | false =>
        refine ⟨t, ?_⟩
        rw [upd_same]
        exact hwake hN op' hb hg

theorem inv_step {O : Obj S Op R} {s0 : S} {c c' : Config S Op R} (h : Inv O s0 c) (t : Tid)
    (ch : Choice Op) (hs : step O c t ch = some c') : Inv O s0 c' := by
  have hl := h.lock t
  have oth1 : ∀ u, u ≠ t → c.lock = some t → (none = some u ↔ c.lock = some u) := by
    intro u hu e; rw [e]; simp [Ne.symm hu]
  have oth2 : ∀ u, u ≠ t → c.lock = none → (some t = some u ↔ c.lock = some u) := by
    intro u hu e; rw [e]; simp [Ne.symm hu]
  unfold step at hs
  cases hp : c.ph t with
  | idle =>
    rw [hp] at hs hl
    cases ch <;> cases hs
    exact inv_quiet h t _ c.lock (by simpa [Holding] using hl) (fun _ _ => Iff.rfl) (by simp) (by rw [hp]; rfl)
      (by simp) (by rw [hp]; exact id)
  | enter op =>
    rw [hp] at hs hl
    dsimp only at hs
    split at hs
    · rename_i e
      cases hs
      exact inv_quiet h t (.test op) (some t) (by simp [Holding]) (fun u hu => oth2 u hu e) (by simp)
        (by rw [hp]; rfl) (by simp) (by rw [hp]; exact id)
    · cases hs
  | test op =>
    rw [hp] at hs hl
    have hlk : c.lock = some t := by simpa [Holding] using hl
    dsimp only at hs
    split at hs
    · rename_i hg
      cases hs
      exact inv_quiet h t (.run op) c.lock (by simp [Holding, hlk]) (fun _ _ => Iff.rfl)
        (by intro o e; cases e; exact hg) (by rw [hp]; rfl) (by simp) (by rw [hp]; exact id)
    · rename_i hg
      have hg' : O.guard op c.st = false := by simpa using hg
      split at hs
      · rename_i r he
        cases hs
        exact inv_entry h t c.lock c.st op r false true hlk (fun _ _ => Iff.rfl) (.inl hlk)
          (by rw [hp]; rfl) (by rw [hp]; exact id) (.gaveUp t op r he (.nil _))
          (by intro _ o h1 h2; rw [h1] at h2; cases h2)
      · cases hs
        exact inv_quiet h t (.waiting op) none (by simp [Holding]) (fun u hu => oth1 u hu hlk) (by simp)
          (by rw [hp]; rfl) (by intro o e; cases e; exact hg') (by rw [hp]; exact id)
  | run op =>
    rw [hp] at hs hl
    have hlk : c.lock = some t := by simpa [Holding] using hl
    have hg := h.ready t op hp
    cases hs
    exact inv_entry h t c.lock _ op _ _ false hlk (fun _ _ => Iff.rfl) (.inl hlk) (by rw [hp]; rfl)
      (by rw [hp]; exact id) (.done t op hg (.nil _))
      (by intro hN o h1 h2; exact hN op o c.st hg h1 h2)
  | leave op r n =>
    rw [hp] at hs hl
    have hlk : c.lock = some t := by simpa [Holding] using hl
    dsimp only at hs
    cases n with
    | true =>
      simp only [if_true] at hs
      cases hs
      exact inv_quiet h t (.notify op r) none (by simp [Holding]) (fun u hu => oth1 u hu hlk) (by simp)
        (by rw [hp]; rfl) (by simp) (by intro _; trivial)
    | false =>
      simp only [Bool.false_eq_true, if_false] at hs
      cases hs
      constructor
      · intro u
        by_cases hu : u = t
        · subst hu; simp [upd, Holding]
        · dsimp only; rw [oth1 u hu hlk, upd_ne _ _ hu]; exact h.lock u
      · intro u op'
        by_cases hu : u = t
        · subst hu; dsimp only; rw [upd_same]; intro e; cases e
        · dsimp only; rw [upd_ne _ _ hu]; exact h.ready u op'
      · exact h.seq
      · intro u
        dsimp only
        rw [h.ret u]
        by_cases hu : u = t
        · subst hu; rw [upd_same, upd_same, hp]; simp [pending]
        · rw [upd_ne _ _ hu, upd_ne _ _ hu]
      · intro hN u op'
        dsimp only
        intro he hg
        by_cases hu : u = t
        · subst hu; rw [upd_same] at he; cases he
        · rw [upd_ne _ _ hu] at he
          obtain ⟨v, hv⟩ := h.wake hN u op' he hg
          refine ⟨v, ?_⟩
          have : v ≠ t := by rintro rfl; rw [hp] at hv; simp [Notifying] at hv
          rw [upd_ne _ _ this]; exact hv
  | notify op r =>
    rw [hp] at hs hl
    cases hs
    constructor
    · intro u
      by_cases hu : u = t
      · subst hu; simpa [upd, Holding] using hl
      · dsimp only; rw [upd_ne _ _ hu, holding_wakeAll]; exact h.lock u
    · intro u op'
      by_cases hu : u = t
      · subst hu; dsimp only; rw [upd_same]; intro e; cases e
      · dsimp only; rw [upd_ne _ _ hu]; intro e; exact h.ready u op' (wakeAll_run e)
    · exact h.seq
    · intro u
      dsimp only
      rw [h.ret u]
      by_cases hu : u = t
      · subst hu; rw [upd_same, upd_same, hp]; simp [pending]
      · rw [upd_ne _ _ hu, upd_ne _ _ hu, pending_wakeAll]
    · intro hN u op'
      dsimp only
      intro he
      by_cases hu : u = t
      · subst hu; rw [upd_same] at he; cases he
      · rw [upd_ne _ _ hu] at he; exact absurd he (wakeAll_not_waiting _ _ _)
  | waiting op =>
    rw [hp] at hs hl
    cases hs
    exact inv_quiet h t (.woken op) c.lock (by simpa [Holding] using hl) (fun _ _ => Iff.rfl) (by simp)
      (by rw [hp]; rfl) (by simp) (by rw [hp]; exact id)
  | woken op =>
    rw [hp] at hs hl
    dsimp only at hs
    split at hs
    · rename_i e
      split at hs
      · rename_i r he
        cases hs
        exact inv_entry h t (some t) c.st op r false true rfl (fun u hu => oth2 u hu e) (.inr rfl)
          (by rw [hp]; rfl) (by rw [hp]; exact id) (.gaveUp t op r he (.nil _))
          (by intro _ o h1 h2; rw [h1] at h2; cases h2)
      · cases hs
        exact inv_quiet h t (.test op) (some t) (by simp [Holding]) (fun u hu => oth2 u hu e) (by simp)
          (by rw [hp]; rfl) (by simp) (by rw [hp]; exact id)
    · cases hs

theorem inv_reach {O : Obj S Op R} {s0 : S} {c : Config S Op R} (h : Reach O s0 c) : Inv O s0 c := by
  induction h with
  | start => exact inv_start O s0
  | step t ch _ hs ih => exact inv_step ih t ch hs

theorem reach_runs {O : Obj S Op R} {s0 : S} {c c' : Config S Op R} (h : Reach O s0 c)
    (l : List (Tid × Choice Op)) (hr : runs O c l = some c') : Reach O s0 c' := by
  induction l generalizing c with
  | nil => simp only [runs, Option.some.injEq] at hr; exact hr ▸ h
  | cons x l ih =>
    obtain ⟨t, ch⟩ := x
    simp only [runs] at hr
    split at hr
    · cases hr
    · rename_i c1 he
      exact ih (.step t ch h he) hr

end Verif.Monitor.Lemmas
