import Verif.Chan.Spec
import Verif.Monitor.Lemmas
/-!
# Invariant of a channel group
-/
namespace Verif.Chan.Lemmas
open Verif.Chan Verif.Chan.Spec Verif.Monitor Verif.Monitor.Lemmas

variable {α : Type} [DecidableEq α]

theorem consume_append_stream (s x : List α) (h : List (Ev α)) {r : List α}
    (hc : consume s h = some r) : consume (s ++ x) h = some (r ++ x) := by
  induction h generalizing s r with
  | nil => simp only [consume, Option.some.injEq] at hc ⊢; rw [hc]
  | cons e h ih =>
    cases e with
    | read w =>
      cases s with
      | nil => simp [consume] at hc
      | cons v s =>
        simp only [consume, List.cons_append] at hc ⊢
        split at hc
        · rename_i e; rw [if_pos e]; exact ih s hc
        · cases hc
    | unget v =>
      simp only [consume] at hc
      have : consume (s ++ x) (.unget v :: h) = consume (v :: s ++ x) h := by simp [consume]
      rw [this]; exact ih (v :: s) hc

theorem consume_append (s : List α) (h h' : List (Ev α)) :
    consume s (h ++ h') = (consume s h).bind (fun r => consume r h') := by
  induction h generalizing s with
  | nil => simp [consume]
  | cons e h ih =>
    cases e with
    | read w =>
      cases s with
      | nil => simp [consume]
      | cons v s =>
        simp only [List.cons_append, consume]
        split
        · exact ih s
        · rfl
    | unget v => simp only [List.cons_append, consume]; exact ih (v :: s)

/-- Holding the mutex of the link. -/
def holds : Ph α → Bool
  | .wPut _ _ => true
  | .dIns => true
  | .dRel => true
  | .xDel _ => true
  | .xRel => true
  | _ => false

/-- The value on its way to `c`. -/
def onWay (c : Nat) : Ph α → List α
  | .wPut v rem => if c ∈ rem then [v] else []
  | _ => []

def pend (s : St α) (c : Nat) : List α :=
  match s.link with
  | none => []
  | some t => onWay c (s.ph t)

structure Inv (s : St α) : Prop where
  lock : ∀ t, s.link = some t ↔ holds (s.ph t) = true
  fresh : ∀ c ∈ s.members, c < s.next
  nodup : s.members.Nodup
  rem : ∀ t v rem, s.ph t = .wPut v rem → rem.Nodup ∧ ∀ c ∈ rem, c ∈ s.members
  since : ∀ c ∈ s.members, s.since c ≤ s.writes.length
  stream : ∀ c ∈ s.members, consume (s.writes.drop (s.since c)) (s.hist c) = some (s.dat c ++ pend s c)

theorem inv_init : Inv (init : St α) := by
  constructor <;> simp [init, holds, consume, pend]

/-- Steps that only move `t` and possibly take or give back the mutex without
anything on its way. -/
theorem inv_move {s : St α} (h : Inv s) (t : Tid) (p : Ph α) (lk : Option Tid)
    (hlk : lk = some t ↔ holds p = true) (hoth : ∀ u, u ≠ t → (lk = some u ↔ s.link = some u))
    (hp : ∀ c, onWay c p = [])
    (hq : ∀ v rem, p = .wPut v rem → rem = [])
    (hold : s.link = some t → ∀ c, onWay c (s.ph t) = []) :
    Inv { s with link := lk, ph := upd s.ph t p } := by
  constructor
  · intro u
    by_cases hu : u = t
    · subst hu; simpa [upd] using hlk
    · dsimp only; rw [hoth u hu, upd_ne _ _ hu]; exact h.lock u
  · exact h.fresh
  · exact h.nodup
  · intro u v rem
    dsimp only
    by_cases hu : u = t
    · subst hu; rw [upd_same]; intro e; rw [hq v rem e]; simp
    · rw [upd_ne _ _ hu]; exact h.rem u v rem
  · exact h.since
  · intro c hc
    have := h.stream c hc
    dsimp only
    rw [this]
    have : pend s c = pend { s with link := lk, ph := upd s.ph t p } c := by
      unfold pend
      dsimp only
      cases hl : lk with
      | none =>
        cases hl' : s.link with
        | none => rfl
        | some u =>
          by_cases hu : u = t
          · subst hu; exact hold hl' c
          · have := (hoth u hu).2 hl'; rw [hl] at this; cases this
      | some u =>
        by_cases hu : u = t
        · subst hu
          dsimp only
          rw [upd_same, hp c]
          cases hl' : s.link with
          | none => rfl
          | some w =>
            by_cases hw : w = u
            · subst hw; exact hold hl' c
            · have := (hoth w hw).2 hl'; rw [hl] at this; exact absurd (Option.some.inj this).symm hw
        · have := (hoth u hu).1 hl
          rw [this]; dsimp only; rw [upd_ne _ _ hu]
    rw [this]

theorem inv_step {s s' : St α} (h : Inv s) (t : Tid) (call : Call α) (hs : step s t call = some s') :
    Inv s' := by
  have hl := h.lock t
  have oth1 : ∀ u, u ≠ t → s.link = some t → (none = some u ↔ s.link = some u) := by
    intro u hu e; rw [e]; simp [Ne.symm hu]
  have oth2 : ∀ u, u ≠ t → s.link = none → (some t = some u ↔ s.link = some u) := by
    intro u hu e; rw [e]; simp [Ne.symm hu]
  unfold step at hs
  cases hp : s.ph t with
  | idle =>
    rw [hp] at hs hl
    have hnl : ¬ s.link = some t := by simpa [holds] using hl
    dsimp only at hs
    cases call with
    | write v =>
      cases hs
      exact inv_move h t _ s.link (by simpa [holds] using hl) (fun _ _ => Iff.rfl) (by simp [onWay]) (by simp)
        (fun e => absurd e hnl)
    | dup =>
      cases hs
      exact inv_move h t _ s.link (by simpa [holds] using hl) (fun _ _ => Iff.rfl) (by simp [onWay]) (by simp)
        (fun e => absurd e hnl)
    | destroy c =>
      cases hs
      exact inv_move h t _ s.link (by simpa [holds] using hl) (fun _ _ => Iff.rfl) (by simp [onWay]) (by simp)
        (fun e => absurd e hnl)
    | read c =>
      dsimp only at hs
      split at hs
      · cases hs
      · rename_i v q hd
        cases hs
        refine ⟨h.lock, h.fresh, h.nodup, h.rem, h.since, ?_⟩
        intro c' hc'
        have := h.stream c' hc'
        have hpend : pend { s with dat := upd s.dat c q, hist := upd s.hist c (s.hist c ++ [.read v]) } c' =
            pend s c' := rfl
        rw [hpend]
        dsimp only
        by_cases he : c' = c
        · subst he
          rw [upd_same, upd_same, consume_append, this, hd]
          simp [consume]
        · rw [upd_ne _ _ he, upd_ne _ _ he]; exact this
    | unget c v =>
      cases hs
      refine ⟨h.lock, h.fresh, h.nodup, h.rem, h.since, ?_⟩
      intro c' hc'
      have := h.stream c' hc'
      have hpend : pend { s with
          dat := upd s.dat c (v :: s.dat c), hist := upd s.hist c (s.hist c ++ [.unget v]) } c' =
          pend s c' := rfl
      rw [hpend]
      dsimp only
      by_cases he : c' = c
      · subst he
        rw [upd_same, upd_same, consume_append, this]
        simp [consume]
      · rw [upd_ne _ _ he, upd_ne _ _ he]; exact this
  | wAcq v =>
    rw [hp] at hs hl
    dsimp only at hs
    split at hs
    · rename_i e
      cases hs
      constructor
      · intro u
        by_cases hu : u = t
        · subst hu; simp [upd, holds]
        · dsimp only; rw [oth2 u hu e, upd_ne _ _ hu]; exact h.lock u
      · exact h.fresh
      · exact h.nodup
      · intro u v' rem
        dsimp only
        by_cases hu : u = t
        · subst hu; rw [upd_same]; intro e; cases e; exact ⟨h.nodup, fun _ h => h⟩
        · rw [upd_ne _ _ hu]; exact h.rem u v' rem
      · intro c hc
        have := h.since c hc
        simp only [List.length_append]
        omega
      · intro c hc
        have h1 := h.stream c hc
        have h0 : pend s c = [] := by unfold pend; rw [e]
        rw [h0, List.append_nil] at h1
        have h2 : pend { s with
            link := some t, ph := upd s.ph t (.wPut v s.members), writes := s.writes ++ [v] } c = [v] := by
          unfold pend; dsimp only; rw [upd_same]; simp [onWay, hc]
        rw [h2]
        dsimp only
        rw [List.drop_append_of_le_length (h.since c hc)]
        exact consume_append_stream _ _ _ h1
    · cases hs
  | wPut v rem =>
    rw [hp] at hs hl
    have hlk : s.link = some t := by simpa [holds] using hl
    have hr := h.rem t v rem hp
    cases rem with
    | nil =>
      cases hs
      exact inv_move h t .idle none (by simp [holds]) (fun u hu => oth1 u hu hlk) (by simp [onWay]) (by simp)
        (by intro _ c; rw [hp]; simp [onWay])
    | cons c0 rem =>
      cases hs
      constructor
      · intro u
        by_cases hu : u = t
        · subst hu; simp [upd, holds, hlk]
        · dsimp only; rw [upd_ne _ _ hu]; exact h.lock u
      · exact h.fresh
      · exact h.nodup
      · intro u v' rem'
        dsimp only
        by_cases hu : u = t
        · subst hu; rw [upd_same]; intro e; cases e
          exact ⟨(List.nodup_cons.1 hr.1).2, fun c hc => hr.2 c (List.mem_cons_of_mem _ hc)⟩
        · rw [upd_ne _ _ hu]; exact h.rem u v' rem'
      · exact h.since
      · intro c hc
        have h1 := h.stream c hc
        have h0 : pend s c = if c ∈ c0 :: rem then [v] else [] := by
          unfold pend; rw [hlk]; dsimp only; rw [hp]; rfl
        have h2 : pend { s with dat := upd s.dat c0 (s.dat c0 ++ [v]), ph := upd s.ph t (.wPut v rem) } c =
            if c ∈ rem then [v] else [] := by
          unfold pend; dsimp only; rw [hlk]; dsimp only; rw [upd_same]; rfl
        rw [h2]
        rw [h0] at h1
        dsimp only
        rw [h1]
        by_cases he : c = c0
        · subst he
          have : c ∉ rem := (List.nodup_cons.1 hr.1).1
          simp [upd, this]
        · rw [upd_ne _ _ he]; simp [he]
  | dAcq =>
    rw [hp] at hs hl
    dsimp only at hs
    split at hs
    · rename_i e
      cases hs
      exact inv_move h t .dIns (some t) (by simp [holds]) (fun u hu => oth2 u hu e) (by simp [onWay]) (by simp)
        (by intro e'; rw [e] at e'; cases e')
    · cases hs
  | dIns =>
    rw [hp] at hs hl
    have hlk : s.link = some t := by simpa [holds] using hl
    cases hs
    constructor
    · intro u
      by_cases hu : u = t
      · subst hu; simp [upd, holds, hlk]
      · dsimp only; rw [upd_ne _ _ hu]; exact h.lock u
    · intro c hc
      rcases List.mem_append.1 hc with hc | hc
      · have := h.fresh c hc; dsimp only; omega
      · have := List.mem_singleton.1 hc; dsimp only; omega
    · refine List.nodup_append.2 ⟨h.nodup, by simp, ?_⟩
      intro a ha b hb
      have := h.fresh a ha
      have := List.mem_singleton.1 hb
      omega
    · intro u v' rem'
      dsimp only
      by_cases hu : u = t
      · subst hu; rw [upd_same]; intro e; cases e
      · rw [upd_ne _ _ hu]; intro e
        obtain ⟨a, b⟩ := h.rem u v' rem' e
        exact ⟨a, fun c hc => List.mem_append_left _ (b c hc)⟩
    · intro c hc
      dsimp only
      rcases List.mem_append.1 hc with hc | hc
      · have := h.fresh c hc
        rw [upd_ne _ _ (Nat.ne_of_lt this)]; exact h.since c hc
      · rw [List.mem_singleton.1 hc, upd_same]; exact Nat.le_refl _
    · intro c hc
      have h0 : pend { s with
          members := s.members ++ [s.next], dat := upd s.dat s.next [], next := s.next + 1,
          since := upd s.since s.next s.writes.length, hist := upd s.hist s.next [],
          ph := upd s.ph t .dRel } c = [] := by
        unfold pend; dsimp only; rw [hlk]; dsimp only; rw [upd_same]; rfl
      rw [h0]
      dsimp only
      rcases List.mem_append.1 hc with hc | hc
      · have hlt := h.fresh c hc
        have h1 := h.stream c hc
        have h2 : pend s c = [] := by unfold pend; rw [hlk]; dsimp only; rw [hp]; rfl
        rw [h2] at h1
        have hne : c ≠ s.next := by omega
        rw [upd_ne _ _ hne, upd_ne _ _ hne, upd_ne _ _ hne]
        exact h1
      · rw [List.mem_singleton.1 hc, upd_same, upd_same, upd_same]
        simp [consume]
  | dRel =>
    rw [hp] at hs hl
    have hlk : s.link = some t := by simpa [holds] using hl
    cases hs
    exact inv_move h t .idle none (by simp [holds]) (fun u hu => oth1 u hu hlk) (by simp [onWay]) (by simp)
      (by intro _ c; rw [hp]; simp [onWay])
  | xAcq c =>
    rw [hp] at hs hl
    dsimp only at hs
    split at hs
    · rename_i e
      cases hs
      exact inv_move h t (.xDel c) (some t) (by simp [holds]) (fun u hu => oth2 u hu e) (by simp [onWay]) (by simp)
        (by intro e'; rw [e] at e'; cases e')
    · cases hs
  | xDel c =>
    rw [hp] at hs hl
    have hlk : s.link = some t := by simpa [holds] using hl
    cases hs
    constructor
    · intro u
      by_cases hu : u = t
      · subst hu; simp [upd, holds, hlk]
      · dsimp only; rw [upd_ne _ _ hu]; exact h.lock u
    · intro c' hc'; exact h.fresh c' (List.mem_filter.1 hc').1
    · exact h.nodup.filter _
    · intro u v' rem'
      dsimp only
      by_cases hu : u = t
      · subst hu; rw [upd_same]; intro e; cases e
      · rw [upd_ne _ _ hu]; intro e
        have := (h.lock u).2 (by rw [e]; rfl)
        rw [hlk] at this
        exact absurd (Option.some.inj this).symm hu
    · intro c' hc'; exact h.since c' (List.mem_filter.1 hc').1
    · intro c' hc'
      have h1 := h.stream c' (List.mem_filter.1 hc').1
      have h2 : pend s c' = [] := by unfold pend; rw [hlk]; dsimp only; rw [hp]; rfl
      have h0 : pend { s with members := s.members.filter (· ≠ c), ph := upd s.ph t .xRel } c' = [] := by
        unfold pend; dsimp only; rw [hlk]; dsimp only; rw [upd_same]; rfl
      rw [h0]
      rw [h2] at h1
      exact h1
  | xRel =>
    rw [hp] at hs hl
    have hlk : s.link = some t := by simpa [holds] using hl
    cases hs
    exact inv_move h t .idle none (by simp [holds]) (fun u hu => oth1 u hu hlk) (by simp [onWay]) (by simp)
      (by intro _ c; rw [hp]; simp [onWay])

theorem inv_reach {s : St α} (h : Reach s) : Inv s := by
  induction h with
  | start => exact inv_init
  | step t c _ hs ih => exact inv_step ih t c hs

omit [DecidableEq α] in
theorem reach_runs {s s' : St α} (h : Reach s) (l : List (Tid × Call α)) (hr : runs s l = some s') :
    Reach s' := by
  induction l generalizing s with
  | nil => simp only [runs, Option.some.injEq] at hr; exact hr ▸ h
  | cons x l ih =>
    obtain ⟨t, c⟩ := x
    simp only [runs] at hr
    split at hr
    · cases hr
    · rename_i c1 he
      exact ih (.step t c h he) hr

theorem consume_reads (s : List α) (h : List (Ev α)) (hn : ∀ v, .unget v ∉ h) {r : List α}
    (hc : consume s h = some r) : s = reads h ++ r := by
  induction h generalizing s with
  | nil => simpa [consume, reads] using hc
  | cons e h ih =>
    cases e with
    | unget v => exact absurd List.mem_cons_self (hn v)
    | read w =>
      cases s with
      | nil => simp [consume] at hc
      | cons v s =>
        simp only [consume] at hc
        split at hc
        · rename_i e; subst e
          have := ih s (fun v hv => hn v (List.mem_cons_of_mem _ hv)) hc
          simp only [reads, List.filterMap_cons, List.cons_append] at this ⊢
          rw [this]
        · cases hc

end Verif.Chan.Lemmas
