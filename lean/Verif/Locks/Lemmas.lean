import Verif.Locks.Spec
/-! Helper lemmas. -/

namespace Verif.Locks.Lemmas
open Verif.Locks Verif.Locks.Spec

/-- The holders of a lock of a kind. -/
def Excl (k : Kind) (h : List (Nat × Mode)) : Prop := h.Pairwise (Compatible k) ∧ (k ≠ .rw → ∀ x ∈ h, x.2 = .write)

theorem compatible_symm {k : Kind} {a b : Nat × Mode} (h : Compatible k a b) : Compatible k b a := by
  cases k with
  | plain => exact h
  | recursive => exact Eq.symm h
  | rw => exact ⟨h.2, h.1⟩

theorem pair_of_ne {k : Kind} {h : List (Nat × Mode)} (he : h.Pairwise (Compatible k)) {a b : Nat × Mode} (ha : a ∈ h) (hb : b ∈ h) (hne : a ≠ b) : Compatible k a b := by
  induction h with
  | nil => cases ha
  | cons x h ih =>
    rw [List.pairwise_cons] at he
    rcases List.mem_cons.1 ha with ha | ha'
    · rcases List.mem_cons.1 hb with hb | hb'
      · exact absurd (ha.trans hb.symm) hne
      · exact ha ▸ he.1 b hb'
    · rcases List.mem_cons.1 hb with hb | hb'
      · exact hb ▸ compatible_symm (he.1 a ha')
      · exact ih he.2 ha' hb'

theorem same_mode {k : Kind} {h : List (Nat × Mode)} (he : Excl k h) {t : Nat} {m n : Mode} (h1 : (t, m) ∈ h) (h2 : (t, n) ∈ h) : m = n := by
  by_cases e : (t, m) = (t, n)
  · exact (Prod.mk.inj e).2
  · cases k with
    | rw => have := pair_of_ne he.1 h1 h2 e
            exact this.1.trans this.2.symm
    | plain => exact (he.2 (by decide) _ h1).trans (he.2 (by decide) _ h2).symm
    | recursive => exact (he.2 (by decide) _ h1).trans (he.2 (by decide) _ h2).symm

theorem excl_perm {k : Kind} {h h' : List (Nat × Mode)} (p : h.Perm h') (he : Excl k h) : Excl k h' :=
  ⟨(p.pairwise_iff (fun hc => compatible_symm hc)).1 he.1, fun hk x hx => he.2 hk x (p.mem_iff.2 hx)⟩

theorem excl_erase {k : Kind} {h : List (Nat × Mode)} (x : Nat × Mode) (he : Excl k h) : Excl k (h.erase x) :=
  ⟨he.1.sublist List.erase_sublist, fun hk y hy => he.2 hk y (List.mem_of_mem_erase hy)⟩

theorem excl_grant {l : Lock} {t : Nat} {m : Mode} (he : Excl l.kind l.holders) (hm : l.kind ≠ .rw → m = .write) (hg : l.grantable t m = true) :
    Excl l.kind ((t, m) :: l.holders) := by
  refine ⟨List.pairwise_cons.2 ⟨?_, he.1⟩, fun hk x hx => ?_⟩
  · intro a ha
    unfold Lock.grantable at hg
    cases hk : l.kind with
    | plain =>
      rw [hk] at hg
      rw [List.isEmpty_iff.1 hg] at ha
      cases ha
    | recursive =>
      rw [hk] at hg
      exact (eq_of_beq (List.all_eq_true.1 hg a ha)).symm
    | rw =>
      rw [hk] at hg
      cases m with
      | read => exact ⟨rfl, eq_of_beq (List.all_eq_true.1 hg a ha)⟩
      | write =>
        have hg : l.holders.isEmpty = true := hg
        rw [List.isEmpty_iff.1 hg] at ha
        cases ha
  · rcases List.mem_cons.1 hx with rfl | hx
    · exact hm hk
    · exact he.2 hk x hx

theorem native_spec {l l' : Lock} {t : Nat} {m : Mode} {err r : Int} (h : l.native t m err = some (l', r)) :
    (r = 0 ∧ l.grantable t m = true ∧ l' = { l with holders := (t, m) :: l.holders }) ∨ (r ≠ 0 ∧ l' = l) := by
  unfold Lock.native at h
  by_cases he : err = 0
  · rw [if_pos he] at h
    by_cases hg : l.grantable t m = true
    · rw [if_pos hg] at h
      cases h
      exact .inl ⟨rfl, hg, rfl⟩
    · rw [if_neg hg] at h
      cases h
  · rw [if_neg he] at h
    cases h
    exact .inr ⟨he, rfl⟩

/-- A constructor that does not take the wrong branch: true exactly when the lock was granted. -/
theorem call_spec {how : How} {l l' : Lock} {t : Nat} {err : Int} {b : Bool} (he : Excl l.kind l.holders) (hf : how.fits l.kind = true) (hok : ¬ tinyRead how)
    (h : how.call l t err = some (l', b)) :
    (b = true ∧ l' = { l with holders := (t, how.mode) :: l.holders } ∧ Excl l.kind l'.holders) ∨ (b = false ∧ l' = l) := by
  have key : ∀ (m : Mode) (r : Lock × Int), (l.kind ≠ .rw → m = .write) → l.native t m err = some r →
      (decide (r.2 = 0) = true ∧ r.1 = { l with holders := (t, m) :: l.holders } ∧ Excl l.kind r.1.holders) ∨ (decide (r.2 = 0) = false ∧ r.1 = l) := by
    intro m r hm hr
    rcases native_spec hr with ⟨h0, hg, e⟩ | ⟨h0, e⟩
    · exact .inl ⟨decide_eq_true h0, e, by rw [e]; exact excl_grant he hm hg⟩
    · exact .inr ⟨decide_eq_false h0, e⟩
  have hrw : ∀ m, (∃ x, how = .locker m x) ∨ (∃ x, how = .direct m x) → l.kind = .rw := by
    intro m hh
    cases hk : l.kind <;> rw [hk] at hf
    · rcases hh with ⟨x, rfl⟩ | ⟨x, rfl⟩ <;> cases hf
    · rcases hh with ⟨x, rfl⟩ | ⟨x, rfl⟩ <;> cases hf
  have rwl : ∀ m, l.kind = .rw → l.rwLock t m err = some (l', b) →
      (b = true ∧ l' = { l with holders := (t, m) :: l.holders } ∧ Excl l.kind l'.holders) ∨ (b = false ∧ l' = l) := by
    intro m hk h
    unfold Lock.rwLock at h
    split at h
    · cases hn : l.native t m err with
      | none => rw [hn] at h; cases h
      | some r =>
        rw [hn] at h
        cases h
        exact key m r (fun h => absurd hk h) hn
    · cases h
      exact .inr ⟨rfl, rfl⟩
  have rwf : ∀ m sec, l.kind = .rw → ¬ (sec < 1 / 1000000000 ∧ m = .read) → l.rwLockFor t m sec err = some (l', b) →
      (b = true ∧ l' = { l with holders := (t, m) :: l.holders } ∧ Excl l.kind l'.holders) ∨ (b = false ∧ l' = l) := by
    intro m sec hk hs h
    unfold Lock.rwLockFor at h
    simp only [if_neg hs] at h
    split at h
    · cases hn : l.native t m err with
      | none => rw [hn] at h; cases h
      | some r =>
        rw [hn] at h
        cases h
        exact key m r (fun h => absurd hk h) hn
    · cases h
      exact .inr ⟨rfl, rfl⟩
  cases how with
  | mutex =>
    unfold How.call Lock.lock at h
    simp only at h
    split at h
    · rename_i hc
      cases h
      refine .inl ⟨rfl, rfl, ?_⟩
      refine ⟨List.pairwise_cons.2 ⟨?_, he.1⟩, fun hk x hx => ?_⟩
      · intro a ha
        rw [hc.1]
        show t = a.1
        by_cases e : (t, Mode.write) = a
        · rw [← e]
        · have := pair_of_ne he.1 hc.2 ha e
          rw [hc.1] at this
          exact this
      · rcases List.mem_cons.1 hx with rfl | hx
        · rfl
        · exact he.2 hk x hx
    · cases hn : l.native t .write err with
      | none => rw [hn] at h; cases h
      | some r =>
        rw [hn] at h
        cases h
        exact key .write r (fun _ => rfl) hn
  | locker m sec =>
    have hk := hrw m (.inl ⟨_, rfl⟩)
    cases sec with
    | none => exact rwl m hk h
    | some sec =>
      refine rwf m sec hk ?_ h
      intro hs
      apply hok
      rw [hs.2]
      exact hs.1
  | direct m sec =>
    have hk := hrw m (.inr ⟨_, rfl⟩)
    unfold How.call at h
    simp only at h
    split at h
    · rename_i h0
      refine rwf m sec hk ?_ h
      intro hs
      apply hok
      rw [hs.2]
      exact ⟨h0, hs.1⟩
    · exact rwl m hk h

theorem call_kind {how : How} {l l' : Lock} {t : Nat} {err : Int} {b : Bool} (h : how.call l t err = some (l', b)) : l'.kind = l.kind ∧ l'.valid = l.valid := by
  have key : ∀ (m : Mode) (r : Lock × Int), l.native t m err = some r → r.1.kind = l.kind ∧ r.1.valid = l.valid := by
    intro m r hr
    rcases native_spec hr with ⟨_, _, e⟩ | ⟨_, e⟩ <;> rw [e] <;> exact ⟨rfl, rfl⟩
  have rwl : ∀ m, l.rwLock t m err = some (l', b) → l'.kind = l.kind ∧ l'.valid = l.valid := by
    intro m h
    unfold Lock.rwLock at h
    split at h
    · cases hn : l.native t m err with
      | none => rw [hn] at h; cases h
      | some r =>
        rw [hn] at h
        cases h
        exact key m r hn
    · cases h
      exact ⟨rfl, rfl⟩
  have rwf : ∀ m sec, l.rwLockFor t m sec err = some (l', b) → l'.kind = l.kind ∧ l'.valid = l.valid := by
    intro m sec h
    unfold Lock.rwLockFor at h
    split at h
    · cases hn : l.native t m err with
      | none => rw [hn] at h; cases h
      | some r =>
        rw [hn] at h
        cases h
        exact key m r hn
    · cases h
      exact ⟨rfl, rfl⟩
  cases how with
  | mutex =>
    unfold How.call Lock.lock at h
    simp only at h
    split at h
    · cases h
      exact ⟨rfl, rfl⟩
    · cases hn : l.native t .write err with
      | none => rw [hn] at h; cases h
      | some r =>
        rw [hn] at h
        cases h
        exact key .write r hn
  | locker m sec =>
    cases sec with
    | none => exact rwl m h
    | some sec => exact rwf m sec h
  | direct m sec =>
    unfold How.call at h
    simp only at h
    split at h
    · exact rwf m sec h
    · exact rwl m h

/-! ### Objects -/

theorem find_some {os : List Obj} {x : Nat} {o : Obj} (h : os.find? (fun o => o.name == x) = some o) : o ∈ os ∧ o.name = x :=
  ⟨List.mem_of_find?_eq_some h, eq_of_beq (List.find?_some (p := fun o : Obj => o.name == x) h)⟩

theorem find_none {os : List Obj} {x : Nat} (h : (os.find? (fun o => o.name == x)).isNone = true) : ∀ o ∈ os, o.name ≠ x := by
  intro o ho e
  have := List.find?_eq_none.1 (Option.isNone_iff_eq_none.1 h) o ho
  exact this (by rw [e]; exact beq_self_eq_true x)

theorem held_cons (o : Obj) (os : List Obj) (l : Nat) :
    held (o :: os) l = if o.need = true ∧ o.lock = l then (o.tid, o.mode) :: held os l else held os l := by
  unfold held
  by_cases h : o.need = true ∧ o.lock = l
  · rw [if_pos h, List.filter_cons_of_pos (by rw [h.1, h.2]; exact beq_self_eq_true l), List.map_cons]
  · rw [if_neg h, List.filter_cons_of_neg]
    intro e
    rw [Bool.and_eq_true] at e
    exact h ⟨e.1, eq_of_beq e.2⟩

theorem held_perm {os os' : List Obj} (p : os.Perm os') (l : Nat) : (held os l).Perm (held os' l) := (p.filter _).map _

theorem release_of_ne {os : List Obj} {x : Nat} (h : ∀ o ∈ os, o.name ≠ x) : St.release os x = os := by
  unfold St.release
  conv => rhs; rw [← List.map_id os]
  apply List.map_congr_left
  intro o ho
  rw [if_neg (h o ho)]
  rfl

theorem names_erase {os : List Obj} (hn : (os.map (·.name)).Nodup) {o : Obj} (ho : o ∈ os) : ∀ p ∈ os.erase o, p.name ≠ o.name := by
  have hp : os.Perm (o :: os.erase o) := List.perm_cons_erase ho
  have := ((hp.map (·.name)).nodup_iff).1 hn
  rw [List.map_cons, List.nodup_cons] at this
  intro p hpm e
  exact this.1 (List.mem_map.2 ⟨p, hpm, e⟩)

/-- The invariant. -/
structure Inv (kind : Nat → Kind) (valid : Nat → Bool) (s : St) : Prop where
  names : (s.objs.map (·.name)).Nodup
  held : ∀ l, (s.locks l).holders.Perm (held s.objs l)
  excl : ∀ l, Excl (s.locks l).kind (s.locks l).holders
  kind : ∀ l, (s.locks l).kind = kind l ∧ (s.locks l).valid = valid l
  ub : s.ub = false

theorem unlock_spec {l : Lock} {t : Nat} {m : Mode} (he : Excl l.kind l.holders) (hm : (t, m) ∈ l.holders) :
    l.unlock t = some { l with holders := l.holders.erase (t, m) } := by
  unfold Lock.unlock
  cases hf : l.holders.find? (fun h => h.1 == t) with
  | none =>
    have := List.find?_eq_none.1 hf _ hm
    exact absurd (beq_self_eq_true t) this
  | some h =>
    have h1 : h.1 = t := eq_of_beq (List.find?_some (p := fun h : Nat × Mode => h.1 == t) hf)
    have h2 := List.mem_of_find?_eq_some hf
    have h3 : h = (t, h.2) := Prod.ext h1 rfl
    rw [h3] at h2
    rw [h3, same_mode he h2 hm]

theorem inv_step {kind : Nat → Kind} {valid : Nat → Bool} {s s' : St} {t : Nat} {op : Op} (hi : Inv kind valid s)
    (hok : ∀ x l how err, op = .make x l how err → ¬ tinyRead how) (h : step s t op = some s') : Inv kind valid s' := by
  cases op with
  | make x l how err =>
    unfold step at h
    simp only at h
    split at h
    · rename_i hc
      cases hr : how.call (s.locks l) t err with
      | none => rw [hr] at h; cases h
      | some r =>
        rw [hr] at h
        cases h
        have hk := call_kind (b := r.2) (l' := r.1) hr
        have hs := call_spec (b := r.2) (l' := r.1) (hi.excl l) hc.2 (hok _ _ _ _ rfl) hr
        refine ⟨?_, ?_, ?_, ?_, hi.ub⟩
        · show (x :: s.objs.map (·.name)).Nodup
          rw [List.nodup_cons]
          refine ⟨fun hx => ?_, hi.names⟩
          obtain ⟨o, ho, e⟩ := List.mem_map.1 hx
          exact find_none hc.1 o ho e
        · intro l'
          show (upd s.locks l r.1 l').holders.Perm (held (_ :: s.objs) l')
          rw [held_cons]
          unfold upd
          by_cases e : l' = l
          · rw [if_pos e, e]
            rcases hs with ⟨hb, hl, _⟩ | ⟨hb, hl⟩
            · rw [if_pos ⟨hb, rfl⟩, hl]
              exact (hi.held l).cons _
            · rw [if_neg (by rw [hb]; exact fun hh => by cases hh.1), hl]
              exact hi.held l
          · rw [if_neg e, if_neg (fun hh => e hh.2.symm)]
            exact hi.held l'
        · intro l'
          show Excl (upd s.locks l r.1 l').kind (upd s.locks l r.1 l').holders
          unfold upd
          by_cases e : l' = l
          · rw [if_pos e]
            rcases hs with ⟨_, _, he⟩ | ⟨_, hl⟩
            · rw [hk.1]
              exact he
            · rw [hl]
              exact hi.excl l
          · rw [if_neg e]
            exact hi.excl l'
        · intro l'
          show (upd s.locks l r.1 l').kind = _ ∧ (upd s.locks l r.1 l').valid = _
          unfold upd
          by_cases e : l' = l
          · rw [if_pos e, hk.1, hk.2, e]
            exact hi.kind l
          · rw [if_neg e]
            exact hi.kind l'
    · cases h
  | copy y x =>
    unfold step at h
    simp only at h
    split at h
    · rename_i o ho
      obtain ⟨hm, hx⟩ := find_some ho
      split at h
      · rename_i hc
        cases h
        have hp : s.objs.Perm (o :: s.objs.erase o) := List.perm_cons_erase hm
        have hne := names_erase hi.names hm
        have hrel : (St.release s.objs x).Perm ({ o with need := false } :: s.objs.erase o) := by
          have : (St.release s.objs x).Perm (St.release (o :: s.objs.erase o) x) := hp.map _
          refine this.trans ?_
          show ((if o.name = x then { o with need := false } else o) :: St.release (s.objs.erase o) x).Perm _
          rw [if_pos hx, release_of_ne (fun p hpm => by rw [← hx]; exact hne p hpm)]
        refine ⟨?_, ?_, hi.excl, hi.kind, hi.ub⟩
        · show (y :: (St.release s.objs x).map (·.name)).Nodup
          have hnm : (St.release s.objs x).map (·.name) = s.objs.map (·.name) := by
            unfold St.release
            rw [List.map_map]
            apply List.map_congr_left
            intro p _
            show (if p.name = x then { p with need := false } else p).name = p.name
            by_cases e : p.name = x
            · rw [if_pos e]
            · rw [if_neg e]
          rw [hnm, List.nodup_cons]
          refine ⟨fun hy => ?_, hi.names⟩
          obtain ⟨p, hp1, e⟩ := List.mem_map.1 hy
          exact find_none hc.2.2 p hp1 e
        · intro l
          show (s.locks l).holders.Perm (held ({ o with name := y } :: St.release s.objs x) l)
          refine (hi.held l).trans ((held_perm hp l).trans ?_)
          refine List.Perm.trans ?_ (held_perm (hrel.symm.cons _) l)
          rw [held_cons, held_cons, held_cons, if_neg (c := ({ o with need := false } : Obj).need = true ∧ _) (fun hh => by cases hh.1)]
      · cases h
    · cases h
  | drop x =>
    unfold step at h
    simp only at h
    split at h
    · rename_i o ho
      obtain ⟨hm, hx⟩ := find_some ho
      have hp : s.objs.Perm (o :: s.objs.erase o) := List.perm_cons_erase hm
      have hnm : ((s.objs.erase o).map (·.name)).Nodup := by
        have := ((hp.map (·.name)).nodup_iff).1 hi.names
        rw [List.map_cons, List.nodup_cons] at this
        exact this.2
      split at h
      · rename_i ht
        split at h
        · rename_i hneed
          have hh : (s.locks o.lock).holders.Perm ((t, o.mode) :: held (s.objs.erase o) o.lock) := by
            have := (hi.held o.lock).trans (held_perm hp o.lock)
            rw [held_cons, if_pos ⟨hneed, rfl⟩, ht] at this
            exact this
          have hu := unlock_spec (hi.excl o.lock) (hh.mem_iff.2 List.mem_cons_self)
          rw [hu] at h
          cases h
          refine ⟨hnm, ?_, ?_, ?_, hi.ub⟩
          · intro l
            show (upd s.locks o.lock _ l).holders.Perm (held (s.objs.erase o) l)
            unfold upd
            by_cases e : l = o.lock
            · rw [if_pos e, e]
              have := hh.erase (t, o.mode)
              rw [List.erase_cons_head] at this
              exact this
            · rw [if_neg e]
              have := (hi.held l).trans (held_perm hp l)
              rw [held_cons, if_neg (fun hh => e hh.2.symm)] at this
              exact this
          · intro l
            show Excl (upd s.locks o.lock _ l).kind (upd s.locks o.lock _ l).holders
            unfold upd
            by_cases e : l = o.lock
            · rw [if_pos e]
              exact excl_erase _ (hi.excl o.lock)
            · rw [if_neg e]
              exact hi.excl l
          · intro l
            show (upd s.locks o.lock _ l).kind = _ ∧ (upd s.locks o.lock _ l).valid = _
            unfold upd
            by_cases e : l = o.lock
            · rw [if_pos e, e]
              exact hi.kind o.lock
            · rw [if_neg e]
              exact hi.kind l
        · rename_i hneed
          cases h
          refine ⟨hnm, fun l => ?_, hi.excl, hi.kind, hi.ub⟩
          have := (hi.held l).trans (held_perm hp l)
          rw [held_cons, if_neg (fun hh => hneed hh.1)] at this
          exact this
      · cases h
    · cases h

theorem inv_reach {kind : Nat → Kind} {valid : Nat → Bool} {s : St} (h : Reach (fun how => ¬ tinyRead how) kind valid s) : Inv kind valid s := by
  induction h with
  | init =>
    exact ⟨List.nodup_nil, fun _ => List.Perm.refl _, fun _ => ⟨List.Pairwise.nil, fun _ x hx => by cases hx⟩, fun _ => ⟨rfl, rfl⟩, rfl⟩
  | step _ hok h ih => exact inv_step ih (fun x l how err e => hok x l how err e) h

/-! ### Singletons -/

/-- Whether a thread is between taking and giving back the mutex. -/
def inside : Pc → Bool
  | .idle | .locking => false
  | _ => true

/-- The invariant of `instance()`. -/
structure SInv (s : Single) : Prop where
  owner : ∀ t, inside (s.pc t) = true ↔ s.owner = some t
  made : (s.p = none ∧ s.made = 0) ∨ (s.p = some 0 ∧ s.made = 1)
  making : ∀ t, s.pc t = .making → s.p = none
  returning : ∀ t, s.pc t = .returning → s.p = some 0
  unlocking : ∀ t q, s.pc t = .unlocking (.deref q) → q = some 0 ∧ s.p = some 0
  returned : ∀ t q, (t, Result.deref q) ∈ s.returned → q = some 0 ∧ s.p = some 0

theorem updPc_same (f : Nat → Pc) (x : Nat) (v : Pc) : updPc f x v x = v := if_pos rfl
theorem updPc_other (f : Nat → Pc) {x y : Nat} (v : Pc) (h : y ≠ x) : updPc f x v y = f y := if_neg h

theorem sinv_step {s s' : Single} {t : Nat} {b : Bool} (hi : SInv s) (h : sstep s t b = some s') : SInv s' := by
  have alone : ∀ u, u ≠ t → inside (s.pc t) = true → inside (s.pc u) = false := by
    intro u hu h1
    cases h2 : inside (s.pc u) with
    | false => rfl
    | true =>
      have e1 := (hi.owner t).1 h1
      have e2 := (hi.owner u).1 h2
      rw [e1] at e2
      exact absurd (Option.some.inj e2).symm hu
  -- a step that changes the program counter of `t` within the critical section only
  have stay : ∀ (v : Pc) (p' : Option Nat) (n : Nat), inside (s.pc t) = true → inside v = true →
      ((p' = none ∧ n = 0) ∨ (p' = some 0 ∧ n = 1)) → (v = .making → p' = none) → (v = .returning → p' = some 0) →
      (∀ q, v = .unlocking (.deref q) → q = some 0 ∧ p' = some 0) → (s.p = some 0 → p' = some 0) →
      SInv { s with p := p', made := n, pc := updPc s.pc t v } := by
    intro v p' n hin hv h1 h2 h3 h4 h5
    refine ⟨?_, h1, ?_, ?_, ?_, ?_⟩
    · intro u
      show inside (updPc s.pc t v u) = true ↔ s.owner = some u
      by_cases e : u = t
      · rw [e, updPc_same, hv, ← hi.owner t, hin]
      · rw [updPc_other _ _ e]
        exact hi.owner u
    · intro u hu
      by_cases e : u = t
      · have hu : updPc s.pc t v u = .making := hu
        rw [e, updPc_same] at hu
        exact h2 hu
      · have hu : updPc s.pc t v u = .making := hu
        rw [updPc_other _ _ e] at hu
        have := alone u e hin
        rw [hu] at this
        cases this
    · intro u hu
      have hu : updPc s.pc t v u = .returning := hu
      by_cases e : u = t
      · rw [e, updPc_same] at hu
        exact h3 hu
      · rw [updPc_other _ _ e] at hu
        have := alone u e hin
        rw [hu] at this
        cases this
    · intro u q hu
      have hu : updPc s.pc t v u = .unlocking (.deref q) := hu
      by_cases e : u = t
      · rw [e, updPc_same] at hu
        exact h4 q hu
      · rw [updPc_other _ _ e] at hu
        have := alone u e hin
        rw [hu] at this
        cases this
    · intro u q hu
      have := hi.returned u q hu
      exact ⟨this.1, h5 this.2⟩
  unfold sstep at h
  cases hp : s.pc t with
  | idle =>
    rw [hp] at h
    cases h
    refine ⟨?_, hi.made, ?_, ?_, ?_, hi.returned⟩
    · intro u
      show inside (updPc s.pc t .locking u) = true ↔ _
      by_cases e : u = t
      · rw [e, updPc_same, ← hi.owner t, hp]
        exact Iff.rfl
      · rw [updPc_other _ _ e]
        exact hi.owner u
    · intro u hu
      have hu : updPc s.pc t .locking u = .making := hu
      by_cases e : u = t
      · rw [e, updPc_same] at hu
        cases hu
      · rw [updPc_other _ _ e] at hu
        exact hi.making u hu
    · intro u hu
      have hu : updPc s.pc t .locking u = .returning := hu
      by_cases e : u = t
      · rw [e, updPc_same] at hu
        cases hu
      · rw [updPc_other _ _ e] at hu
        exact hi.returning u hu
    · intro u q hu
      have hu : updPc s.pc t .locking u = .unlocking (.deref q) := hu
      by_cases e : u = t
      · rw [e, updPc_same] at hu
        cases hu
      · rw [updPc_other _ _ e] at hu
        exact hi.unlocking u q hu
  | locking =>
    rw [hp] at h
    simp only at h
    split at h
    · rename_i ho
      have ho := Option.isNone_iff_eq_none.1 ho
      cases h
      have none_in : ∀ u, inside (s.pc u) = false := by
        intro u
        cases h2 : inside (s.pc u) with
        | false => rfl
        | true =>
          have := (hi.owner u).1 h2
          rw [ho] at this
          cases this
      refine ⟨?_, hi.made, ?_, ?_, ?_, hi.returned⟩
      · intro u
        show inside (updPc s.pc t .testing u) = true ↔ some t = some u
        by_cases e : u = t
        · rw [e, updPc_same]
          exact ⟨fun _ => rfl, fun _ => rfl⟩
        · rw [updPc_other _ _ e, none_in u]
          exact ⟨(fun hh => by cases hh), fun hh => absurd (Option.some.inj hh).symm e⟩
      · intro u hu
        have hu : updPc s.pc t .testing u = .making := hu
        by_cases e : u = t
        · rw [e, updPc_same] at hu
          cases hu
        · rw [updPc_other _ _ e] at hu
          exact hi.making u hu
      · intro u hu
        have hu : updPc s.pc t .testing u = .returning := hu
        by_cases e : u = t
        · rw [e, updPc_same] at hu
          cases hu
        · rw [updPc_other _ _ e] at hu
          exact hi.returning u hu
      · intro u q hu
        have hu : updPc s.pc t .testing u = .unlocking (.deref q) := hu
        by_cases e : u = t
        · rw [e, updPc_same] at hu
          cases hu
        · rw [updPc_other _ _ e] at hu
          exact hi.unlocking u q hu
    · cases h
  | testing =>
    rw [hp] at h
    cases h
    have hin : inside (s.pc t) = true := by rw [hp]; rfl
    rcases hi.made with ⟨h1, h2⟩ | ⟨h1, h2⟩
    · have e : (if s.p.isNone then Pc.making else Pc.returning) = .making := by rw [h1]; rfl
      rw [e]
      exact stay .making s.p s.made hin rfl hi.made (fun _ => h1) (fun hh => by cases hh) (fun q hh => by cases hh) id
    · have e : (if s.p.isNone then Pc.making else Pc.returning) = .returning := by rw [h1]; rfl
      rw [e]
      exact stay .returning s.p s.made hin rfl hi.made (fun hh => by cases hh) (fun _ => h1) (fun q hh => by cases hh) id
  | making =>
    rw [hp] at h
    have hin : inside (s.pc t) = true := by rw [hp]; rfl
    simp only at h
    split at h
    · cases h
      exact stay (.unlocking .threw) s.p s.made hin rfl hi.made (fun hh => by cases hh) (fun hh => by cases hh) (fun q hh => by cases hh) id
    · cases h
      have hn := hi.making t hp
      have h0 : s.made = 0 := by
        rcases hi.made with ⟨_, h2⟩ | ⟨h1, _⟩
        · exact h2
        · rw [hn] at h1
          cases h1
      exact stay .returning (some s.made) (s.made + 1) hin rfl (.inr ⟨by rw [h0], by rw [h0]⟩) (fun hh => by cases hh) (fun _ => by rw [h0]) (fun q hh => by cases hh) (fun _ => by rw [h0])
  | returning =>
    rw [hp] at h
    cases h
    have hin : inside (s.pc t) = true := by rw [hp]; rfl
    have h0 := hi.returning t hp
    exact stay (.unlocking (.deref s.p)) s.p s.made hin rfl hi.made (fun hh => by cases hh) (fun hh => by cases hh) (fun q hh => by cases hh; exact ⟨h0, h0⟩) id
  | unlocking r =>
    rw [hp] at h
    cases h
    have hin : inside (s.pc t) = true := by rw [hp]; rfl
    refine ⟨?_, hi.made, ?_, ?_, ?_, ?_⟩
    · intro u
      show inside (updPc s.pc t .idle u) = true ↔ (none : Option Nat) = some u
      by_cases e : u = t
      · rw [e, updPc_same]
        exact ⟨(fun hh => by cases hh), fun hh => by cases hh⟩
      · rw [updPc_other _ _ e, alone u e hin]
        exact ⟨(fun hh => by cases hh), fun hh => by cases hh⟩
    · intro u hu
      have hu : updPc s.pc t .idle u = .making := hu
      by_cases e : u = t
      · rw [e, updPc_same] at hu
        cases hu
      · rw [updPc_other _ _ e] at hu
        exact hi.making u hu
    · intro u hu
      have hu : updPc s.pc t .idle u = .returning := hu
      by_cases e : u = t
      · rw [e, updPc_same] at hu
        cases hu
      · rw [updPc_other _ _ e] at hu
        exact hi.returning u hu
    · intro u q hu
      have hu : updPc s.pc t .idle u = .unlocking (.deref q) := hu
      by_cases e : u = t
      · rw [e, updPc_same] at hu
        cases hu
      · rw [updPc_other _ _ e] at hu
        exact hi.unlocking u q hu
    · intro u q hu
      rcases List.mem_cons.1 hu with hu | hu
      · cases hu
        exact hi.unlocking t q hp
      · exact hi.returned u q hu

theorem sinv_reach {s : Single} (h : SReach s) : SInv s := by
  induction h with
  | init => exact ⟨fun _ => ⟨(fun h => by cases h), (fun h => by cases h)⟩, .inl ⟨rfl, rfl⟩, (fun _ h => by cases h), (fun _ h => by cases h), (fun _ _ h => by cases h), (fun _ _ h => by cases h)⟩
  | step _ h ih => exact sinv_step ih h

end Verif.Locks.Lemmas
