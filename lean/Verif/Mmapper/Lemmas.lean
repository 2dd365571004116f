import Verif.Mmapper.Spec
/-! The invariant of the mappers. -/

namespace Verif.Mmapper.Lemmas
open Verif.Mmapper Verif.Mmapper.Spec

theorem upd_same {β : Type} (f : Nat → β) (i : Nat) (v : β) : upd f i v i = v := if_pos rfl
theorem upd_other {β : Type} {f : Nat → β} {i j : Nat} {v : β} (h : j ≠ i) : upd f i v j = f j := if_neg h
theorem upd_upd {β : Type} (f : Nat → β) (x : Nat) (a b : β) : upd (upd f x a) x b = upd f x b := by
  funext z
  unfold upd
  split <;> rfl
theorem upd_comm {β : Type} (f : Nat → β) {x y : Nat} (h : x ≠ y) (a b : β) : upd (upd f x a) y b = upd (upd f y b) x a := by
  funext z
  unfold upd
  by_cases h1 : z = x
  · subst h1
    simp [h]
  · simp [h1]
theorem upd_id {β : Type} (f : Nat → β) (x : Nat) {a : β} (h : f x = a) : upd f x a = f := by
  funext z
  unfold upd
  split
  · rename_i e; rw [e, h]
  · rfl

/-- A mapper is as it should be. -/
def Good (os : Os) (m : Mapper) (v : View) : Prop :=
  m.length = v.size ∧
  match v.file with
  | none => m.ptr = none ∧ m.fd = none
  | some f => ∃ a fd, m.ptr = some a ∧ m.fd = some fd ∧ os.fds fd = some f ∧ os.maps a = some (f, m.length) ∧ os.size f = m.length

/-- What holds between the operations. -/
structure Inv (s : State) (w : World) : Prop where
  files : s.os.files = w.files
  absent : ∀ x, s.objs x = none ↔ w.vars x = none
  good : ∀ x m v, s.objs x = some m → w.vars x = some v → Good s.os m v
  owned : Owned s

theorem Inv.cases {s : State} {w : World} (i : Inv s w) (x : Nat) :
    (s.objs x = none ∧ w.vars x = none) ∨ ∃ m v, s.objs x = some m ∧ w.vars x = some v ∧ Good s.os m v := by
  cases h : s.objs x with
  | none => exact .inl ⟨rfl, (i.absent x).1 h⟩
  | some m =>
    cases h2 : w.vars x with
    | none => rw [(i.absent x).2 h2] at h; cases h
    | some v => exact .inr ⟨m, v, rfl, rfl, i.good x m v h h2⟩

/-- An object that owns nothing comes and goes. -/
theorem Inv.put {s : State} {w : World} (i : Inv s w) (x : Nat) (hx : ∀ m, s.objs x = some m → m.fd = none ∧ m.ptr = none)
    (o : Option Mapper) (v : Option View) (hov : (o = none ∧ v = none) ∨ ∃ l, o = some { length := l } ∧ v = some ⟨none, l⟩) :
    Inv { s with objs := upd s.objs x o } { w with vars := upd w.vars x v } := by
  have ho : ∀ m, o = some m → m.fd = none ∧ m.ptr = none := by
    intro m e
    rcases hov with ⟨h, _⟩ | ⟨l, h, _⟩
    · rw [h] at e; cases e
    · rw [h] at e; cases e; exact ⟨rfl, rfl⟩
  have h2 : ∀ y m, upd s.objs x o y = some m → (∃ i, m.fd = some i ∨ m.ptr = some i) → s.objs y = some m := by
    intro y m e ⟨i, hi⟩
    by_cases hy : y = x
    · rw [hy, upd_same] at e
      rw [(ho m e).1, (ho m e).2] at hi
      rcases hi with hi | hi <;> cases hi
    · rwa [upd_other hy] at e
  have h3 : ∀ y m, s.objs y = some m → (∃ i, m.fd = some i ∨ m.ptr = some i) → upd s.objs x o y = some m := by
    intro y m e ⟨i, hi⟩
    by_cases hy : y = x
    · rw [hy] at e
      rw [(hx m e).1, (hx m e).2] at hi
      rcases hi with hi | hi <;> cases hi
    · rwa [upd_other hy]
  refine ⟨i.files, ?_, ?_, ⟨?_, ?_, ?_, ?_⟩⟩
  · intro y
    dsimp only
    by_cases hy : y = x
    · rw [hy, upd_same, upd_same]
      rcases hov with ⟨h, h'⟩ | ⟨l, h, h'⟩ <;> simp [h, h']
    · rw [upd_other hy, upd_other hy]; exact i.absent y
  · intro y m v'
    dsimp only
    by_cases hy : y = x
    · rw [hy, upd_same, upd_same]
      intro e1 e2
      rcases hov with ⟨h, h'⟩ | ⟨l, h, h'⟩
      · rw [h] at e1; cases e1
      · rw [h] at e1; rw [h'] at e2; cases e1; cases e2
        exact ⟨rfl, rfl, rfl⟩
    · rw [upd_other hy, upd_other hy]; exact i.good y m v'
  · intro j hj
    obtain ⟨y, m, e, hm⟩ := i.owned.fds j hj
    exact ⟨y, m, h3 y m e ⟨j, .inl hm⟩, hm⟩
  · intro j hj
    obtain ⟨y, m, e, hm⟩ := i.owned.maps j hj
    exact ⟨y, m, h3 y m e ⟨j, .inr hm⟩, hm⟩
  · intro y z m n j hy hz hm hn
    exact i.owned.fdOnce y z m n j (h2 y m hy ⟨j, .inl hm⟩) (h2 z n hz ⟨j, .inl hn⟩) hm hn
  · intro y z m n j hy hz hm hn
    exact i.owned.mapOnce y z m n j (h2 y m hy ⟨j, .inr hm⟩) (h2 z n hz ⟨j, .inr hn⟩) hm hn

theorem close_none (os : Os) (m : Mapper) (h1 : m.ptr = none) (h2 : m.fd = none) : close os m = (os, m) := by
  cases m
  simp only at h1 h2
  subst h1; subst h2
  rfl

theorem close_some (os : Os) (m : Mapper) {a fd f : Nat} (h1 : m.ptr = some a) (h2 : m.fd = some fd) (h3 : os.maps a = some (f, m.length)) :
    close os m = ({ os with fds := upd os.fds fd none, maps := upd os.maps a none }, { length := m.length }) := by
  cases m
  simp only at h1 h2 h3
  subst h1; subst h2
  simp only [close, Os.close, Os.munmap, h3]
  rfl

/-- `close`. -/
theorem Inv.close {s : State} {w : World} (i : Inv s w) (x : Nat) (m : Mapper) (v : View) (hx : s.objs x = some m) (hv : w.vars x = some v) :
    Inv ⟨(close s.os m).1, upd s.objs x (some (close s.os m).2)⟩ { w with vars := upd w.vars x (some { v with file := none }) } ∧
      (Mmapper.close s.os m).2 = { length := m.length } := by
  have hg := i.good x m v hx hv
  obtain ⟨hl, hg⟩ := hg
  cases hf : v.file with
  | none =>
    rw [hf] at hg
    rw [close_none _ _ hg.1 hg.2]
    have hm : m = { length := m.length } := by
      cases m
      simp only at hg
      obtain ⟨g1, g2⟩ := hg
      subst g1; subst g2
      rfl
    have he : ({ v with file := none } : View) = v := by cases v; simp only at hf; rw [hf]
    rw [he, upd_id _ _ hx, upd_id _ _ hv]
    exact ⟨i, hm⟩
  | some f =>
    rw [hf] at hg
    obtain ⟨a, fd, h1, h2, h3, h4, h5⟩ := hg
    rw [close_some _ _ h1 h2 h4]
    refine ⟨⟨i.files, ?_, ?_, ⟨?_, ?_, ?_, ?_⟩⟩, rfl⟩
    · intro y
      dsimp only
      by_cases hy : y = x
      · rw [hy, upd_same, upd_same]; simp
      · rw [upd_other hy, upd_other hy]; exact i.absent y
    · intro y n v'
      dsimp only
      by_cases hy : y = x
      · rw [hy, upd_same, upd_same]
        intro e1 e2
        cases e1; cases e2
        exact ⟨hl, rfl, rfl⟩
      · rw [upd_other hy, upd_other hy]
        intro e1 e2
        obtain ⟨k1, k2⟩ := i.good y n v' e1 e2
        refine ⟨k1, ?_⟩
        cases hf' : v'.file with
        | none => rw [hf'] at k2; exact k2
        | some f' =>
          rw [hf'] at k2
          obtain ⟨a', fd', g1, g2, g3, g4, g5⟩ := k2
          refine ⟨a', fd', g1, g2, ?_, ?_, g5⟩
          · dsimp only
            rw [upd_other (show fd' ≠ fd from fun e => hy (i.owned.fdOnce y x n m fd e1 hx (e ▸ g2) h2))]; exact g3
          · dsimp only
            rw [upd_other (show a' ≠ a from fun e => hy (i.owned.mapOnce y x n m a e1 hx (e ▸ g1) h1))]; exact g4
    · intro j hj
      dsimp only at hj
      have hjf : j ≠ fd := by intro e; rw [e, upd_same] at hj; exact hj rfl
      rw [upd_other hjf] at hj
      obtain ⟨y, n, e, hn⟩ := i.owned.fds j hj
      refine ⟨y, n, ?_, hn⟩
      dsimp only
      rw [upd_other]
      · exact e
      · intro hy
        rw [hy, hx] at e
        cases e
        rw [h2] at hn
        exact hjf (Option.some.inj hn).symm
    · intro j hj
      dsimp only at hj
      have hjf : j ≠ a := by intro e; rw [e, upd_same] at hj; exact hj rfl
      rw [upd_other hjf] at hj
      obtain ⟨y, n, e, hn⟩ := i.owned.maps j hj
      refine ⟨y, n, ?_, hn⟩
      dsimp only
      rw [upd_other]
      · exact e
      · intro hy
        rw [hy, hx] at e
        cases e
        rw [h1] at hn
        exact hjf (Option.some.inj hn).symm
    · intro y z n n' j
      dsimp only
      by_cases hy : y = x
      · rw [hy, upd_same]; intro e _ h _; cases e; cases h
      · by_cases hz : z = x
        · rw [hz, upd_same]; intro _ e _ h; cases e; cases h
        · rw [upd_other hy, upd_other hz]; exact i.owned.fdOnce y z n n' j
    · intro y z n n' j
      dsimp only
      by_cases hy : y = x
      · rw [hy, upd_same]; intro e _ h _; cases e; cases h
      · by_cases hz : z = x
        · rw [hz, upd_same]; intro _ e _ h; cases e; cases h
        · rw [upd_other hy, upd_other hz]; exact i.owned.mapOnce y z n n' j

/-- `open` of a mapper that owns nothing. -/
theorem Inv.fill {s : State} {w : World} (i : Inv s w) (x : Nat) {l : Nat} (hx : s.objs x = some { length := l }) (name fd a : Nat)
    (h1 : s.os.fds fd = none) (h2 : s.os.maps a = none) :
    Inv ⟨{ s.os with fds := upd s.os.fds fd (some name), maps := upd s.os.maps a (some (name, s.os.size name)) },
        upd s.objs x (some { ptr := some a, length := s.os.size name, fd := some fd })⟩
      { w with vars := upd w.vars x (some ⟨some name, s.os.size name⟩) } := by
  have hfd : ∀ y m j, s.objs y = some m → m.fd = some j → j ≠ fd := by
    intro y m j e hm hj
    rcases i.cases y with ⟨h, _⟩ | ⟨m', v, g1, g2, g3, g4⟩
    · rw [h] at e; cases e
    · rw [g1] at e; cases e
      cases hf : v.file with
      | none => rw [hf] at g4; rw [g4.2] at hm; cases hm
      | some f =>
        rw [hf] at g4
        obtain ⟨a', fd', k1, k2, k3, _⟩ := g4
        rw [k2] at hm; cases hm
        rw [hj, h1] at k3; cases k3
  have hmap : ∀ y m j, s.objs y = some m → m.ptr = some j → j ≠ a := by
    intro y m j e hm hj
    rcases i.cases y with ⟨h, _⟩ | ⟨m', v, g1, g2, g3, g4⟩
    · rw [h] at e; cases e
    · rw [g1] at e; cases e
      cases hf : v.file with
      | none => rw [hf] at g4; rw [g4.1] at hm; cases hm
      | some f =>
        rw [hf] at g4
        obtain ⟨a', fd', k1, k2, k3, k4, _⟩ := g4
        rw [k1] at hm; cases hm
        rw [hj, h2] at k4; cases k4
  refine ⟨i.files, ?_, ?_, ⟨?_, ?_, ?_, ?_⟩⟩
  · intro y
    dsimp only
    by_cases hy : y = x
    · rw [hy, upd_same, upd_same]; simp
    · rw [upd_other hy, upd_other hy]; exact i.absent y
  · intro y n v'
    dsimp only
    by_cases hy : y = x
    · rw [hy, upd_same, upd_same]
      intro e1 e2
      cases e1; cases e2
      exact ⟨rfl, a, fd, rfl, rfl, upd_same _ _ _, upd_same _ _ _, rfl⟩
    · rw [upd_other hy, upd_other hy]
      intro e1 e2
      obtain ⟨k1, k2⟩ := i.good y n v' e1 e2
      refine ⟨k1, ?_⟩
      cases hf' : v'.file with
      | none => rw [hf'] at k2; exact k2
      | some f' =>
        rw [hf'] at k2
        obtain ⟨a', fd', g1, g2, g3, g4, g5⟩ := k2
        refine ⟨a', fd', g1, g2, ?_, ?_, g5⟩
        · dsimp only
          rw [upd_other (hfd y n fd' e1 g2)]; exact g3
        · dsimp only
          rw [upd_other (hmap y n a' e1 g1)]; exact g4
  · intro j hj
    dsimp only at hj ⊢
    by_cases hjf : j = fd
    · exact ⟨x, _, upd_same _ _ _, by rw [hjf]⟩
    · rw [upd_other hjf] at hj
      obtain ⟨y, n, e, hn⟩ := i.owned.fds j hj
      refine ⟨y, n, ?_, hn⟩
      rw [upd_other]
      · exact e
      · intro hy
        rw [hy, hx] at e
        cases e
        cases hn
  · intro j hj
    dsimp only at hj ⊢
    by_cases hjf : j = a
    · exact ⟨x, _, upd_same _ _ _, by rw [hjf]⟩
    · rw [upd_other hjf] at hj
      obtain ⟨y, n, e, hn⟩ := i.owned.maps j hj
      refine ⟨y, n, ?_, hn⟩
      rw [upd_other]
      · exact e
      · intro hy
        rw [hy, hx] at e
        cases e
        cases hn
  · intro y z n n' j
    dsimp only
    by_cases hy : y = x
    · by_cases hz : z = x
      · intros; rw [hy, hz]
      · rw [hy, upd_same, upd_other hz]
        intro e1 e2 e3 e4
        cases e1; cases e3
        exact absurd rfl (hfd z n' fd e2 e4)
    · by_cases hz : z = x
      · rw [hz, upd_same, upd_other hy]
        intro e1 e2 e3 e4
        cases e2; cases e4
        exact absurd rfl (hfd y n fd e1 e3)
      · rw [upd_other hy, upd_other hz]; exact i.owned.fdOnce y z n n' j
  · intro y z n n' j
    dsimp only
    by_cases hy : y = x
    · by_cases hz : z = x
      · intros; rw [hy, hz]
      · rw [hy, upd_same, upd_other hz]
        intro e1 e2 e3 e4
        cases e1; cases e3
        exact absurd rfl (hmap z n' a e2 e4)
    · by_cases hz : z = x
      · rw [hz, upd_same, upd_other hy]
        intro e1 e2 e3 e4
        cases e2; cases e4
        exact absurd rfl (hmap y n a e1 e3)
      · rw [upd_other hy, upd_other hz]; exact i.owned.mapOnce y z n n' j

/-- `open` of a mapper that may be open: what it had is closed last, but that makes no difference. -/
theorem Inv.openOk {s : State} {w : World} (i : Inv s w) (x : Nat) (m : Mapper) (v : View) (hx : s.objs x = some m) (hv : w.vars x = some v) (name fd a : Nat)
    (h1 : s.os.fds fd = none) (h2 : s.os.maps a = none) :
    Inv ⟨(«open» s.os m name (.succeed fd a)).2.1, upd s.objs x (some («open» s.os m name (.succeed fd a)).2.2)⟩
      { w with vars := upd w.vars x (some ⟨some name, s.os.size name⟩) } := by
  obtain ⟨i', hm⟩ := i.close x m v hx hv
  obtain ⟨hl, hg⟩ := i.good x m v hx hv
  have hx' : upd s.objs x (some (Mmapper.close s.os m).2) x = some { length := m.length } := by rw [upd_same, hm]
  cases hf : v.file with
  | none =>
    rw [hf] at hg
    have e := close_none s.os m hg.1 hg.2
    have e' := close_none { s.os with fds := upd s.os.fds fd (some name), maps := upd s.os.maps a (some (name, s.os.size name)) } m hg.1 hg.2
    rw [e] at i' hx'
    have := i'.fill x hx' name fd a h1 h2
    simp only [«open», e']
    dsimp only at this
    rw [upd_upd, upd_upd] at this
    exact this
  | some f =>
    rw [hf] at hg
    obtain ⟨a', fd', g1, g2, g3, g4, g5⟩ := hg
    have hfd : fd' ≠ fd := by intro e; rw [e, h1] at g3; cases g3
    have ha : a' ≠ a := by intro e; rw [e, h2] at g4; cases g4
    have e := close_some s.os m g1 g2 g4
    have e' := close_some { s.os with fds := upd s.os.fds fd (some name), maps := upd s.os.maps a (some (name, s.os.size name)) } m g1 g2
      (f := f) (by dsimp only; rw [upd_other ha]; exact g4)
    rw [e] at i' hx'
    have := i'.fill x hx' name fd a (by dsimp only; rw [upd_other (Ne.symm hfd)]; exact h1) (by dsimp only; rw [upd_other (Ne.symm ha)]; exact h2)
    simp only [«open», e']
    dsimp only at this
    rw [upd_upd, upd_upd, upd_comm _ hfd, upd_comm _ ha] at this
    exact this

/-- Swapping. -/
theorem Inv.swap {s : State} {w : World} (i : Inv s w) (x y : Nat) {c d : Mapper} {a b : View}
    (hx : s.objs x = some c) (hy : s.objs y = some d) (hvx : w.vars x = some a) (hvy : w.vars y = some b) :
    Inv { s with objs := upd (upd s.objs x (some d)) y (some c) } { w with vars := upd (upd w.vars x (some b)) y (some a) } := by
  let π : Nat → Nat := fun z => if z = y then x else if z = x then y else z
  have ho : ∀ z, upd (upd s.objs x (some d)) y (some c) z = s.objs (π z) := by
    intro z
    dsimp only [π]
    by_cases h1 : z = y
    · rw [if_pos h1, h1, upd_same, hx]
    · by_cases h2 : z = x
      · rw [if_neg h1, if_pos h2, upd_other h1, h2, upd_same, hy]
      · rw [if_neg h1, if_neg h2, upd_other h1, upd_other h2]
  have hv : ∀ z, upd (upd w.vars x (some b)) y (some a) z = w.vars (π z) := by
    intro z
    dsimp only [π]
    by_cases h1 : z = y
    · rw [if_pos h1, h1, upd_same, hvx]
    · by_cases h2 : z = x
      · rw [if_neg h1, if_pos h2, upd_other h1, h2, upd_same, hvy]
      · rw [if_neg h1, if_neg h2, upd_other h1, upd_other h2]
  have hπ : ∀ z, π (π z) = z := by
    intro z
    dsimp only [π]
    by_cases h1 : z = y
    · rw [if_pos h1]
      by_cases h3 : x = y
      · rw [if_pos h3]; omega
      · rw [if_neg h3, if_pos rfl]; omega
    · by_cases h2 : z = x
      · rw [if_neg h1, if_pos h2, if_pos rfl]; omega
      · rw [if_neg h1, if_neg h2, if_neg h1, if_neg h2]
  refine ⟨i.files, ?_, ?_, ⟨?_, ?_, ?_, ?_⟩⟩
  · intro z; dsimp only; rw [ho, hv]; exact i.absent _
  · intro z m v; dsimp only; rw [ho, hv]; exact i.good _ m v
  · intro j hj
    obtain ⟨z, m, e, hm⟩ := i.owned.fds j hj
    exact ⟨π z, m, by dsimp only; rw [ho, hπ]; exact e, hm⟩
  · intro j hj
    obtain ⟨z, m, e, hm⟩ := i.owned.maps j hj
    exact ⟨π z, m, by dsimp only; rw [ho, hπ]; exact e, hm⟩
  · intro z z' m n j
    dsimp only
    rw [ho, ho]
    intro h1 h2 h3 h4
    have := i.owned.fdOnce _ _ m n j h1 h2 h3 h4
    rw [← hπ z, this, hπ]
  · intro z z' m n j
    dsimp only
    rw [ho, ho]
    intro h1 h2 h3 h4
    have := i.owned.mapOnce _ _ m n j h1 h2 h3 h4
    rw [← hπ z, this, hπ]

/-- Writing to a file. -/
theorem Inv.write {s : State} {w : World} (i : Inv s w) (name : Nat) (o : Option (List UInt8)) (ho : o.map List.length = (s.os.files name).map List.length) :
    Inv { s with os := { s.os with files := upd s.os.files name o } } { w with files := upd w.files name o } := by
  refine ⟨by dsimp only; rw [i.files], i.absent, ?_, ⟨i.owned.fds, i.owned.maps, i.owned.fdOnce, i.owned.mapOnce⟩⟩
  intro x m v hx hv
  obtain ⟨k1, k2⟩ := i.good x m v hx hv
  refine ⟨k1, ?_⟩
  cases hf : v.file with
  | none => rw [hf] at k2; exact k2
  | some f =>
    rw [hf] at k2
    obtain ⟨a, fd, g1, g2, g3, g4, g5⟩ := k2
    refine ⟨a, fd, g1, g2, g3, g4, ?_⟩
    rw [← g5]
    unfold Os.size
    dsimp only
    by_cases h : f = name
    · rw [h, upd_same]
      cases h1 : s.os.files name with
      | none =>
        rw [h1] at ho
        cases o with
        | none => rfl
        | some bytes => cases ho
      | some bytes =>
        rw [h1] at ho
        cases o with
        | none => cases ho
        | some bytes' => exact Option.some.inj ho
    · rw [upd_other h]

/-- The memory of a mapper is the content of its file. -/
theorem memory_eq {s : State} {w : World} (i : Inv s w) (x n : Nat) (m : Mapper) (v : View) (hx : s.objs x = some m) (hv : w.vars x = some v) :
    m.ptr.bind (fun a => s.os.memory a n) = content w x n := by
  obtain ⟨k1, k2⟩ := i.good x m v hx hv
  cases v with
  | mk file size =>
    cases file with
    | none =>
      rw [k2.1]
      simp only [content, hv]
      rfl
    | some f =>
      obtain ⟨a, fd, g1, g2, g3, g4, g5⟩ := k2
      rw [g1]
      simp only [Option.bind, Os.memory, g4, content, hv, ← i.files]
      unfold Os.size at g5
      cases h : s.os.files f with
      | none => rfl
      | some bytes =>
        rw [h] at g5
        simp only at g5
        by_cases hn : n < bytes.length
        · simp [hn, ← g5]
        · simp [hn]

/-- A descriptor that is got and closed again. -/
theorem fd_released (os : Os) (fd name l : Nat) (h : os.fds fd = none) :
    (close { os with fds := upd os.fds fd (some name) } { fd := some fd, length := l }).1 = os := by
  cases os
  simp only [close, Os.close]
  rw [upd_upd, upd_id _ _ h]

/-- An operation does what it should. -/
def Sim (r : Except Stop (Obs × State)) (m : Option (Obs × World)) : Prop :=
  match r with
  | .error .undefined => m = none
  | .error .impossible => True
  | .ok (o, s) => ∃ w, m = some (o, w) ∧ Inv s w

theorem step_sim {s : State} {w : World} (i : Inv s w) (op : Op) (hop : NotMove op) : Sim (step s op) (means w op) := by
  cases op with
  | create x =>
    rcases i.cases x with ⟨h1, h2⟩ | ⟨m, v, h1, h2, _⟩
    · simp only [step, means, h1, h2, if_true, Sim]
      exact ⟨_, rfl, i.put x (fun m e => by rw [h1] at e; cases e) _ _ (.inr ⟨0, rfl, rfl⟩)⟩
    · simp [step, means, h1, h2, Sim]
  | destroy x =>
    rcases i.cases x with ⟨h1, h2⟩ | ⟨m, v, h1, h2, _⟩
    · simp [step, means, h1, h2, Sim]
    · obtain ⟨i', hm⟩ := i.close x m v h1 h2
      have i2 := i'.put x (fun n e => by
        have e : upd s.objs x (some (close s.os m).2) x = some n := e
        rw [upd_same, hm] at e
        cases e
        exact ⟨rfl, rfl⟩) none none (.inl ⟨rfl, rfl⟩)
      dsimp only at i2
      rw [upd_upd, upd_upd] at i2
      simp only [step, means, h1, h2, Sim, reduceCtorEq, if_false]
      exact ⟨_, rfl, i2⟩
  | «open» x name calls =>
    rcases i.cases x with ⟨h1, h2⟩ | ⟨m, v, h1, h2, _⟩
    · simp [step, means, h1, h2, Sim]
    · simp only [step, means, h1, h2]
      by_cases hp : Possible s.os name calls
      · simp only [hp, if_true, Sim]
        cases calls with
        | openFails =>
          refine ⟨w, rfl, ?_⟩
          simp only [«open»]
          rw [close_none _ _ rfl rfl, upd_id _ _ h1]
          exact i
        | fstatFails fd =>
          refine ⟨w, rfl, ?_⟩
          simp only [«open»]
          rw [fd_released _ _ _ _ hp.2, upd_id _ _ h1]
          exact i
        | mmapFails fd =>
          refine ⟨w, rfl, ?_⟩
          simp only [«open»]
          rw [fd_released _ _ _ _ hp.2, upd_id _ _ h1]
          exact i
        | succeed fd a =>
          obtain ⟨hs, hfd, ha⟩ := hp
          have i' := i.openOk x m v h1 h2 name fd a hfd ha
          have hf := i.files
          cases hb : w.files name with
          | none =>
            rw [← hf] at hb
            simp only [Os.size, hb] at hs
            omega
          | some bytes =>
            have : s.os.size name = bytes.length := by
              rw [← hf] at hb
              simp only [Os.size, hb]
            rw [this] at i'
            exact ⟨_, rfl, i'⟩
      · simp only [hp, if_false, Sim]
  | close x =>
    rcases i.cases x with ⟨h1, h2⟩ | ⟨m, v, h1, h2, _⟩
    · simp [step, means, h1, h2, Sim]
    · simp only [step, means, h1, h2, Sim]
      exact ⟨_, rfl, (i.close x m v h1 h2).1⟩
  | swap x y =>
    rcases i.cases x with ⟨h1, h2⟩ | ⟨m, v, h1, h2, _⟩ <;> rcases i.cases y with ⟨g1, g2⟩ | ⟨n, u, g1, g2, _⟩ <;>
      simp only [step, means, h1, h2, g1, g2, Sim]
    exact ⟨_, rfl, i.swap x y h1 g1 h2 g2⟩
  | moveConstruct x y => exact hop.elim
  | moveAssign x y => exact hop.elim
  | isOpen x =>
    rcases i.cases x with ⟨h1, h2⟩ | ⟨m, v, h1, h2, _, hg⟩
    · simp [step, means, h1, h2, Sim]
    · simp only [step, means, h1, h2, Sim, Option.map]
      have : m.ptr.isSome = v.file.isSome := by
        cases hf : v.file with
        | none => rw [hf] at hg; rw [hg.1]
        | some f =>
          rw [hf] at hg
          obtain ⟨a, fd, g1, _⟩ := hg
          rw [g1]
          rfl
      rw [this]
      exact ⟨_, rfl, i⟩
  | size x =>
    rcases i.cases x with ⟨h1, h2⟩ | ⟨m, v, h1, h2, hl, _⟩
    · simp [step, means, h1, h2, Sim]
    · simp only [step, means, h1, h2, Sim, Option.map, hl]
      exact ⟨_, rfl, i⟩
  | get x n =>
    rcases i.cases x with ⟨h1, h2⟩ | ⟨m, v, h1, h2, _⟩
    · simp [step, means, content, h1, h2, Sim]
    · have hm := memory_eq i x n m v h1 h2
      simp only [step, means, h1, ← hm]
      cases hp : m.ptr with
      | none => rfl
      | some a =>
        simp only [Option.bind]
        cases ha : s.os.memory a n with
        | none => rfl
        | some r => exact ⟨_, rfl, i⟩
  | set x n b =>
    rcases i.cases x with ⟨h1, h2⟩ | ⟨m, v, h1, h2, _⟩
    · simp [step, means, content, h1, h2, Sim]
    · have hm := memory_eq i x n m v h1 h2
      simp only [step, means, h1, ← hm]
      cases hp : m.ptr with
      | none => rfl
      | some a =>
        simp only [Option.bind]
        cases ha : s.os.memory a n with
        | none => rfl
        | some r =>
          refine ⟨_, rfl, i.write r.1 _ ?_⟩
          unfold Os.memory at ha
          split at ha
          · cases ha
          · split at ha
            · cases ha
            · rename_i _ f hfm bytes hbs
              split at ha
              · cases ha
                simp [hbs]
              · cases ha
  | extern name n b =>
    simp only [step, means, Sim, i.files]
    refine ⟨_, rfl, ?_⟩
    have := i.write name ((w.files name).map (fun bytes => bytes.set n b)) (by rw [i.files]; cases w.files name <;> simp)
    rw [i.files] at this
    exact this

theorem run_sim (ops : List Op) : ∀ (s : State) (w : World), Inv s w → (∀ op ∈ ops, NotMove op) →
    match run s ops with
    | .error .undefined => meansAll w ops = none
    | .error .impossible => True
    | .ok (obs, s) => ∃ w', meansAll w ops = some (obs, w') ∧ Inv s w' := by
  induction ops with
  | nil => intro s w i _; exact ⟨w, rfl, i⟩
  | cons op ops ih =>
    intro s w i hop
    have h := step_sim i op (hop op (List.mem_cons_self ..))
    unfold run meansAll
    cases hs : step s op with
    | error e =>
      rw [hs] at h
      cases e with
      | undefined =>
        have h : means w op = none := h
        simp only [h]
        rfl
      | impossible => trivial
    | ok r =>
      obtain ⟨o, s'⟩ := r
      rw [hs] at h
      obtain ⟨w', h1, h2⟩ := h
      have := ih s' w' h2 (fun op h => hop op (List.mem_cons_of_mem _ h))
      simp only [h1, Option.bind]
      cases hr : run s' ops with
      | error e =>
        rw [hr] at this
        cases e with
        | undefined =>
          have this : meansAll w' ops = none := this
          simp only [this]
          rfl
        | impossible => trivial
      | ok q =>
        rw [hr] at this
        obtain ⟨w2, h3, h4⟩ := this
        simp only [h3]
        exact ⟨w2, rfl, h4⟩

theorem Inv.start (files : Nat → Option (List UInt8)) : Inv ⟨{ files := files }, fun _ => none⟩ { files := files } :=
  ⟨rfl, fun _ => ⟨fun _ => rfl, fun _ => rfl⟩, (fun _ _ _ h => by cases h), ⟨(fun _ h => absurd rfl h), (fun _ h => absurd rfl h),
    (fun _ _ _ _ _ h => by cases h), (fun _ _ _ _ _ h => by cases h)⟩⟩

end Verif.Mmapper.Lemmas
