import Verif.Any.Spec
/-! The invariant of the owning classes. -/

namespace Verif.Any.Lemmas
open Verif.Any Verif.Any.Spec

variable {α : Type}

theorem upd_same {β : Type} (f : Nat → β) (i : Nat) (v : β) : upd f i v i = v := if_pos rfl
theorem upd_other {β : Type} {f : Nat → β} {i j : Nat} {v : β} (h : j ≠ i) : upd f i v j = f j := if_neg h

/-- What holds between the operations: the values of the objects are in the memory they own, and all memory is owned, by one object. -/
structure Inv (h : Heap α) (objs : Nat → Option (Option Nat)) (vars : Vars α) : Prop where
  absent : ∀ x, objs x = none ↔ vars x = none
  null : ∀ x, objs x = some none → vars x = some none
  value : ∀ x p, objs x = some (some p) → ∃ v, h.cells p = some v ∧ vars x = some (some v)
  leak : NoLeak h objs
  sharing : NoSharing objs
  fresh : ∀ p, h.next ≤ p → h.cells p = .none

theorem Inv.start : Inv ({} : Heap α) (fun _ => .none) (fun _ => .none) :=
  ⟨fun _ => ⟨fun _ => rfl, fun _ => rfl⟩, (fun _ h => by cases h), (fun _ _ h => by cases h), (fun _ h => absurd rfl h), (fun _ _ _ h => by cases h), (fun _ _ => rfl)⟩

/-- The content of an object, and its value. -/
theorem Inv.cases {h : Heap α} {objs : Nat → Option (Option Nat)} {vars : Vars α} (i : Inv h objs vars) (x : Nat) :
    (objs x = .none ∧ vars x = .none) ∨ (objs x = some .none ∧ vars x = some .none) ∨ ∃ p v, objs x = some (some p) ∧ h.cells p = some v ∧ vars x = some (some v) := by
  cases hx : objs x with
  | none => exact .inl ⟨rfl, (i.absent x).1 hx⟩
  | some c =>
    cases c with
    | none => exact .inr (.inl ⟨rfl, i.null x hx⟩)
    | some p =>
      obtain ⟨v, h1, h2⟩ := i.value x p hx
      exact .inr (.inr ⟨p, v, rfl, h1, h2⟩)

/-- An object that owns nothing can be there or not. -/
theorem Inv.empty {h : Heap α} {objs : Nat → Option (Option Nat)} {vars : Vars α} (i : Inv h objs vars) (x : Nat) (hx : objs x = .none ∨ objs x = some .none) :
    Inv h (upd objs x (some .none)) (upd vars x (some .none)) ∧ Inv h (upd objs x .none) (upd vars x .none) := by
  have hp : ∀ p, objs x ≠ some (some p) := by intro p e; rcases hx with hx | hx <;> rw [hx] at e <;> cases e
  constructor
  · refine ⟨?_, ?_, ?_, ?_, ?_, i.fresh⟩
    · intro y
      by_cases hy : y = x
      · subst hy; rw [upd_same, upd_same]; simp
      · rw [upd_other hy, upd_other hy]; exact i.absent y
    · intro y
      by_cases hy : y = x
      · subst hy; rw [upd_same, upd_same]; exact fun _ => rfl
      · rw [upd_other hy, upd_other hy]; exact i.null y
    · intro y p
      by_cases hy : y = x
      · subst hy; rw [upd_same]; intro h; cases h
      · rw [upd_other hy, upd_other hy]; exact i.value y p
    · intro p h
      obtain ⟨y, hy⟩ := i.leak p h
      exact ⟨y, by rw [upd_other (show y ≠ x from fun e => hp p (e ▸ hy))]; exact hy⟩
    · intro y z p
      by_cases hy : y = x
      · subst hy; rw [upd_same]; intro h; cases h
      · by_cases hz : z = x
        · subst hz; rw [upd_same]; intro _ h; cases h
        · rw [upd_other hy, upd_other hz]; exact i.sharing y z p
  · refine ⟨?_, ?_, ?_, ?_, ?_, i.fresh⟩
    · intro y
      by_cases hy : y = x
      · subst hy; rw [upd_same, upd_same]; simp
      · rw [upd_other hy, upd_other hy]; exact i.absent y
    · intro y
      by_cases hy : y = x
      · subst hy; rw [upd_same]; intro h; cases h
      · rw [upd_other hy, upd_other hy]; exact i.null y
    · intro y p
      by_cases hy : y = x
      · subst hy; rw [upd_same]; intro h; cases h
      · rw [upd_other hy, upd_other hy]; exact i.value y p
    · intro p h
      obtain ⟨y, hy⟩ := i.leak p h
      exact ⟨y, by rw [upd_other (show y ≠ x from fun e => hp p (e ▸ hy))]; exact hy⟩
    · intro y z p
      by_cases hy : y = x
      · subst hy; rw [upd_same]; intro h; cases h
      · by_cases hz : z = x
        · subst hz; rw [upd_same]; intro _ h; cases h
        · rw [upd_other hy, upd_other hz]; exact i.sharing y z p

/-- `delete` of what an object owns, which then owns nothing. -/
theorem Inv.delete {h : Heap α} {objs : Nat → Option (Option Nat)} {vars : Vars α} (i : Inv h objs vars) (x : Nat) (c : Option Nat) (hx : objs x = some c) :
    ∃ h', h.delete c = some h' ∧ Inv h' (upd objs x (some .none)) (upd vars x (some .none)) ∧ h'.next = h.next := by
  cases c with
  | none => exact ⟨h, rfl, (i.empty x (.inr hx)).1, rfl⟩
  | some p =>
    obtain ⟨v, h1, h2⟩ := i.value x p hx
    refine ⟨{ h with cells := upd h.cells p .none }, by simp only [Heap.delete, h1], ⟨?_, ?_, ?_, ?_, ?_, ?_⟩, rfl⟩
    · intro y
      by_cases hy : y = x
      · subst hy; rw [upd_same, upd_same]; simp
      · rw [upd_other hy, upd_other hy]; exact i.absent y
    · intro y
      by_cases hy : y = x
      · subst hy; rw [upd_same, upd_same]; exact fun _ => rfl
      · rw [upd_other hy, upd_other hy]; exact i.null y
    · intro y q
      by_cases hy : y = x
      · subst hy; rw [upd_same]; intro h; cases h
      · rw [upd_other hy, upd_other hy]
        intro hq
        dsimp only
        rw [upd_other (show q ≠ p from fun e => hy (i.sharing y x p (e ▸ hq) hx))]
        exact i.value y q hq
    · intro q hq
      dsimp only at hq
      have hqp : q ≠ p := by
        intro e
        rw [e, upd_same] at hq
        exact hq rfl
      rw [upd_other hqp] at hq
      obtain ⟨y, hy⟩ := i.leak q hq
      refine ⟨y, ?_⟩
      rw [upd_other]
      · exact hy
      · intro e
        subst e
        rw [hx] at hy
        exact hqp (Option.some.inj (Option.some.inj hy)).symm
    · intro y z q
      by_cases hy : y = x
      · subst hy; rw [upd_same]; intro h; cases h
      · by_cases hz : z = x
        · subst hz; rw [upd_same]; intro _ h; cases h
        · rw [upd_other hy, upd_other hz]; exact i.sharing y z q
    · intro q hq
      dsimp only
      by_cases e : q = p
      · rw [e, upd_same]
      · rw [upd_other e]; exact i.fresh q hq

/-- `new` for an object that owns nothing. -/
theorem Inv.new {h : Heap α} {objs : Nat → Option (Option Nat)} {vars : Vars α} (i : Inv h objs vars) (x : Nat) (v : α) (hx : objs x = .none ∨ objs x = some .none) :
    Inv (h.new v).2 (upd objs x (some (some (h.new v).1))) (upd vars x (some (some v))) := by
  have hp : ∀ p, objs x ≠ some (some p) := by intro p e; rcases hx with hx | hx <;> rw [hx] at e <;> cases e
  have hold : ∀ y p, objs y = some (some p) → p ≠ h.next := by
    intro y p hy e
    obtain ⟨v, h1, _⟩ := i.value y p hy
    rw [i.fresh p (by omega)] at h1
    cases h1
  unfold Heap.new
  refine ⟨?_, ?_, ?_, ?_, ?_, ?_⟩
  · intro y
    by_cases hy : y = x
    · subst hy; rw [upd_same, upd_same]; simp
    · rw [upd_other hy, upd_other hy]; exact i.absent y
  · intro y
    by_cases hy : y = x
    · subst hy; rw [upd_same]; intro h; cases h
    · rw [upd_other hy, upd_other hy]; exact i.null y
  · intro y p
    dsimp only
    by_cases hy : y = x
    · subst hy
      rw [upd_same, upd_same]
      intro e
      cases e
      exact ⟨v, upd_same _ _ _, rfl⟩
    · rw [upd_other hy, upd_other hy]
      intro e
      rw [upd_other (hold y p e)]
      exact i.value y p e
  · intro p hq
    dsimp only at hq ⊢
    by_cases e : p = h.next
    · subst e; exact ⟨x, upd_same _ _ _⟩
    · rw [upd_other e] at hq
      obtain ⟨y, hy⟩ := i.leak p hq
      exact ⟨y, by rw [upd_other (show y ≠ x from fun e => hp p (e ▸ hy))]; exact hy⟩
  · intro y z p
    dsimp only
    by_cases hy : y = x
    · by_cases hz : z = x
      · intro _ _; rw [hy, hz]
      · subst hy
        rw [upd_same, upd_other hz]
        intro e1 e2
        cases e1
        exact absurd rfl (hold z _ e2)
    · by_cases hz : z = x
      · subst hz
        rw [upd_same, upd_other hy]
        intro e1 e2
        cases e2
        exact absurd rfl (hold y _ e1)
      · rw [upd_other hy, upd_other hz]; exact i.sharing y z p
  · intro p hq
    dsimp only at hq ⊢
    rw [upd_other (by omega)]
    exact i.fresh p (by omega)

/-- Swapping. -/
theorem Inv.swap {h : Heap α} {objs : Nat → Option (Option Nat)} {vars : Vars α} (i : Inv h objs vars) (x y : Nat) {c d : Option Nat} {a b : Option α}
    (hx : objs x = some c) (hy : objs y = some d) (hvx : vars x = some a) (hvy : vars y = some b) :
    Inv h (upd (upd objs x (some d)) y (some c)) (upd (upd vars x (some b)) y (some a)) := by
  -- where the content of an object was before
  let π : Nat → Nat := fun z => if z = y then x else if z = x then y else z
  have ho : ∀ z, upd (upd objs x (some d)) y (some c) z = objs (π z) := by
    intro z
    dsimp only [π]
    by_cases h1 : z = y
    · rw [if_pos h1, h1, upd_same, hx]
    · by_cases h2 : z = x
      · rw [if_neg h1, if_pos h2, upd_other h1, h2, upd_same, hy]
      · rw [if_neg h1, if_neg h2, upd_other h1, upd_other h2]
  have hv : ∀ z, upd (upd vars x (some b)) y (some a) z = vars (π z) := by
    intro z
    dsimp only [π]
    by_cases h1 : z = y
    · rw [if_pos h1, h1, upd_same, hvx]
    · by_cases h2 : z = x
      · rw [if_neg h1, if_pos h2, upd_other h1, h2, upd_same, hvy]
      · rw [if_neg h1, if_neg h2, upd_other h1, upd_other h2]
  have hπ : ∀ z, π (π z) = z := by
    intro z
    dsimp only [π]
    by_cases h1 : z = y
    · rw [if_pos h1]
      by_cases h3 : x = y
      · rw [if_pos h3]; omega
      · rw [if_neg h3, if_pos rfl]; omega
    · by_cases h2 : z = x
      · rw [if_neg h1, if_pos h2, if_pos rfl]; omega
      · rw [if_neg h1, if_neg h2, if_neg h1, if_neg h2]
  refine ⟨?_, ?_, ?_, ?_, ?_, i.fresh⟩
  · intro z; rw [ho, hv]; exact i.absent _
  · intro z; rw [ho, hv]; exact i.null _
  · intro z p; rw [ho, hv]; exact i.value _ p
  · intro p hp
    obtain ⟨z, hz⟩ := i.leak p hp
    exact ⟨π z, by rw [ho, hπ]; exact hz⟩
  · intro z w p
    rw [ho, ho]
    intro h1 h2
    have := i.sharing _ _ p h1 h2
    rw [← hπ z, this, hπ]

theorem upd_upd {β : Type} (f : Nat → β) (x : Nat) (a b : β) : upd (upd f x a) x b = upd f x b := by
  funext z
  unfold upd
  split <;> rfl

/-- `new`, and then `delete` of what was owned. -/
theorem Inv.replace {h : Heap α} {objs : Nat → Option (Option Nat)} {vars : Vars α} (i : Inv h objs vars) (x : Nat) (v : α) (c : Option Nat) (hx : objs x = some c) :
    ∃ h', (h.new v).2.delete c = some h' ∧ Inv h' (upd objs x (some (some (h.new v).1))) (upd vars x (some (some v))) := by
  cases c with
  | none => exact ⟨_, rfl, i.new x v (.inr hx)⟩
  | some p =>
    obtain ⟨w, h1, _⟩ := i.value x p hx
    have hn : p ≠ h.next := by
      intro e
      rw [i.fresh p (by omega)] at h1
      cases h1
    obtain ⟨h', e, i', hnext⟩ := i.delete x (some p) hx
    have e' : h' = { h with cells := upd h.cells p .none } := by
      simp only [Heap.delete, h1] at e
      exact (Option.some.inj e).symm
    have i2 := i'.new x v (.inr (upd_same _ _ _))
    rw [upd_upd, upd_upd] at i2
    refine ⟨(h'.new v).2, ?_, ?_⟩
    · have hc : (h.new v).2.cells p = some w := by
        show upd h.cells h.next (some v) p = some w
        rw [upd_other hn, h1]
      simp only [Heap.delete, hc]
      subst e'
      simp only [Heap.new]
      congr 2
      funext z
      unfold upd
      by_cases h1 : z = p
      · have : z ≠ h.next := fun e => hn (h1 ▸ e)
        simp [h1, hn]
      · simp [h1]
    · have hf : (h'.new v).1 = (h.new v).1 := hnext
      rw [hf] at i2
      exact i2

variable {τ V : Type} [DecidableEq τ]

/-- One operation does what it should. -/
def Sim {σ ω α : Type} (inv : σ → Vars α → Prop) (r : Option (ω × σ)) (m : Option (ω × Vars α)) : Prop :=
  match m with
  | .none => r = .none
  | some (o, vars) => ∃ s, r = some (o, s) ∧ inv s vars

theorem step_sim (s : State τ V) (vars : Vars (Holder τ V)) (i : Inv s.heap s.objs vars) (op : Op τ V) :
    Sim (fun s vars => Inv s.heap s.objs vars) (step s op) (means vars op) := by
  cases op with
  | default x =>
    rcases i.cases x with ⟨h1, h2⟩ | ⟨h1, h2⟩ | ⟨p, v, h1, hc, h2⟩
    · simp only [step, means, h1, h2, if_true, Sim]
      exact ⟨_, rfl, (i.empty x (.inl h1)).1⟩
    · simp [step, means, h1, h2, Sim]
    · simp [step, means, h1, h2, Sim]
  | ofValue x w oom =>
    rcases i.cases x with ⟨h1, h2⟩ | ⟨h1, h2⟩ | ⟨p, v, h1, hc, h2⟩
    · cases oom
      · simp only [step, means, h1, h2, if_true, Sim, Bool.false_eq_true, if_false]
        exact ⟨_, rfl, i.new x w (.inl h1)⟩
      · simp only [step, means, h1, h2, if_true, Sim]
        exact ⟨_, rfl, i⟩
    · simp [step, means, h1, h2, Sim]
    · simp [step, means, h1, h2, Sim]
  | copy x y oom =>
    rcases i.cases x with ⟨h1, h2⟩ | ⟨h1, h2⟩ | ⟨p, v, h1, hc, h2⟩
    · rcases i.cases y with ⟨g1, g2⟩ | ⟨g1, g2⟩ | ⟨q, w, g1, gc, g2⟩
      · simp [step, means, h1, h2, g1, g2, Sim]
      · simp only [step, means, h1, h2, g1, g2, Sim, ne_eq, not_true_eq_false, and_false, if_false, copyContent, Option.map]
        exact ⟨_, rfl, (i.empty x (.inl h1)).1⟩
      · cases oom
        · simp only [step, means, h1, h2, g1, g2, Sim, Bool.false_eq_true, false_and, if_false, copyContent, gc, Option.map]
          exact ⟨_, rfl, i.new x w (.inl h1)⟩
        · simp [step, means, h1, h2, g1, g2, Sim]
          exact i
    · simp [step, means, h1, h2, Sim]
    · simp [step, means, h1, h2, Sim]
  | destroy x =>
    rcases i.cases x with ⟨h1, h2⟩ | ⟨h1, h2⟩ | ⟨p, v, h1, hc, h2⟩
    · simp [step, means, h1, h2, Sim]
    all_goals
      obtain ⟨h', e, i', _⟩ := i.delete x _ h1
      have i2 := (i'.empty x (.inr (upd_same _ _ _))).2
      rw [upd_upd, upd_upd] at i2
      simp only [step, means, h1, h2, e, Sim, Option.map, reduceCtorEq, if_false]
      exact ⟨_, rfl, i2⟩
  | swap x y =>
    rcases i.cases x with ⟨h1, h2⟩ | ⟨h1, h2⟩ | ⟨p, v, h1, hc, h2⟩ <;>
      rcases i.cases y with ⟨g1, g2⟩ | ⟨g1, g2⟩ | ⟨q, w, g1, gc, g2⟩ <;>
      simp only [step, means, h1, h2, g1, g2, Sim] <;>
      exact ⟨_, rfl, i.swap x y h1 g1 h2 g2⟩
  | assignValue x w oom =>
    rcases i.cases x with ⟨h1, h2⟩ | ⟨h1, h2⟩ | ⟨p, v, h1, hc, h2⟩
    · simp [step, means, h1, h2, Sim]
    all_goals
      cases oom
      · obtain ⟨h', e, i'⟩ := i.replace x w _ h1
        simp only [step, means, h1, h2, e, Sim, Option.map, reduceCtorEq, if_false, Bool.false_eq_true]
        exact ⟨_, rfl, i'⟩
      · simp only [step, means, h1, h2, Sim, reduceCtorEq, if_false, if_true]
        exact ⟨_, rfl, i⟩
  | assign x y oom =>
    rcases i.cases x with ⟨h1, h2⟩ | ⟨h1, h2⟩ | ⟨p, v, h1, hc, h2⟩
    · simp [step, means, h1, h2, Sim]
    all_goals
      rcases i.cases y with ⟨g1, g2⟩ | ⟨g1, g2⟩ | ⟨q, w, g1, gc, g2⟩
      · simp [step, means, h1, h2, g1, g2, Sim]
      · obtain ⟨h', e, i', _⟩ := i.delete x _ h1
        simp only [step, means, h1, h2, g1, g2, Sim, ne_eq, not_true_eq_false, and_false, if_false, copyContent, Option.map, Option.bind, e]
        exact ⟨_, rfl, i'⟩
      · cases oom
        · obtain ⟨h', e, i'⟩ := i.replace x w _ h1
          simp only [step, means, h1, h2, g1, g2, Sim, Bool.false_eq_true, false_and, if_false, copyContent, gc, Option.map, Option.bind, e]
          exact ⟨_, rfl, i'⟩
        · simp [step, means, h1, h2, g1, g2, Sim]
          exact i
  | type x =>
    rcases i.cases x with ⟨h1, h2⟩ | ⟨h1, h2⟩ | ⟨p, v, h1, hc, h2⟩ <;>
      simp only [step, means, h1, h2, Sim, Option.map]
    · exact ⟨_, rfl, i⟩
    · simp only [hc]
      exact ⟨_, rfl, i⟩
  | cast x t =>
    rcases i.cases x with ⟨h1, h2⟩ | ⟨h1, h2⟩ | ⟨p, v, h1, hc, h2⟩ <;>
      simp only [step, means, h1, h2, Sim, Option.map]
    · exact ⟨_, rfl, i⟩
    · simp only [hc]
      by_cases ht : v.ty = t
      · simp only [ht, if_true]; exact ⟨_, rfl, i⟩
      · simp only [ht, if_false]; exact ⟨_, rfl, i⟩

theorem run_sim (ops : List (Op τ V)) : ∀ (s : State τ V) (vars : Vars (Holder τ V)), Inv s.heap s.objs vars →
    Sim (fun s vars => Inv s.heap s.objs vars) (run s ops) (meansAll vars ops) := by
  induction ops with
  | nil => intro s vars i; exact ⟨s, rfl, i⟩
  | cons op ops ih =>
    intro s vars i
    have h := step_sim s vars i op
    unfold run meansAll
    cases hm : means vars op with
    | none =>
      rw [hm] at h
      have h : step s op = .none := h
      rw [h]
      rfl
    | some r =>
      obtain ⟨o, vars'⟩ := r
      rw [hm] at h
      obtain ⟨s', h1, h2⟩ := h
      rw [h1]
      have := ih s' vars' h2
      simp only [Option.bind]
      cases hq : meansAll vars' ops with
      | none =>
        rw [hq] at this
        have this : run s' ops = .none := this
        rw [this]
        rfl
      | some q =>
        rw [hq] at this
        obtain ⟨s2, h3, h4⟩ := this
        rw [h3]
        exact ⟨s2, rfl, h4⟩

/-- `reset` with the result of `new`. -/
theorem Inv.newOpt {h : Heap α} {objs : Nat → Option (Option Nat)} {vars : Vars α} (i : Inv h objs vars) (x : Nat) (v : Option α) (hx : objs x = .none ∨ objs x = some .none) :
    Inv (h.newOpt v).2 (upd objs x (some (h.newOpt v).1)) (upd vars x (some v)) := by
  cases v with
  | none => exact (i.empty x hx).1
  | some v => exact i.new x v hx

theorem Inv.replaceOpt {h : Heap α} {objs : Nat → Option (Option Nat)} {vars : Vars α} (i : Inv h objs vars) (x : Nat) (v : Option α) (c : Option Nat) (hx : objs x = some c) :
    ∃ h', (h.newOpt v).2.delete c = some h' ∧ Inv h' (upd objs x (some (h.newOpt v).1)) (upd vars x (some v)) := by
  cases v with
  | none =>
    obtain ⟨h', e, i', _⟩ := i.delete x c hx
    exact ⟨h', e, i'⟩
  | some v => exact i.replace x v c hx

theorem pstep_sim (s : PState V) (vars : Vars V) (i : Inv s.heap s.ptrs vars) (op : POp V) :
    Sim (fun s vars => Inv s.heap s.ptrs vars) (pstep s op) (pmeans vars op) := by
  cases op with
  | construct x w =>
    rcases i.cases x with ⟨h1, h2⟩ | ⟨h1, h2⟩ | ⟨p, v, h1, hc, h2⟩
    · simp only [pstep, pmeans, h1, h2, if_true, Sim]
      exact ⟨_, rfl, i.newOpt x w (.inl h1)⟩
    · simp [pstep, pmeans, h1, h2, Sim]
    · simp [pstep, pmeans, h1, h2, Sim]
  | reset x w =>
    rcases i.cases x with ⟨h1, h2⟩ | ⟨h1, h2⟩ | ⟨p, v, h1, hc, h2⟩
    · simp [pstep, pmeans, reset, h1, h2, Sim]
    all_goals
      obtain ⟨h', e, i'⟩ := i.replaceOpt x w _ h1
      simp only [pstep, pmeans, reset, h1, h2, e, Sim, Option.map, reduceCtorEq, if_false]
      exact ⟨_, rfl, i'⟩
  | swap x y =>
    rcases i.cases x with ⟨h1, h2⟩ | ⟨h1, h2⟩ | ⟨p, v, h1, hc, h2⟩ <;>
      rcases i.cases y with ⟨g1, g2⟩ | ⟨g1, g2⟩ | ⟨q, w, g1, gc, g2⟩ <;>
      simp only [pstep, pmeans, h1, h2, g1, g2, Sim] <;>
      exact ⟨_, rfl, i.swap x y h1 g1 h2 g2⟩
  | deref x =>
    rcases i.cases x with ⟨h1, h2⟩ | ⟨h1, h2⟩ | ⟨p, v, h1, hc, h2⟩ <;>
      simp only [pstep, pmeans, h1, h2, Sim, Option.map]
    simp only [hc]
    exact ⟨_, rfl, i⟩
  | test x =>
    rcases i.cases x with ⟨h1, h2⟩ | ⟨h1, h2⟩ | ⟨p, v, h1, hc, h2⟩ <;>
      simp only [pstep, pmeans, h1, h2, Sim, Option.map] <;>
      exact ⟨_, rfl, i⟩
  | destroy x =>
    rcases i.cases x with ⟨h1, h2⟩ | ⟨h1, h2⟩ | ⟨p, v, h1, hc, h2⟩
    · simp [pstep, pmeans, h1, h2, Sim]
    all_goals
      obtain ⟨h', e, i', _⟩ := i.delete x _ h1
      have i2 := (i'.empty x (.inr (upd_same _ _ _))).2
      rw [upd_upd, upd_upd] at i2
      simp only [pstep, pmeans, h1, h2, e, Sim, Option.map, reduceCtorEq, if_false]
      exact ⟨_, rfl, i2⟩

theorem prun_sim (ops : List (POp V)) : ∀ (s : PState V) (vars : Vars V), Inv s.heap s.ptrs vars →
    Sim (fun s vars => Inv s.heap s.ptrs vars) (prun s ops) (pmeansAll vars ops) := by
  induction ops with
  | nil => intro s vars i; exact ⟨s, rfl, i⟩
  | cons op ops ih =>
    intro s vars i
    have h := pstep_sim s vars i op
    unfold prun pmeansAll
    cases hm : pmeans vars op with
    | none =>
      rw [hm] at h
      have h : pstep s op = .none := h
      rw [h]
      rfl
    | some r =>
      obtain ⟨o, vars'⟩ := r
      rw [hm] at h
      obtain ⟨s', h1, h2⟩ := h
      rw [h1]
      have := ih s' vars' h2
      simp only [Option.bind]
      cases hq : pmeansAll vars' ops with
      | none =>
        rw [hq] at this
        have this : prun s' ops = .none := this
        rw [this]
        rfl
      | some q =>
        rw [hq] at this
        obtain ⟨s2, h3, h4⟩ := this
        rw [h3]
        exact ⟨s2, rfl, h4⟩

end Verif.Any.Lemmas
