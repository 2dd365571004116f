import Verif.Optional.Spec
/-! Helper lemmas for `optional`. -/

namespace Verif.Optional

variable {T : Type}

/-- Every pointer is live, unshared and old; the heap holds the variable's value, and nothing else (no leak). -/
structure Rel (s : State T) (e : Nat → Option T) : Prop where
  val : ∀ x, (s.ptr x = none ∧ e x = none) ∨ ∃ a v, s.ptr x = some a ∧ s.heap a = some v ∧ e x = some v
  inj : ∀ x y a, s.ptr x = some a → s.ptr y = some a → x = y
  fresh : ∀ a, s.next ≤ a → s.heap a = none
  noleak : ∀ a v, s.heap a = some v → ∃ x, s.ptr x = some a

theorem init_rel : Rel (init : State T) (fun _ => none) :=
  ⟨fun x => .inl ⟨rfl, rfl⟩, by simp [init], fun a _ => rfl, by simp [init]⟩

theorem Rel.read {s : State T} {e : Nat → Option T} (r : Rel s e) (x : Nat) : read s x = e x := by
  unfold Optional.read
  rcases r.val x with ⟨h1, h2⟩ | ⟨a, v, h1, h2, h3⟩
  · rw [h1, h2]
  · rw [h1, h3]; exact h2

theorem Rel.lt_next {s : State T} {e : Nat → Option T} (r : Rel s e) {x a : Nat} (h : s.ptr x = some a) : a < s.next := by
  rcases r.val x with ⟨h1, _⟩ | ⟨b, v, h1, h2, _⟩
  · rw [h1] at h; cases h
  · rw [h1] at h; cases h
    rcases Nat.lt_or_ge a s.next with h | h
    · exact h
    · rw [r.fresh a h] at h2; cases h2

/-- Replacing the pointer of `x` by a fresh cell holding `v`, or by `NULL`, and freeing the old one. -/
theorem rel_replace {s : State T} {e : Nat → Option T} (r : Rel s e) (x : Nat) (w : Option T) :
    ∃ s', delete { ptr := upd s.ptr x (w.map (fun _ => s.next)), heap := upd s.heap s.next w, next := s.next + 1 } (s.ptr x) = some s' ∧
      Rel s' (fun z => if z = x then w else e z) := by
  have hp : ∀ z a, s.ptr z = some a → a ≠ s.next := fun z a h => by have := r.lt_next h; omega
  rcases r.val x with ⟨h1, h2⟩ | ⟨a, v, h1, h2, h3⟩
  · refine ⟨_, by rw [h1]; rfl, ?_⟩
    refine ⟨?_, ?_, ?_, ?_⟩
    · intro z
      by_cases hz : z = x
      · subst hz
        cases w with
        | none => left; simp [upd]
        | some w => right; exact ⟨s.next, w, by simp [upd]⟩
      · rcases r.val z with ⟨g1, g2⟩ | ⟨b, u, g1, g2, g3⟩
        · left; simp [upd, hz, g1, g2]
        · right; exact ⟨b, u, by simp [upd, hz, g1], by simp [upd, hp z b g1, g2], by simp [hz, g3]⟩
    · intro y z b hy hz
      simp only [upd] at hy hz
      split at hy <;> split at hz
      · omega
      · cases w with
        | none => cases hy
        | some w => simp at hy; exact absurd hy.symm (hp z b hz)
      · cases w with
        | none => cases hz
        | some w => simp at hz; exact absurd hz.symm (hp y b hy)
      · exact r.inj y z b hy hz
    · intro b hb
      simp only at hb
      simp only [upd]
      rw [if_neg (by omega)]
      exact r.fresh b (by omega)
    · intro b u hb
      simp only [upd] at hb
      split at hb
      · rename_i h; subst h hb; exact ⟨x, by simp [upd]⟩
      · obtain ⟨y, hy⟩ := r.noleak b u hb
        have : y ≠ x := by rintro rfl; rw [h1] at hy; cases hy
        exact ⟨y, by simp [upd, this, hy]⟩
  · have ha := hp x a h1
    have hh : upd s.heap s.next w a = some v := by simp [upd, ha, h2]
    refine ⟨{ ptr := upd s.ptr x (w.map (fun _ => s.next)), heap := upd (upd s.heap s.next w) a none, next := s.next + 1 },
      by rw [h1]; simp only [delete, hh], ?_⟩
    refine ⟨?_, ?_, ?_, ?_⟩
    · intro z
      by_cases hz : z = x
      · subst hz
        cases w with
        | none => left; simp [upd]
        | some w => right; exact ⟨s.next, w, by simp [upd], by simp [upd, Ne.symm ha], by simp⟩
      · rcases r.val z with ⟨g1, g2⟩ | ⟨b, u, g1, g2, g3⟩
        · left; simp [upd, hz, g1, g2]
        · right
          have hb : b ≠ a := by rintro rfl; exact hz (r.inj z x b g1 h1)
          exact ⟨b, u, by simp [upd, hz, g1], by simp [upd, hb, hp z b g1, g2], by simp [hz, g3]⟩
    · intro y z b hy hz
      simp only [upd] at hy hz
      split at hy <;> split at hz
      · omega
      · cases w with
        | none => cases hy
        | some w => simp at hy; exact absurd hy.symm (hp z b hz)
      · cases w with
        | none => cases hz
        | some w => simp at hz; exact absurd hz.symm (hp y b hy)
      · exact r.inj y z b hy hz
    · intro b hb
      simp only at hb
      simp only [upd]
      split
      · rfl
      · rw [if_neg (by omega)]; exact r.fresh b (by omega)
    · intro b u hb
      simp only [upd] at hb
      split at hb
      · cases hb
      · split at hb
        · rename_i h; subst h hb; exact ⟨x, by simp [upd]⟩
        · obtain ⟨y, hy⟩ := r.noleak b u hb
          have : y ≠ x := by
            rintro rfl
            rw [h1] at hy; cases hy
            rename_i h _; exact h rfl
          exact ⟨y, by simp [upd, this, hy]⟩

/-- Overwriting the object a variable points to. -/
theorem rel_overwrite {s : State T} {e : Nat → Option T} (r : Rel s e) (x a : Nat) (v : T) (h : s.ptr x = some a) :
    Rel { s with heap := upd s.heap a (some v) } (fun z => if z = x then some v else e z) := by
  refine ⟨?_, r.inj, ?_, ?_⟩
  · intro z
    by_cases hz : z = x
    · subst hz; right; exact ⟨a, v, h, by simp [upd], by simp⟩
    · rcases r.val z with ⟨g1, g2⟩ | ⟨b, u, g1, g2, g3⟩
      · left; exact ⟨g1, by simp [hz, g2]⟩
      · right
        have hb : b ≠ a := by rintro rfl; exact hz (r.inj z x b g1 h)
        exact ⟨b, u, g1, by simp [upd, hb, g2], by simp [hz, g3]⟩
  · intro b hb
    have := r.lt_next h
    simp only at hb
    simp only [upd]
    rw [if_neg (by omega)]
    exact r.fresh b hb
  · intro b u hb
    simp only [upd] at hb
    split at hb
    · rename_i h'; subst h'; exact ⟨x, h⟩
    · exact r.noleak b u hb

theorem upd_self {β : Type} (f : Nat → β) (a : Nat) : upd f a (f a) = f := by
  funext x; simp only [upd]; split
  · rename_i h; rw [h]
  · rfl

theorem step_rel {s : State T} {e : Nat → Option T} (r : Rel s e) (op : Op T) :
    (∃ s' e', step s op = some s' ∧ Spec.step e op = some e' ∧ Rel s' e') ∨ (step s op = none ∧ Spec.step e op = none) := by
  have hupd : upd s.heap s.next none = s.heap := by
    have := upd_self s.heap s.next
    rwa [r.fresh s.next (Nat.le_refl _)] at this
  cases op with
  | assign x y =>
    left
    rcases r.val y with ⟨h1, h2⟩ | ⟨a, v, h1, h2, h3⟩
    · -- NULL: nothing is allocated
      obtain ⟨s', e1, e2⟩ := rel_replace r x none
      have hd : ∃ s'', delete { s with ptr := upd s.ptr x none } (s.ptr x) = some s'' ∧ Rel s'' (fun z => if z = x then none else e z) := by
        simp only [Option.map_none] at e1
        rw [hupd] at e1
        rcases hx : s.ptr x with _ | b
        · rw [hx] at e1
          simp only [delete, Option.some.injEq] at e1 ⊢
          subst e1
          exact ⟨_, rfl, ⟨e2.val, e2.inj, fun a ha => r.fresh a ha, e2.noleak⟩⟩
        · rw [hx] at e1
          simp only [delete] at e1 ⊢
          cases hb : s.heap b with
          | none => rw [hb] at e1; cases e1
          | some u =>
            rw [hb] at e1
            simp only [Option.some.injEq] at e1
            subst e1
            refine ⟨_, rfl, ⟨e2.val, e2.inj, ?_, e2.noleak⟩⟩
            intro a ha
            simp only [upd]
            split
            · rfl
            · exact r.fresh a ha
      obtain ⟨s'', d1, d2⟩ := hd
      refine ⟨s'', _, ?_, rfl, by rw [h2]; exact d2⟩
      simp only [step, assign, copyCtor, h1, d1]
    · obtain ⟨s', e1, e2⟩ := rel_replace r x (some v)
      refine ⟨s', _, ?_, rfl, by rw [h3]; exact e2⟩
      simp only [step, assign, copyCtor, h1, h2, alloc]
      exact e1
  | assignVal x v =>
    left
    rcases r.val x with ⟨h1, h2⟩ | ⟨a, u, h1, h2, h3⟩
    · obtain ⟨s', e1, e2⟩ := rel_replace r x (some v)
      refine ⟨s', _, ?_, rfl, e2⟩
      rw [h1] at e1
      simp only [step, assignVal, h1, alloc]
      exact e1
    · refine ⟨_, _, ?_, rfl, rel_overwrite r x a v h1⟩
      simp only [step, assignVal, h1, h2]
  | write x v =>
    rcases r.val x with ⟨h1, h2⟩ | ⟨a, u, h1, h2, h3⟩
    · right; simp [step, write, Spec.step, h1, h2]
    · left
      refine ⟨_, _, ?_, by simp only [Spec.step, h3, Option.isSome_some, if_true], rel_overwrite r x a v h1⟩
      simp only [step, write, h1, h2]
  | swap x y =>
    left
    refine ⟨_, _, rfl, rfl, ?_⟩
    have hptr : ∀ z, (swap s x y).ptr z = s.ptr (if z = y then x else if z = x then y else z) := by
      intro z
      simp only [swap, upd]
      by_cases h1 : z = y
      · simp [h1]
      · by_cases h2 : z = x
        · subst h2; simp [h1]
        · simp [h1, h2]
    refine ⟨?_, ?_, r.fresh, ?_⟩
    · intro z
      rw [hptr]
      have := r.val (if z = y then x else if z = x then y else z)
      have he : (if z = y then e x else if z = x then e y else e z) = e (if z = y then x else if z = x then y else z) := by
        split
        · rfl
        · split <;> rfl
      rw [he]
      exact this
    · intro z w a hz hw
      rw [hptr] at hz hw
      have := r.inj _ _ a hz hw
      split at this <;> split at this <;> (try split at this) <;> (try split at this) <;> omega
    · intro a v ha
      obtain ⟨z, hz⟩ := r.noleak a v ha
      refine ⟨if z = y then x else if z = x then y else z, ?_⟩
      rw [hptr]
      by_cases h1 : z = y
      · subst h1
        by_cases h2 : x = z
        · simp [h2] ; exact hz
        · simp [h2]; exact hz
      · by_cases h2 : z = x
        · subst h2; simp [h1]; exact hz
        · simp [h1, h2]; exact hz
  | renew x =>
    left
    obtain ⟨s', e1, e2⟩ := rel_replace r x none
    simp only [Option.map_none, hupd] at e1
    simp only [step, renew, Spec.step]
    rcases hx : s.ptr x with _ | b
    · rw [hx] at e1
      simp only [delete, Option.some.injEq] at e1
      subst e1
      refine ⟨_, _, rfl, rfl, ⟨e2.val, e2.inj, fun a ha => r.fresh a ha, e2.noleak⟩⟩
    · rw [hx] at e1
      simp only [delete] at e1 ⊢
      cases hb : s.heap b with
      | none => rw [hb] at e1; cases e1
      | some u =>
        rw [hb] at e1
        simp only [Option.some.injEq] at e1
        subst e1
        refine ⟨_, _, rfl, rfl, ⟨e2.val, e2.inj, ?_, e2.noleak⟩⟩
        intro a ha
        simp only [upd]
        split
        · rfl
        · exact r.fresh a ha

theorem run_rel (ops : List (Op T)) : ∀ {s : State T} {e : Nat → Option T}, Rel s e →
    (∃ s' e', run s ops = some s' ∧ Spec.run e ops = some e' ∧ Rel s' e') ∨ (run s ops = none ∧ Spec.run e ops = none) := by
  induction ops with
  | nil => intro s e r; exact .inl ⟨s, e, rfl, rfl, r⟩
  | cons op ops ih =>
    intro s e r
    rcases step_rel r op with ⟨s', e', h1, h2, h3⟩ | ⟨h1, h2⟩
    · rcases ih h3 with ⟨s'', e'', g1, g2, g3⟩ | ⟨g1, g2⟩
      · exact .inl ⟨s'', e'', by rw [run, h1]; exact g1, by rw [Spec.run, h2]; exact g2, g3⟩
      · exact .inr ⟨by rw [run, h1]; exact g1, by rw [Spec.run, h2]; exact g2⟩
    · exact .inr ⟨by rw [run, h1], by rw [Spec.run, h2]⟩

end Verif.Optional
