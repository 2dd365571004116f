import Verif.Optional.Lemmas
/-! Property C59. -/

namespace Verif.Optional.Props
open Verif.Optional

variable {T : Type}

/-- C59. A program over any number of optional variables computes with them as plain values: after any history of copies,
assignments, writes through `*`, swaps and destructions, each variable holds the value it has under value semantics. The only
undefined operation is writing through an empty optional; no memory is leaked, shared or freed twice. -/
theorem optional_value_semantics (ops : List (Op T)) :
    (∃ s e, run init ops = some s ∧ Spec.run (fun _ => none) ops = some e ∧
      (∀ x, read s x = e x ∧ boolTest s x = (e x).isSome) ∧ (∀ a v, s.heap a = some v → ∃ x, s.ptr x = some a)) ∨
    (run init ops = none ∧ Spec.run (fun _ => none) ops = none) := by
  rcases run_rel ops (init_rel (T := T)) with ⟨s, e, h1, h2, h3⟩ | h
  · refine .inl ⟨s, e, h1, h2, fun x => ⟨h3.read x, ?_⟩, h3.noleak⟩
    unfold boolTest
    rcases h3.val x with ⟨g1, g2⟩ | ⟨a, v, g1, _, g3⟩
    · rw [g1, g2]; rfl
    · rw [g1, g3]; rfl
  · exact .inr h

-- copy 0 to 1, then change 0: 1 keeps the old value
example : (run init [.assignVal 0 5, .assign 1 0, .write 0 6]).map (fun s => (read s 0, read s 1)) = some (some 6, some 5) := by decide

/-- C59. Equality: two optionals are equal iff both are empty or both hold equal values. -/
theorem optional_eq_iff (teq : T → T → Bool) (r s : Option T) :
    eq teq r s = true ↔ (r = none ∧ s = none) ∨ ∃ a b, r = some a ∧ s = some b ∧ teq a b = true := by
  cases r <;> cases s <;> simp [eq]

/-- C59. `!=` is the negation of `==`. -/
theorem optional_ne_iff (teq : T → T → Bool) (r s : Option T) : ne teq r s = true ↔ ¬ eq teq r s = true := by
  simp [ne]

/-- C59. An empty optional orders before every value; values order as their contents. -/
theorem optional_lt_iff (tlt : T → T → Bool) (r s : Option T) :
    lt tlt r s = true ↔ (r = none ∧ ∃ b, s = some b) ∨ ∃ a b, r = some a ∧ s = some b ∧ tlt a b = true := by
  cases r <;> cases s <;> simp [lt]

/-- C59. The order on optionals is a strict weak order whenever the element order is, and the other comparisons are derived
from it in the usual way. -/
theorem optional_strictWeak (tlt : T → T → Bool) (h : Spec.StrictWeak tlt) :
    Spec.StrictWeak (lt tlt) ∧ ∀ r s, gt tlt r s = lt tlt s r ∧ le tlt r s = !lt tlt s r ∧ ge tlt r s = !lt tlt r s := by
  refine ⟨⟨?_, ?_, ?_⟩, fun r s => ⟨rfl, rfl, rfl⟩⟩
  · intro a; cases a <;> simp [lt, h.irrefl]
  · intro a b c
    cases a <;> cases b <;> cases c <;> simp [lt]
    exact h.trans _ _ _
  · intro a b c
    cases a <;> cases b <;> cases c <;> simp [lt]
    exact h.incomp _ _ _

example : Spec.StrictWeak (fun a b : Nat => decide (a < b)) := by
  refine ⟨by simp, ?_, ?_⟩
  · intro a b c; simp only [decide_eq_true_eq]; omega
  · intro a b c; simp only [decide_eq_false_iff_not]; omega

end Verif.Optional.Props
