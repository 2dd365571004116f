import Verif.Fft.Refuse
import Verif.Fft.Float2Lemmas
/-! # Lemmas: refused transforms -/
namespace Verif.Fft.RefuseLemmas
open Verif.Fft Verif.Fft.Lemmas
variable {R : Type} [Add R] [Sub R] [Mul R] [Zero R]

omit [Add R] [Sub R] [Mul R] [Zero R] in
theorem transpose_no_throw (a c : List R) (p : Nat) : transpose a c p ≠ .throws := by
  unfold transpose
  split
  · simp
  · refine foldl_range_ind (fun _ (b : Out (List R)) => b ≠ .throws) _ _ _ (by simp) fun y b _ hb => ?_
    refine foldl_range_ind (fun _ (b : Out (List R)) => b ≠ .throws) _ _ _ hb fun x b _ hb => ?_
    cases b with
    | throws => exact absurd rfl hb
    | ub => simp [transposeStep, Out.bind]
    | ok c =>
      simp only [transposeStep, Out.bind]
      split
      · split <;> simp
      · simp

omit [Add R] [Sub R] [Mul R] [Zero R] in
theorem transposeM_no_throw (a c : List (List R)) : transposeM a c ≠ .throws := by
  unfold transposeM
  split
  · simp
  · refine foldl_range_ind (fun _ (b : Out (List (List R))) => b ≠ .throws) _ _ _ (by simp) fun y b _ hb => ?_
    refine foldl_range_ind (fun _ (b : Out (List (List R))) => b ≠ .throws) _ _ _ hb fun x b _ hb => ?_
    cases b with
    | throws => exact absurd rfl hb
    | ub => simp [transposeMStep, Out.bind]
    | ok c =>
      simp only [transposeMStep, Out.bind]
      split
      · split <;> simp
      · simp

omit [Zero R] in
theorem rows_outcome (tw : Nat → Nat → R) (w h : Nat) (a : List R) : outcome (rowsS tw w h a) = rows tw w h a := by
  induction h generalizing a with
  | zero => rfl
  | succ h ih =>
    simp only [rowsS, rows]
    cases fft tw (a.take w) with
    | throws => rfl
    | ub => rfl
    | ok r =>
      simp only [Out.bind, ← ih]
      rcases rowsS tw w h (a.drop w) with _ | ⟨s, _ | _⟩ <;> rfl

omit [Zero R] in
theorem rowsM_outcome (tw : Nat → Nat → R) (a : List (List R)) : outcome (rowsMS tw a) = rowsM tw a := by
  induction a with
  | nil => rfl
  | cons r a ih =>
    simp only [rowsMS, rowsM]
    cases fft tw r with
    | throws => rfl
    | ub => rfl
    | ok r =>
      simp only [Out.bind, ← ih]
      rcases rowsMS tw a with _ | ⟨s, _ | _⟩ <;> rfl

theorem fft2d_outcome (tw : Nat → Nat → R) (a : List R) (pitch : Nat) : outcome (fft2dS tw a pitch) = fft2d tw a pitch := by
  unfold fft2dS fft2d
  split
  · rfl
  · dsimp only
    split
    · rfl
    · rw [← rows_outcome]
      rcases rowsS tw pitch (a.length / pitch) a with _ | ⟨s, _ | _⟩
      · rfl
      · simp only [Option.bind_some, outcome, Out.bind, Bool.false_eq_true, if_false]
        have := transpose_no_throw s (List.replicate (pitch * (a.length / pitch)) 0) pitch
        cases ht : transpose s (List.replicate (pitch * (a.length / pitch)) 0) pitch with
        | throws => exact absurd ht this
        | ub => rfl
        | ok t =>
          simp only [← rows_outcome]
          rcases rowsS tw (a.length / pitch) pitch t with _ | ⟨u, _ | _⟩
          · rfl
          · simp only [Option.bind_some, outcome, Bool.false_eq_true, if_false]
            have := transpose_no_throw u s (a.length / pitch)
            cases ht : transpose u s (a.length / pitch) with
            | throws => exact absurd ht this
            | ub => rfl
            | ok t => rfl
          · rfl
      · rfl

theorem fft2dM_outcome (tw : Nat → Nat → R) (a : List (List R)) : outcome (fft2dMS tw a) = fft2dM tw a := by
  unfold fft2dMS fft2dM
  dsimp only
  split
  · rfl
  · cases a[0]? with
    | none => rfl
    | some r0 =>
      simp only
      split
      · rfl
      · rw [← rowsM_outcome]
        rcases rowsMS tw a with _ | ⟨s, _ | _⟩
        · rfl
        · simp only [Option.bind_some, outcome, Out.bind, Bool.false_eq_true, if_false]
          have := transposeM_no_throw s (List.replicate r0.length (List.replicate a.length 0))
          cases ht : transposeM s (List.replicate r0.length (List.replicate a.length 0)) with
          | throws => exact absurd ht this
          | ub => rfl
          | ok t =>
            simp only [← rowsM_outcome]
            rcases rowsMS tw t with _ | ⟨u, _ | _⟩
            · rfl
            · simp only [Option.bind_some, outcome, Bool.false_eq_true, if_false]
              have := transposeM_no_throw u s
              cases ht : transposeM u s with
              | throws => exact absurd ht this
              | ub => rfl
              | ok t => rfl
            · rfl
        · rfl

/-- Rows of a length that is refused: nothing has happened. -/
theorem rowsS_refused (tw : Nat → Nat → R) {w h : Nat} {a b : List R} (hl : a.length = h * w) (hb : rowsS tw w h a = some (b, true)) : b = a ∧ isPow2 w = false := by
  cases hp : isPow2 w with
  | false =>
    refine ⟨?_, rfl⟩
    cases h with
    | zero => simp [rowsS] at hb
    | succ h =>
      have : (a.take w).length = w := by rw [List.length_take, hl, Nat.succ_mul]; omega
      simp only [rowsS, fft, this, hp, Bool.not_false, if_true, Option.some.injEq, Prod.mk.injEq, and_true] at hb
      exact hb.symm
  | true =>
    obtain ⟨m, rfl⟩ := (isPow2_iff _).1 hp
    have h1 := rows_outcome tw (2 ^ m) h a
    rw [hb, tab_self a, hl, Float2Lemmas.rows_G] at h1
    simp [outcome] at h1

theorem rowsMS_refused (tw : Nat → Nat → R) {w : Nat} {a b : List (List R)} (hl : ∀ r ∈ a, r.length = w) (hb : rowsMS tw a = some (b, true)) : b = a ∧ isPow2 w = false := by
  cases hp : isPow2 w with
  | false =>
    refine ⟨?_, rfl⟩
    cases a with
    | nil => simp [rowsMS] at hb
    | cons r a =>
      simp only [rowsMS, fft, hl r (by simp), hp, Bool.not_false, if_true, Option.some.injEq, Prod.mk.injEq, and_true] at hb
      exact hb.symm
  | true =>
    obtain ⟨m, rfl⟩ := (isPow2_iff _).1 hp
    have h1 := rowsM_outcome tw a
    rw [hb, tabM_self a _ hl, tabM, Float2Lemmas.rowsM_G] at h1
    simp [outcome] at h1

end Verif.Fft.RefuseLemmas
