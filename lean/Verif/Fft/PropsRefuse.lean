import Verif.Fft.RefuseLemmas
import Verif.Fft.Props
/-!
# A transform that is refused leaves the data alone, or not (C108)
-/
namespace Verif.Fft.Props
open Verif.Fft Verif.Fft.Spec Verif.Fft.Lemmas

section
variable {R : Type} [Add R] [Sub R] [Mul R] [Zero R]

/-- The functions that keep the array have the outcomes of the ones that do not. -/
theorem refuse_same (tw : Nat → Nat → R) : (∀ (a : List R) (pitch : Nat), outcome (fft2dS tw a pitch) = fft2d tw a pitch) ∧
    ∀ a : List (List R), outcome (fft2dMS tw a) = fft2dM tw a :=
  ⟨RefuseLemmas.fft2d_outcome tw, RefuseLemmas.fft2dM_outcome tw⟩

example : fft2d (fun _ k => (-1 : Int) ^ k) [1, 2, 3, 4] 2 = .ok [10, -2, -4, 0] := by decide +kernel

/-- A matrix that is refused is left as it was. -/
theorem refused_matrix_unchanged (tw : Nat → Nat → R) (a b : List (List R)) (h : fft2dMS tw a = some (b, true)) : b = a := by
  unfold fft2dMS at h
  dsimp only at h
  by_cases hp : isPow2 a.length = true
  swap
  · simp only [hp, Bool.not_false, if_true, Option.some.injEq, Prod.mk.injEq, and_true] at h; exact h.symm
  simp only [hp, Bool.not_true, Bool.false_eq_true, if_false] at h
  cases h0 : a[0]? with
  | none => rw [h0] at h; simp at h
  | some r0 =>
    rw [h0] at h
    simp only at h
    by_cases hany : a.any (fun r => r.length != r0.length) = true
    · simp only [hany, if_true, Option.some.injEq, Prod.mk.injEq, and_true] at h; exact h.symm
    have hall : ∀ r ∈ a, r.length = r0.length := by
      intro r hr
      simp only [List.any_eq_true, not_exists, not_and, bne_iff_ne, ne_eq, not_not] at hany
      exact hany r hr
    rw [if_neg hany] at h
    obtain ⟨⟨s, t⟩, hs, h⟩ := Option.bind_eq_some_iff.1 h
    cases t with
    | true =>
      simp only [if_true, Option.some.injEq, Prod.mk.injEq, and_true] at h
      subst h
      exact (RefuseLemmas.rowsMS_refused tw hall hs).1
    | false =>
      exfalso
      simp only [Bool.false_eq_true, if_false] at h
      obtain ⟨mh, hmh⟩ := (isPow2_iff _).1 hp
      have hr := RefuseLemmas.rowsM_outcome tw a
      rw [hs] at hr
      -- the rows have a length that is not refused
      have hw : isPow2 r0.length = true := by
        cases hq : isPow2 r0.length with
        | true => rfl
        | false =>
          cases a with
          | nil => simp at h0
          | cons r a =>
            have : rowsMS tw (r :: a) = some (r :: a, true) := by simp [rowsMS, fft, hall r (by simp), hq]
            rw [this] at hs
            simp at hs
      obtain ⟨mw, hmw⟩ := (isPow2_iff _).1 hw
      have hG := RefuseLemmas.fft2dM_outcome tw a
      have e := tabM_self a (2 ^ mw) (fun r hr => by rw [hall r hr, hmw])
      rw [hmh] at e
      have h2 := Float2Lemmas.fft2dM_G tw mh mw (fun y x => (a.getD y []).getD x 0)
      rw [← e, ← hG] at h2
      unfold fft2dMS at h2
      dsimp only at h2
      simp only [hp, Bool.not_true, Bool.false_eq_true, if_false, h0] at h2
      rw [if_neg hany, hs, Option.bind_some, if_neg (by simp), h] at h2
      simp [outcome] at h2

example : fft2dMS (fun _ k => (-1 : Int) ^ k) [[1, 2], [3]] = some ([[1, 2], [3]], true) ∧
    fft2dMS (fun _ k => (-1 : Int) ^ k) [[1, 2, 3], [4, 5, 6]] = some ([[1, 2, 3], [4, 5, 6]], true) := by decide +kernel

/-- C108 as stated: so is a linear array. -/
def RefusedUnchanged (R : Type) [Add R] [Sub R] [Mul R] [Zero R] : Prop :=
  ∀ (tw : Nat → Nat → R) (a : List R) (pitch : Nat) (b : List R), fft2dS tw a pitch = some (b, true) → b = a

/-- It is if it does not consist of whole rows, if the length of the rows is refused, or if the number of rows is a power of two.
Missing from the full statement: any other number of rows. -/
theorem refused_unchanged_partial (tw : Nat → Nat → R) (a : List R) (pitch : Nat) (b : List R) (h : fft2dS tw a pitch = some (b, true))
    (hc : ¬ pitch ∣ a.length ∨ (¬ ∃ m, pitch = 2 ^ m) ∧ a ≠ [] ∨ ∃ m, a.length = 2 ^ m * pitch) : b = a := by
  unfold fft2dS at h
  by_cases hp : pitch = 0
  · simp [hp] at h
  rw [if_neg hp] at h
  dsimp only at h
  by_cases hl : a.length / pitch * pitch = a.length
  swap
  · rw [if_pos hl] at h
    simp only [Option.some.injEq, Prod.mk.injEq, and_true] at h; exact h.symm
  rw [if_neg (by simpa using hl)] at h
  obtain ⟨⟨s, t⟩, hs, h⟩ := Option.bind_eq_some_iff.1 h
  cases t with
  | true =>
    simp only [if_true, Option.some.injEq, Prod.mk.injEq, and_true] at h
    subst h
    exact (RefuseLemmas.rowsS_refused tw hl.symm hs).1
  | false =>
    exfalso
    simp only [Bool.false_eq_true, if_false] at h
    have hw : a ≠ [] → isPow2 pitch = true := by
      intro hne
      cases hq : isPow2 pitch with
      | true => rfl
      | false =>
        have hpos : 0 < a.length := List.length_pos_of_ne_nil hne
        obtain ⟨k, hk⟩ : ∃ k, a.length / pitch = k + 1 :=
          Nat.exists_eq_succ_of_ne_zero fun e => by rw [e, Nat.zero_mul] at hl; omega
        rw [hk] at hs hl
        have : (a.take pitch).length = pitch := by rw [List.length_take, ← hl, Nat.succ_mul]; omega
        simp [rowsS, fft, this, hq] at hs
    rcases hc with hc | ⟨hc, hne⟩ | ⟨mh, hm⟩
    · exact hc ⟨_, by rw [Nat.mul_comm]; exact hl.symm⟩
    · exact hc ((isPow2_iff _).1 (hw hne))
    · have hne : a ≠ [] := by
        intro e
        rw [e] at hm
        simp only [List.length_nil] at hm
        have : 0 < 2 ^ mh := Nat.pos_of_ne_zero (by simp)
        have := Nat.mul_pos this (Nat.pos_of_ne_zero hp)
        omega
      obtain ⟨mw, rfl⟩ := (isPow2_iff _).1 (hw hne)
      have hG := RefuseLemmas.fft2d_outcome tw a (2 ^ mw)
      have h2 := Float2Lemmas.fft2d_G tw mh mw (fun j => a.getD j 0)
      rw [← hm, ← tab_self a, ← hG] at h2
      unfold fft2dS at h2
      rw [if_neg hp] at h2
      dsimp only at h2
      rw [if_neg (by simpa using hl), hs, Option.bind_some, if_neg (by simp), h] at h2
      simp [outcome] at h2

example : fft2dS (fun _ k => (-1 : Int) ^ k) [1, 2, 3] 2 = some ([1, 2, 3], true) ∧
    fft2dS (fun _ k => (-1 : Int) ^ k) [1, 2, 3, 4, 5, 6] 3 = some ([1, 2, 3, 4, 5, 6], true) := by decide +kernel

end

/-- A number of rows that is no power of two is refused only after all rows have been transformed: the array is left half transformed. -/
theorem late_refusal {R : Type} [CommRing R] (tw : Nat → Nat → R) (mw h : Nat) (ω : R) (hω : Root ω (2 ^ mw)) (htw : ∀ k, tw (2 ^ mw) k = ω ^ k)
    (a : List R) (ha : a.length = h * 2 ^ mw) (hh : ¬ ∃ m, h = 2 ^ m) :
    ∃ b, fft2dS tw a (2 ^ mw) = some (b, true) ∧ b.length = a.length ∧
      ∀ y, y < h → (b.drop (y * 2 ^ mw)).take (2 ^ mw) = dft ω ((a.drop (y * 2 ^ mw)).take (2 ^ mw)) := by
  have pw : 0 < 2 ^ mw := Nat.pos_of_ne_zero (by simp)
  have hrow := rows_tab tw mw ω hω htw h (fun j => a.getD j 0)
  rw [← ha, ← tab_self a, ← RefuseLemmas.rows_outcome] at hrow
  have hs : rowsS tw (2 ^ mw) h a = some (tab a.length fun p => dftFn ω (2 ^ mw) (fun x => a.getD (p / 2 ^ mw * 2 ^ mw + x) 0) (p % 2 ^ mw), false) := by
    rcases hr : rowsS tw (2 ^ mw) h a with _ | ⟨s, _ | _⟩ <;> rw [hr] at hrow <;> simp only [outcome, Out.ok.injEq, reduceCtorEq] at hrow
    rw [hrow]
  refine ⟨tab a.length fun p => dftFn ω (2 ^ mw) (fun x => a.getD (p / 2 ^ mw * 2 ^ mw + x) 0) (p % 2 ^ mw), ?_, length_tab _ _, ?_⟩
  · unfold fft2dS
    rw [if_neg (by omega)]
    dsimp only
    rw [show a.length / 2 ^ mw = h by rw [ha]; exact Nat.mul_div_cancel _ pw, if_neg (by omega), hs, Option.bind_some]
    simp only [Bool.false_eq_true, if_false]
    rw [ha, replicate_tab, transpose_tab _ _ pw]
    simp only
    obtain ⟨k, hk⟩ : ∃ k, 2 ^ mw = k + 1 := ⟨2 ^ mw - 1, by omega⟩
    have hq : isPow2 h = false := by
      rw [← Bool.not_eq_true]; exact fun e => hh ((isPow2_iff _).1 e)
    have hlen : ∀ g : Nat → R, ((tab (2 ^ mw * h) g).take h).length = h := by
      intro g
      rw [List.length_take, length_tab, hk, Nat.succ_mul]; omega
    have : ∀ g : Nat → R, rowsS tw h (2 ^ mw) (tab (2 ^ mw * h) g) = some (tab (2 ^ mw * h) g, true) := by
      intro g
      have hl := hlen g
      generalize tab (2 ^ mw * h) g = t at hl
      rw [hk]
      simp only [rowsS, fft, hl, hq, Bool.not_false, if_true]
    rw [this]
    rfl
  · intro y hy
    have hsplit : a.length = y * 2 ^ mw + (h - y) * 2 ^ mw := by rw [ha, ← Nat.add_mul]; congr 1; omega
    have hle : 2 ^ mw ≤ (h - y) * 2 ^ mw := Nat.le_mul_of_pos_left _ (by omega)
    conv => rhs; rw [tab_self a, hsplit, drop_tab, take_tab _ hle]
    rw [hsplit, drop_tab, take_tab _ hle, dft_tab]
    refine tab_congr fun p hp => ?_
    rw [show y * 2 ^ mw + p = y * 2 ^ mw + p from rfl, (dm hp).1, (dm hp).2]

example : fft2dS (fun _ k => (-1 : Int) ^ k) [1, 2, 3, 4, 5, 6] 2 = some ([3, -1, 7, -1, 11, -1], true) := by decide +kernel

/-- C108 fails. -/
theorem refused_changed : ¬ RefusedUnchanged Int := by
  intro h
  have := h (fun _ k => (-1 : Int) ^ k) [1, 2, 3, 4, 5, 6] 2 [3, -1, 7, -1, 11, -1] (by decide +kernel)
  simp at this

end Verif.Fft.Props
