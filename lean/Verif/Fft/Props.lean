import Verif.Fft.Lemmas
import Mathlib.Data.ZMod.Basic
/-!
# C36: the fast Fourier transform computes the Fourier transform, and inverts

Over every commutative ring `R` and for every `tw` that lists the powers of a
root of unity; then for the complex numbers and the sines and cosines of the
code.
-/
namespace Verif.Fft.Props
open Verif.Fft Verif.Fft.Spec Verif.Fft.Lemmas

variable {R : Type} [CommRing R]

/-- On a length that is a power of two, with `tw` the powers of a root of
unity, the result is `Σ_j a(j) ω^(jk)` at each `k`, and no access is out of
bounds. -/
theorem fft_is_dft (tw : Nat → Nat → R) (m : Nat) (ω : R) (hω : Root ω (2 ^ m)) (htw : ∀ k, tw (2 ^ m) k = ω ^ k)
    (a : List R) (ha : a.length = 2 ^ m) : fft tw a = .ok (dft ω a) :=
  fft_eq_dft tw m ω hω htw a ha

/-- Any other length, the empty sequence among them, is refused. -/
theorem fft_refuses (tw : Nat → Nat → R) (a : List R) (ha : ¬ ∃ m, a.length = 2 ^ m) : fft tw a = .throws := by
  unfold fft
  rw [if_pos]
  rw [Bool.not_eq_true', Bool.eq_false_iff]
  exact fun h => ha ((isPow2_iff _).mp h)

/-- The transform with the inverse root undoes the transform up to the factor
`n`: neither direction divides by the length. -/
theorem ifft_fft (tw tw' : Nat → Nat → R) (m : Nat) (ω ω' : R) (hω : Root ω (2 ^ m)) (h1 : ω * ω' = 1)
    (htw : ∀ k, tw (2 ^ m) k = ω ^ k) (htw' : ∀ k, tw' (2 ^ m) k = ω' ^ k) (a : List R) (ha : a.length = 2 ^ m) :
    ∃ b, fft tw a = .ok b ∧ fft tw' b = .ok (a.map fun x => (2 ^ m : Nat) * x) := by
  rw [tab_self a, ha]
  refine ⟨_, fft_tab tw m ω hω htw _, ?_⟩
  rw [fft_tab tw' m ω' (root_inv hω h1) htw']
  congr 1
  rw [show List.map (fun x => ((2 ^ m : Nat) : R) * x) (tab (2 ^ m) fun j => a.getD j 0) =
    tab (2 ^ m) (fun j => ((2 ^ m : Nat) : R) * a.getD j 0) by simp [tab]]
  exact tab_congr fun l hl => dftFn_inverse ω ω' m hω h1 _ l hl

/-- `fft2d` on a linear array of `h` rows of `w`, both powers of two, is the
transform in two dimensions. -/
theorem fft2d_is_dft2 (tw : Nat → Nat → R) (mh mw : Nat) (ωh ωw : R) (hh : Root ωh (2 ^ mh)) (hw : Root ωw (2 ^ mw))
    (hth : ∀ k, tw (2 ^ mh) k = ωh ^ k) (htw : ∀ k, tw (2 ^ mw) k = ωw ^ k) (a : List R)
    (ha : a.length = 2 ^ mh * 2 ^ mw) : fft2d tw a (2 ^ mw) = .ok (dft2 ωh ωw (2 ^ mh) (2 ^ mw) a) :=
  fft2d_eq tw mh mw ωh ωw hh hw hth htw a ha

/-- An array that does not consist of whole rows is refused. -/
theorem fft2d_refuses (tw : Nat → Nat → R) (a : List R) (pitch : Nat) (hp : pitch ≠ 0) (ha : ¬ pitch ∣ a.length) :
    fft2d tw a pitch = .throws := by
  unfold fft2d
  rw [if_neg hp]
  dsimp only
  rw [if_pos]
  intro h
  exact ha ⟨a.length / pitch, by rw [Nat.mul_comm]; exact h.symm⟩

/-- A row length of 0 is not refused: the code divides by it. -/
theorem not_fft2d_defined : ∃ a : List Int, fft2d (fun _ _ => 1) a 0 = .ub :=
  ⟨[1, 2], by decide⟩

/-- `fft2d` on a matrix is the transform in two dimensions. -/
theorem fft2dM_is_dft2 (tw : Nat → Nat → R) (mh mw : Nat) (ωh ωw : R) (hh : Root ωh (2 ^ mh)) (hw : Root ωw (2 ^ mw))
    (hth : ∀ k, tw (2 ^ mh) k = ωh ^ k) (htw : ∀ k, tw (2 ^ mw) k = ωw ^ k) (a : List (List R))
    (ha : a.length = 2 ^ mh) (hr : ∀ r ∈ a, r.length = 2 ^ mw) :
    fft2dM tw a = .ok (dft2M ωh ωw (2 ^ mh) (2 ^ mw) a) :=
  fft2dM_eq tw mh mw ωh ωw hh hw hth htw a ha hr

/-- Every other matrix is refused: a height or a width that is not a power of
two, or rows of different lengths. -/
theorem fft2dM_refuses (tw : Nat → Nat → R) (a : List (List R))
    (ha : ¬ ∃ mh mw, a.length = 2 ^ mh ∧ ∀ r ∈ a, r.length = 2 ^ mw) : fft2dM tw a = .throws := by
  unfold fft2dM
  dsimp only
  by_cases hp : isPow2 a.length = true
  · obtain ⟨mh, hmh⟩ := (isPow2_iff _).mp hp
    match a, ha, hp, hmh with
    | [], _, _, hmh => exact absurd hmh.symm (by simp)
    | r :: rs, ha, hp, hmh =>
      simp only [hp, Bool.not_true, Bool.false_eq_true, if_false, List.getElem?_cons_zero]
      by_cases hany : (r :: rs).any (fun q => q.length != r.length) = true
      · rw [if_pos hany]
      · rw [if_neg hany]
        rw [rowsM, fft_refuses]
        · rfl
        · rintro ⟨mw, hmw⟩
          refine ha ⟨mh, mw, hmh, ?_⟩
          intro q hq
          have := hany
          simp only [List.any_eq_true, not_exists, not_and, bne_iff_ne, ne_eq, not_not] at this
          rw [this q hq, hmw]
  · rw [if_pos]
    rw [Bool.not_eq_true', Bool.eq_false_iff]
    exact hp

/-! ### The complex numbers -/

/-- `fft` computes the Fourier transform with `e^(2πi/n)`. -/
theorem complex_fft (m : Nat) (a : List ℂ) (ha : a.length = 2 ^ m) :
    fft (cTw 1) a = .ok (dft (cRoot 1 (2 ^ m)) a) :=
  fft_eq_dft _ m _ (cRoot_root 1 (.inl rfl) m) (cTw_eq 1 _) a ha

/-- `ifft` computes the Fourier transform with `e^(-2πi/n)`. -/
theorem complex_ifft (m : Nat) (a : List ℂ) (ha : a.length = 2 ^ m) :
    fft (cTw (-1)) a = .ok (dft (cRoot (-1) (2 ^ m)) a) :=
  fft_eq_dft _ m _ (cRoot_root (-1) (.inr rfl) m) (cTw_eq (-1) _) a ha

/-- `ifft` after `fft` multiplies by the length. -/
theorem complex_ifft_fft (m : Nat) (a : List ℂ) (ha : a.length = 2 ^ m) :
    ∃ b, fft (cTw 1) a = .ok b ∧ fft (cTw (-1)) b = .ok (a.map fun x => (2 ^ m : Nat) * x) :=
  ifft_fft _ _ m _ _ (cRoot_root 1 (.inl rfl) m) (cRoot_inv _) (cTw_eq 1 _) (cTw_eq (-1) _) a ha

/-- `fft2d` on the complex numbers, for a linear array. -/
theorem complex_fft2d (flip : ℝ) (hf : flip = 1 ∨ flip = -1) (mh mw : Nat) (a : List ℂ)
    (ha : a.length = 2 ^ mh * 2 ^ mw) :
    fft2d (cTw flip) a (2 ^ mw) = .ok (dft2 (cRoot flip (2 ^ mh)) (cRoot flip (2 ^ mw)) (2 ^ mh) (2 ^ mw) a) :=
  fft2d_eq _ mh mw _ _ (cRoot_root flip hf mh) (cRoot_root flip hf mw) (cTw_eq flip _) (cTw_eq flip _) a ha

/-! ### Cases that meet the hypotheses -/

/-- Over the integers modulo 17 the number 4 is a root of unity for length 4. -/
example : Root (4 : ZMod 17) (2 ^ 2) := by intro _; decide

example : fft (fun _ k => (4 : ZMod 17) ^ k) [1, 2, 3, 4] = .ok [10, 7, 15, 6] := by decide +kernel

example : fft (fun _ k => (4 : ZMod 17) ^ k) [1, 2, 3] = .throws := by decide +kernel

/-- 13 is the inverse of 4, and the length 4 comes back as a factor. -/
example : fft (fun _ k => (13 : ZMod 17) ^ k) [10, 7, 15, 6] = .ok [4 * 1, 4 * 2, 4 * 3, 4 * 4] := by decide +kernel

example : fft2d (fun _ k => (-1 : Int) ^ k) [1, 2, 3, 4] 2 = .ok [10, -2, -4, 0] := by decide +kernel

example : fft2dM (fun _ k => (-1 : Int) ^ k) [[1, 2], [3, 4]] = .ok [[10, -2], [-4, 0]] := by decide +kernel

end Verif.Fft.Props
