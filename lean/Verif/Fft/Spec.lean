import Mathlib.Algebra.BigOperators.Ring.Finset
import Mathlib.Analysis.SpecialFunctions.Trigonometric.Basic
/-! # Specification: the discrete Fourier transform -/
namespace Verif.Fft.Spec
open Finset

variable {R : Type} [CommRing R]

/-- `Σ_j a(j) ω^(jk)` for `k = 0, …, n - 1`, where `n` is the length of the list. -/
def dft (ω : R) (a : List R) : List R :=
  (List.range a.length).map fun k => ∑ j ∈ range a.length, a.getD j 0 * ω ^ (j * k)

/-- The same in two dimensions, for a matrix of `h` rows and `w` columns stored row by row. -/
def dft2 (ωh ωw : R) (h w : Nat) (a : List R) : List R :=
  (List.range (h * w)).map fun p =>
    ∑ y ∈ range h, ∑ x ∈ range w, a.getD (y * w + x) 0 * ωh ^ (y * (p / w)) * ωw ^ (x * (p % w))

/-- The same for a matrix given as a list of rows. -/
def dft2M (ωh ωw : R) (h w : Nat) (a : List (List R)) : List (List R) :=
  (List.range h).map fun u => (List.range w).map fun v =>
    ∑ y ∈ range h, ∑ x ∈ range w, (a.getD y []).getD x 0 * ωh ^ (y * u) * ωw ^ (x * v)

/-- `ω` is usable as a root of unity for length `n = 2^m`: half way round it is `-1`. -/
def Root (ω : R) (n : Nat) : Prop := n ≠ 1 → ω ^ (n / 2) = -1

/-- The numbers the C++ code uses: `Complex(cos(theta*k), sin(theta*k))` with `theta=2.0*pi/n*flip`
(`/repo/src/math/fft.h:53-54`, `:64`), for real numbers without rounding. -/
noncomputable def cTw (flip : ℝ) (n k : Nat) : ℂ :=
  ⟨Real.cos (2 * Real.pi / n * flip * k), Real.sin (2 * Real.pi / n * flip * k)⟩

/-- `e^(2πi/n)`, the root of unity of the Fourier transform; its inverse belongs to the inverse transform. -/
noncomputable def cRoot (flip : ℝ) (n : Nat) : ℂ := Complex.exp (2 * Real.pi * flip / n * Complex.I)

end Verif.Fft.Spec
