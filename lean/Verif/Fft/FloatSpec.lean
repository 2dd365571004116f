import Verif.Fft.Float
import Verif.Fft.Spec
/-! # Specification: floating point numbers near complex numbers -/
namespace Verif.Fft.Spec
open Verif.Double Verif.Fft

/-- The floating point number `a` is finite and off the complex number `z` by at most `e`. -/
def Near (e : ℝ) (a : CF) (z : ℂ) : Prop :=
  ∃ x y : Rat, a = ⟨.fin x, .fin y⟩ ∧ ‖(⟨(x : ℝ), (y : ℝ)⟩ : ℂ) - z‖ ≤ e

/-- What is assumed of the C library: `atan(1)`, and `cos` and `sin` of numbers
up to 4, are off by at most `2^-52`. -/
def Accurate (L : Libm) : Prop :=
  (∃ q : Rat, L.atan (.fin 1) = .fin q ∧ |(q : ℝ) - Real.pi / 4| ≤ 1 / 2 ^ 52) ∧
  ∀ x : Rat, |x| ≤ 4 →
    (∃ q : Rat, L.cos (.fin x) = .fin q ∧ |(q : ℝ) - Real.cos x| ≤ 1 / 2 ^ 52) ∧
    (∃ q : Rat, L.sin (.fin x) = .fin q ∧ |(q : ℝ) - Real.sin x| ≤ 1 / 2 ^ 52)

/-- The bound: input that is off by at most `e` from numbers of magnitude at
most `M`, of length `2^m`. The second part is the effect of numbers below the
smallest positive `double`. -/
noncomputable def errorBound (m : Nat) (M e : ℝ) : ℝ := 2 ^ m * (e + m * (1 / 2 ^ 43 * (M + e) + 16 * 2 ^ (-1075 : Int)))

end Verif.Fft.Spec
