import Verif.Md5.Spec
import Verif.Double.Model
import Mathlib.Analysis.Complex.Trigonometric
/-!
# Specification of the sine table of MD5 (RFC 1321, section 3.4)

"Let T[i] denote the i-th element of the table, which is equal to the integer
part of 4294967296 times abs(sin(i)), where i is in radians." Here `sin` is the
sine of the real numbers.
-/
namespace Verif.Md5.Spec

/-- `T[i]` as RFC 1321 defines it. -/
noncomputable def sineT (i : Nat) : Nat := ⌊4294967296 * |Real.sin i|⌋₊

/-- A floating point sine function which, for the whole numbers `0` to `64`,
is off the real sine by at most `err`. -/
def Accurate (sin : Verif.Double.D → Verif.Double.D) (err : ℝ) : Prop :=
  ∀ i : Nat, i ≤ 64 → ∃ q : Rat, sin (.fin (i : Rat)) = .fin q ∧ |(q : ℝ) - Real.sin i| ≤ err

end Verif.Md5.Spec
