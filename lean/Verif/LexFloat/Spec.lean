import Verif.LexFloat.Model
import Verif.FloatText.Spec
import Verif.Lexical.Spec
/-! What number texts stand for, and the nearest number of a type. -/
namespace Verif.LexFloat.Spec
open Verif.Double Verif.Double.Spec Verif.Lexical Verif.Lexical.Spec Verif.Json.Spec

/-- The exponent of a number text: nothing, or `e` or `E`, a sign or none, and digits. -/
inductive Exponent : List Nat → Int → Prop
  | none : Exponent [] 0
  | plain (c : Nat) (ds : List Nat) : (c = 101 ∨ c = 69) → ds ≠ [] → (∀ d ∈ ds, Digit d) → Exponent (c :: ds) (decVal ds)
  | plus (c : Nat) (ds : List Nat) : (c = 101 ∨ c = 69) → ds ≠ [] → (∀ d ∈ ds, Digit d) → Exponent (c :: 43 :: ds) (decVal ds)
  | minus (c : Nat) (ds : List Nat) : (c = 101 ∨ c = 69) → ds ≠ [] → (∀ d ∈ ds, Digit d) → Exponent (c :: 45 :: ds) (-(decVal ds : Int))

/-- A number text without sign: digits, perhaps with a point among them or at an end, and perhaps an exponent. -/
inductive Unsigned : List Nat → Rat → Prop
  | whole (ip ex : List Nat) (k : Int) : (∀ d ∈ ip, Digit d) → ip ≠ [] → Exponent ex k → Unsigned (ip ++ ex) (decVal ip * (10 : Rat) ^ k)
  | point (ip fd ex : List Nat) (k : Int) : (∀ d ∈ ip, Digit d) → (∀ d ∈ fd, Digit d) → ip ++ fd ≠ [] → Exponent ex k →
      Unsigned (ip ++ 46 :: fd ++ ex) (decVal (ip ++ fd) * (10 : Rat) ^ (k - (fd.length : Int)))

/-- A number text with the number it stands for. -/
inductive Literal : List Nat → Rat → Prop
  | plain (t : List Nat) (q : Rat) : Unsigned t q → Literal t q
  | plus (t : List Nat) (q : Rat) : Unsigned t q → Literal (43 :: t) q
  | minus (t : List Nat) (q : Rat) : Unsigned t q → Literal (45 :: t) (-q)

/-- After the number text `t`, the character `c` does not look as if the number went on. -/
def Stops (t : List Nat) (c : Nat) : Prop :=
  ¬ Digit c ∧ (101 ∉ t → 69 ∉ t → c ≠ 101 ∧ c ≠ 69 ∧ (46 ∉ t → c ≠ 46))

/-- The text begins, after white space, with a number text that stands for `q`. -/
def Begins (s : Str) (q : Rat) : Prop :=
  ∃ w t rest : Str, s = w ++ t ++ rest ∧ (∀ c ∈ w, Space c) ∧ Literal (t.map UInt8.toNat) q ∧ ∀ c ∈ rest.head?, Stops (t.map UInt8.toNat) c.toNat

/-- `y` is a number of the type, and none is nearer to `q`. -/
structure Nearest (F : Fmt) (q y : Rat) : Prop where
  num : IsNum F y
  near : ∀ z, IsNum F z → dist q y ≤ dist q z

/-- `n` is `q` without its fraction. -/
def Cut (q : Rat) (n : Int) : Prop := if 0 ≤ q then (n : Rat) ≤ q ∧ q < n + 1 else q ≤ n ∧ (n : Rat) - 1 < q

/-- `n` is the first digit of `q` that is not zero, with the sign of `q`. -/
def FirstDigit (q : Rat) (n : Int) : Prop := 1 ≤ n.natAbs ∧ n.natAbs ≤ 9 ∧ ∃ k : Int, Cut (q * (10 : Rat) ^ k) n

end Verif.LexFloat.Spec
