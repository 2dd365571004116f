import Verif.Lexical.Model
/-! What integers in decimal notation are, independent of the streams. -/

namespace Verif.Lexical.Spec
open Verif.Lexical

/-- The values of an integer type. -/
def Fits (t : IntType) (n : Int) : Prop :=
  if t.signed then -(2 ^ (t.bits - 1) : Nat) ≤ n ∧ n < (2 ^ (t.bits - 1) : Nat) else 0 ≤ n ∧ n < (2 ^ t.bits : Nat)

/-- `s` is the number `n` written with decimal digits, leading zeros allowed. -/
inductive Digits : Str → Nat → Prop
  | one (d : UInt8) : 48 ≤ d → d ≤ 57 → Digits [d] (d.toNat - 48)
  | more {s : Str} {n : Nat} (d : UInt8) : Digits s n → 48 ≤ d → d ≤ 57 → Digits (s ++ [d]) (10 * n + (d.toNat - 48))

/-- `s` is the integer `n` written in decimal notation, perhaps with a sign. -/
inductive Numeral : Str → Int → Prop
  | plain {s : Str} {n : Nat} : Digits s n → Numeral s n
  | plus {s : Str} {n : Nat} : Digits s n → Numeral (43 :: s) n
  | minus {s : Str} {n : Nat} : Digits s n → Numeral (45 :: s) (-(n : Int))

/-- White space. -/
def Space (c : UInt8) : Prop := c = 32 ∨ (9 ≤ c ∧ c ≤ 13)

/-- A text that begins with a numeral, after white space, that ends where its digits end. -/
def Begins (s : Str) (n : Int) : Prop :=
  ∃ w t rest, s = w ++ t ++ rest ∧ (∀ c ∈ w, Space c) ∧ Numeral t n ∧ ∀ c ∈ rest.head?, ¬ (48 ≤ c ∧ c ≤ 57)

end Verif.Lexical.Spec
