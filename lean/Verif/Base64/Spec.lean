/-! Independent specification of padded base64 texts (RFC 4648, section 4). -/

namespace Verif.Base64.Spec

/-- The 64 characters of the standard alphabet. -/
def IsDigit (c : UInt8) : Prop :=
  (65 ≤ c.toNat ∧ c.toNat ≤ 90) ∨ (97 ≤ c.toNat ∧ c.toNat ≤ 122) ∨ (48 ≤ c.toNat ∧ c.toNat ≤ 57) ∨
  c.toNat = 43 ∨ c.toNat = 47

/-- Well-formed padded base64: whole groups of four digits, then possibly one group with one or two `=` at its end. -/
inductive WellFormed : List UInt8 → Prop where
  | nil : WellFormed []
  | pad2 {a b} : IsDigit a → IsDigit b → WellFormed [a, b, 61, 61]
  | pad1 {a b c} : IsDigit a → IsDigit b → IsDigit c → WellFormed [a, b, c, 61]
  | group {a b c d s} : IsDigit a → IsDigit b → IsDigit c → IsDigit d → WellFormed s → WellFormed (a :: b :: c :: d :: s)

/-- The value of a digit per RFC 4648 table 1. -/
def digitValue (c : UInt8) : Nat :=
  if c.toNat = 43 then 62 else if c.toNat = 47 then 63
  else if c.toNat ≤ 57 then c.toNat + 4 else if c.toNat ≤ 90 then c.toNat - 65 else c.toNat - 71

/-- The bits of a number, most significant first. -/
def bits (width n : Nat) : List Bool := (List.range width).reverse.map fun i => n.testBit i

/-- The bit string carried by the digits of a text (padding carries none): 6 bits per digit. -/
def textBits (s : List UInt8) : List Bool := (s.filter (· ≠ 61)).flatMap fun c => bits 6 (digitValue c)

/-- The bit string of a byte string: 8 bits per byte. -/
def byteBits (s : List UInt8) : List Bool := s.flatMap fun c => bits 8 c.toNat

/-- The texts the code accepts: like `WellFormed`, except that after a `=` in third or fourth position of a group
anything at all may follow (up to a total length divisible by four). -/
inductive Tolerated : List UInt8 → Prop where
  | nil : Tolerated []
  | stop2 {a b d s} : IsDigit a → IsDigit b → Tolerated (a :: b :: 61 :: d :: s)
  | stop1 {a b c s} : IsDigit a → IsDigit b → IsDigit c → Tolerated (a :: b :: c :: 61 :: s)
  | group {a b c d s} : IsDigit a → IsDigit b → IsDigit c → IsDigit d → Tolerated s → Tolerated (a :: b :: c :: d :: s)

end Verif.Base64.Spec
