/-! RFC 3629 (UTF-8) and the Unicode data the width conversion is about, independently of the code. -/

namespace Verif.Ustring.Spec

/-- A Unicode scalar value. -/
def Scalar (c : Nat) : Prop := c < 0xD800 ∨ (0xE000 ≤ c ∧ c ≤ 0x10FFFF)

/-- The octets of a scalar value, RFC 3629 section 3. -/
def enc (c : Nat) : List Nat :=
  if c < 0x80 then [c]
  else if c < 0x800 then [0xC0 + c / 64, 0x80 + c % 64]
  else if c < 0x10000 then [0xE0 + c / 4096, 0x80 + c / 64 % 64, 0x80 + c % 64]
  else [0xF0 + c / 262144, 0x80 + c / 4096 % 64, 0x80 + c / 64 % 64, 0x80 + c % 64]

/-- The syntax of one character, RFC 3629 section 4 (`UTF8-1` to `UTF8-4`). -/
inductive Char1 : List Nat → Prop where
  | u1 (a) : a ≤ 0x7F → Char1 [a]
  | u2 (a b) : 0xC2 ≤ a → a ≤ 0xDF → 0x80 ≤ b → b ≤ 0xBF → Char1 [a, b]
  | u3a (b c) : 0xA0 ≤ b → b ≤ 0xBF → 0x80 ≤ c → c ≤ 0xBF → Char1 [0xE0, b, c]
  | u3b (a b c) : 0xE1 ≤ a → a ≤ 0xEC → 0x80 ≤ b → b ≤ 0xBF → 0x80 ≤ c → c ≤ 0xBF → Char1 [a, b, c]
  | u3c (b c) : 0x80 ≤ b → b ≤ 0x9F → 0x80 ≤ c → c ≤ 0xBF → Char1 [0xED, b, c]
  | u3d (a b c) : 0xEE ≤ a → a ≤ 0xEF → 0x80 ≤ b → b ≤ 0xBF → 0x80 ≤ c → c ≤ 0xBF → Char1 [a, b, c]
  | u4a (b c d) : 0x90 ≤ b → b ≤ 0xBF → 0x80 ≤ c → c ≤ 0xBF → 0x80 ≤ d → d ≤ 0xBF → Char1 [0xF0, b, c, d]
  | u4b (a b c d) : 0xF1 ≤ a → a ≤ 0xF3 → 0x80 ≤ b → b ≤ 0xBF → 0x80 ≤ c → c ≤ 0xBF → 0x80 ≤ d → d ≤ 0xBF → Char1 [a, b, c, d]
  | u4c (b c d) : 0x80 ≤ b → b ≤ 0x8F → 0x80 ≤ c → c ≤ 0xBF → 0x80 ≤ d → d ≤ 0xBF → Char1 [0xF4, b, c, d]

/-- Well-formed UTF-8: a sequence of characters (`UTF8-octets`). -/
inductive WellFormed : List Nat → Prop where
  | nil : WellFormed []
  | cons (p s) : Char1 p → WellFormed s → WellFormed (p ++ s)

/-- The octet values of a byte string. -/
def octets (s : List UInt8) : List Nat := s.map UInt8.toNat

/-- Characters `sanitize_utf8` lets through: no control character below U+0020, and not the non-characters U+FFFE, U+FFFF. -/
def Clean (c : Nat) : Prop := 0x20 ≤ c ∧ c ≠ 0xFFFE ∧ c ≠ 0xFFFF

instance (c : Nat) : Decidable (Clean c) := by unfold Clean; infer_instance

/-- Full-width forms of the half-width punctuation and katakana U+FF61..U+FF9D (Unicode compatibility decompositions). -/
def halfFull : List (Nat × Nat) := [
  (0xff61,0x3002),(0xff62,0x300c),(0xff63,0x300d),(0xff64,0x3001),(0xff65,0x30fb),(0xff66,0x30f2),(0xff67,0x30a1),(0xff68,0x30a3),
  (0xff69,0x30a5),(0xff6a,0x30a7),(0xff6b,0x30a9),(0xff6c,0x30e3),(0xff6d,0x30e5),(0xff6e,0x30e7),(0xff6f,0x30c3),(0xff70,0x30fc),
  (0xff71,0x30a2),(0xff72,0x30a4),(0xff73,0x30a6),(0xff74,0x30a8),(0xff75,0x30aa),(0xff76,0x30ab),(0xff77,0x30ad),(0xff78,0x30af),
  (0xff79,0x30b1),(0xff7a,0x30b3),(0xff7b,0x30b5),(0xff7c,0x30b7),(0xff7d,0x30b9),(0xff7e,0x30bb),(0xff7f,0x30bd),(0xff80,0x30bf),
  (0xff81,0x30c1),(0xff82,0x30c4),(0xff83,0x30c6),(0xff84,0x30c8),(0xff85,0x30ca),(0xff86,0x30cb),(0xff87,0x30cc),(0xff88,0x30cd),
  (0xff89,0x30ce),(0xff8a,0x30cf),(0xff8b,0x30d2),(0xff8c,0x30d5),(0xff8d,0x30d8),(0xff8e,0x30db),(0xff8f,0x30de),(0xff90,0x30df),
  (0xff91,0x30e0),(0xff92,0x30e1),(0xff93,0x30e2),(0xff94,0x30e4),(0xff95,0x30e6),(0xff96,0x30e8),(0xff97,0x30e9),(0xff98,0x30ea),
  (0xff99,0x30eb),(0xff9a,0x30ec),(0xff9b,0x30ed),(0xff9c,0x30ef),(0xff9d,0x30f3)]

/-- Katakana with a voiced form (Unicode canonical compositions with U+3099): the KA, SA, TA and HA rows, U and WO. (Unicode also
composes WA, WI and WE, U+30F7..U+30F9; the library leaves those as a base letter and a combining mark.) -/
def voiced : List (Nat × Nat) := [
  (0x30a6,0x30f4),(0x30f2,0x30fa),(0x30ab,0x30ac),(0x30ad,0x30ae),(0x30af,0x30b0),(0x30b1,0x30b2),(0x30b3,0x30b4),(0x30b5,0x30b6),
  (0x30b7,0x30b8),(0x30b9,0x30ba),(0x30bb,0x30bc),(0x30bd,0x30be),(0x30bf,0x30c0),(0x30c1,0x30c2),(0x30c4,0x30c5),(0x30c6,0x30c7),
  (0x30c8,0x30c9),(0x30cf,0x30d0),(0x30d2,0x30d3),(0x30d5,0x30d6),(0x30d8,0x30d9),(0x30db,0x30dc)]

/-- Katakana with a semi-voiced form (Unicode canonical compositions with U+309A): the HA row. -/
def semivoiced : List (Nat × Nat) := [(0x30cf,0x30d1),(0x30d2,0x30d4),(0x30d5,0x30d7),(0x30d8,0x30da),(0x30db,0x30dd)]

/-- The full-width form of a character. -/
def full (u : Nat) : Nat := (List.lookup u halfFull).getD u

/-- Letters without a semi-voiced form on which the code nevertheless composes a semi-voiced mark: KI, KU, KE, KO and the SA and
TA rows. -/
def misread : List Nat := [0x30ad,0x30af,0x30b1,0x30b3,0x30b5,0x30b7,0x30b9,0x30bb,0x30bd,0x30bf,0x30c1,0x30c4,0x30c6,0x30c8]

/-- What appending the half-width or other character `u` to the converted text `out` should give. -/
def widen (out : List Nat) (u : Nat) : List Nat :=
  if u = 0xff9e then
    match out.getLast?.bind (List.lookup · voiced) with
    | some v => out.dropLast ++ [v]
    | none => out ++ [0x3099]
  else if u = 0xff9f then
    match out.getLast?.bind (List.lookup · semivoiced) with
    | some v => out.dropLast ++ [v]
    | none => out ++ [0x309a]
  else if u = 0x2d then
    match out.getLast? with
    | some c => out ++ [if 0x7f < c ∧ c ≠ 0xFFFFFFFF then 0x30fc else 0x2d]
    | none => out ++ [0x2d]
  else out ++ [(halfFull.lookup u).getD u]

end Verif.Ustring.Spec
