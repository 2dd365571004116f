import Verif.UriCode.Model
/-! Form encoding as a relation, independent of the code. -/

namespace Verif.UriCode.Spec
open Verif.UriCode

/-- The value of a hexadecimal digit of either case. -/
def HexDigit (d : UInt8) (n : Nat) : Prop := ∃ i, n = i ∧ i < 16 ∧
  (("0123456789ABCDEF".toList[i]?).map (·.toNat) = some d.toNat ∨ ("0123456789abcdef".toList[i]?).map (·.toNat) = some d.toNat)

/-- `Encodes t s`: the text `t` is some form encoding of the bytes `s`. Every byte may be escaped; bytes other than `%` and `+` may stand
for themselves; a space may be a plus sign. -/
inductive Encodes : Str → Str → Prop
  | nil : Encodes [] []
  | plain (c : UInt8) (hp : c ≠ 37) (hq : c ≠ 43) {t s : Str} : Encodes t s → Encodes (c :: t) (c :: s)
  | space {t s : Str} : Encodes t s → Encodes (43 :: t) (32 :: s)
  | escape (a b : UInt8) (m n : Nat) (c : UInt8) (ha : HexDigit a m) (hb : HexDigit b n) (hc : c.toNat = 16 * m + n) {t s : Str} :
      Encodes t s → Encodes (37 :: a :: b :: t) (c :: s)

/-- The unreserved characters of RFC 3986. -/
def Unreserved (c : UInt8) : Prop :=
  c.toNat ∈ "ABCDEFGHIJKLMNOPQRSTUVWXYZabcdefghijklmnopqrstuvwxyz0123456789-._~".toList.map Char.toNat

/-- Texts of unreserved characters, plus signs and escapes with capital digits, in which nothing unreserved is escaped. -/
inductive Normal : Str → Prop
  | nil : Normal []
  | plain (c : UInt8) (h : Unreserved c) {t : Str} : Normal t → Normal (c :: t)
  | space {t : Str} : Normal t → Normal (43 :: t)
  | escape (c : UInt8) (a b : UInt8) (h : ¬ Unreserved c) (hs : c ≠ 32)
      (ha : ("0123456789ABCDEF".toList[c.toNat / 16]?).map (·.toNat) = some a.toNat)
      (hb : ("0123456789ABCDEF".toList[c.toNat % 16]?).map (·.toNat) = some b.toNat) {t : Str} : Normal t → Normal (37 :: a :: b :: t)

end Verif.UriCode.Spec
