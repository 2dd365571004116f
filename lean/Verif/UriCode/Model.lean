/-! Model of `uri_encode` and `uri_decode`, `/repo/src/network/uri.cpp`. Strings are lists of bytes; the character classes are those of
the "C" locale. Lengths are below 2^31, the loop counters are `int`. -/

namespace Verif.UriCode

/-- Byte strings. -/
abbrev Str := List UInt8

/-- `tohex`, `/repo/src/network/uri.cpp:41-47`. -/
def tohex (c : UInt8) : Nat :=
  if 48 ≤ c ∧ c ≤ 57 then c.toNat - 48
  else if 65 ≤ c ∧ c ≤ 70 then c.toNat - 65 + 10
  else if 97 ≤ c ∧ c ≤ 102 then c.toNat - 97 + 10
  else 0

/-- `tochar`, `/repo/src/network/uri.cpp:49-54`. -/
def tochar (h : Nat) : UInt8 :=
  if h < 10 then UInt8.ofNat (48 + h)
  else if h < 16 then UInt8.ofNat (65 + h - 10)
  else 0

/-- `isalnum` in the "C" locale. -/
def isalnum (c : UInt8) : Bool := (48 ≤ c && c ≤ 57) || (65 ≤ c && c ≤ 90) || (97 ≤ c && c ≤ 122)

/-- `uri_encode`, `/repo/src/network/uri.cpp:56-76`. -/
def encode : Str → Str
  | [] => []
  | c :: s =>
    if isalnum c || c = 45 || c = 95 || c = 46 || c = 126 then c :: encode s
    else if c = 32 then 43 :: encode s
    else 37 :: tochar (c.toNat / 16) :: tochar (c.toNat % 16) :: encode s

/-- `uri_decode`, `/repo/src/network/uri.cpp:78-92`. -/
def decode : Str → Str
  | [] => []
  | 37 :: a :: b :: s => UInt8.ofNat (tohex a * 16 + tohex b) :: decode s
  | c :: s => (if c = 43 then 32 else c) :: decode s

end Verif.UriCode
