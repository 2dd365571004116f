/-!
# Specification for the endianness conversions

Byte number `i` of a value is its bits `8 * i .. 8 * i + 7`. A little-endian
representation lists the bytes from number 0 upwards, a big-endian one from
number 0 downwards.
-/
namespace Verif.Endian.Spec

/-- Byte number `i` of `v`, least significant first. -/
def byteNo {n : Nat} (v : BitVec (8 * n)) (i : Nat) : UInt8 :=
  ⟨v.extractLsb' (8 * i) 8⟩

/-- The little-endian representation. -/
def littleEndian {n : Nat} (v : BitVec (8 * n)) : List UInt8 :=
  (List.range n).map (byteNo v)

/-- The big-endian representation. -/
def bigEndian {n : Nat} (v : BitVec (8 * n)) : List UInt8 :=
  (List.range n).map fun i => byteNo v (n - 1 - i)

end Verif.Endian.Spec
