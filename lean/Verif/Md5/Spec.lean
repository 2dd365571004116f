import Verif.Md5.Model
/-!
# Specification of MD5 (RFC 1321)

Written from the RFC: section 3.1 and 3.2 padding, 3.3 and 3.4 chaining, 3.5
output. The four rounds are given by index formulas, not as an unrolled list.
-/
namespace Verif.Md5.Spec
open Verif.Md5 (Regs)

/-- The RFC's table `T[1..64]`, `T[i] = ⌊2^32 |sin i|⌋`, as printed in the
RFC's reference implementation (`T[0]` is unused). -/
def rfcTable : List UInt32 :=
  [0x00000000, 0xd76aa478, 0xe8c7b756, 0x242070db, 0xc1bdceee, 0xf57c0faf,
   0x4787c62a, 0xa8304613, 0xfd469501, 0x698098d8, 0x8b44f7af, 0xffff5bb1,
   0x895cd7be, 0x6b901122, 0xfd987193, 0xa679438e, 0x49b40821, 0xf61e2562,
   0xc040b340, 0x265e5a51, 0xe9b6c7aa, 0xd62f105d, 0x02441453, 0xd8a1e681,
   0xe7d3fbc8, 0x21e1cde6, 0xc33707d6, 0xf4d50d87, 0x455a14ed, 0xa9e3e905,
   0xfcefa3f8, 0x676f02d9, 0x8d2a4c8a, 0xfffa3942, 0x8771f681, 0x6d9d6122,
   0xfde5380c, 0xa4beea44, 0x4bdecfa9, 0xf6bb4b60, 0xbebfbc70, 0x289b7ec6,
   0xeaa127fa, 0xd4ef3085, 0x04881d05, 0xd9d4d039, 0xe6db99e5, 0x1fa27cf8,
   0xc4ac5665, 0xf4292244, 0x432aff97, 0xab9423a7, 0xfc93a039, 0x655b59c3,
   0x8f0ccc92, 0xffeff47d, 0x85845dd1, 0x6fa87e4f, 0xfe2ce6e0, 0xa3014314,
   0x4e0811a1, 0xf7537e82, 0xbd3af235, 0x2ad7d2bb, 0xeb86d391]

/-- `T[i]`. -/
def T (i : Nat) : UInt32 := rfcTable.getD i 0

/-- Little-endian bytes of the length in bits, modulo 2^64. -/
def lengthBytes (n : Nat) : List UInt8 :=
  (List.range 8).map fun j => UInt8.ofNat ((8 * n) % 2 ^ 64 / 256 ^ j)

/-- Number of zero bytes after the byte 0x80: the least number that makes the
length congruent to 56 modulo 64. -/
def zeroCount (n : Nat) : Nat := (119 - n % 64) % 64

/-- The padded message. -/
def pad (m : List UInt8) : List UInt8 :=
  m ++ [0x80] ++ List.replicate (zeroCount m.length) 0 ++ lengthBytes m.length

/-- Consecutive groups of `n` bytes. -/
def chunks (n : Nat) (l : List UInt8) : List (List UInt8) :=
  if _h : l = [] ∨ n = 0 then [] else l.take n :: chunks n (l.drop n)
termination_by l.length
decreasing_by
  simp only [not_or] at _h
  have := List.length_pos_iff.mpr _h.1
  simp only [List.length_drop]
  omega

/-- Four bytes as a little-endian word. -/
def word (l : List UInt8) : UInt32 :=
  UInt32.ofNat ((l.getD 0 0).toNat + 256 * (l.getD 1 0).toNat + 65536 * (l.getD 2 0).toNat
    + 16777216 * (l.getD 3 0).toNat)

/-- The auxiliary functions `F`, `G`, `H`, `I`. -/
def F (x y z : UInt32) : UInt32 := (x &&& y) ||| (~~~x &&& z)
def G (x y z : UInt32) : UInt32 := (x &&& z) ||| (y &&& ~~~z)
def H (x y z : UInt32) : UInt32 := x ^^^ y ^^^ z
def I (x y z : UInt32) : UInt32 := y ^^^ (x ||| ~~~z)

/-- `X <<< s`: circular left shift. -/
def rotl (x : UInt32) (s : Nat) : UInt32 := ⟨x.toBitVec.rotateLeft s⟩

/-- Auxiliary function of operation `t` (0..63). -/
def aux (t : Nat) : UInt32 → UInt32 → UInt32 → UInt32 :=
  if t < 16 then F else if t < 32 then G else if t < 48 then H else I

/-- Message word of operation `t`. -/
def index (t : Nat) : Nat :=
  if t < 16 then t else if t < 32 then (5 * t + 1) % 16 else if t < 48 then (3 * t + 5) % 16
  else 7 * t % 16

/-- Shift amounts, four per round. -/
def shift (t : Nat) : Nat :=
  ([[7, 12, 17, 22], [5, 9, 14, 20], [4, 11, 16, 23], [6, 10, 15, 21]].getD (t / 16) []).getD (t % 4) 0

/-- Operation `t` on the registers, which then change roles. -/
def op (tbl : Nat → UInt32) (x : Nat → UInt32) (r : Regs) (t : Nat) : Regs :=
  ⟨r.d, r.b + rotl (r.a + aux t r.b r.c r.d + x (index t) + tbl (t + 1)) (shift t), r.b, r.c⟩

/-- One block. -/
def block (tbl : Nat → UInt32) (r : Regs) (x : Nat → UInt32) : Regs :=
  let r' := (List.range 64).foldl (op tbl x) r
  ⟨r'.a + r.a, r'.b + r.b, r'.c + r.c, r'.d + r.d⟩

/-- MD5 with a given table. -/
def md5 (tbl : Nat → UInt32) (m : List UInt8) : Regs :=
  (chunks 64 (pad m)).foldl
    (fun r b => block tbl r fun k => ((chunks 4 b).map word).getD k 0)
    ⟨0x67452301, 0xefcdab89, 0x98badcfe, 0x10325476⟩

/-- The sixteen bytes of the digest, low-order byte of `A` first. -/
def digest (r : Regs) : List UInt8 :=
  [r.a, r.b, r.c, r.d].flatMap fun v => (List.range 4).map fun j => UInt8.ofNat (v.toNat / 256 ^ j)

/-- Hexadecimal text of bytes. -/
def hex (l : List UInt8) : List Char :=
  l.flatMap fun b => [Nat.digitChar (b.toNat / 16), Nat.digitChar (b.toNat % 16)]

end Verif.Md5.Spec
