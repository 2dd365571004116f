/-!
# Model of `pfi::system::endian`

Source: `/repo/src/system/endian_util.h`, `/repo/src/system/endian_util.cpp`.

A value of an `n`-byte type is its bit pattern, `BitVec (8 * n)`. The host is
little- or big-endian ("PDP is not supported", `endian_util.cpp:39`); this
fixes how a value lies in memory. Memory accesses outside an object are the
outcome `none`.
-/
namespace Verif.Endian

/-- Byte order of the machine the program runs on. -/
inductive Host
  | little
  | big
deriving Repr, DecidableEq

/-- The `n` bytes of `v`, lowest first. -/
def digits : Nat → Nat → List UInt8
  | 0, _ => []
  | n + 1, v => UInt8.ofNat v :: digits n (v / 256)

/-- The number with these bytes, lowest first. -/
def undigits : List UInt8 → Nat
  | [] => 0
  | b :: bs => b.toNat + 256 * undigits bs

/-- The bytes of an object, by address: what `reinterpret_cast<char*>(&v)`
points to. -/
def store (h : Host) {n : Nat} (v : BitVec (8 * n)) : List UInt8 :=
  match h with
  | .little => digits n v.toNat
  | .big => (digits n v.toNat).reverse

/-- The value of the object with these bytes. -/
def load (h : Host) (n : Nat) (p : List UInt8) : BitVec (8 * n) :=
  match h with
  | .little => BitVec.ofNat _ (undigits p)
  | .big => BitVec.ofNat _ (undigits p.reverse)

/-- `check_is_little` (`/repo/src/system/endian_util.cpp:41-45`), whose result
becomes `endian::is_little` (`/repo/src/system/endian_util.cpp:47-48`). -/
def isLittle (h : Host) : Bool :=
  (store h (n := 4) 1)[0]? == some 1

/-- `endian::is_big` (`/repo/src/system/endian_util.cpp:48`). -/
def isBig (h : Host) : Bool := !isLittle h

/-- `swap(p[i], p[j])` (`/repo/src/system/endian_util.cpp:50-56`). -/
def swap (p : List UInt8) (i j : Nat) : Option (List UInt8) :=
  match p[i]?, p[j]? with
  | some a, some b => some ((p.set i b).set j a)
  | _, _ => none

/-- The loop of `reverse(char*, int)` from index `i`
(`/repo/src/system/endian_util.cpp:60-61`). -/
def reverseLoop (size : Nat) (i : Nat) (p : List UInt8) : Option (List UInt8) :=
  if i < size / 2 then
    match swap p i (size - 1 - i) with
    | some p' => reverseLoop size (i + 1) p'
    | none => none
  else some p
termination_by size / 2 - i

/-- `reverse<N>(char*)` with its specialisations for 1, 2, 4 and 8 bytes
(`/repo/src/system/endian_util.h:61-108`). The specialisations copy the object
to `t` and assign the bytes of `t` one by one. -/
def reverseBytes : Nat → List UInt8 → Option (List UInt8)
  | 1, p => some p
  | 2, [q0, q1] => some [q1, q0]
  | 4, [q0, q1, q2, q3] => some [q3, q2, q1, q0]
  | 8, [q0, q1, q2, q3, q4, q5, q6, q7] => some [q7, q6, q5, q4, q3, q2, q1, q0]
  | n, p => reverseLoop n 0 p

/-- The types `reverse` is used at. `other n` is any type of `n` bytes without
a specialisation of its own (`long`, `long long`, `double`, ...). The guards on
`SHRT_MAX`, `USHRT_MAX`, `INT_MAX` and `UINT_MAX` are taken to hold. -/
inductive Ty
  | char
  | schar
  | uchar
  | short
  | ushort
  | int
  | uint
  | other (n : Nat)
deriving Repr, DecidableEq

/-- `sizeof`. -/
@[reducible] def Ty.size : Ty → Nat
  | .char | .schar | .uchar => 1
  | .short | .ushort => 2
  | .int | .uint => 4
  | .other n => n

/-- `reverse<short>` (`/repo/src/system/endian_util.h:137-141`): the operand is
promoted to `int`, `>>` is arithmetic. Left shifts of negative numbers act on
the bit pattern, as in C++98 and C++20. -/
def reverseShort (v : BitVec 16) : BitVec 16 :=
  let w : BitVec 32 := v.signExtend 32
  ((w <<< 8) ||| ((w.sshiftRight 8) &&& 0xff#32)).setWidth 16

/-- `reverse<unsigned short>` (`/repo/src/system/endian_util.h:147-151`). -/
def reverseUShort (v : BitVec 16) : BitVec 16 :=
  let w : BitVec 32 := v.setWidth 32
  ((w <<< 8) ||| (w >>> 8)).setWidth 16

/-- `reverse<int>` (`/repo/src/system/endian_util.h:157-162`). -/
def reverseInt (v : BitVec 32) : BitVec 32 :=
  let v := (v <<< 16) ||| ((v.sshiftRight 16) &&& 0xffff#32)
  ((v &&& 0x00ff00ff#32) <<< 8) ||| ((v.sshiftRight 8) &&& 0x00ff00ff#32)

/-- `reverse<unsigned int>` (`/repo/src/system/endian_util.h:168-173`). -/
def reverseUInt (v : BitVec 32) : BitVec 32 :=
  let v := (v <<< 16) ||| (v >>> 16)
  ((v &&& 0x00ff00ff#32) <<< 8) ||| ((v &&& 0xff00ff00#32) >>> 8)

/-- `reverse(T)` (`/repo/src/system/endian_util.h:110-175`). -/
def reverse (h : Host) : (t : Ty) → BitVec (8 * t.size) → Option (BitVec (8 * t.size))
  | .char, v => some v
  | .schar, v => some v
  | .uchar, v => some v
  | .short, v => some (reverseShort v)
  | .ushort, v => some (reverseUShort v)
  | .int, v => some (reverseInt v)
  | .uint, v => some (reverseUInt v)
  | .other n, v => (reverseBytes n (store h v)).map (load h n)

/-- `to_little` (`/repo/src/system/endian_util.h:177-185`). -/
def toLittle (h : Host) (t : Ty) (v : BitVec (8 * t.size)) : Option (BitVec (8 * t.size)) :=
  match t, v with
  | .char, v => some v
  | .schar, v => some v
  | .uchar, v => some v
  | t, v => if isLittle h then some v else reverse h t v

/-- `to_big` (`/repo/src/system/endian_util.h:187-195`). -/
def toBig (h : Host) (t : Ty) (v : BitVec (8 * t.size)) : Option (BitVec (8 * t.size)) :=
  match t, v with
  | .char, v => some v
  | .schar, v => some v
  | .uchar, v => some v
  | t, v => if isBig h then some v else reverse h t v

/-- `from_little` (`/repo/src/system/endian_util.h:197-201`). -/
def fromLittle (h : Host) (t : Ty) (v : BitVec (8 * t.size)) : Option (BitVec (8 * t.size)) :=
  toLittle h t v

/-- `from_big` (`/repo/src/system/endian_util.h:203-207`). -/
def fromBig (h : Host) (t : Ty) (v : BitVec (8 * t.size)) : Option (BitVec (8 * t.size)) :=
  toBig h t v

end Verif.Endian
