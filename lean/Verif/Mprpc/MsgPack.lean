import Verif.Serial.Model
/-!
# The MessagePack format

The library `msgpack` is not part of the repository. Its classes `object`, `packer` and `unpacker` are described here by the format (version 0.5,
the one with `RAW` objects, `/repo/src/network/mprpc/message.h:188`), as far as `/repo/src/network/mprpc/object_stream.h:63-69` and
`object_stream.cpp:72-79` use it. An unpacker gives the same objects however its input is cut into pieces, so it is described by a function of
the whole input; how deep arrays and maps may be nested is limited, by 32 levels.
-/
namespace Verif.Mprpc
open Verif.Serial

/-- `std::string`, as in `/repo/src/network/mprpc/message.h:186-194`. -/
abbrev Str := List UInt8

/-- `msgpack::object`, the argument at `/repo/src/network/mprpc/message.h:55`. A negative integer is `neg k` for -(k + 1); the entries of a map are keys and values in turn; floating point numbers are
given by their bits. -/
inductive Obj
  | nil
  | bool (b : Bool)
  | uint (n : BitVec 64)
  | neg (k : BitVec 63)
  | float (bits : BitVec 32)
  | double (bits : BitVec 64)
  | raw (s : Str)
  | arr (l : List Obj)
  | map (l : List Obj)

/-- What an attempt to unpack gives: an object and the bytes behind it; not enough bytes; or `unpack_error`; the uses are at `/repo/src/network/mprpc/object_stream.cpp:72-79`. -/
inductive Res (α : Type)
  | ok (a : α) (rest : Str)
  | more
  | bad
deriving DecidableEq

/-- Continue behind the first part, in the unpacker called at `/repo/src/network/mprpc/object_stream.cpp:72-79`. -/
def Res.bind {α β : Type} : Res α → (α → Str → Res β) → Res β
  | .ok a rest, f => f a rest
  | .more, _ => .more
  | .bad, _ => .bad

/-- The first bytes of an object: all of it, or the length of what follows; read by the unpacker called at `/repo/src/network/mprpc/object_stream.cpp:72-79`. -/
inductive Head
  | leaf (o : Obj)
  | raw (n : Nat)
  | arr (n : Nat)
  | map (n : Nat)

/-- `n` bytes of the input of the unpacker called at `/repo/src/network/mprpc/object_stream.cpp:72-79`. -/
def bytes (n : Nat) (s : Str) : Res Str := if n ≤ s.length then .ok (s.take n) (s.drop n) else .more

/-- Numbers are written with `n` bytes, the highest first, by the packer called at `/repo/src/network/mprpc/object_stream.h:63-69`. -/
def toBE (n v : Nat) : Str := (toLE n v).reverse
/-- The number written so, read by the unpacker called at `/repo/src/network/mprpc/object_stream.cpp:72-79`. -/
def ofBE (s : Str) : Nat := ofLE s.reverse

/-- A number of `n` bytes, read by the unpacker called at `/repo/src/network/mprpc/object_stream.cpp:72-79`. -/
def num (n : Nat) (s : Str) : Res Nat := (bytes n s).bind fun b rest => .ok (ofBE b) rest

/-- The object for a signed number of `n` bytes, made by the unpacker called at `/repo/src/network/mprpc/object_stream.cpp:72-79`. -/
def signed (n v : Nat) : Obj := if v < 256 ^ n / 2 then .uint (BitVec.ofNat _ v) else .neg (BitVec.ofNat _ (256 ^ n - 1 - v))

/-- The first bytes of an object, read by the unpacker called at `/repo/src/network/mprpc/object_stream.cpp:72-79`. -/
def head : Str → Res Head
  | [] => .more
  | b :: s =>
    let n := b.toNat
    if n < 0x80 then .ok (.leaf (.uint (BitVec.ofNat _ n))) s
    else if n < 0x90 then .ok (.map (n - 0x80)) s
    else if n < 0xa0 then .ok (.arr (n - 0x90)) s
    else if n < 0xc0 then .ok (.raw (n - 0xa0)) s
    else if 0xe0 ≤ n then .ok (.leaf (.neg (BitVec.ofNat _ (255 - n)))) s
    else if n = 0xc0 then .ok (.leaf .nil) s
    else if n = 0xc2 then .ok (.leaf (.bool false)) s
    else if n = 0xc3 then .ok (.leaf (.bool true)) s
    else if n = 0xca then (num 4 s).bind fun v rest => .ok (.leaf (.float (BitVec.ofNat _ v))) rest
    else if n = 0xcb then (num 8 s).bind fun v rest => .ok (.leaf (.double (BitVec.ofNat _ v))) rest
    else if n = 0xcc then (num 1 s).bind fun v rest => .ok (.leaf (.uint (BitVec.ofNat _ v))) rest
    else if n = 0xcd then (num 2 s).bind fun v rest => .ok (.leaf (.uint (BitVec.ofNat _ v))) rest
    else if n = 0xce then (num 4 s).bind fun v rest => .ok (.leaf (.uint (BitVec.ofNat _ v))) rest
    else if n = 0xcf then (num 8 s).bind fun v rest => .ok (.leaf (.uint (BitVec.ofNat _ v))) rest
    else if n = 0xd0 then (num 1 s).bind fun v rest => .ok (.leaf (signed 1 v)) rest
    else if n = 0xd1 then (num 2 s).bind fun v rest => .ok (.leaf (signed 2 v)) rest
    else if n = 0xd2 then (num 4 s).bind fun v rest => .ok (.leaf (signed 4 v)) rest
    else if n = 0xd3 then (num 8 s).bind fun v rest => .ok (.leaf (signed 8 v)) rest
    else if n = 0xda then (num 2 s).bind fun v rest => .ok (.raw v) rest
    else if n = 0xdb then (num 4 s).bind fun v rest => .ok (.raw v) rest
    else if n = 0xdc then (num 2 s).bind fun v rest => .ok (.arr v) rest
    else if n = 0xdd then (num 4 s).bind fun v rest => .ok (.arr v) rest
    else if n = 0xde then (num 2 s).bind fun v rest => .ok (.map v) rest
    else if n = 0xdf then (num 4 s).bind fun v rest => .ok (.map v) rest
    else .bad

/-- `n` objects one after the other, read by the unpacker called at `/repo/src/network/mprpc/object_stream.cpp:72-79`. -/
def many (p : Str → Res Obj) : Nat → Str → Res (List Obj)
  | 0, s => .ok [] s
  | n + 1, s => (p s).bind fun o s => (many p n s).bind fun l s => .ok (o :: l) s

/-- The first object of the input, with at most `d` levels of arrays and maps: `execute`, called at `/repo/src/network/mprpc/object_stream.cpp:72-79`. -/
def unpack : Nat → Str → Res Obj
  | 0, s => (head s).bind fun
    | .leaf o, s => .ok o s
    | .raw n, s => (bytes n s).bind fun b s => .ok (.raw b) s
    | .arr _, _ => .bad
    | .map _, _ => .bad
  | d + 1, s => (head s).bind fun
    | .leaf o, s => .ok o s
    | .raw n, s => (bytes n s).bind fun b s => .ok (.raw b) s
    | .arr n, s => (many (unpack d) n s).bind fun l s => .ok (.arr l) s
    | .map n, s => (many (unpack d) (2 * n) s).bind fun l s => .ok (.map l) s

/-- A number after the byte telling its size, written by the packer called at `/repo/src/network/mprpc/object_stream.h:63-69`. -/
def packUint (n : Nat) : Str :=
  if n < 128 then [UInt8.ofNat n]
  else if n < 2 ^ 8 then 0xcc :: toBE 1 n
  else if n < 2 ^ 16 then 0xcd :: toBE 2 n
  else if n < 2 ^ 32 then 0xce :: toBE 4 n
  else 0xcf :: toBE 8 n

/-- A negative number, written by the packer called at `/repo/src/network/mprpc/object_stream.h:63-69`. -/
def packNeg (k : Nat) : Str :=
  if k < 32 then [UInt8.ofNat (255 - k)]
  else if k < 2 ^ 7 then 0xd0 :: toBE 1 (256 ^ 1 - 1 - k)
  else if k < 2 ^ 15 then 0xd1 :: toBE 2 (256 ^ 2 - 1 - k)
  else if k < 2 ^ 31 then 0xd2 :: toBE 4 (256 ^ 4 - 1 - k)
  else 0xd3 :: toBE 8 (256 ^ 8 - 1 - k)

/-- The length of a string, written by the packer called at `/repo/src/network/mprpc/object_stream.h:63-69`. -/
def rawHead (n : Nat) : Str :=
  if n < 32 then [UInt8.ofNat (0xa0 + n)] else if n < 2 ^ 16 then 0xda :: toBE 2 n else 0xdb :: toBE 4 n

/-- The length of an array, written by the packer called at `/repo/src/network/mprpc/object_stream.h:63-69`. -/
def arrHead (n : Nat) : Str :=
  if n < 16 then [UInt8.ofNat (0x90 + n)] else if n < 2 ^ 16 then 0xdc :: toBE 2 n else 0xdd :: toBE 4 n

/-- The length of a map, written by the packer called at `/repo/src/network/mprpc/object_stream.h:63-69`. -/
def mapHead (n : Nat) : Str :=
  if n < 16 then [UInt8.ofNat (0x80 + n)] else if n < 2 ^ 16 then 0xde :: toBE 2 n else 0xdf :: toBE 4 n

mutual
/-- `msgpack::pack`, called at `/repo/src/network/mprpc/object_stream.h:63-69`. -/
def pack : Obj → Str
  | .nil => [0xc0]
  | .bool false => [0xc2]
  | .bool true => [0xc3]
  | .uint n => packUint n.toNat
  | .neg k => packNeg k.toNat
  | .float b => 0xca :: toBE 4 b.toNat
  | .double b => 0xcb :: toBE 8 b.toNat
  | .raw s => rawHead s.length ++ s
  | .arr l => arrHead l.length ++ packs l
  | .map l => mapHead (l.length / 2) ++ packs l

/-- The elements of an array or a map, written by the packer called at `/repo/src/network/mprpc/object_stream.h:63-69`. -/
def packs : List Obj → Str
  | [] => []
  | o :: l => pack o ++ packs l
end

/-- Objects that can be packed and unpacked, with at most `d` levels: lengths of less than 32 bits. The packer called at `/repo/src/network/mprpc/object_stream.h:63-69`
does not check them. -/
def Fits : Nat → Obj → Prop
  | _, .raw s => s.length < 2 ^ 32
  | d + 1, .arr l => l.length < 2 ^ 32 ∧ ∀ o ∈ l, Fits d o
  | d + 1, .map l => l.length % 2 = 0 ∧ l.length / 2 < 2 ^ 32 ∧ ∀ o ∈ l, Fits d o
  | 0, .arr _ => False
  | 0, .map _ => False
  | _, _ => True

end Verif.Mprpc
