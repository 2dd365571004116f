/-!
# Model of `pfi::data::code` (bit-level encoder and decoder)

Source: `/repo/src/data/code/code.cpp`, `/repo/src/data/code/code.h`.

`unsigned int` values are natural numbers below 2^32; every place where the
C++ arithmetic wraps is written with `% 2^32`.  `none` is undefined behaviour
(`__builtin_clz(0)`, `__builtin_ctzll(0)`, an oversized shift) or a read
outside the attached memory.  The byte positions `pos` and the buffer sizes
are not limited to 32 bits (`unsigned int pos` would wrap at 4 GiB).
-/
namespace Verif.Code

/-- Encoder state: the bytes so far and the bit offset in the last byte
(`/repo/src/data/code/code.h:94-96`). -/
structure Enc where
  bytes : List UInt8
  bit : Nat
deriving Repr, DecidableEq

/-- `encoder::encoder` (`/repo/src/data/code/code.cpp:59`). -/
def Enc.new : Enc := ⟨[], 0⟩

/-- `get_len` (`/repo/src/data/code/code.cpp:50-52`); `__builtin_clz(0)` is
undefined. -/
def getLen (v : Nat) : Option Nat := if v = 0 then none else some (Nat.log2 v + 1)

/-- `bytes.back() |= x` (`/repo/src/data/code/code.cpp:90`); `back` on an empty
vector is undefined. The stored value is truncated to a byte. -/
def orBack (l : List UInt8) (x : Nat) : Option (List UInt8) :=
  match l.getLast? with
  | none => none
  | some b => some (l.dropLast ++ [b ||| UInt8.ofNat x])

/-- The loop of `encoder::word_with_length`
(`/repo/src/data/code/code.cpp:86-95`). An iteration that consumes no bit
would never end; it cannot happen and is the outcome `none` here. -/
def wordLoop (v len bit rest : Nat) (bytes : List UInt8) : Option Enc :=
  if _hl : len = 0 then some ⟨bytes, bit⟩
  else
    if _hc : min rest len = 0 then none
    else
      match orBack (if bit = 0 then bytes ++ [0] else bytes)
          ((v &&& (2 ^ (min rest len) - 1)) <<< bit) with
      | none => none
      | some bs =>
        wordLoop (v >>> (min rest len)) (len - min rest len)
          ((bit + min rest len) &&& 7) 8 bs
termination_by len
decreasing_by omega

/-- `encoder::word_with_length` (`/repo/src/data/code/code.cpp:83-96`). -/
def Enc.word (e : Enc) (v len : Nat) : Option Enc :=
  wordLoop v len e.bit (8 - e.bit) e.bytes

/-- `encoder::byte` (`/repo/src/data/code/code.cpp:78-81`). -/
def Enc.byte (e : Enc) (v : UInt8) : Option Enc := some ⟨e.bytes ++ [v], 0⟩

/-- `encoder::gamma` (`/repo/src/data/code/code.cpp:98-104`). -/
def Enc.gamma (e : Enc) (v : Nat) : Option Enc :=
  match getLen v with
  | none => none
  | some l =>
    (e.word 0 (l - 1)).bind fun e1 =>
    (e1.word 1 1).bind fun e2 =>
    e2.word (v - 2 ^ (l - 1)) (l - 1)

/-- `encoder::delta` (`/repo/src/data/code/code.cpp:106-111`). `1<<pmsf` is an
`int` shift; for `pmsf = 31` it is taken to produce the bit pattern of 2^31,
as every compiler does and as C++20 requires. -/
def Enc.delta (e : Enc) (v : Nat) : Option Enc :=
  match getLen v with
  | none => none
  | some l =>
    (e.gamma l).bind fun e1 => e1.word (v - 2 ^ (l - 1)) (l - 1)

/-- `encoder::rice` (`/repo/src/data/code/code.cpp:113-117`). `(1<<k)-1`
overflows `int` for `k = 31` and `v>>k` is undefined for larger `k`. The sum
`(v>>k)+1` wraps. -/
def Enc.rice (e : Enc) (v k : Nat) : Option Enc :=
  if 31 ≤ k then none
  else
    (e.delta (((v >>> k) + 1) % 2 ^ 32)).bind fun e1 =>
      e1.word (v &&& (2 ^ k - 1)) k

/-- The loop of `encoder::prefix_code`
(`/repo/src/data/code/code.cpp:122-126`). -/
def prefixBytes (v : Nat) : List UInt8 :=
  if _h : 128 ≤ v then UInt8.ofNat (v &&& 127) :: prefixBytes (v >>> 7)
  else [UInt8.ofNat (v + 128)]
termination_by v
decreasing_by simp only [Nat.shiftRight_eq_div_pow]; omega

/-- `encoder::prefix_code` (`/repo/src/data/code/code.cpp:119-127`). -/
def Enc.prefixCode (e : Enc) (v : Nat) : Option Enc :=
  some ⟨e.bytes ++ prefixBytes v, 0⟩

/-- `encoder::flush` to a stream (`/repo/src/data/code/code.cpp:66-72`): the
bytes written, the result, and the encoder afterwards. The stream is assumed
to accept everything. -/
def Enc.flush (e : Enc) : List UInt8 × Nat × Enc := (e.bytes, e.bytes.length, Enc.new)

/-- Decoder position (`/repo/src/data/code/code.h:119-120`). -/
structure Dec where
  pos : Nat
  bit : Nat
deriving Repr, DecidableEq

/-- `decoder::decoder` (`/repo/src/data/code/code.cpp:134-136`). -/
def Dec.new : Dec := ⟨0, 0⟩

/-- The memory `decoder::attach(istream&, int)` reads from: the stream's
bytes and eight zero bytes (`/repo/src/data/code/code.cpp:153-160`). -/
def attachStream (bs : List UInt8) : List UInt8 := bs ++ List.replicate 8 0

/-- The memory `decoder::attach(unsigned char*)` reads from
(`/repo/src/data/code/code.cpp:162-168`). -/
def attachBuf (bs : List UInt8) : List UInt8 := bs

/-- Little-endian value of a byte sequence: the meaning of
`to_little(*(long long*)p)` on the eight bytes at `p`
(`/repo/src/data/code/code.cpp:189`). -/
def leVal : List UInt8 → Nat
  | [] => 0
  | b :: bs => b.toNat + 256 * leVal bs

/-- `to_little(*(long long*)&bytes[pos])` (`/repo/src/data/code/code.cpp:189`);
`none` when the eight bytes are not all inside the memory. -/
def load64 (mem : List UInt8) (pos : Nat) : Option (BitVec 64) :=
  if pos + 8 ≤ mem.length then some (BitVec.ofNat 64 (leVal ((mem.drop pos).take 8)))
  else none

/-- `decoder::byte` (`/repo/src/data/code/code.cpp:183-185`). -/
def Dec.byte (mem : List UInt8) (d : Dec) : Option (UInt8 × Dec) :=
  match mem[d.pos]? with
  | none => none
  | some b => some (b, ⟨d.pos + 1, d.bit⟩)

/-- `bit+=len; pos+=bit>>3; bit&=7;`
(`/repo/src/data/code/code.cpp:190-192`). -/
def Dec.advance (d : Dec) (len : Nat) : Dec :=
  ⟨d.pos + ((d.bit + len) >>> 3), (d.bit + len) &&& 7⟩

/-- `decoder::word_with_length` (`/repo/src/data/code/code.cpp:187-194`): the
shift is arithmetic on `long long`, the result is truncated to 32 bits, and
`1ULL<<len` is undefined for `len ≥ 64`. -/
def Dec.word (mem : List UInt8) (d : Dec) (len : Nat) : Option (Nat × Dec) :=
  if 64 ≤ len then none
  else
    match load64 mem d.pos with
    | none => none
    | some x =>
      some (((x.sshiftRight d.bit).toNat % 2 ^ 32) &&& (2 ^ len - 1), d.advance len)

/-- `__builtin_ctzll` (`/repo/src/data/code/code.cpp:199`), undefined on 0. -/
def ctz64 (x : BitVec 64) : Option Nat := (List.range 64).find? (fun i => x.getLsbD i)

/-- `decoder::gamma` (`/repo/src/data/code/code.cpp:196-206`). `1U<<pmsf` is
undefined for `pmsf ≥ 32`. -/
def Dec.gamma (mem : List UInt8) (d : Dec) : Option (Nat × Dec) :=
  match load64 mem d.pos with
  | none => none
  | some x =>
    match ctz64 (x.sshiftRight d.bit) with
    | none => none
    | some p =>
      if 32 ≤ p then none
      else
        (Dec.word mem (d.advance (p + 1)) p).bind fun r =>
          some ((2 ^ p + r.1) % 2 ^ 32, r.2)

/-- `decoder::delta` (`/repo/src/data/code/code.cpp:208-212`). A length
outside 0..31 makes `1<<len` undefined. -/
def Dec.delta (mem : List UInt8) (d : Dec) : Option (Nat × Dec) :=
  (Dec.gamma mem d).bind fun g =>
    if g.1 = 0 ∨ 32 < g.1 then none
    else
      (Dec.word mem g.2 (g.1 - 1)).bind fun r =>
        some ((2 ^ (g.1 - 1) + r.1) % 2 ^ 32, r.2)

/-- `decoder::rice` (`/repo/src/data/code/code.cpp:214-219`). -/
def Dec.rice (mem : List UInt8) (d : Dec) (k : Nat) : Option (Nat × Dec) :=
  if 32 ≤ k then none
  else
    (Dec.delta mem d).bind fun g =>
      (Dec.word mem g.2 k).bind fun r =>
        some ((((g.1 + (2 ^ 32 - 1)) % 2 ^ 32 * 2 ^ k) % 2 ^ 32 + r.1) % 2 ^ 32, r.2)

/-- The loop of `decoder::prefix_code`
(`/repo/src/data/code/code.cpp:228-238`) on the memory from `pos` on. -/
def prefixLoop (pos res k : Nat) : List UInt8 → Option (Nat × Dec)
  | [] => none
  | b :: rest =>
    if b &&& 128 = 0 then
      prefixLoop (pos + 1) ((res + b.toNat * k) % 2 ^ 32) ((k <<< 7) % 2 ^ 32) rest
    else some ((res + (b.toNat - 128) * k) % 2 ^ 32, ⟨pos + 1, 0⟩)

/-- `decoder::prefix_code` (`/repo/src/data/code/code.cpp:221-239`). -/
def Dec.prefixCode (mem : List UInt8) (d : Dec) : Option (Nat × Dec) :=
  if d.bit ≠ 0 then prefixLoop (d.pos + 1) 0 1 (mem.drop (d.pos + 1))
  else prefixLoop d.pos 0 1 (mem.drop d.pos)

/-- One call on the encoder together with its argument
(`/repo/src/data/code/code.h:59-92`). -/
inductive Op
  | byte (v : UInt8)
  | word (v len : Nat)
  | gamma (v : Nat)
  | delta (v : Nat)
  | rice (v k : Nat)
  | prefixCode (v : Nat)
deriving Repr, DecidableEq

/-- The encoder call of an operation (`/repo/src/data/code/code.cpp:78-127`). -/
def Enc.step (e : Enc) : Op → Option Enc
  | .byte v => e.byte v
  | .word v len => e.word v len
  | .gamma v => e.gamma v
  | .delta v => e.delta v
  | .rice v k => e.rice v k
  | .prefixCode v => e.prefixCode v

/-- A sequence of encoder calls. (Client of
`/repo/src/data/code/code.h:59-92`.) -/
def Enc.run (e : Enc) : List Op → Option Enc
  | [] => some e
  | o :: os => (e.step o).bind fun e' => e'.run os

/-- The decoder call matching an operation; the argument value is not used,
only the parameters the caller must know (`len`, `k`)
(`/repo/src/data/code/code.cpp:183-239`). -/
def Dec.step (mem : List UInt8) (d : Dec) : Op → Option (Nat × Dec)
  | .byte _ => (Dec.byte mem d).map fun r => (r.1.toNat, r.2)
  | .word _ len => Dec.word mem d len
  | .gamma _ => Dec.gamma mem d
  | .delta _ => Dec.delta mem d
  | .rice _ k => Dec.rice mem d k
  | .prefixCode _ => Dec.prefixCode mem d

/-- The matching sequence of decoder calls, collecting the values. (Client of
`/repo/src/data/code/code.h:111-116`.) -/
def Dec.run (mem : List UInt8) (d : Dec) : List Op → Option (List Nat)
  | [] => some []
  | o :: os =>
    (Dec.step mem d o).bind fun r => (Dec.run mem r.2 os).map fun vs => r.1 :: vs

end Verif.Code
