/-!
# Model of `pfi::data::digest::md5sum`

Source: `/repo/src/data/digest/md5.h`, `/repo/src/data/digest/md5.cpp`.

The sine table is a parameter: the code fills it with floating-point
arithmetic (`/repo/src/data/digest/md5.cpp:76-79`), which is outside the
model. `size_t` is 64 bits wide.
-/
namespace Verif.Md5

/-- State of `itr_buf` (`/repo/src/data/digest/md5.h:110-113`); the iterator
pair is the list of bytes still to come. -/
structure Buf where
  rest : List UInt8
  ovr : UInt8
  ended : Bool
  cnt : Nat
deriving Repr, DecidableEq

/-- `itr_buf::itr_buf` (`/repo/src/data/digest/md5.h:54-55`). -/
def Buf.new (m : List UInt8) : Buf := ⟨m, 0x80, false, 0⟩

/-- `itr_buf::get_byte` (`/repo/src/data/digest/md5.h:97-108`). -/
def getByte (b : Buf) : UInt8 × Buf :=
  match b.rest with
  | c :: p => (c, { b with rest := p, cnt := (b.cnt + 1) % 2 ^ 64 })
  | [] => (b.ovr, { b with ovr := 0 })

/-- `itr_buf::get()` (`/repo/src/data/digest/md5.h:89-95`). -/
def getWord (b0 : Buf) : UInt32 × Buf :=
  let (a, b1) := getByte b0
  let (b, b2) := getByte b1
  let (c, b3) := getByte b2
  let (d, b4) := getByte b3
  (a.toUInt32 ||| (b.toUInt32 <<< 8) ||| (c.toUInt32 <<< 16) ||| (d.toUInt32 <<< 24), b4)

/-- `n` calls of `get()` in order (`/repo/src/data/digest/md5.h:62-75`). -/
def getWords : Nat → Buf → List UInt32 × Buf
  | 0, b => ([], b)
  | n + 1, b =>
    let (x, b1) := getWord b
    let (xs, b2) := getWords n b1
    (x :: xs, b2)

/-- `itr_buf::get(uint32_t*)` (`/repo/src/data/digest/md5.h:61-86`). -/
def getBlock (b : Buf) : List UInt32 × Buf :=
  let (xs, b1) := getWords 14 b
  if b1.rest = [] ∧ b1.ovr = 0 then
    (xs ++ [UInt32.ofNat ((b1.cnt <<< 3) % 2 ^ 64), UInt32.ofNat (b1.cnt >>> 29)],
      { b1 with ended := true })
  else
    let (ys, b2) := getWords 2 b1
    (xs ++ ys, b2)

/-- The four registers (`/repo/src/data/digest/md5.h:139`). -/
structure Regs where
  a : UInt32
  b : UInt32
  c : UInt32
  d : UInt32
deriving Repr, DecidableEq

/-- `ff` (`/repo/src/data/digest/md5.cpp:46-49`). -/
def ff (x y z : UInt32) : UInt32 := (x &&& y) ||| (~~~x &&& z)

/-- `gg` (`/repo/src/data/digest/md5.cpp:50-53`). -/
def gg (x y z : UInt32) : UInt32 := (x &&& z) ||| (y &&& ~~~z)

/-- `hh` (`/repo/src/data/digest/md5.cpp:54-57`). -/
def hh (x y z : UInt32) : UInt32 := x ^^^ y ^^^ z

/-- `ii` (`/repo/src/data/digest/md5.cpp:58-61`). -/
def ii (x y z : UInt32) : UInt32 := y ^^^ (x ||| ~~~z)

/-- `rot` (`/repo/src/data/digest/md5.cpp:62-65`); shift amounts are below
32 in every use. -/
def rot (x : UInt32) (amount : Nat) : UInt32 :=
  ⟨(x.toBitVec <<< amount) ||| (x.toBitVec >>> (32 - amount))⟩

/-- Order in which the registers are passed to a step macro; the first is the
one assigned (`/repo/src/data/digest/md5.cpp:103-121`). -/
inductive Pat
  | abcd
  | dabc
  | cdab
  | bcda
deriving Repr, DecidableEq

/-- One use of a step macro: `R<round>(<pat>, k, s, i)`
(`/repo/src/data/digest/md5.cpp:81-88`). -/
structure Step where
  round : Nat
  pat : Pat
  k : Nat
  s : Nat
  i : Nat
deriving Repr, DecidableEq

/-- The 64 steps as written (`/repo/src/data/digest/md5.cpp:103-121`). -/
def steps : List Step :=
  [⟨1, .abcd, 0, 7, 1⟩, ⟨1, .dabc, 1, 12, 2⟩, ⟨1, .cdab, 2, 17, 3⟩, ⟨1, .bcda, 3, 22, 4⟩,
   ⟨1, .abcd, 4, 7, 5⟩, ⟨1, .dabc, 5, 12, 6⟩, ⟨1, .cdab, 6, 17, 7⟩, ⟨1, .bcda, 7, 22, 8⟩,
   ⟨1, .abcd, 8, 7, 9⟩, ⟨1, .dabc, 9, 12, 10⟩, ⟨1, .cdab, 10, 17, 11⟩, ⟨1, .bcda, 11, 22, 12⟩,
   ⟨1, .abcd, 12, 7, 13⟩, ⟨1, .dabc, 13, 12, 14⟩, ⟨1, .cdab, 14, 17, 15⟩, ⟨1, .bcda, 15, 22, 16⟩,
   ⟨2, .abcd, 1, 5, 17⟩, ⟨2, .dabc, 6, 9, 18⟩, ⟨2, .cdab, 11, 14, 19⟩, ⟨2, .bcda, 0, 20, 20⟩,
   ⟨2, .abcd, 5, 5, 21⟩, ⟨2, .dabc, 10, 9, 22⟩, ⟨2, .cdab, 15, 14, 23⟩, ⟨2, .bcda, 4, 20, 24⟩,
   ⟨2, .abcd, 9, 5, 25⟩, ⟨2, .dabc, 14, 9, 26⟩, ⟨2, .cdab, 3, 14, 27⟩, ⟨2, .bcda, 8, 20, 28⟩,
   ⟨2, .abcd, 13, 5, 29⟩, ⟨2, .dabc, 2, 9, 30⟩, ⟨2, .cdab, 7, 14, 31⟩, ⟨2, .bcda, 12, 20, 32⟩,
   ⟨3, .abcd, 5, 4, 33⟩, ⟨3, .dabc, 8, 11, 34⟩, ⟨3, .cdab, 11, 16, 35⟩, ⟨3, .bcda, 14, 23, 36⟩,
   ⟨3, .abcd, 1, 4, 37⟩, ⟨3, .dabc, 4, 11, 38⟩, ⟨3, .cdab, 7, 16, 39⟩, ⟨3, .bcda, 10, 23, 40⟩,
   ⟨3, .abcd, 13, 4, 41⟩, ⟨3, .dabc, 0, 11, 42⟩, ⟨3, .cdab, 3, 16, 43⟩, ⟨3, .bcda, 6, 23, 44⟩,
   ⟨3, .abcd, 9, 4, 45⟩, ⟨3, .dabc, 12, 11, 46⟩, ⟨3, .cdab, 15, 16, 47⟩, ⟨3, .bcda, 2, 23, 48⟩,
   ⟨4, .abcd, 0, 6, 49⟩, ⟨4, .dabc, 7, 10, 50⟩, ⟨4, .cdab, 14, 15, 51⟩, ⟨4, .bcda, 5, 21, 52⟩,
   ⟨4, .abcd, 12, 6, 53⟩, ⟨4, .dabc, 3, 10, 54⟩, ⟨4, .cdab, 10, 15, 55⟩, ⟨4, .bcda, 1, 21, 56⟩,
   ⟨4, .abcd, 8, 6, 57⟩, ⟨4, .dabc, 15, 10, 58⟩, ⟨4, .cdab, 6, 15, 59⟩, ⟨4, .bcda, 13, 21, 60⟩,
   ⟨4, .abcd, 4, 6, 61⟩, ⟨4, .dabc, 11, 10, 62⟩, ⟨4, .cdab, 2, 15, 63⟩, ⟨4, .bcda, 9, 21, 64⟩]

/-- The round function of `R1`..`R4` (`/repo/src/data/digest/md5.cpp:81-88`). -/
def roundFun (r : Nat) (x y z : UInt32) : UInt32 :=
  if r = 1 then ff x y z else if r = 2 then gg x y z else if r = 3 then hh x y z else ii x y z

/-- Value assigned by a step macro
(`/repo/src/data/digest/md5.cpp:81-88`). -/
def stepVal (tbl : Nat → UInt32) (x : Nat → UInt32) (t : Step) (a b c d : UInt32) : UInt32 :=
  b + rot (a + roundFun t.round b c d + x t.k + tbl t.i) t.s

/-- One step (`/repo/src/data/digest/md5.cpp:81-88`, `103-121`). -/
def runStep (tbl : Nat → UInt32) (x : Nat → UInt32) (r : Regs) (t : Step) : Regs :=
  match t.pat with
  | .abcd => { r with a := stepVal tbl x t r.a r.b r.c r.d }
  | .dabc => { r with d := stepVal tbl x t r.d r.a r.b r.c }
  | .cdab => { r with c := stepVal tbl x t r.c r.d r.a r.b }
  | .bcda => { r with b := stepVal tbl x t r.b r.c r.d r.a }

/-- The body of the loop on one block
(`/repo/src/data/digest/md5.cpp:94-126`). -/
def compress (tbl : Nat → UInt32) (r : Regs) (ws : List UInt32) : Regs :=
  let r' := steps.foldl (runStep tbl (fun k => ws.getD k 0)) r
  ⟨r'.a + r.a, r'.b + r.b, r'.c + r.c, r'.d + r.d⟩

/-- Bytes still to deliver before the padding zeros. -/
def Buf.pending (b : Buf) : Nat := b.rest.length + (if b.ovr = 0 then 0 else 1)

theorem getByte_pending (b : Buf) : (getByte b).2.pending = b.pending - 1 := by
  unfold getByte Buf.pending
  cases b with
  | mk rest ovr ended cnt =>
    cases rest with
    | nil => by_cases h : ovr = 0 <;> simp [h]
    | cons x xs => simp only [List.length_cons]; omega

theorem getByte_ended (b : Buf) : (getByte b).2.ended = b.ended := by
  unfold getByte
  split <;> rfl

theorem getWord_pending (b : Buf) : (getWord b).2.pending = b.pending - 4 := by
  simp only [getWord, getByte_pending]; omega

theorem getWord_ended (b : Buf) : (getWord b).2.ended = b.ended := by
  simp only [getWord, getByte_ended]

theorem getWords_pending (n : Nat) (b : Buf) : (getWords n b).2.pending = b.pending - 4 * n := by
  induction n generalizing b with
  | zero => rfl
  | succ n ih => simp only [getWords, ih, getWord_pending]; omega

theorem getWords_ended (n : Nat) (b : Buf) : (getWords n b).2.ended = b.ended := by
  induction n generalizing b with
  | zero => rfl
  | succ n ih => simp only [getWords, ih, getWord_ended]

/-- Blocks still to come, bounded. -/
def Buf.todo (b : Buf) : Nat := if b.ended then 0 else b.pending + 1

theorem getBlock_todo (b : Buf) (h : b.ended = false) : (getBlock b).2.todo < b.todo := by
  unfold getBlock
  simp only []
  split
  · simp [Buf.todo, h]
  · next hn =>
    have h1 := getWords_pending 14 b
    have hp : 0 < (getWords 14 b).2.pending := by
      unfold Buf.pending
      by_cases hr : (getWords 14 b).2.rest = []
      · have : (getWords 14 b).2.ovr ≠ 0 := fun h0 => hn ⟨hr, h0⟩
        simp [this]
      · have := List.length_pos_iff.mpr hr
        omega
    simp only [Buf.todo, getWords_ended, h, getWords_pending]
    simp
    omega

/-- The loop of `md5sum::calc` (`/repo/src/data/digest/md5.cpp:91-127`). -/
def calcLoop (tbl : Nat → UInt32) (r : Regs) (b : Buf) : Regs :=
  if _h : b.ended = true then r
  else calcLoop tbl (compress tbl r (getBlock b).1) (getBlock b).2
termination_by b.todo
decreasing_by exact getBlock_todo b (by simpa using _h)

/-- `md5sum::md5sum(const std::string&)` and `md5sum::calc`
(`/repo/src/data/digest/md5.h:134-137`, `/repo/src/data/digest/md5.cpp:67-128`). -/
def md5 (tbl : Nat → UInt32) (m : List UInt8) : Regs :=
  calcLoop tbl ⟨0x67452301, 0xefcdab89, 0x98badcfe, 0x10325476⟩ (Buf.new m)

/-- One `os << hex << setw(2) << v` with fill `'0'` for `v ≤ 255`
(`/repo/src/data/digest/md5.cpp:141-144`). -/
def hex2 (v : UInt32) : List Char := [Nat.digitChar (v.toNat / 16), Nat.digitChar (v.toNat % 16)]

/-- The four fields of one register (`/repo/src/data/digest/md5.cpp:144-147`). -/
def hexWord (v : UInt32) : List Char :=
  hex2 ((v >>> 0) &&& 0xff) ++ hex2 ((v >>> 8) &&& 0xff) ++ hex2 ((v >>> 16) &&& 0xff) ++
    hex2 ((v >>> 24) &&& 0xff)

/-- `operator<<` (`/repo/src/data/digest/md5.cpp:138-169`). -/
def print (r : Regs) : List Char := hexWord r.a ++ hexWord r.b ++ hexWord r.c ++ hexWord r.d

/-- `operator<` (`/repo/src/data/digest/md5.cpp:130-136`). -/
def lt (x y : Regs) : Bool :=
  if x.a ≠ y.a then x.a < y.a
  else if x.b ≠ y.b then x.b < y.b
  else if x.c ≠ y.c then x.c < y.c
  else x.d < y.d

end Verif.Md5
