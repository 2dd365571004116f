/-!
# Model of `pfi::data::serialization` (binary archives)

Source: `/repo/src/data/serialization/*.h`.

Serializable types form a universe `Ty`; a value of type `t` is an element of
`Val t`. Classes that serialize their members one after the other behave like
nested pairs. Reading happens in place, into an existing object, as in the
C++ code. Memory exhaustion is not modelled.
-/
namespace Verif.Serial

/-- Serializable types. `prim n sgn` is an arithmetic type of `n` bytes as a
bit pattern (`/repo/src/data/serialization/base.h:124-138`); `sgn` only
matters for its order. -/
inductive Ty
  | prim (n : Nat) (sgn : Bool)
  | bool
  | str
  | arr (n : Nat) (t : Ty)
  | vec (t : Ty)
  | deque (t : Ty)
  | list (t : Ty)
  | pair (a b : Ty)
  | map (k v : Ty)
  | set (t : Ty)
  | umap (k v : Ty)
  | uset (t : Ty)
deriving Repr, DecidableEq

/-- Values. Maps and sets are enumerated in key order. For the unordered
containers this order only serves to represent equal containers equally. -/
@[reducible] def Val : Ty → Type
  | .prim n _ => BitVec (8 * n)
  | .bool => Bool
  | .str => List UInt8
  | .arr _ t => List (Val t)
  | .vec t => List (Val t)
  | .deque t => List (Val t)
  | .list t => List (Val t)
  | .pair a b => Val a × Val b
  | .map k v => List (Val k × Val v)
  | .set t => List (Val t)
  | .umap k v => List (Val k × Val v)
  | .uset t => List (Val t)

/-- `std::lexicographical_compare`, the order of sequences. -/
def listLt {α : Type} (lt : α → α → Bool) : List α → List α → Bool
  | [], [] => false
  | [], _ :: _ => true
  | _ :: _, [] => false
  | x :: xs, y :: ys => lt x y || (!lt y x && listLt lt xs ys)

/-- `operator<` of `std::pair`. -/
def pairLt {α β : Type} (f : α → α → Bool) (g : β → β → Bool) (x y : α × β) : Bool :=
  f x.1 y.1 || (!f y.1 x.1 && g x.2 y.2)

/-- `std::less` on values. -/
def vlt : (t : Ty) → Val t → Val t → Bool
  | .prim _ sgn => fun x y => if sgn then x.toInt < y.toInt else x.toNat < y.toNat
  | .bool => fun x y => !x && y
  | .str => listLt (fun x y => x < y)
  | .arr _ t => listLt (vlt t)
  | .vec t => listLt (vlt t)
  | .deque t => listLt (vlt t)
  | .list t => listLt (vlt t)
  | .pair a b => pairLt (vlt a) (vlt b)
  | .map k v => listLt (pairLt (vlt k) (vlt v))
  | .set t => listLt (vlt t)
  | .umap k v => listLt (pairLt (vlt k) (vlt v))
  | .uset t => listLt (vlt t)

/-- `insert` of `std::map`/`std::set` on the enumeration: an equivalent
element already present is kept
(used at `/repo/src/data/serialization/map.h:56`, `set.h:54`). -/
def insertBy {α : Type} (lt : α → α → Bool) (x : α) : List α → List α
  | [] => [x]
  | y :: ys =>
    if lt x y then x :: y :: ys
    else if lt y x then y :: insertBy lt x ys
    else y :: ys

/-- Value-initialised object, `T()` or `std::pair<K,V> v;`
(`/repo/src/data/serialization/vector.h:57`, `map.h:54`). -/
def dflt : (t : Ty) → Val t
  | .prim _ _ => 0
  | .bool => false
  | .str => []
  | .arr n t => List.replicate n (dflt t)
  | .vec _ => []
  | .deque _ => []
  | .list _ => []
  | .pair a b => (dflt a, dflt b)
  | .map _ _ => []
  | .set _ => []
  | .umap _ _ => []
  | .uset _ => []

/-- Types whose default-initialised local `T v;` has an indeterminate value
(`/repo/src/data/serialization/set.h:52`, `unordered_set.h:53`). -/
def indet : Ty → Bool
  | .prim _ _ => true
  | .bool => true
  | _ => false

/-- Little-endian bytes: `to_little` followed by the raw object
representation (`/repo/src/data/serialization/base.h:190-195`). -/
def toLE : Nat → Nat → List UInt8
  | 0, _ => []
  | n + 1, v => UInt8.ofNat v :: toLE n (v / 256)

/-- Value of little-endian bytes
(`/repo/src/data/serialization/base.h:116-122`). -/
def ofLE : List UInt8 → Nat
  | [] => 0
  | b :: bs => b.toNat + 256 * ofLE bs

/-- An input stream: unread bytes, `good()`, and whether undefined behaviour
has occurred in a reader. -/
structure Strm where
  rest : List UInt8
  good : Bool
  ub : Bool
deriving Repr, DecidableEq

/-- `is.read(p, n)` (`/repo/src/data/serialization/base.h:89-92`) followed by
the test of the archive (`94-96`): a stream that is not good delivers
nothing; a short read takes what is left and sets the fail bit. -/
def readN (n : Nat) (s : Strm) : Option (List UInt8) × Strm :=
  if s.good then
    if n ≤ s.rest.length then (some (s.rest.take n), { s with rest := s.rest.drop n })
    else (none, { s with rest := [], good := false })
  else (none, s)

/-- Reader of an arithmetic type (`/repo/src/data/serialization/base.h:116-122`):
on failure the target keeps its value. -/
def readPrim (n : Nat) (old : Nat) (s : Strm) : Nat × Strm :=
  match readN n s with
  | (some bs, s') => (ofLE bs, s')
  | (none, s') => (old, s')

/-- Reader of `bool` (`/repo/src/data/serialization/base.h:124`): a byte other
than 0 or 1 is not a value of the type. -/
def readBool (old : Bool) (s : Strm) : Bool × Strm :=
  match readN 1 s with
  | (some bs, s') => (ofLE bs ≠ 0, if 1 < ofLE bs then { s' with ub := true } else s')
  | (none, s') => (old, s')

/-- `for (i…) ar & v[i];` on a reading archive
(`/repo/src/data/serialization/vector.h:53-55`, `string.h:52-53`, `array.h:44-45`). -/
def readInPlace {α : Type} (f : α → Strm → α × Strm) : List α → Strm → List α × Strm
  | [], s => ([], s)
  | x :: xs, s =>
    let r := f x s
    let q := readInPlace f xs r.2
    (r.1 :: q.1, q.2)

/-- `for (…) { T t = T(); ar & t; v.push_back(t); }`
(`/repo/src/data/serialization/vector.h:56-60`). -/
def readPush {α : Type} (f : α → Strm → α × Strm) (d : α) : Nat → Strm → List α × Strm
  | 0, s => ([], s)
  | n + 1, s =>
    let r := f d s
    let q := readPush f d n r.2
    (r.1 :: q.1, q.2)

/-- `while (size--) { T v; ar & v; m.insert(v); }`
(`/repo/src/data/serialization/map.h:53-57`, `set.h:51-55`); `junk` tells that
`v` starts indeterminate, so that inserting it after a failed read is
undefined. -/
def readInsert {α : Type} (f : α → Strm → α × Strm) (d : α) (lt : α → α → Bool) (junk : Bool) :
    Nat → List α → Strm → List α × Strm
  | 0, acc, s => (acc, s)
  | n + 1, acc, s =>
    let r := f d s
    let s' : Strm := if junk && !r.2.good then { r.2 with ub := true } else r.2
    readInsert f d lt junk n (insertBy lt r.1 acc) s'

/-- Reader of `vector`, `deque` and `list`
(`/repo/src/data/serialization/vector.h:47-60`, `deque.h:47-59`, `list.h:47-60`). -/
def readSeq {α : Type} (f : α → Strm → α × Strm) (d : α) (old : List α) (s : Strm) : List α × Strm :=
  let sz := readPrim 4 (old.length % 2 ^ 32) s
  let kept := old.take sz.1
  let a := readInPlace f kept sz.2
  let b := readPush f d (sz.1 - kept.length) a.2
  (a.1 ++ b.1, b.2)

/-- Reader of a string (`/repo/src/data/serialization/string.h:48-53`). -/
def readStr (old : List UInt8) (s : Strm) : List UInt8 × Strm :=
  let sz := readPrim 4 (old.length % 2 ^ 32) s
  let resized := old.take sz.1 ++ List.replicate (sz.1 - old.length) 0
  readInPlace (fun c s => let r := readPrim 1 c.toNat s; (UInt8.ofNat r.1, r.2)) resized sz.2

/-- Reader of maps and sets
(`/repo/src/data/serialization/map.h:48-58`, `set.h:46-56`,
`unordered_map.h:47-57`, `unordered_set.h:47-57`). -/
def readAssoc {α : Type} (f : α → Strm → α × Strm) (d : α) (lt : α → α → Bool) (junk : Bool)
    (old : List α) (s : Strm) : List α × Strm :=
  let sz := readPrim 4 (old.length % 2 ^ 32) s
  readInsert f d lt junk sz.1 [] sz.2

/-- Reader of a pair (`/repo/src/data/serialization/pair.h:43-47`). -/
def readPair {α β : Type} (f : α → Strm → α × Strm) (g : β → Strm → β × Strm) (old : α × β)
    (s : Strm) : (α × β) × Strm :=
  let a := f old.1 s
  let b := g old.2 a.2
  ((a.1, b.1), b.2)

/-- Order by key. -/
def keyLt {α β : Type} (lt : α → α → Bool) (x y : α × β) : Bool := lt x.1 y.1

/-- `ar & v` on a `binary_iarchive` (`/repo/src/data/serialization/base.h:59-71`
and the overloads per type: `base.h:116-138`, `string.h:45-54`,
`array.h:41-46`, `vector.h:44-66`, `deque.h:44-65`, `list.h:44-66`,
`pair.h:43-47`, `map.h:45-66`, `set.h:43-64`, `unordered_map.h:44-65`,
`unordered_set.h:44-65`). -/
def read : (t : Ty) → Val t → Strm → Val t × Strm
  | .prim n _ => fun old s => let r := readPrim n old.toNat s; (BitVec.ofNat _ r.1, r.2)
  | .bool => readBool
  | .str => readStr
  | .arr _ t => readInPlace (read t)
  | .vec t => readSeq (read t) (dflt t)
  | .deque t => readSeq (read t) (dflt t)
  | .list t => readSeq (read t) (dflt t)
  | .pair a b => readPair (read a) (read b)
  | .map k v => readAssoc (readPair (read k) (read v)) (dflt k, dflt v) (keyLt (vlt k)) false
  | .set t => readAssoc (read t) (dflt t) (vlt t) (indet t)
  | .umap k v => readAssoc (readPair (read k) (read v)) (dflt k, dflt v) (keyLt (vlt k)) false
  | .uset t => readAssoc (read t) (dflt t) (vlt t) (indet t)

/-- The elements of a sequence written one after the other
(`/repo/src/data/serialization/vector.h:62-64`). -/
def WritesAll {α : Type} (W : α → List UInt8 → Prop) : List α → List UInt8 → Prop
  | [], bs => bs = []
  | x :: xs, bs => ∃ a b, bs = a ++ b ∧ W x a ∧ WritesAll W xs b

/-- The 32-bit size field
(`/repo/src/data/serialization/vector.h:47-48`, `map.h:48-49`). -/
def sizeField (n : Nat) : List UInt8 := toLE 4 (n % 2 ^ 32)

/-- `ar & v` on a `binary_oarchive`: the bytes that may be written for a
value. It is a function except for the unordered containers, which may
enumerate in any order. `vector`, `deque` and `string` write as many elements
as the truncated size says; `list` and the associative containers write all
(`/repo/src/data/serialization/base.h:190-211`, `string.h:45-54`, `array.h:41-46`,
`vector.h:61-65`, `deque.h:60-64`, `list.h:61-65`, `pair.h:43-47`,
`map.h:59-65`, `set.h:57-63`, `unordered_map.h:58-64`, `unordered_set.h:58-64`). -/
def Writes : (t : Ty) → Val t → List UInt8 → Prop
  | .prim n _ => fun v bs => bs = toLE n v.toNat
  | .bool => fun v bs => bs = [if v then 1 else 0]
  | .str => fun v bs => bs = sizeField v.length ++ v.take (v.length % 2 ^ 32)
  | .arr _ t => WritesAll (Writes t)
  | .vec t => fun v bs => ∃ body, bs = sizeField v.length ++ body ∧
      WritesAll (Writes t) (v.take (v.length % 2 ^ 32)) body
  | .deque t => fun v bs => ∃ body, bs = sizeField v.length ++ body ∧
      WritesAll (Writes t) (v.take (v.length % 2 ^ 32)) body
  | .list t => fun v bs => ∃ body, bs = sizeField v.length ++ body ∧ WritesAll (Writes t) v body
  | .pair a b => fun v bs => ∃ x y, bs = x ++ y ∧ Writes a v.1 x ∧ Writes b v.2 y
  | .map k v => fun m bs => ∃ body, bs = sizeField m.length ++ body ∧
      WritesAll (fun p bs => ∃ x y, bs = x ++ y ∧ Writes k p.1 x ∧ Writes v p.2 y) m body
  | .set t => fun m bs => ∃ body, bs = sizeField m.length ++ body ∧ WritesAll (Writes t) m body
  | .umap k v => fun m bs => ∃ body m', m'.Perm m ∧ bs = sizeField m.length ++ body ∧
      WritesAll (fun p bs => ∃ x y, bs = x ++ y ∧ Writes k p.1 x ∧ Writes v p.2 y) m' body
  | .uset t => fun m bs => ∃ body m', m'.Perm m ∧ bs = sizeField m.length ++ body ∧
      WritesAll (Writes t) m' body

/-! ### Embedded streams -/

/-- Writer of an embedded stream (`/repo/src/data/serialization/iostream.h:117-130`). -/
def escape (data : List UInt8) : List UInt8 :=
  data.flatMap (fun c => if c = 0xff then [0xff, 0xff] else [c]) ++ [0xff, 0x00]

/-- One `ar & c` on a reading archive
(`/repo/src/data/serialization/base.h:116-125`). -/
def readChar (old : UInt8) (s : Strm) : UInt8 × Strm :=
  let r := readPrim 1 old.toNat s
  (UInt8.ofNat r.1, r.2)

/-- The reading loop of an embedded stream
(`/repo/src/data/serialization/iostream.h:101-116`), run for at most `fuel`
iterations; `none` if it has not ended by then. The result is the data
written into the target stream. -/
def unescape : Nat → UInt8 → UInt8 → List UInt8 → Strm → Option (List UInt8 × Strm)
  | 0, _, _, _, _ => none
  | fuel + 1, c0, c1, out, s =>
    let r := readChar c0 s
    if r.1 = 0xff then
      let q := readChar c1 r.2
      if q.1 = 0 then some (out, q.2)
      else unescape fuel r.1 q.1 (out ++ [0xff]) q.2
    else unescape fuel r.1 c1 (out ++ [r.1]) r.2

end Verif.Serial
