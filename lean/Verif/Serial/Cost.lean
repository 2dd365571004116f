import Verif.Serial.Model
/-! How often a `binary_iarchive` reads from its stream: the loops of `Verif.Serial.read` once more, with the number of calls of `is.read`
(`/repo/src/data/serialization/base.h:89-92`) instead of the values. Every turn of a loop that makes an element reads at least once, so
this is also the number of elements that are made, up to the fields of each. -/
namespace Verif.Serial

/-- `for (i…) ar & v[i];` (`/repo/src/data/serialization/vector.h:53-55`, `array.h:44-45`). -/
def costInPlace {α : Type} (f : α → Strm → α × Strm) (g : α → Strm → Nat) : List α → Strm → Nat
  | [], _ => 0
  | x :: xs, s => g x s + costInPlace f g xs (f x s).2

/-- `for (…) { T t = T(); ar & t; v.push_back(t); }` (`/repo/src/data/serialization/vector.h:56-60`). -/
def costPush {α : Type} (f : α → Strm → α × Strm) (g : α → Strm → Nat) (d : α) : Nat → Strm → Nat
  | 0, _ => 0
  | n + 1, s => g d s + costPush f g d n (f d s).2

/-- `while (size--) { T v; ar & v; m.insert(v); }` (`/repo/src/data/serialization/map.h:53-57`, `set.h:51-55`). -/
def costInsert {α : Type} (f : α → Strm → α × Strm) (g : α → Strm → Nat) (d : α) (junk : Bool) : Nat → Strm → Nat
  | 0, _ => 0
  | n + 1, s =>
    let r := f d s
    g d s + costInsert f g d junk n (if junk && !r.2.good then { r.2 with ub := true } else r.2)

/-- `vector`, `deque` and `list` (`/repo/src/data/serialization/vector.h:47-60`, `deque.h:47-59`, `list.h:47-60`). -/
def costSeq {α : Type} (f : α → Strm → α × Strm) (g : α → Strm → Nat) (d : α) (old : List α) (s : Strm) : Nat :=
  let sz := readPrim 4 (old.length % 2 ^ 32) s
  let kept := old.take sz.1
  1 + costInPlace f g kept sz.2 + costPush f g d (sz.1 - kept.length) (readInPlace f kept sz.2).2

/-- Strings (`/repo/src/data/serialization/string.h:48-53`): one call for each character. -/
def costStr (old : List UInt8) (s : Strm) : Nat := 1 + (readPrim 4 (old.length % 2 ^ 32) s).1

/-- Maps and sets (`/repo/src/data/serialization/map.h:48-58`, `set.h:46-56`, `unordered_map.h:47-57`, `unordered_set.h:47-57`). -/
def costAssoc {α : Type} (f : α → Strm → α × Strm) (g : α → Strm → Nat) (d : α) (junk : Bool) (old : List α) (s : Strm) : Nat :=
  let sz := readPrim 4 (old.length % 2 ^ 32) s
  1 + costInsert f g d junk sz.1 sz.2

/-- A pair (`/repo/src/data/serialization/pair.h:43-47`). -/
def costPair {α β : Type} (f : α → Strm → α × Strm) (g : α → Strm → Nat) (g' : β → Strm → Nat) (old : α × β) (s : Strm) : Nat :=
  g old.1 s + g' old.2 (f old.1 s).2

/-- The calls of `is.read` that `ar & v` makes (`/repo/src/data/serialization/base.h:59-71` and the overloads cited at `read`). -/
def cost : (t : Ty) → Val t → Strm → Nat
  | .prim _ _ => fun _ _ => 1
  | .bool => fun _ _ => 1
  | .str => costStr
  | .arr _ t => costInPlace (read t) (cost t)
  | .vec t => costSeq (read t) (cost t) (dflt t)
  | .deque t => costSeq (read t) (cost t) (dflt t)
  | .list t => costSeq (read t) (cost t) (dflt t)
  | .pair a b => costPair (read a) (cost a) (cost b)
  | .map k v => costAssoc (readPair (read k) (read v)) (costPair (read k) (cost k) (cost v)) (dflt k, dflt v) false
  | .set t => costAssoc (read t) (cost t) (dflt t) (indet t)
  | .umap k v => costAssoc (readPair (read k) (read v)) (costPair (read k) (cost k) (cost v)) (dflt k, dflt v) false
  | .uset t => costAssoc (read t) (cost t) (dflt t) (indet t)

end Verif.Serial
