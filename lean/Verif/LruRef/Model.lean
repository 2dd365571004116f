import Verif.Lru.Model
/-! Model of the references that `lru::get` and `lru::operator[]` of `/repo/src/data/lru.h` return, and of values that are passed to `set` as such references.

The cache is the one of `Verif/Lru/Model.lean`, with addresses in place of values: the value of an entry lives in its node of the `std::map`, which has the same address
until the entry is erased. `heap` says what is stored at an address; an address whose node has been erased has nothing, and to read it is undefined. New nodes get
addresses never used before, so that an old reference never meets a new value. -/

namespace Verif.LruRef
open Verif.AssocMap

variable {K V : Type} [DecidableEq K]

/-- The cache, the memory of its nodes, and the variables of the program that are references. -/
structure St (K V : Type) where
  lru : Lru.State K Nat
  heap : Nat → Option V
  next : Nat
  refs : Nat → Option Nat

/-- One place changed. -/
def upd {α : Type} (f : Nat → α) (i : Nat) (x : α) : Nat → α := fun j => if j = i then x else f j

/-- `lru(size)`, `/repo/src/data/lru.h:54-57`, and no references. -/
def new (size : Int) : St K V := ⟨Lru.new size, fun _ => none, 0, fun _ => none⟩

/-- The memory without the nodes that are no longer in the map: what `cache.erase` and `cache.clear` destroy, `/repo/src/data/lru.h:77,99,103`. -/
def keep (c : List (K × (Nat × Nat))) (h : Nat → Option V) : Nat → Option V := fun a => if c.any (fun e => e.2.1 = a) then h a else none

/-- The argument `val` of `set`: a value of the program's own, or a reference variable. -/
inductive Src (V : Type) where
  | lit (v : V)
  | ref (x : Nat)

/-- Reading the argument. -/
def Src.read (refs : Nat → Option Nat) (h : Nat → Option V) : Src V → Option V
  | .lit v => some v
  | .ref x => (refs x).bind h

/-- The calls and accesses of a program. `get x k` is `const V &x=c.get(k)`, `index x k` is `V &x=c[k]`, `read` and `write` are accesses to `x`. -/
inductive Op (K V : Type) where
  | set (k : K) (v : Src V)
  | get (x : Nat) (k : K)
  | index (x : Nat) (k : K)
  | read (x : Nat)
  | write (x : Nat) (v : V)
  | touch (k : K)
  | remove (k : K)
  | clear
  | has (k : K)

/-- `set`, `/repo/src/data/lru.h:71-84`: entries are evicted before the argument is read (line 83). -/
def set (klt : K → K → Bool) (s : St K V) (k : K) (v : Src V) : St K V × Lru.Out V :=
  if Lru.has s.lru k then (s, .unit)
  else match Lru.set klt s.lru k s.next with
    | .ok l =>
      let h := keep l.cache s.heap
      match v.read s.refs h with
      | some v => ({ s with lru := l, heap := upd h s.next (some v), next := s.next + 1 }, .unit)
      | none => (s, .ub)
    | .throw => (s, .throw)
    | .ub => (s, .ub)

/-- One call or access: `/repo/src/data/lru.h:59-114`. -/
def step (klt : K → K → Bool) (dflt : V) (s : St K V) : Op K V → St K V × Lru.Out V
  | .set k v => set klt s k v
  | .get x k =>
    match Lru.get klt s.lru k with
    | .ok (a, l) => ({ s with lru := l, refs := upd s.refs x (some a) }, .unit)
    | .throw => (s, .throw)
    | .ub => (s, .ub)
  | .index x k =>
    let r := if Lru.has s.lru k then ({ s with lru := Lru.touch klt s.lru k }, Lru.Out.unit) else set klt s k (.lit dflt)
    match r.2 with
    | .unit =>
      match find r.1.lru.cache k with
      | some (a, _) => ({ r.1 with refs := upd s.refs x (some a) }, .unit)
      | none => (s, .ub)
    | o => (s, o)
  | .read x =>
    match (s.refs x).bind s.heap with
    | some v => (s, .val v)
    | none => (s, .ub)
  | .write x v =>
    match s.refs x with
    | some a => if (s.heap a).isSome then ({ s with heap := upd s.heap a (some v) }, .unit) else (s, .ub)
    | none => (s, .ub)
  | .touch k => ({ s with lru := Lru.touch klt s.lru k }, .unit)
  | .remove k => ({ s with lru := Lru.remove s.lru k, heap := keep (Lru.remove s.lru k).cache s.heap }, .unit)
  | .clear => ({ s with lru := Lru.clear s.lru, heap := keep (Lru.clear s.lru).cache s.heap }, .unit)
  | .has k => (s, .bool (Lru.has s.lru k))

/-- A program, up to its end or to something undefined. -/
def run (klt : K → K → Bool) (dflt : V) : St K V → List (Op K V) → List (Lru.Out V)
  | _, [] => []
  | s, op :: ops =>
    match step klt dflt s op with
    | (_, .ub) => [.ub]
    | (s', o) => o :: run klt dflt s' ops

end Verif.LruRef
