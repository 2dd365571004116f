import Verif.AssocMap
/-! Model of `/repo/src/data/lru.h` (class `lru`). -/

namespace Verif.Lru
open Verif.AssocMap

variable {K V : Type} [DecidableEq K]

/-- The members of `lru`, `/repo/src/data/lru.h:117-120`. `cur` is a `uint64_t`; it is a natural number here, i.e. the model
covers the first 2^64 operations. The `multiset` is the list of its elements in ascending order. -/
structure State (K V : Type) where
  maxSize : Int
  cur : Nat
  cache : List (K × (V × Nat))
  accessTime : List (Nat × K)

/-- Results: the call may return, throw `runtime_error`, or do something undefined (`*begin()` of an empty set). -/
inductive Res (α : Type) where
  | ok (a : α)
  | throw
  | ub
  deriving DecidableEq

/-- `std::pair<uint64_t,K>::operator<` with `klt` the key order. -/
def pairLt (klt : K → K → Bool) (x y : Nat × K) : Bool := x.1 < y.1 || (x.1 == y.1 && klt x.2 y.2)

/-- `std::multiset::insert`: at the upper bound. -/
def msInsert (klt : K → K → Bool) (x : Nat × K) : List (Nat × K) → List (Nat × K)
  | [] => [x]
  | y :: ys => if pairLt klt x y then x :: y :: ys else y :: msInsert klt x ys

/-- `std::multiset::erase(value)`: all equal elements. -/
def msErase (x : Nat × K) (l : List (Nat × K)) : List (Nat × K) := l.filter (· ≠ x)

/-- Constructor, `/repo/src/data/lru.h:54-57`. -/
def new (size : Int) : State K V := ⟨size, 0, [], []⟩

/-- `has`, `/repo/src/data/lru.h:59-61`. -/
def has (s : State K V) (k : K) : Bool := (find s.cache k).isSome

/-- `touch`, `/repo/src/data/lru.h:86-94`. -/
def touch (klt : K → K → Bool) (s : State K V) (k : K) : State K V :=
  match find s.cache k with
  | some (v, t) =>
    { s with
      accessTime := msInsert klt (s.cur, k) (msErase (t, k) s.accessTime)
      cur := s.cur + 1
      cache := upsert s.cache k (v, s.cur) }
  | none => s

/-- `get`, `/repo/src/data/lru.h:63-69`. -/
def get (klt : K → K → Bool) (s : State K V) (k : K) : Res (V × State K V) :=
  if (find s.cache k).isSome then
    let s' := touch klt s k
    match find s'.cache k with
    | some (v, _) => .ok (v, s')
    | none => .ub
  else .throw

/-- The eviction loop of `set`, `/repo/src/data/lru.h:74-79`. When the size bound is met with an empty `access_time`,
`begin()` is dereferenced on an empty set: `ub`. -/
def evict (maxSize : Int) : List (K × (V × Nat)) → List (Nat × K) → Res (List (K × (V × Nat)) × List (Nat × K))
  | cache, [] => if (cache.length : Int) ≥ maxSize then .ub else .ok (cache, [])
  | cache, (t, k) :: rest =>
    if (cache.length : Int) ≥ maxSize then evict maxSize (erase cache k) rest else .ok (cache, (t, k) :: rest)

/-- `set`, `/repo/src/data/lru.h:71-84`. -/
def set (klt : K → K → Bool) (s : State K V) (k : K) (v : V) : Res (State K V) :=
  if (find s.cache k).isSome then .ok s
  else match evict s.maxSize s.cache s.accessTime with
    | .ok (cache, at') =>
      .ok { s with cur := s.cur + 1, accessTime := msInsert klt (s.cur, k) at', cache := upsert cache k (v, s.cur) }
    | .throw => .throw
    | .ub => .ub

/-- `remove`, `/repo/src/data/lru.h:96-100`. `cache[key]` inserts a default entry (time 0) if the key is missing; that entry
is erased again on line 99. -/
def remove (s : State K V) (k : K) : State K V :=
  let delTime := match find s.cache k with | some (_, t) => t | none => 0
  { s with accessTime := msErase (delTime, k) s.accessTime, cache := erase s.cache k }

/-- `clear`, `/repo/src/data/lru.h:102-105`. -/
def clear (s : State K V) : State K V := { s with cache := [], accessTime := [] }

/-- `operator[]` followed by an assignment of `f old` through the returned reference, `/repo/src/data/lru.h:107-114`.
`f := id` is a plain read. `dflt` is `V()`. Returns the value the reference had before the assignment. -/
def index (klt : K → K → Bool) (dflt : V) (s : State K V) (k : K) (f : V → V) : Res (V × State K V) :=
  let s1 : Res (State K V) := if (find s.cache k).isSome then .ok (touch klt s k) else set klt s k dflt
  match s1 with
  | .ok s1 =>
    match find s1.cache k with
    | some (v, t) => .ok (v, { s1 with cache := upsert s1.cache k (f v, t) })
    | none => .ub
  | .throw => .throw
  | .ub => .ub

/-- The public operations. -/
inductive Op (K V : Type) where
  | set (k : K) (v : V)
  | get (k : K)
  | touch (k : K)
  | remove (k : K)
  | clear
  | has (k : K)
  | index (k : K) (f : V → V)

/-- What the caller sees. -/
inductive Out (V : Type) where
  | unit
  | val (v : V)
  | bool (b : Bool)
  | throw
  | ub
  deriving DecidableEq

/-- One public call: new state and observable result. After a throw the object is unchanged (line 68 throws before any
modification). -/
def step (klt : K → K → Bool) (dflt : V) (s : State K V) : Op K V → State K V × Out V
  | .set k v => match set klt s k v with | .ok s' => (s', .unit) | .throw => (s, .throw) | .ub => (s, .ub)
  | .get k => match get klt s k with | .ok (v, s') => (s', .val v) | .throw => (s, .throw) | .ub => (s, .ub)
  | .touch k => (touch klt s k, .unit)
  | .remove k => (remove s k, .unit)
  | .clear => (clear s, .unit)
  | .has k => (s, .bool (has s k))
  | .index k f => match index klt dflt s k f with | .ok (v, s') => (s', .val v) | .throw => (s, .throw) | .ub => (s, .ub)

/-- A history of calls: the list of results. -/
def run (klt : K → K → Bool) (dflt : V) : State K V → List (Op K V) → List (Out V)
  | _, [] => []
  | s, op :: ops => (step klt dflt s op).2 :: run klt dflt (step klt dflt s op).1 ops

end Verif.Lru
