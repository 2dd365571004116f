import Verif.Lru.Model
/-! The abstract LRU cache: a list of entries, least recently used first, of length at most the capacity.
Only the interface types `Op` and `Out` of the model are used. -/

namespace Verif.Lru.Spec
open Verif.Lru (Op Out)

variable {K V : Type} [DecidableEq K]

/-- The value stored under `k`. -/
def lookup (l : List (K × V)) (k : K) : Option V := (l.find? (fun e => e.1 = k)).map (·.2)

/-- Drop the entry of `k`. -/
def without (l : List (K × V)) (k : K) : List (K × V) := l.filter (fun e => e.1 ≠ k)

/-- Use `k`: its entry becomes the most recently used one. -/
def use (l : List (K × V)) (k : K) : List (K × V) :=
  match lookup l k with
  | some v => without l k ++ [(k, v)]
  | none => l

/-- Add a new entry as the most recently used, making room by dropping the least recently used entry if the cache is full. -/
def add (cap : Nat) (l : List (K × V)) (k : K) (v : V) : List (K × V) :=
  (if l.length < cap then l else l.tail) ++ [(k, v)]

/-- One call on the abstract cache. A `set` of a present key has no effect at all (as in the code). -/
def step (cap : Nat) (dflt : V) (l : List (K × V)) : Op K V → List (K × V) × Out V
  | .set k v => (match lookup l k with | some _ => l | none => add cap l k v, .unit)
  | .get k => match lookup l k with | some v => (use l k, .val v) | none => (l, .throw)
  | .touch k => (use l k, .unit)
  | .remove k => (without l k, .unit)
  | .clear => ([], .unit)
  | .has k => (l, .bool (lookup l k).isSome)
  | .index k f => match lookup l k with
    | some v => (without l k ++ [(k, f v)], .val v)
    | none => (add cap l k (f dflt), .val dflt)

/-- A history of calls on the abstract cache. -/
def run (cap : Nat) (dflt : V) : List (K × V) → List (Op K V) → List (Out V)
  | _, [] => []
  | l, op :: ops => (step cap dflt l op).2 :: run cap dflt (step cap dflt l op).1 ops

/-- The contents after a history. -/
def contents (cap : Nat) (dflt : V) : List (K × V) → List (Op K V) → List (K × V)
  | l, [] => l
  | l, op :: ops => contents cap dflt (step cap dflt l op).1 ops

end Verif.Lru.Spec
