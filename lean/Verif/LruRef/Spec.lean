import Verif.LruRef.Model
import Verif.Lru.Spec
/-! Specification: the abstract cache of `Verif/Lru/Spec.lean` (entries, least recently used first), and variables that are other names for the values of entries. A name
is good as long as its entry is in the cache; when the entry leaves, the name is lost, even if the key comes back. -/

namespace Verif.LruRef.Spec
open Verif.LruRef (Op Src)
open Verif.Lru.Spec (lookup without use)

variable {K V : Type} [DecidableEq K]

structure St (K V : Type) where
  items : List (K × V)
  names : Nat → Option K

/-- The names whose entries are still there. -/
def still (l : List (K × V)) (names : Nat → Option K) : Nat → Option K := fun x => (names x).filter fun k => (lookup l k).isSome

/-- The name `x` now means the entry of `k`. -/
def named (names : Nat → Option K) (x : Nat) (k : K) : Nat → Option K := fun y => if y = x then some k else names y

/-- The value of an entry is changed. -/
def assign (l : List (K × V)) (k : K) (v : V) : List (K × V) := l.map fun e => if e.1 = k then (k, v) else e

/-- What is left when room for one more entry has been made. -/
def room (cap : Nat) (l : List (K × V)) : List (K × V) := if l.length < cap then l else l.tail

/-- The value of an argument, when the cache is `l`. -/
def argument (l : List (K × V)) (names : Nat → Option K) : Src V → Option V
  | .lit v => some v
  | .ref x => (names x).bind (lookup l)

/-- One call or access. A name that is lost must not be used, and an argument must not be the name of the entry that has to make room. -/
def step (cap : Nat) (dflt : V) (s : St K V) : Op K V → St K V × Lru.Out V
  | .set k v =>
    match lookup s.items k with
    | some _ => (s, .unit)
    | none =>
      match argument (room cap s.items) s.names v with
      | some v => (⟨room cap s.items ++ [(k, v)], still (room cap s.items) s.names⟩, .unit)
      | none => (s, .ub)
  | .get x k =>
    match lookup s.items k with
    | some _ => (⟨use s.items k, named s.names x k⟩, .unit)
    | none => (s, .throw)
  | .index x k =>
    match lookup s.items k with
    | some _ => (⟨use s.items k, named s.names x k⟩, .unit)
    | none => (⟨room cap s.items ++ [(k, dflt)], named (still (room cap s.items) s.names) x k⟩, .unit)
  | .read x =>
    match (s.names x).bind (lookup s.items) with
    | some v => (s, .val v)
    | none => (s, .ub)
  | .write x v =>
    match s.names x with
    | some k => (⟨assign s.items k v, s.names⟩, .unit)
    | none => (s, .ub)
  | .touch k => (⟨use s.items k, s.names⟩, .unit)
  | .remove k => (⟨without s.items k, still (without s.items k) s.names⟩, .unit)
  | .clear => (⟨[], fun _ => none⟩, .unit)
  | .has k => (s, .bool (lookup s.items k).isSome)

/-- A program, up to its end or to something undefined. -/
def run (cap : Nat) (dflt : V) : St K V → List (Op K V) → List (Lru.Out V)
  | _, [] => []
  | s, op :: ops =>
    match step cap dflt s op with
    | (_, .ub) => [.ub]
    | (s', o) => o :: run cap dflt s' ops

/-- An empty cache without names. -/
def empty : St K V := ⟨[], fun _ => none⟩

/-- The operations that make `x` a name. -/
def binds (x : Nat) : Op K V → Bool
  | .get y _ => y = x
  | .index y _ => y = x
  | _ => false

end Verif.LruRef.Spec
