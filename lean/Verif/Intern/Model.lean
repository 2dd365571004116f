import Verif.AssocMap
/-! Model of `/repo/src/data/intern.h` (class `intern`).

`unordered_map<Key,int>` is an association list whose order carries no meaning. Ids are `int`; the model uses unbounded
integers, i.e. it covers tables of fewer than 2^31 keys. -/

namespace Verif.Intern
open Verif.AssocMap

variable {K : Type} [DecidableEq K]

/-- The members `tbl` (key to id) and `lbt` (id to key), `/repo/src/data/intern.h:147-148`. -/
structure State (K : Type) where
  tbl : List (K × Int)
  lbt : List K

/-- Default constructor: both members empty. -/
def new : State K := ⟨[], []⟩

/-- `empty`, `/repo/src/data/intern.h:57-59`. -/
def empty (s : State K) : Bool := s.tbl.isEmpty

/-- `clear`, `/repo/src/data/intern.h:64-67`. -/
def clear (_ : State K) : State K := ⟨[], []⟩

/-- `size`, `/repo/src/data/intern.h:72-74`. -/
def size (s : State K) : Nat := s.tbl.length

/-- `key2id_nogen`, `/repo/src/data/intern.h:80-85`. -/
def key2idNogen (s : State K) (k : K) : Int :=
  match find s.tbl k with
  | some i => i
  | none => -1

/-- `key2id`, `/repo/src/data/intern.h:92-102`. -/
def key2id (s : State K) (k : K) (gen : Bool) : State K × Int :=
  match find s.tbl k with
  | some i => (s, i)
  | none =>
    if !gen then (s, -1)
    else
      let id : Int := s.tbl.length
      (⟨insertNew s.tbl k id, s.lbt ++ [k]⟩, id)

/-- `id2key`, `/repo/src/data/intern.h:108-110`. `none`: access outside the vector (undefined behaviour). -/
def id2key (s : State K) (id : Int) : Option K := if 0 ≤ id then s.lbt[id.toNat]? else none

/-- `exist_key`, `/repo/src/data/intern.h:115-117`. -/
def existKey (s : State K) (k : K) : Bool := (find s.tbl k).isSome

/-- `exist_id`, `/repo/src/data/intern.h:121-123`. -/
def existId (s : State K) (id : Int) : Bool := decide (0 ≤ id) && decide (id < s.lbt.length)

/-- The loop of the reading branch of `serialize`, `/repo/src/data/intern.h:139-140`, over the elements in the iteration order
of the table: `lbt[it->second] = it->first`. `none`: write outside the vector. -/
def fill (lbt : List K) : List (K × Int) → Option (List K)
  | [] => some lbt
  | (k, i) :: rest => if 0 ≤ i ∧ i < lbt.length then fill (lbt.set i.toNat k) rest else none

/-- The reading branch of `serialize`, `/repo/src/data/intern.h:135-141`, given the table that was read in (in any
iteration order); `dflt` is the `Key()` that `resize` fills in. -/
def load (dflt : K) (tbl : List (K × Int)) : Option (State K) :=
  (fill (List.replicate tbl.length dflt) tbl).map (fun lbt => ⟨tbl, lbt⟩)

/-- The public operations. -/
inductive Op (K : Type) where
  | key2id (k : K) (gen : Bool)
  | key2idNogen (k : K)
  | id2key (id : Int)
  | existKey (k : K)
  | existId (id : Int)
  | size
  | empty
  | clear

/-- What the caller sees. -/
inductive Out (K : Type) where
  | id (i : Int)
  | key (k : K)
  | bool (b : Bool)
  | size (n : Nat)
  | unit
  | ub
  deriving DecidableEq

/-- One call. -/
def step (s : State K) : Op K → State K × Out K
  | .key2id k gen => let (s', i) := key2id s k gen; (s', .id i)
  | .key2idNogen k => (s, .id (key2idNogen s k))
  | .id2key i => (s, match id2key s i with | some k => .key k | none => .ub)
  | .existKey k => (s, .bool (existKey s k))
  | .existId i => (s, .bool (existId s i))
  | .size => (s, .size (size s))
  | .empty => (s, .bool (empty s))
  | .clear => (clear s, .unit)

/-- The results of a history of calls. -/
def run (s : State K) : List (Op K) → List (Out K)
  | [] => []
  | op :: ops => (step s op).2 :: run (step s op).1 ops

/-- The state after a history of calls. -/
def exec (s : State K) : List (Op K) → State K
  | [] => s
  | op :: ops => exec (step s op).1 ops

end Verif.Intern
