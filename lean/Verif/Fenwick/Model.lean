import Mathlib.Algebra.Group.Defs
/-! Model of `/repo/src/data/fenwick_tree.h`.

The element type is an arbitrary commutative group (integers, or machine integers with wrap-around; floating point is not
covered). Indices are `int`; with at most `INT_MAX` elements the index arithmetic of valid calls cannot overflow, so
unbounded integers are used. `none` stands for undefined behaviour (an access outside the vector). -/

namespace Verif.Fenwick

variable {T : Type} [AddCommGroup T]

/-- Constructor, `/repo/src/data/fenwick_tree.h:43`: `n` value-initialised elements. -/
def new (n : Nat) : List T := List.replicate n 0

/-- `query(a)`, `/repo/src/data/fenwick_tree.h:45-47`. -/
def query (v : List T) (a : Int) : Option T :=
  if 0 ≤ a then
    match v[a.toNat]? with
    | none => none
    | some x => (query v (((a.toNat &&& (a.toNat + 1) : Nat) : Int) - 1)).map (x + ·)
  else some 0
termination_by (a + 1).toNat
decreasing_by
  have := @Nat.and_le_left a.toNat (a.toNat + 1)
  omega

/-- `query(a, b)`, `/repo/src/data/fenwick_tree.h:49-51`. -/
def queryRange (v : List T) (a b : Int) : Option T :=
  match query v b, query v (a - 1) with
  | some x, some y => some (x - y)
  | _, _ => none

/-- `increase(k, n)`, `/repo/src/data/fenwick_tree.h:53-58`. A negative `k` passes the size test and indexes before the vector. -/
def increase (v : List T) (k : Int) (n : T) : Option (List T) :=
  if k < v.length then
    if k < 0 then none
    else increase (v.modify k.toNat (· + n)) ((k.toNat ||| (k.toNat + 1) : Nat) : Int) n
  else some v
termination_by (v.length - k).toNat
decreasing_by
  have := @Nat.right_le_or k.toNat (k.toNat + 1)
  rw [List.length_modify]
  omega

/-- A history of `increase` calls on a vector. -/
def increases (v : List T) : List (Int × T) → Option (List T)
  | [] => some v
  | (k, n) :: hist => match increase v k n with
    | some v' => increases v' hist
    | none => none

end Verif.Fenwick
