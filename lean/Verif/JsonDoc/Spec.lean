import Verif.JsonDoc.Model
/-! What it means for a document in memory to show a value, to contain another and to be apart from another. -/

namespace Verif.JsonDoc.Spec
open Verif.Json (Str Value)
open Verif.JsonDoc (Node St Step Op Lv)

variable {F : Type}

/-- The value at `a` has the value at `b` as an element or a member. -/
def Edge (h : List (Node F)) (a b : Nat) : Prop :=
  (∃ es, h[a]? = some (.arr es) ∧ b ∈ es) ∨ ∃ ms, h[a]? = some (.obj ms) ∧ ∃ k, (k, b) ∈ ms

/-- `b` is `a` or a part of it, at any depth. -/
inductive Reach (h : List (Node F)) : Nat → Nat → Prop
  | refl (a : Nat) : Reach h a a
  | step {a b c : Nat} : Edge h a b → Reach h b c → Reach h a c

/-- No value is a part of itself. -/
def NoLoop (h : List (Node F)) : Prop := ∀ a b, Edge h a b → ¬ Reach h b a

/-- The value at `a`, with all its parts, is the tree `v`. -/
inductive Shows (h : List (Node F)) : Nat → Value F → Prop
  | null {a : Nat} : h[a]? = some .null → Shows h a .null
  | int {a : Nat} {n : Int} : h[a]? = some (.int n) → Shows h a (.int n)
  | flt {a : Nat} {x : F} : h[a]? = some (.flt x) → Shows h a (.flt x)
  | bool {a : Nat} {b : Bool} : h[a]? = some (.bool b) → Shows h a (.bool b)
  | str {a : Nat} {t : Str} : h[a]? = some (.str t) → Shows h a (.str t)
  | arr {a : Nat} {es : List Nat} {vs : List (Value F)} : h[a]? = some (.arr es) → es.length = vs.length →
      (∀ (i b : Nat) (v : Value F), es[i]? = some b → vs[i]? = some v → Shows h b v) → Shows h a (.arr vs)
  | obj {a : Nat} {ms : List (Str × Nat)} {vs : List (Str × Value F)} : h[a]? = some (.obj ms) → ms.map (·.1) = vs.map (·.1) →
      (∀ (i : Nat) (m : Str × Nat) (w : Str × Value F), ms[i]? = some m → vs[i]? = some w → Shows h m.2 w.2) → Shows h a (.obj vs)

/-- The subscripts lead from the value at `a` to the one at `b`. -/
inductive Leads (h : List (Node F)) : Nat → List Step → Nat → Prop
  | here (a : Nat) : Leads h a [] a
  | name {a b c : Nat} {k : Str} {qs : List Step} {ms : List (Str × Nat)} : h[a]? = some (.obj ms) → (k, b) ∈ ms → Leads h b qs c →
      Leads h a (.name k :: qs) c
  | idx {a b c i : Nat} {qs : List Step} {es : List Nat} : h[a]? = some (.arr es) → es[i]? = some b → Leads h b qs c →
      Leads h a (.idx i :: qs) c

/-- Memory as programs can make it: addresses are of values, and the names of an object's members differ. -/
structure Sound (s : St F) : Prop where
  edges : ∀ a b, Edge s.heap a b → b < s.heap.length
  vars : ∀ x ∈ s.vars, x < s.heap.length
  names : ∀ (a : Nat) (ms : List (Str × Nat)), s.heap[a]? = some (.obj ms) → (ms.map (·.1)).Nodup

/-- The variable `x` shows `v`. -/
def Has (s : St F) (x : Nat) (v : Value F) : Prop := ∃ a, s.vars[x]? = some a ∧ Shows s.heap a v

/-- `c` is what the variable `x` holds, or a part of it. -/
def Part (s : St F) (x c : Nat) : Prop := ∃ a, s.vars[x]? = some a ∧ Reach s.heap a c

/-- What the variables in `A` hold has no part in common with what the others hold. -/
def Apart (s : St F) (A : Nat → Prop) : Prop := ∀ x y c, A x → ¬ A y → Part s x c → ¬ Part s y c

/-- The variables that a statement mentions. -/
def mentions : Op F → List Nat
  | .make _ => []
  | .copy e => [e.root]
  | .assign e y => [e.root, y]
  | .add e y => [e.root, y]
  | .addAs e _ y => [e.root, y]
  | .clone e => [e.root]
  | .merge y z => [y, z]
  | .size e => [e.root]
  | .count e _ => [e.root]
  | .type e => [e.root]
  | .print e => [e.root]

/-- The expression by which a statement changes something must not be `const`. -/
def compiles : Op F → Prop
  | .assign e _ => e.con = false
  | .add e _ => e.con = false
  | .addAs e _ _ => e.con = false
  | _ => True

/-- The statement does not put a value into itself or into one of its own parts. -/
def Tidy (s : St F) : Op F → Prop
  | .assign e y => ∀ s' p c b, eval s e = (s', .ok (p, c)) → s.vars[y]? = some b →
      match p with
      | .var _ => True
      | .elem a _ => ¬ Reach s'.heap b a
      | .member a _ => ¬ Reach s'.heap b a
  | .add e y => ∀ s' p a b, eval s e = (s', .ok (p, a)) → s.vars[y]? = some b → ¬ Reach s'.heap b a
  | .addAs e _ y => ∀ s' p a b, eval s e = (s', .ok (p, a)) → s.vars[y]? = some b → ¬ Reach s'.heap b a
  | _ => True

/-- Every statement of a program is tidy. -/
def TidyRun (d : Nat) : St F → List (Op F) → Prop
  | _, [] => True
  | s, o :: os => Tidy s o ∧ TidyRun d (exec d s o).1 os

/-- No subscript by number. -/
def ByName : Op F → Prop
  | .make _ => True
  | .merge _ _ => True
  | .copy e => ∀ q ∈ e.steps, ∃ k, q = .name k
  | .assign e _ => ∀ q ∈ e.steps, ∃ k, q = .name k
  | .add e _ => ∀ q ∈ e.steps, ∃ k, q = .name k
  | .addAs e _ _ => ∀ q ∈ e.steps, ∃ k, q = .name k
  | .clone e => ∀ q ∈ e.steps, ∃ k, q = .name k
  | .size e => ∀ q ∈ e.steps, ∃ k, q = .name k
  | .count e _ => ∀ q ∈ e.steps, ∃ k, q = .name k
  | .type e => ∀ q ∈ e.steps, ∃ k, q = .name k
  | .print e => ∀ q ∈ e.steps, ∃ k, q = .name k

/-- The variables that a statement gives a new value by name, `x = y`. -/
def rebinds (x : Nat) : Op F → Prop
  | .assign e _ => e.root = x ∧ e.steps = []
  | _ => False

end Verif.JsonDoc.Spec
