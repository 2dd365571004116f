import Verif.Json.Value
/-! Model of JSON documents as programs see them: `json` is a handle (`/repo/src/text/json/base.h:82-136`) holding a `shared_ptr` to
a value, so that copies of handles, members of objects and elements of arrays may all share one value.

Memory is a list of values that only grows: that a value lives as long as something shares it, and is destroyed after that, is
proved of `shared_ptr` in `Verif.SharedPtr`. A program is a sequence of operations on numbered variables of type `json`; an operation
may reach its target by subscripts, as in `x["a"][3].add(y)`. -/

namespace Verif.JsonDoc
open Verif.Json (Str)

variable {F : Type}

/-- A value in memory: the subclasses of `json_value`, `/repo/src/text/json/base.h:155,225,247,281,387,507,529`. `double` is an
arbitrary type. `arr` holds the addresses of the elements (`vector<json> dat`, `/repo/src/text/json/base.h:220`), `obj` those of the
members (`/repo/src/text/json/base.h:504`), in an enumeration order that carries no meaning. `nothing` is not a value: it stands for
what a handle made from a null pointer refers to (`/repo/src/text/json/base.h:98`; `json x = 0;` makes one). -/
inductive Node (F : Type) where
  | null
  | int (n : Int)
  | flt (x : F)
  | bool (b : Bool)
  | str (s : Str)
  | arr (es : List Nat)
  | obj (ms : List (Str × Nat))
  | nothing
deriving DecidableEq

/-- The program's memory: the values, and for each variable the address of the value it holds. -/
structure St (F : Type) where
  heap : List (Node F)
  vars : List Nat

/-- What can go wrong: `json_bad_cast`; `std::out_of_range`; behaviour that C++ leaves undefined; a recursion deeper than the stack
has room for; and, last, `stuck`: the operation names a variable that does not exist, or changes something through a `const`
reference, so that it is not one of a C++ program. -/
inductive Err where
  | badCast
  | outOfRange
  | undef
  | overflow
  | stuck
deriving DecidableEq, Repr

/-- `json::json_type_t`, `/repo/src/text/json/base.h:84-92`. -/
inductive Type_ where
  | null
  | integer
  | float
  | bool
  | string
  | array
  | object
deriving DecidableEq, Repr

/-- A reference `json&`: to a variable, to an element of the array or to a member of the object at an address. -/
inductive Place where
  | var (x : Nat)
  | elem (a i : Nat)
  | member (a : Nat) (k : Str)
deriving DecidableEq

/-- One subscript. -/
inductive Step where
  | name (k : Str)
  | idx (i : Nat)
deriving DecidableEq

/-- The expression `x[..][..]`; `con`: `x` is `const`. -/
structure Lv where
  root : Nat
  con : Bool
  steps : List Step

/-- What a new value can be: `json x(new json_integer(n))` and so on, `json x;` (null, `/repo/src/text/json/base.h:97,553-555`) and
`json x(0)`, `/repo/src/text/json/base.h:98`. That `json_float` refuses what is not finite (`/repo/src/text/json/base.h:249-253`) is
left to the type `F`. -/
inductive Lit (F : Type) where
  | null
  | int (n : Int)
  | flt (x : F)
  | bool (b : Bool)
  | str (s : Str)
  | emptyArr
  | emptyObj
  | zero

/-- The constructors, `/repo/src/text/json/base.h:157,227,249,283,405,509,531`. -/
def Lit.node : Lit F → Node F
  | .null => .null
  | .int n => .int n
  | .flt x => .flt x
  | .bool b => .bool b
  | .str s => .str s
  | .emptyArr => .arr []
  | .emptyObj => .obj []
  | .zero => .nothing

/-- `member[name] = j`, `/repo/src/text/json/base.h:411-413`. -/
def put {X : Type} (ms : List (Str × X)) (k : Str) (x : X) : List (Str × X) := ms.filter (fun m => m.1 ≠ k) ++ [(k, x)]

/-- `member.find(name)`, `/repo/src/text/json/base.h:441`. -/
def get {X : Type} (ms : List (Str × X)) (k : Str) : Option X := (ms.find? (fun m => m.1 = k)).map (·.2)

/-- The address that the handle at a place holds. -/
def load (s : St F) : Place → Option Nat
  | .var x => s.vars[x]?
  | .elem a i => match s.heap[a]? with
    | some (.arr es) => es[i]?
    | _ => none
  | .member a k => match s.heap[a]? with
    | some (.obj ms) => get ms k
    | _ => none

/-- `operator[](name)`, `/repo/src/text/json/base.h:570-576` with `436-438`: a missing member is made, null, by `unordered_map`'s own
subscript. For `const` handles `/repo/src/text/json/base.h:562-568` with `440-445`. -/
def subName (con : Bool) (s : St F) (p : Place) (k : Str) : St F × Except Err Place :=
  match load s p with
  | none => (s, .error .stuck)
  | some a => match s.heap[a]? with
    | none => (s, .error .stuck)
    | some (.obj ms) => match get ms k with
      | some _ => (s, .ok (.member a k))
      | none =>
        if con then (s, .error .outOfRange)
        else ({ s with heap := s.heap.set a (.obj (put ms k s.heap.length)) ++ [.null] }, .ok (.member a k))
    | some _ => (s, .error .badCast)

/-- `operator[](ix)`, `/repo/src/text/json/base.h:578-589` with `167-173`: the subscript of `vector` does not check its argument. -/
def subIdx (s : St F) (p : Place) (i : Nat) : St F × Except Err Place :=
  match load s p with
  | none => (s, .error .stuck)
  | some a => match s.heap[a]? with
    | none => (s, .error .stuck)
    | some (.arr es) => if i < es.length then (s, .ok (.elem a i)) else (s, .error .undef)
    | some _ => (s, .error .badCast)

/-- One subscript. (Client of `/repo/src/text/json/base.h:562-589`.) -/
def sub (con : Bool) (s : St F) (p : Place) : Step → St F × Except Err Place
  | .name k => subName con s p k
  | .idx i => subIdx s p i

/-- Several subscripts, from left to right. (Client of `/repo/src/text/json/base.h:562-589`.) -/
def walk (con : Bool) : St F → Place → List Step → St F × Except Err Place
  | s, p, [] => (s, .ok p)
  | s, p, q :: qs => match sub con s p q with
    | (s, .ok p) => walk con s p qs
    | (s, .error e) => (s, .error e)

/-- Assignment to a `json&`: the handle's `shared_ptr` is assigned (`/repo/src/text/json/base.h:135`, no `operator=` of its own). -/
def store (s : St F) (p : Place) (b : Nat) : Option (St F) :=
  match p with
  | .var x => some { s with vars := s.vars.set x b }
  | .elem a i => match s.heap[a]? with
    | some (.arr es) => some { s with heap := s.heap.set a (.arr (es.set i b)) }
    | _ => none
  | .member a k => match s.heap[a]? with
    | some (.obj ms) => some { s with heap := s.heap.set a (.obj (put ms k b)) }
    | _ => none

/-- A new value for a new variable. -/
def make (s : St F) (n : Node F) : St F := ⟨s.heap ++ [n], s.vars ++ [s.heap.length]⟩

/-- `json::add(v)`, `/repo/src/text/json/base.h:607-613` with `175-177`. -/
def addElem (s : St F) (a b : Nat) : St F × Except Err Unit :=
  match s.heap[a]? with
  | none => (s, .error .stuck)
  | some (.arr es) => ({ s with heap := s.heap.set a (.arr (es ++ [b])) }, .ok ())
  | some _ => (s, .error .badCast)

/-- `json::add(name, v)`, `/repo/src/text/json/base.h:599-605`. -/
def addMember (s : St F) (a : Nat) (k : Str) (b : Nat) : St F × Except Err Unit :=
  match s.heap[a]? with
  | none => (s, .error .stuck)
  | some (.obj ms) => ({ s with heap := s.heap.set a (.obj (put ms k b)) }, .ok ())
  | some _ => (s, .error .badCast)

/-- `json::size`, `/repo/src/text/json/base.h:638-647`. -/
def size (h : List (Node F)) (a : Nat) : Except Err Nat :=
  match h[a]? with
  | none => .error .stuck
  | some (.arr es) => .ok es.length
  | some (.obj ms) => .ok ms.length
  | some _ => .error .badCast

/-- `json::count`, `/repo/src/text/json/base.h:591-597` with `447-449`. -/
def count (h : List (Node F)) (a : Nat) (k : Str) : Except Err Nat :=
  match h[a]? with
  | none => .error .stuck
  | some (.obj ms) => .ok (if (get ms k).isSome then 1 else 0)
  | some _ => .error .badCast

/-- `json::type`, `/repo/src/text/json/base.h:557-560`, a virtual call; the overriders are
`/repo/src/text/json/base.h:159-161,229-231,255-257,285-287,407-409,511-513,533-535`. -/
def type (h : List (Node F)) (a : Nat) : Except Err Type_ :=
  match h[a]? with
  | none => .error .stuck
  | some .null => .ok .null
  | some (.int _) => .ok .integer
  | some (.flt _) => .ok .float
  | some (.bool _) => .ok .bool
  | some (.str _) => .ok .string
  | some (.arr _) => .ok .array
  | some (.obj _) => .ok .object
  | some .nothing => .error .undef

mutual
/-- What the recursion of `print` and of `pretty` goes through (`/repo/src/text/json/base.h:179-210,459-494,709-718`), `d` calls deep
at most: the tree it shows. (The text is modelled in `Verif.Json`.) -/
def read (h : List (Node F)) : Nat → Nat → Except Err (Verif.Json.Value F)
  | 0, _ => .error .overflow
  | d + 1, a => match h[a]? with
    | none => .error .stuck
    | some .null => .ok .null
    | some (.int n) => .ok (.int n)
    | some (.flt x) => .ok (.flt x)
    | some (.bool b) => .ok (.bool b)
    | some (.str t) => .ok (.str t)
    | some .nothing => .error .undef
    | some (.arr es) => match readL h d es with
      | .ok vs => .ok (.arr vs)
      | .error e => .error e
    | some (.obj ms) => match readM h d ms with
      | .ok vs => .ok (.obj vs)
      | .error e => .error e
/-- The loop over the elements, `/repo/src/text/json/base.h:182-188`. -/
def readL (h : List (Node F)) : Nat → List Nat → Except Err (List (Verif.Json.Value F))
  | _, [] => .ok []
  | d, a :: as => match read h d a with
    | .error e => .error e
    | .ok v => match readL h d as with
      | .error e => .error e
      | .ok vs => .ok (v :: vs)
/-- The loop over the members, `/repo/src/text/json/base.h:462-470`. -/
def readM (h : List (Node F)) : Nat → List (Str × Nat) → Except Err (List (Str × Verif.Json.Value F))
  | _, [] => .ok []
  | d, (k, a) :: as => match read h d a with
    | .error e => .error e
    | .ok v => match readM h d as with
      | .error e => .error e
      | .ok vs => .ok ((k, v) :: vs)
end

mutual
/-- `clone`, `/repo/src/text/json/base.h:720-723` and `213-218,240-242,274-276,314-316,497-502,522-524,542-544`, `d` calls deep at
most: the memory with the new values, and the address of the copy. -/
def clone : Nat → List (Node F) → Nat → Except Err (List (Node F) × Nat)
  | 0, _, _ => .error .overflow
  | d + 1, h, a => match h[a]? with
    | none => .error .stuck
    | some .nothing => .error .undef
    | some (.arr es) => match cloneL d h es with
      | .ok (h', as) => .ok (h' ++ [.arr as], h'.length)
      | .error e => .error e
    | some (.obj ms) => match cloneM d h ms [] with
      | .ok (h', as) => .ok (h' ++ [.obj as], h'.length)
      | .error e => .error e
    | some n => .ok (h ++ [n], h.length)
/-- The loop over the elements, `/repo/src/text/json/base.h:215-216`. -/
def cloneL : Nat → List (Node F) → List Nat → Except Err (List (Node F) × List Nat)
  | _, h, [] => .ok (h, [])
  | d, h, a :: as => match clone d h a with
    | .error e => .error e
    | .ok (h, b) => match cloneL d h as with
      | .error e => .error e
      | .ok (h, bs) => .ok (h, b :: bs)
/-- The loop over the members, `/repo/src/text/json/base.h:499-500`; the last argument is what `obj` holds so far. -/
def cloneM : Nat → List (Node F) → List (Str × Nat) → List (Str × Nat) → Except Err (List (Node F) × List (Str × Nat))
  | _, h, [], ns => .ok (h, ns)
  | d, h, (k, a) :: as, ns => match clone d h a with
    | .error e => .error e
    | .ok (h, b) => cloneM d h as (put ns k b)
end

/-- `json_object::merge`, `/repo/src/text/json/base.h:416-434` with the `return_second` of `389-398`. -/
def mergeMembers (ms ns : List (Str × Nat)) : List (Str × Nat) :=
  ns.foldl (fun r m => put r m.1 m.2) (ms.foldl (fun r m => put r m.1 m.2) [])

/-- `json::merge`, `/repo/src/text/json/base.h:627-636`. -/
def merge (h : List (Node F)) (a b : Nat) : Except Err (Node F) :=
  match h[a]?, h[b]? with
  | none, _ => .error .stuck
  | _, none => .error .stuck
  | some (.obj ms), some (.obj ns) => .ok (.obj (mergeMembers ms ns))
  | some _, some _ => .error .badCast

/-- One statement of a program. -/
inductive Op (F : Type) where
  /-- `json x(new json_integer(5));` -/
  | make (l : Lit F)
  /-- `json x = e;` -/
  | copy (e : Lv)
  /-- `e = y;` -/
  | assign (e : Lv) (y : Nat)
  /-- `e.add(y);` -/
  | add (e : Lv) (y : Nat)
  /-- `e.add(k, y);` -/
  | addAs (e : Lv) (k : Str) (y : Nat)
  /-- `json x = e.clone();` -/
  | clone (e : Lv)
  /-- `json x = y.merge(z);` -/
  | merge (y z : Nat)
  /-- `e.size()` -/
  | size (e : Lv)
  /-- `e.count(k)` -/
  | count (e : Lv) (k : Str)
  /-- `e.type()` -/
  | type (e : Lv)
  /-- `cout << e` -/
  | print (e : Lv)

/-- What the statement tells. -/
inductive Reply (F : Type) where
  | done
  | number (n : Nat)
  | type (t : Type_)
  | shown (v : Verif.Json.Value F)

/-- The address of `x[..][..]`. (Client of `/repo/src/text/json/base.h:562-589`.) -/
def eval (s : St F) (e : Lv) : St F × Except Err (Place × Nat) :=
  match walk e.con s (.var e.root) e.steps with
  | (s, .error r) => (s, .error r)
  | (s, .ok p) => match load s p with
    | none => (s, .error .stuck)
    | some a => (s, .ok (p, a))

/-- The rest of a statement that only asks. -/
def answer {X : Type} (s : St F) (f : X → Reply F) : Except Err X → St F × Except Err (Reply F)
  | .error r => (s, .error r)
  | .ok v => (s, .ok (f v))

/-- The rest of a statement that changes a value. -/
def acted (r : St F × Except Err Unit) : St F × Except Err (Reply F) := answer r.1 (fun _ => .done) r.2

/-- The address that a variable holds. -/
def var (s : St F) (y : Nat) : Except Err Nat := (s.vars[y]?).elim (.error .stuck) .ok

/-- One statement, with room for `d` nested calls. (Client of `/repo/src/text/json/base.h:82-136`.) -/
def exec (d : Nat) (s : St F) : Op F → St F × Except Err (Reply F)
  | .make l => (make s l.node, .ok .done)
  | .copy e => match eval s e with
    | (s, .error r) => (s, .error r)
    | (s, .ok (_, a)) => ({ s with vars := s.vars ++ [a] }, .ok .done)
  | .assign e y => match var s y with
    | .error r => (s, .error r)
    | .ok b => match eval s e with
      | (s, .error r) => (s, .error r)
      | (s, .ok (p, _)) => match e.con, store s p b with
        | false, some s => (s, .ok .done)
        | _, _ => (s, .error .stuck)
  | .add e y => match var s y with
    | .error r => (s, .error r)
    | .ok b => match eval s e with
      | (s, .error r) => (s, .error r)
      | (s, .ok (_, a)) => if e.con then (s, .error .stuck) else acted (addElem s a b)
  | .addAs e k y => match var s y with
    | .error r => (s, .error r)
    | .ok b => match eval s e with
      | (s, .error r) => (s, .error r)
      | (s, .ok (_, a)) => if e.con then (s, .error .stuck) else acted (addMember s a k b)
  | .clone e => match eval s e with
    | (s, .error r) => (s, .error r)
    | (s, .ok (_, a)) => match clone d s.heap a with
      | .error r => (s, .error r)
      | .ok (h, b) => (⟨h, s.vars ++ [b]⟩, .ok .done)
  | .merge y z => match var s y, var s z with
    | .error r, _ => (s, .error r)
    | _, .error r => (s, .error r)
    | .ok a, .ok b => match merge s.heap a b with
      | .error r => (s, .error r)
      | .ok n => (make s n, .ok .done)
  | .size e => match eval s e with
    | (s, .error r) => (s, .error r)
    | (s, .ok (_, a)) => answer s .number (size s.heap a)
  | .count e k => match eval s e with
    | (s, .error r) => (s, .error r)
    | (s, .ok (_, a)) => answer s .number (count s.heap a k)
  | .type e => match eval s e with
    | (s, .error r) => (s, .error r)
    | (s, .ok (_, a)) => answer s .type (type s.heap a)
  | .print e => match eval s e with
    | (s, .error r) => (s, .error r)
    | (s, .ok (_, a)) => answer s .shown (read s.heap d a)

/-- A program that catches the exceptions of each statement; `none` if it meets undefined behaviour or the end of the stack. -/
def run (d : Nat) : St F → List (Op F) → Option (St F)
  | s, [] => some s
  | s, o :: os => match exec d s o with
    | (s, .ok _) => run d s os
    | (s, .error .badCast) => run d s os
    | (s, .error .outOfRange) => run d s os
    | (_, .error _) => none

end Verif.JsonDoc
