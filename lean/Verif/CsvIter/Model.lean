import Verif.Csv.Model
/-!
# Model of `csv_iterator`

Source: `/repo/src/text/csv.h:47-235`. One `csv_parser` and the iterators over
it. The rows of an iterator made by copying are pointers into a buffer; here a
pointer names the iterator whose buffer it points into, so that it can dangle.
What the parser itself does is in `Verif.Csv`.
-/
namespace Verif.CsvIter
open Verif.Csv (Parser)

abbrev Str := List UInt8

/-- A `const char*` into the buffer of an iterator. `gen` counts the buffers
this iterator has had: a vector that is assigned to may move. -/
structure Ptr where
  owner : Nat
  gen : Nat
  off : Nat
deriving Repr, DecidableEq

/-- A `csv_iterator` (`/repo/src/text/csv.h:230-234`). `p` is false for a null
pointer; there is only one parser it can point to. -/
structure Iter where
  p : Bool
  cached : Bool
  cur : List Ptr
  buf : Str
  gen : Nat
deriving Repr, DecidableEq

/-- A parser with `has_next` (`/repo/src/text/csv.h:175-176`) and the
iterators made so far, `none` for those destroyed. -/
structure State where
  P : Parser
  hasNext : Bool
  iters : List (Option Iter)
deriving Repr, DecidableEq

/-- The constructors of `csv_parser` (`/repo/src/text/csv.h:57-69`, `init`: `:85-89`). -/
def start (s : Str) : State := ⟨Csv.init s, true, []⟩

/-- An iterator that exists. -/
def State.iter (s : State) (n : Nat) : Option Iter := (s.iters[n]?).join

/-- `csv_parser::next` (`/repo/src/text/csv.h:71-74`); `none` is undefined behaviour. -/
def next (s : State) : Option State :=
  match Csv.next s.P with
  | none => none
  | some (b, P) => some { s with P := P, hasNext := b }

/-- `csv_parser::end` (`/repo/src/text/csv.h:76-78`). -/
def atEnd (s : State) : Bool := !s.hasNext

/-- A new object. -/
def push (s : State) (it : Iter) : State := { s with iters := s.iters ++ [some it] }

/-- `operator++` (`/repo/src/text/csv.h:218-222`): undefined for a null `p`. -/
def inc (s : State) (n : Nat) : Option State :=
  match s.iter n with
  | none => none
  | some it =>
    if it.p = false then none
    else
      match next s with
      | none => none
      | some s' => some { s' with iters := s'.iters.set n (some { it with cached := false, p := s'.hasNext }) }

/-- `csv_iterator(csv_parser&)` (`/repo/src/text/csv.h:183-185`). -/
def make (s : State) : Option State := inc (push s ⟨true, false, [], [], 0⟩) s.iters.length

/-- `csv_iterator()` (`/repo/src/text/csv.h:187-188`). -/
def makeEnd (s : State) : State := push s ⟨false, false, [], [], 0⟩

/-- `csv_iterator(const csv_iterator&)` (`/repo/src/text/csv.h:190-196`) with
`copy` (`/repo/src/text/csv.h:91-93`, `:155-160`). -/
def copy (s : State) (m : Nat) : Option State :=
  match s.iter m with
  | none => none
  | some it =>
    if it.p then some (push s ⟨true, true, s.P.cur.map (fun off => ⟨s.iters.length, 0, off⟩), s.P.buf, 0⟩)
    else some (push s ⟨false, false, [], [], 0⟩)

/-- Assignment, which the class (`/repo/src/text/csv.h:179-235`) leaves to the
compiler: member by member, so the pointers in `cur` are copied as they are. -/
def assign (s : State) (n m : Nat) : Option State :=
  match s.iter n, s.iter m with
  | some a, some b =>
    if n = m then some s
    else some { s with iters := s.iters.set n (some { b with gen := a.gen + 1 }) }
  | _, _ => none

/-- Destruction, likewise left to the compiler. -/
def destroy (s : State) (n : Nat) : Option State :=
  match s.iter n with
  | none => none
  | some _ => some { s with iters := s.iters.set n none }

/-- `operator++(int)` (`/repo/src/text/csv.h:224-228`). The result is the last
object made; the compiler may return `ret` itself (`elide`) or a copy of it. -/
def postInc (elide : Bool) (s : State) (n : Nat) : Option State :=
  match copy s n with
  | none => none
  | some s1 =>
    match inc s1 n with
    | none => none
    | some s2 =>
      if elide then some s2
      else
        match copy s2 s.iters.length with
        | none => none
        | some s3 => destroy s3 s.iters.length

/-- The C string at a pointer. -/
def readPtr (s : State) (q : Ptr) : Option Str :=
  match s.iter q.owner with
  | none => none
  | some it => if it.gen = q.gen then Csv.cstr it.buf q.off else none

/-- What `operator*` comes to. -/
inductive Res where
  | row (r : List Str)
  | throws
  | ub
deriving Repr, DecidableEq

/-- `operator*` (`/repo/src/text/csv.h:206-210`), and reading the row through the reference at once. -/
def deref (s : State) (n : Nat) : Res :=
  match s.iter n with
  | none => .ub
  | some it =>
    if it.cached then
      match it.cur.mapM (readPtr s) with
      | some r => .row r
      | none => .ub
    else if it.p = false then .throws
    else
      match Csv.row s.P with
      | some r => .row r
      | none => .ub

/-- `operator->` (`/repo/src/text/csv.h:212-216`) followed by reading the row: a null pointer for an iterator at the end. -/
def arrow (s : State) (n : Nat) : Res :=
  match s.iter n with
  | none => .ub
  | some it =>
    if it.cached then
      match it.cur.mapM (readPtr s) with
      | some r => .row r
      | none => .ub
    else if it.p = false then .ub
    else
      match Csv.row s.P with
      | some r => .row r
      | none => .ub

/-- `operator==` (`/repo/src/text/csv.h:198-201`). -/
def eq (a b : Iter) : Bool := if !a.p && !b.p then true else false

/-- What a program may do. -/
inductive Op where
  | next
  | make
  | makeEnd
  | copy (m : Nat)
  | assign (n m : Nat)
  | destroy (n : Nat)
  | inc (n : Nat)
  | postInc (elide : Bool) (n : Nat)
deriving Repr, DecidableEq

/-- One operation, `none` if it is undefined. -/
def step (s : State) : Op → Option State
  | .next => next s
  | .make => make s
  | .makeEnd => some (makeEnd s)
  | .copy m => copy s m
  | .assign n m => assign s n m
  | .destroy n => destroy s n
  | .inc n => inc s n
  | .postInc e n => postInc e s n

/-- A program. -/
def run (s : State) : List Op → Option State
  | [] => some s
  | o :: os =>
    match step s o with
    | none => none
    | some s' => run s' os

end Verif.CsvIter
