import Verif.Socket.Model
/-! What a user of a stream socket expects: two byte streams. -/

namespace Verif.Socket.Spec
open Verif.Socket

/-- The bytes a sequence of calls writes. -/
def written : List Op → Str
  | [] => []
  | .write d :: os => d ++ written os
  | .puts d :: os => d ++ written os
  | _ :: os => written os

/-- The call succeeded, as far as its result shows: all of the argument is taken, the flush is done. -/
def Good : Op → Res → Prop
  | .write d, r => r = .int d.length
  | .puts _, r => r = .bool true
  | .flush, r => r = .int (-1)
  | _, _ => True

/-- The call only writes. -/
def Writing : Op → Prop
  | .write _ | .puts _ | .flush => True
  | _ => False

/-- The call only reads. -/
def Reading : Op → Prop
  | .read _ | .getc | .getline _ => True
  | _ => False

/-- A line without the carriage return at its end. -/
def dropCR (l : Str) : Str := if l.getLast? = some 13 then l.dropLast else l

/-- The next line of a stream and what remains: up to the newline, which is taken away with a carriage return before it, if the newline
comes within the limit; else as many bytes as the limit allows; else all of the stream, with `none` for an empty one. -/
def nextLine (limit : Option Nat) (s : Str) : Option Str × Str :=
  let head := s.takeWhile (· ≠ 10)
  if ∃ n, limit = some n ∧ n ≤ head.length then (some (s.take (limit.getD 0)), s.drop (limit.getD 0))
  else if 10 ∈ s then (some (dropCR head), s.drop (head.length + 1))
  else (if s = [] then none else some s, [])

/-- The reading calls on a stream that is there from the beginning. -/
def readStep : Op → Str → Res × Str
  | .read n, s => (.bytes (s.take n), s.drop n)
  | .getc, s => (.char s.head?, s.tail)
  | .getline n, s => let (l, s) := nextLine (if n < 0 then none else some n.toNat) s; (.line l, s)
  | _, s => (.int 0, s)

/-- Reading calls in sequence. -/
def readRun : List Op → Str → List Res × Str
  | [], s => ([], s)
  | o :: os, s => let (r, s) := readStep o s; let (rs, s) := readRun os s; (r :: rs, s)

/-- A kernel whose `recv` does not fail while there is something to receive; the sizes of the pieces are arbitrary. -/
def Delivers (k : Kernel) : Prop := ∀ i, 0 < k.recv i

/-- A kernel whose `send` does not fail; the sizes of the pieces are arbitrary. -/
def Accepts (k : Kernel) : Prop := ∀ i, 0 < k.send i

/-- The reading calls among the calls, with their results. -/
def reads : List Op → List Res → List Op × List Res
  | o :: os, r :: rs =>
    let (a, b) := reads os rs
    match o with
    | .read _ | .getc | .getline _ => (o :: a, r :: b)
    | _ => (a, b)
  | _, _ => ([], [])

/-- A connection at its beginning: nothing in the buffers, nothing sent. -/
def fresh (incoming : Str) : St := { opened := true, connected := true, incoming := incoming }

end Verif.Socket.Spec
