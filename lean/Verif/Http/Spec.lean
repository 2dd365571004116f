import Verif.Http.Model
/-! What HTTP headers and bodies should be. -/

namespace Verif.Http.Spec
open Verif.Socket Verif.Http

/-! ### The header as a map -/

/-- A name without regard to case (ASCII). -/
def fold (s : Str) : Str := s.map fun c => if 65 ≤ c ∧ c ≤ 90 then c + 32 else c

/-- The operations on a header. -/
inductive HOp where
  | set (key val : Str)
  | get (key : Str)
  | erase (key : Str)

/-- The value that belongs to a name after a history, the latest operation first. Asking for a name gives it an empty value if it has none. -/
def value : List HOp → Str → Option Str
  | [], _ => none
  | .set k v :: ops, n => if fold k = fold n then some v else value ops n
  | .erase k :: ops, n => if fold k = fold n then none else value ops n
  | .get k :: ops, n => if fold k = fold n then some ((value ops n).getD []) else value ops n

/-- The names present after a history, the latest operation first, in the order of their arrival. -/
def order : List HOp → List Str
  | [] => []
  | .set k _ :: ops => if fold k ∈ order ops then order ops else order ops ++ [fold k]
  | .get k :: ops => if fold k ∈ order ops then order ops else order ops ++ [fold k]
  | .erase k :: ops => (order ops).filter (· ≠ fold k)

/-- The operations on the model. -/
def apply : HOp → Header → Header
  | .set k v, h => Http.set k v h
  | .get k, h => (Http.get k h).2
  | .erase k, h => Http.erase k h

/-- A history from the empty header on, the latest operation first. -/
def after : List HOp → Header
  | [] => []
  | o :: ops => apply o (after ops)

/-! ### The header on the wire -/

/-- White space. -/
def Space (c : UInt8) : Prop := c = 32 ∨ (9 ≤ c ∧ c ≤ 13)

/-- A field that can be sent: a name without spaces and colons; a value in one line that does not begin with a space; short enough for a line. -/
structure Legal (e : Str × Str) : Prop where
  nonempty : e.1 ≠ []
  token : ∀ c ∈ e.1, ¬ Space c ∧ c ≠ 58
  oneLine : 10 ∉ e.2
  start : ∀ c ∈ e.2.head?, ¬ Space c
  short : e.1.length + e.2.length + 4 ≤ 4096

/-- The text of a header: the fields, then an empty line. -/
def text : Header → Str
  | [] => [13, 10]
  | (k, v) :: h => k ++ [58, 32] ++ v ++ [13, 10] ++ text h

/-! ### Bodies -/

/-- What taking characters from a body gives: the next one each time. -/
def takes : List BOp → Str → List (Option UInt8)
  | [], _ => []
  | .peek :: os, body => body.head? :: takes os body
  | .take :: os, body => body.head? :: takes os body.tail

/-- A chunk as it is sent: the digits of its size, an extension, the data. -/
structure Chunk where
  digits : Str
  ext : Str
  data : Str

/-- The value of a hexadecimal digit: its place among `0` to `9`, `a` to `f` or `A` to `F`. -/
def digitValue (c : UInt8) : Option Nat :=
  match ("0123456789abcdef".toUTF8.toList.idxOf? c) with
  | some n => some n
  | none => "0123456789ABCDEF".toUTF8.toList.idxOf? c

/-- The value of hexadecimal digits. -/
def hexValue (s : Str) : Nat := s.foldl (fun n c => 16 * n + (digitValue c).getD 0) 0

/-- Digits and extension of a chunk's first line are in order. -/
structure LegalLine (digits ext : Str) : Prop where
  nonempty : digits ≠ []
  hex : ∀ c ∈ digits, (digitValue c).isSome
  extStart : ext = [] ∨ ext.head? = some 59 ∨ ext.head? = some 32 ∨ ext.head? = some 9
  oneLine : 10 ∉ ext
  short : digits.length + ext.length + 2 ≤ 4096

/-- A chunk that is not the last one. -/
structure LegalChunk (c : Chunk) : Prop where
  line : LegalLine c.digits c.ext
  size : hexValue c.digits = c.data.length
  nonempty : c.data ≠ []
  int : c.data.length ≤ 2147483647

/-- The text of a chunk. -/
def chunkText (c : Chunk) : Str := c.digits ++ c.ext ++ [13, 10] ++ c.data ++ [13, 10]

/-- A line of a trailer. -/
structure LegalTrailer (l : Str) : Prop where
  nonempty : l ≠ []
  oneLine : 10 ∉ l
  short : l.length + 2 ≤ 4096

/-- The text of a chunked body: the chunks, the last chunk of size 0, a trailer, an empty line. -/
def bodyText (chunks : List Chunk) (last : Chunk) (trailer : List Str) : Str :=
  (chunks.map chunkText).flatten ++ last.digits ++ last.ext ++ [13, 10] ++ (trailer.map (· ++ [13, 10])).flatten ++ [13, 10]

/-- The body itself. -/
def content (chunks : List Chunk) : Str := (chunks.map (·.data)).flatten

end Verif.Http.Spec
