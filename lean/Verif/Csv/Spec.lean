/-! # Specification: CSV texts and the buffer they need -/
namespace Verif.Csv.Spec

/-- A cell of a table and whether it is written in quotes. -/
structure Cell where
  text : List UInt8
  quoted : Bool
deriving Repr, DecidableEq

/-- Quotes doubled. -/
def escape : List UInt8 → List UInt8
  | [] => []
  | c :: s => if c = 34 then 34 :: 34 :: escape s else c :: escape s

/-- A cell as it is written. -/
def renderCell (c : Cell) : List UInt8 :=
  if c.quoted then 34 :: escape c.text ++ [34] else c.text

/-- The cells of a row with commas between them. -/
def renderCells : List Cell → List UInt8
  | [] => []
  | [c] => renderCell c
  | c :: cs => renderCell c ++ 44 :: renderCells cs

/-- The end of a row: newline, or carriage return and newline. -/
def eol (cr : Bool) : List UInt8 := if cr then [13, 10] else [10]

/-- A table, each row with its kind of end. -/
def render (t : List (List Cell × Bool)) : List UInt8 := t.flatMap fun r => renderCells r.1 ++ eol r.2

/-- A cell that may be written this way: without quotes only if it contains no
comma and no end of line, and does not begin with a quote. No cell contains the byte 0. -/
def CellOk (c : Cell) : Prop :=
  0 ∉ c.text ∧ (c.quoted = false → (∀ b ∈ c.text, b ≠ 44 ∧ b ≠ 13 ∧ b ≠ 10) ∧ c.text.head? ≠ some 34)

/-- A row that may be written: at least one cell. -/
def RowOk (r : List Cell) : Prop := r ≠ [] ∧ ∀ c ∈ r, CellOk c

/-- The strings of a row. -/
def texts (r : List Cell) : List (List UInt8) := r.map (·.text)

/-- The size of the buffer, doubled until `need` bytes fit in. -/
def grow (size need : Nat) : Nat :=
  if size < need ∧ 0 < size then grow (2 * size) need else size
termination_by need - size

/-- The size of the buffer after a row, when its cells are stored one after the
other with a terminating 0 byte each and only the bytes of the cells, not the
terminators, make it grow. `none` when a terminator does not fit in. -/
def rowFits (size : Nat) : Nat → List Cell → Option Nat
  | _, [] => some size
  | pos, c :: cs =>
    let e := pos + c.text.length
    let size' := grow size e
    if e < size' then rowFits size' (e + 1) cs else none

/-- The same for a table: whether no terminator of any row is stored outside the buffer. -/
def fits (size : Nat) : List (List Cell) → Bool
  | [] => true
  | r :: rs =>
    match rowFits size 0 r with
    | none => false
    | some size' => fits size' rs

/-- The sum of the lengths of the cells and of one terminator each. -/
def need (r : List Cell) : Nat := (r.map fun c => c.text.length + 1).sum

end Verif.Csv.Spec
