import Verif.Code.Model
import Verif.Serial.Model
import Verif.AssocMap
/-!
# Model of `pfi::data::sparse_matrix`

Source: `/repo/src/data/sparse_matrix/sparse_matrix.cpp`. The bit-level codes
are those of `Verif.Code`. `int` values are integers; `none` stands for
undefined behaviour (signed overflow, an index out of range, an uninitialised
value). Files are byte lists; file operations are assumed to succeed, and the
host to be little-endian (the offset file is in host order).
-/
namespace Verif.Sparse
open Verif.Code

/-- A row: column and value
(`/repo/src/data/sparse_matrix/sparse_matrix.h:66-68`). -/
abbrev Row := List (Int × UInt8)

/-- Conversion of an `unsigned int` result to `int`. -/
def toInt32 (x : Int) : Int := (x + 2 ^ 31) % 2 ^ 32 - 2 ^ 31

/-- The loop of `append_row`
(`/repo/src/data/sparse_matrix/sparse_matrix.cpp:242-247` for maps, `258-263`
for vectors). `first - prevTerm` is an `int` subtraction. -/
def encodeRow : Row → Int → Enc → Option Enc
  | [], _, e => some e
  | (c, v) :: r, prev, e =>
    if c - prev < -2 ^ 31 ∨ 2 ^ 31 ≤ c - prev then none
    else
      (e.prefixCode ((c - prev) % 2 ^ 32).toNat).bind fun e1 =>
      (e1.byte v).bind fun e2 => encodeRow r c e2

/-- What a writer has produced: the data file and the row table
(`/repo/src/data/sparse_matrix/sparse_matrix.cpp:63-86`; the `offsets` the
writer keeps are never used and not modelled). -/
structure Writer where
  data : List UInt8
  infos : List (Nat × Nat)
deriving Repr, DecidableEq

/-- A freshly opened writer
(`/repo/src/data/sparse_matrix/sparse_matrix.cpp:204-221`). -/
def Writer.new : Writer := ⟨[], []⟩

/-- `append_row` (`/repo/src/data/sparse_matrix/sparse_matrix.cpp:233-266` and
`matrix_offsets::append_row`, `177-186`): entries are `(num, size)`. -/
def Writer.append (w : Writer) (row : Row) : Option Writer :=
  (encodeRow row (-1) Enc.new).map fun e =>
    ⟨w.data ++ e.flush.1, w.infos ++ [(row.length, e.flush.2.1)]⟩

/-- A sequence of `append_row` calls. (Client of
`/repo/src/data/sparse_matrix/sparse_matrix.h:70-71`.) -/
def Writer.appendAll (w : Writer) : List Row → Option Writer
  | [] => some w
  | r :: rs => (w.append r).bind fun w' => w'.appendAll rs

/-- Table entries as written to the offset file. -/
def infoBytes : List (Nat × Nat) → List UInt8
  | [] => []
  | (n, s) :: r => Serial.toLE 4 n ++ Serial.toLE 4 s ++ infoBytes r

/-- The offset file written by `close`
(`/repo/src/data/sparse_matrix/sparse_matrix.cpp:125-140`). -/
def Writer.offsetFile (w : Writer) : List UInt8 :=
  Serial.toLE 4 w.infos.length ++ infoBytes w.infos

/-- `ifs.read((char*)&rowInfos[0], …)`
(`/repo/src/data/sparse_matrix/sparse_matrix.cpp:109`). -/
def parseInfos : Nat → List UInt8 → List (Nat × Nat)
  | 0, _ => []
  | n + 1, bs => (Serial.ofLE (bs.take 4), Serial.ofLE ((bs.drop 4).take 4)) :: parseInfos n (bs.drop 8)

/-- `offsets[i]=offsets[i-1]+rowInfos[i-1].size`
(`/repo/src/data/sparse_matrix/sparse_matrix.cpp:110-113`); the argument is
the previous sum. -/
def offsetsFrom : Nat → List (Nat × Nat) → Option (List Nat)
  | _, [] => some []
  | o, (_, s) :: r => if 2 ^ 31 ≤ o then none else (offsetsFrom (o + s) r).map (o :: ·)

/-- An open reader (`/repo/src/data/sparse_matrix/sparse_matrix.h:113-115`). -/
structure Reader where
  mem : List UInt8
  infos : List (Nat × Nat)
  offsets : List Nat
deriving Repr, DecidableEq

/-- `sparse_matrix_reader::open` with existing files
(`/repo/src/data/sparse_matrix/sparse_matrix.cpp:292-303` and `93-116`). An
offset file without a count leaves `rowNum` uninitialised; a negative count
or size is not modelled and yields `none`. -/
def Reader.open (data offs : List UInt8) : Option Reader :=
  if offs.length < 4 then none
  else
    let n := Serial.ofLE (offs.take 4)
    if 2 ^ 31 ≤ n then none
    else
      let infos := parseInfos n (offs.drop 4 ++ List.replicate (8 * n) 0)
      if infos.any (fun p => 2 ^ 31 ≤ p.1 ∨ 2 ^ 31 ≤ p.2) then none
      else (offsetsFrom 0 infos).map fun o => ⟨attachStream data, infos, o⟩

/-- `row_num` (`/repo/src/data/sparse_matrix/sparse_matrix.cpp:314-318`). -/
def Reader.rowNum (r : Reader) : Nat := r.infos.length

/-- The loop of `get_row`
(`/repo/src/data/sparse_matrix/sparse_matrix.cpp:339-343`). -/
def decodeRow (mem : List UInt8) : Nat → Int → Dec → Option Row
  | 0, _, _ => some []
  | n + 1, col, d =>
    (Dec.prefixCode mem d).bind fun r =>
    (Dec.byte mem r.2).bind fun b =>
      (decodeRow mem n (toInt32 (col + r.1)) b.2).map fun rest => (toInt32 (col + r.1), b.1) :: rest

/-- Outcome of `get_row`. -/
inductive Got (α : Type)
  | undefined
  | unchanged
  | ok (a : α)
deriving Repr, DecidableEq

/-- `matrix_offsets::num` (`/repo/src/data/sparse_matrix/sparse_matrix.cpp:147-155`):
there is no test for a negative index. -/
def Reader.num (r : Reader) (i : Int) : Got Nat :=
  if (r.infos.length : Int) ≤ i then .unchanged
  else if i < 0 then .undefined
  else match r.infos[i.toNat]? with
    | some p => .ok p.1
    | none => .undefined

/-- `get_row` into a vector
(`/repo/src/data/sparse_matrix/sparse_matrix.cpp:326-344`). -/
def Reader.getRow (r : Reader) (i : Int) : Got Row :=
  match r.num i with
  | .undefined => .undefined
  | .unchanged => .unchanged
  | .ok n =>
    match r.offsets[i.toNat]? with
    | none => .undefined
    | some o =>
      match decodeRow r.mem n (-1) ⟨o, 0⟩ with
      | none => .undefined
      | some row => .ok row

/-- `get_row` into a map: the entries are assigned one after the other in the
map that was passed, which is not cleared
(`/repo/src/data/sparse_matrix/sparse_matrix.cpp:346-380`). -/
def Reader.getRowMap (r : Reader) (i : Int) (m : List (Int × UInt8)) : Got (List (Int × UInt8)) :=
  match r.getRow i with
  | .undefined => .undefined
  | .unchanged => .unchanged
  | .ok row => .ok (row.foldl (fun m p => AssocMap.upsert m p.1 p.2) m)

/-- All rows, read by `get_row(j, docs)` for each `j`; `none` if one is
undefined (`/repo/src/data/sparse_matrix/sparse_matrix.cpp:416-418`,
`463-465`). -/
def Reader.rowsFrom (r : Reader) (i : Nat) : Nat → Option (List Row)
  | 0 => some []
  | n + 1 =>
    match r.getRow i with
    | .ok row => (r.rowsFrom (i + 1) n).map (row :: ·)
    | .unchanged => (r.rowsFrom (i + 1) n).map ([] :: ·)
    | .undefined => none

/-- `if (term>=termCount.size()) termCount.resize(term+1); ++termCount[term];`
(`/repo/src/data/sparse_matrix/sparse_matrix.cpp:420-422`). -/
def bump (tc : List Nat) (c : Int) : Option (List Nat) :=
  if c < 0 then none
  else
    let tc' := tc ++ List.replicate (c.toNat + 1 - tc.length) 0
    some (tc'.modify c.toNat (· + 1))

/-- Counting of one row
(`/repo/src/data/sparse_matrix/sparse_matrix.cpp:419-423`). -/
def countRow : Row → List Nat → Option (List Nat)
  | [], tc => some tc
  | (c, _) :: r, tc => (bump tc c).bind fun tc' => countRow r tc'

/-- Counting of all rows
(`/repo/src/data/sparse_matrix/sparse_matrix.cpp:415-424`). -/
def countRows : List Row → List Nat → Option (List Nat)
  | [], tc => some tc
  | r :: rs, tc => (countRow r tc).bind fun tc' => countRows rs tc'

/-- The loop that closes a block of columns when it gets too big
(`/repo/src/data/sparse_matrix/sparse_matrix.cpp:440-447`): the boundaries
and the remaining sum. -/
def boundLoop (limit : Nat) : List Nat → Nat → Nat → List Nat × Nat
  | [], _, sum => ([], sum)
  | t :: ts, i, sum =>
    if limit ≤ sum + t then ((i + 1) :: (boundLoop limit ts (i + 1) 0).1, (boundLoop limit ts (i + 1) 0).2)
    else boundLoop limit ts (i + 1) (sum + t)

/-- The boundaries (`/repo/src/data/sparse_matrix/sparse_matrix.cpp:429-451`);
`limit` comes from the free memory of the machine. -/
def bounds (limit : Nat) (tc : List Nat) : List Nat :=
  if 0 < (boundLoop limit tc 0 0).2 then (boundLoop limit tc 0 0).1 ++ [tc.length]
  else (boundLoop limit tc 0 0).1

/-- `hash[..][j] = v` on a `std::map` enumerated in key order
(`/repo/src/data/sparse_matrix/sparse_matrix.cpp:468`). -/
def putSorted (j : Int) (v : UInt8) : Row → Row
  | [] => [(j, v)]
  | (k, w) :: r =>
    if j < k then (j, v) :: (k, w) :: r
    else if j = k then (k, v) :: r
    else (k, w) :: putSorted j v r

/-- One row distributed over the block of columns `st … en-1`
(`/repo/src/data/sparse_matrix/sparse_matrix.cpp:466-468`). -/
def scatter (st en : Nat) (j : Int) : Row → List Row → List Row
  | [], hash => hash
  | (c, v) :: r, hash =>
    scatter st en j r
      (if (st : Int) ≤ c ∧ c < en then hash.modify (c - st).toNat (putSorted j v) else hash)

/-- All rows distributed
(`/repo/src/data/sparse_matrix/sparse_matrix.cpp:463-469`). -/
def scatterAll (st en : Nat) : List Row → Nat → List Row → List Row
  | [], _, hash => hash
  | r :: rs, j, hash => scatterAll st en rs (j + 1) (scatter st en j r hash)

/-- The blocks one after the other
(`/repo/src/data/sparse_matrix/sparse_matrix.cpp:456-472`). -/
def blocks (docs : List Row) : Nat → List Nat → Writer → Option Writer
  | _, [], w => some w
  | st, en :: bs, w =>
    (w.appendAll (scatterAll st en docs 0 (List.replicate (en - st) []))).bind fun w' =>
      blocks docs en bs w'

/-- `matrix_transpose` (`/repo/src/data/sparse_matrix/sparse_matrix.cpp:394-477`)
from an open reader to the writer's contents. The rows are read once per
block in the code; they are the same each time. The sum of counts is not
reduced modulo 2^64. -/
def transpose (limit : Nat) (rd : Reader) : Option Writer :=
  (rd.rowsFrom 0 rd.rowNum).bind fun docs =>
  (countRows docs []).bind fun tc =>
    blocks docs 0 (bounds limit tc) Writer.new

end Verif.Sparse
