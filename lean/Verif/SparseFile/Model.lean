import Verif.Sparse.Model
/-!
# Model of the files of sparse matrices

Source: `/repo/src/data/sparse_matrix/sparse_matrix.cpp`, `/repo/src/data/code/code.cpp`.

`Verif/Sparse` has the contents of the files; here are the objects that write and read them, and a
disk. There is one writer at a time, and nobody else writes. What is put into an `ofstream` is in the file
when the stream is closed (how much is there before is not said). `none` is undefined behaviour.
-/
namespace Verif.SparseFile
open Verif.Sparse

abbrev Name := List UInt8
abbrev Bytes := List UInt8

/-- The files by name. -/
abbrev Disk := Name → Option Bytes

/-- A file gets new contents. -/
def put (d : Disk) (n : Name) (b : Bytes) : Disk := fun m => if m = n then some b else d m

/-- What the system allows: which files can be opened for reading, if they exist, which for writing, and
how long a file can get. What is written beyond is lost; the state of the stream is never tested
(`/repo/src/data/code/code.cpp:68`, `/repo/src/data/sparse_matrix/sparse_matrix.cpp:136-137,225`). -/
structure Sys where
  read : Name → Bool
  write : Name → Bool
  cap : Nat

/-- `fnMat+".offset"` (`/repo/src/data/sparse_matrix/sparse_matrix.cpp:215,298`). -/
def offsetName (fn : Name) : Name := fn ++ [46, 111, 102, 102, 115, 101, 116]

/-! ### The writer -/

/-- A `sparse_matrix_writer` (`/repo/src/data/sparse_matrix/sparse_matrix.h:74-76`): the stream with its name and what was
put into it, if it is open; the table of rows with its name, if there is one. -/
structure W where
  ofs : Option (Name × Bytes)
  tab : Option (Name × List (Nat × Nat))
deriving DecidableEq

/-- The constructor (`/repo/src/data/sparse_matrix/sparse_matrix.cpp:194-197`). -/
def W.new : W := ⟨none, none⟩

/-- The stream is closed, by `close` or by its destructor. -/
def endFile (S : Sys) (o : Option (Name × Bytes)) (d : Disk) : Disk :=
  match o with
  | none => d
  | some (n, b) => put d n (b.take S.cap)

/-- `matrix_offsets::flush` (`/repo/src/data/sparse_matrix/sparse_matrix.cpp:125-140`). -/
def flushTab (S : Sys) (t : Name × List (Nat × Nat)) (d : Disk) : Disk :=
  if t.1.length = 0 then d
  else if S.write t.1 then put d t.1 ((Writer.offsetFile ⟨[], t.2⟩).take S.cap)
  else d

/-- `close` (`/repo/src/data/sparse_matrix/sparse_matrix.cpp:223-231`). -/
def W.close (S : Sys) (w : W) (d : Disk) : W × Disk :=
  match w.tab with
  | some t => (⟨none, none⟩, flushTab S t (endFile S w.ofs d))
  | none => (⟨none, none⟩, endFile S w.ofs d)

/-- The destructor (`/repo/src/data/sparse_matrix/sparse_matrix.cpp:199-202`), and that of the stream. -/
def W.destroy (S : Sys) (w : W) (d : Disk) : Disk := endFile S w.ofs d

/-- `open` (`/repo/src/data/sparse_matrix/sparse_matrix.cpp:204-221`); opening the stream empties the file. For writing
`matrix_offsets::open` does not fail (`93-116`). -/
def W.open (S : Sys) (fn : Name) (w : W) (d : Disk) : Int × W × Disk :=
  let (w, d) := w.close S d
  if S.write fn then (0, ⟨some (fn, []), some (offsetName fn, [])⟩, put d fn [])
  else (-1, w, d)

/-- `append_row` (`/repo/src/data/sparse_matrix/sparse_matrix.cpp:233-266`). -/
def W.append (row : Row) (w : W) : Option W :=
  match w.ofs, w.tab with
  | some (n, b), some (m, infos) => (Writer.append ⟨b, infos⟩ row).map fun x => ⟨some (n, x.data), some (m, x.infos)⟩
  | _, _ => some w

/-- `row_num` (`/repo/src/data/sparse_matrix/sparse_matrix.cpp:268-270`): `offsets` is not tested. -/
def W.rowNum (w : W) : Option Nat := w.tab.map fun t => t.2.length

/-- What a program does with a writer: it may also let it go out of scope and make another one. -/
inductive Op where
  | open (fn : Name)
  | append (row : Row)
  | rowNum
  | close
  | renew

/-- The writer and the disk. -/
structure St where
  w : W
  d : Disk

/-- One operation: what it returns and what it leaves. (Client of `/repo/src/data/sparse_matrix/sparse_matrix.h:51-73`.) -/
def step (S : Sys) (o : Op) (s : St) : Option (Int × St) :=
  match o with
  | .open fn => let (r, w, d) := s.w.open S fn s.d; some (r, ⟨w, d⟩)
  | .append row => (s.w.append row).map fun w => (0, ⟨w, s.d⟩)
  | .rowNum => s.w.rowNum.map fun n => ((n : Int), s)
  | .close => let (w, d) := s.w.close S s.d; some (0, ⟨w, d⟩)
  | .renew => some (0, ⟨.new, s.w.destroy S s.d⟩)

/-- Several operations. (Client of `/repo/src/data/sparse_matrix/sparse_matrix.h:51-73`.) -/
def run (S : Sys) : List Op → St → Option (List Int × St)
  | [], s => some ([], s)
  | o :: os, s => (step S o s).bind fun r => (run S os r.2).map fun q => (r.1 :: q.1, q.2)

/-! ### The reader -/

/-- A `sparse_matrix_reader` (`/repo/src/data/sparse_matrix/sparse_matrix.h:113-115`): the memory of the decoder, and the
table with the offsets. -/
structure R where
  mem : Option Bytes
  tab : Option (List (Nat × Nat) × List Nat)
deriving DecidableEq

/-- The constructor, and what `close` leaves (`/repo/src/data/sparse_matrix/sparse_matrix.cpp:278-282,305-312`). -/
def R.new : R := ⟨none, none⟩

/-- The contents of a file that can be opened for reading. -/
def content (S : Sys) (d : Disk) (n : Name) : Option Bytes := if S.read n then d n else none

/-- `open` (`/repo/src/data/sparse_matrix/sparse_matrix.cpp:292-303`), after `close`. The whole file is read by `decoder::attach`
(`/repo/src/data/code/code.cpp:147-160`), whose result is not looked at. -/
def R.open (S : Sys) (fn : Name) (d : Disk) : Option (Int × R) :=
  let mem := (content S d fn).map Code.attachStream
  match content S d (offsetName fn) with
  | none => some (-1, ⟨mem, some ([], [])⟩)
  | some offs => (Reader.open [] offs).map fun r => (0, ⟨mem, some (r.infos, r.offsets)⟩)

/-- `row_num` (`/repo/src/data/sparse_matrix/sparse_matrix.cpp:314-318`). -/
def R.rowNum (r : R) : Nat :=
  match r.tab with
  | none => 0
  | some t => t.1.length

/-- `get_row_size` and `get_row_nonzero_value_num` (`/repo/src/data/sparse_matrix/sparse_matrix.cpp:320-324,382-386`). -/
def R.rowSize (r : R) (i : Int) : Option Int :=
  match r.tab with
  | none => some 0
  | some t =>
    match Reader.num ⟨[], t.1, t.2⟩ i with
    | .undefined => none
    | .unchanged => some (-1)
    | .ok n => some n

/-- `get_row` into a vector (`/repo/src/data/sparse_matrix/sparse_matrix.cpp:326-344`). -/
def R.getRow (r : R) (i : Int) : Got Row :=
  match r.mem, r.tab with
  | some m, some t => Reader.getRow ⟨m, t.1, t.2⟩ i
  | _, _ => .unchanged

/-- All rows, each read into an empty vector (`/repo/src/data/sparse_matrix/sparse_matrix.cpp:416-418`). -/
def R.rowsFrom (r : R) (i : Nat) : Nat → Option (List Row)
  | 0 => some []
  | n + 1 =>
    match r.getRow i with
    | .ok row => (r.rowsFrom (i + 1) n).map (row :: ·)
    | .unchanged => (r.rowsFrom (i + 1) n).map ([] :: ·)
    | .undefined => none

/-! ### Transposition -/

/-- `matrix_transpose` (`/repo/src/data/sparse_matrix/sparse_matrix.cpp:394-477`): what it returns and the disk. `stat` is the
free memory, `none` if `get_sysstat` fails; then the writer is destroyed and not closed. -/
def transposeFile (S : Sys) (stat : Option Nat) (fn fnT : Name) (d : Disk) : Option (Int × Disk) :=
  (R.open S fn d).bind fun r =>
    if r.1 < 0 then some (-1, d)
    else
      let o := W.new.open S fnT d
      if o.1 < 0 then some (-1, W.destroy S o.2.1 o.2.2)
      else
        (r.2.rowsFrom 0 r.2.rowNum).bind fun docs =>
        (countRows docs []).bind fun tc =>
          match stat with
          | none => some (-1, W.destroy S o.2.1 o.2.2)
          | some free =>
            (blocks docs 0 (bounds (free / 20) tc) Writer.new).map fun x =>
              (0, (W.close S ⟨some (fnT, x.data), some (offsetName fnT, x.infos)⟩ o.2.2).2)

end Verif.SparseFile
