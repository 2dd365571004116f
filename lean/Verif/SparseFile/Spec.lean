import Verif.SparseFile.Model
import Verif.Sparse.Spec
/-! # Specification for the files of sparse matrices (C100) -/
namespace Verif.SparseFile.Spec
open Verif.SparseFile Verif.Sparse Verif.Sparse.Spec

/-- Who opens the matrix `fn` is told that this went well, and reads these rows. -/
def Shows (S : Sys) (d : Disk) (fn : Name) (rows : List Row) : Prop :=
  ∃ r, R.open S fn d = some (0, r) ∧ r.rowNum = rows.length ∧
    ∀ (i : Nat) (hi : i < rows.length), r.rowSize i = some (rows[i].length : Int) ∧ r.getRow i = .ok rows[i]

/-- The name of the second file of a matrix. -/
def second (fn : Name) : Name := fn ++ ".offset".toUTF8.toList

/-- The matrices `fn` and `g` have no file in common. -/
def Apart (fn g : Name) : Prop := g ≠ fn ∧ g ≠ second fn ∧ second g ≠ fn

/-- The rows fit on the disk and below 2 GiB: an element takes six bytes at most. -/
structure Fit (S : Sys) (rows : List Row) : Prop where
  data : 6 * (rows.map List.length).sum ≤ S.cap
  small : 6 * (rows.map List.length).sum < 2 ^ 31
  table : 4 + 8 * rows.length ≤ S.cap
  few : rows.length < 2 ^ 31

/-- Both files of a matrix can be written and read. -/
structure Free (S : Sys) (fn : Name) : Prop where
  write : S.write fn = true
  write' : S.write (second fn) = true
  read : S.read fn = true
  read' : S.read (second fn) = true

/-- What ends the writing of the matrix `fn` in a regular way. -/
inductive Ends (fn : Name) : Op → Prop
  | close : Ends fn .close
  | next {g} : Apart fn g → Ends fn (.open g)

end Verif.SparseFile.Spec
