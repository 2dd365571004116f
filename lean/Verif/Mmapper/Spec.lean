import Verif.Mmapper.Model
/-! What a mapper should be: a variable that says which file is open, if any; its bytes are those of the file. -/

namespace Verif.Mmapper.Spec
open Verif.Mmapper

/-- A mapper: its file, and the size it reports. -/
structure View where
  file : Option Nat := none
  size : Nat := 0
deriving DecidableEq

/-- The files, and the mappers. -/
structure World where
  files : Nat → Option (List UInt8)
  vars : Nat → Option View := fun _ => none

/-- The content of the file of a mapper that is there and open, if it has a byte at `n`. -/
def content (w : World) (x n : Nat) : Option (Nat × List UInt8) :=
  match w.vars x with
  | some ⟨some f, _⟩ => match w.files f with
    | some bytes => if n < bytes.length then some (f, bytes) else none
    | none => none
  | _ => none

/-- What an operation should do; `none`: the program must not do it. A mapper that is closed keeps reporting the size of the file it was opened with. -/
def means (w : World) : Op → Option (Obs × World)
  | .create x => if w.vars x = none then some (.done, { w with vars := upd w.vars x (some {}) }) else none
  | .destroy x => if w.vars x = none then none else some (.done, { w with vars := upd w.vars x none })
  | .open x name calls => match w.vars x with
    | none => none
    | some _ => match calls with
      | .succeed _ _ => match w.files name with
        | some bytes => some (.result 0, { w with vars := upd w.vars x (some ⟨some name, bytes.length⟩) })
        | none => some (.result (-1), w)
      | _ => some (.result (-1), w)
  | .close x => match w.vars x with
    | none => none
    | some v => some (.result 0, { w with vars := upd w.vars x (some { v with file := none }) })
  | .swap x y => match w.vars x, w.vars y with
    | some a, some b => some (.done, { w with vars := upd (upd w.vars x (some b)) y (some a) })
    | _, _ => none
  | .moveConstruct x y => match w.vars x, w.vars y with
    | none, some a => some (.done, { w with vars := upd (upd w.vars x (some a)) y (some {}) })
    | _, _ => none
  | .moveAssign x y => match w.vars x, w.vars y with
    | some _, some a => some (.done, { w with vars := upd (upd w.vars y (some {})) x (some a) })
    | _, _ => none
  | .isOpen x => (w.vars x).map (fun v => (.isOpen v.file.isSome, w))
  | .size x => (w.vars x).map (fun v => (.size v.size, w))
  | .get x n => (content w x n).map (fun r => (.byte (r.2.getD n 0), w))
  | .set x n b => (content w x n).map (fun r => (.done, { w with files := upd w.files r.1 (some (r.2.set n b)) }))
  | .extern name n b => some (.done, { w with files := upd w.files name ((w.files name).map (fun bytes => bytes.set n b)) })

/-- A program. -/
def meansAll (w : World) : List Op → Option (List Obs × World)
  | [] => some ([], w)
  | op :: ops => (means w op).bind (fun r => (meansAll r.2 ops).map (fun q => (r.1 :: q.1, q.2)))

/-- The operation is not a move. -/
def NotMove : Op → Prop
  | .moveConstruct _ _ => False
  | .moveAssign _ _ => False
  | _ => True

/-- All descriptors and mappings belong to a mapper, and no two mappers have the same. -/
structure Owned (s : State) : Prop where
  fds : ∀ i, s.os.fds i ≠ none → ∃ x m, s.objs x = some m ∧ m.fd = some i
  maps : ∀ a, s.os.maps a ≠ none → ∃ x m, s.objs x = some m ∧ m.ptr = some a
  fdOnce : ∀ x y m n i, s.objs x = some m → s.objs y = some n → m.fd = some i → n.fd = some i → x = y
  mapOnce : ∀ x y m n a, s.objs x = some m → s.objs y = some n → m.ptr = some a → n.ptr = some a → x = y

end Verif.Mmapper.Spec
