/-! Model of `mmapper`, `/repo/src/system/mmapper.h` and `/repo/src/system/mmapper.cpp`, on a small operating system with files, descriptors and mappings. File
descriptors and addresses are used again after they are released, as they are on a real system. Simplified: an address stands for a whole mapping, files do not
change their size, and interrupted calls have been repeated (`NO_INTR`). -/

namespace Verif.Mmapper

/-- A function changed at one place. -/
def upd {α : Type} (f : Nat → α) (i : Nat) (v : α) : Nat → α := fun j => if j = i then v else f j

/-- The operating system: the files with their contents, the open descriptors with their files, and the mappings with their files and lengths. -/
structure Os where
  files : Nat → Option (List UInt8)
  fds : Nat → Option Nat := fun _ => none
  maps : Nat → Option (Nat × Nat) := fun _ => none

/-- `mmapper`, `/repo/src/system/mmapper.h:81-85`; constructed as in 49, with `NULL` and `-1` as `none`. -/
structure Mapper where
  ptr : Option Nat := none
  length : Nat := 0
  fd : Option Nat := none
deriving DecidableEq

/-- The operating system, and the mappers that are there. -/
structure State where
  os : Os
  objs : Nat → Option Mapper := fun _ => none

/-- The system call `close`; what is not open is ignored (as the result is). -/
def Os.close (os : Os) (fd : Nat) : Os := { os with fds := upd os.fds fd none }

/-- The system call `munmap`. Simplified: a mapping is released only as a whole. -/
def Os.munmap (os : Os) (a len : Nat) : Os :=
  match os.maps a with
  | none => os
  | some m => if m.2 = len then { os with maps := upd os.maps a none } else os

/-- `mmapper::close`, `/repo/src/system/mmapper.cpp:72-83`. -/
def close (os : Os) (m : Mapper) : Os × Mapper :=
  let os := match m.fd with
    | none => os
    | some fd => os.close fd
  let os := match m.ptr with
    | none => os
    | some a => os.munmap a m.length
  (os, { m with fd := none, ptr := none })

/-- How the system calls of `open` end: `open` fails; `fstat` fails; `mmap` fails; none fails. The system chooses the descriptor and the address. -/
inductive Calls where
  | openFails
  | fstatFails (fd : Nat)
  | mmapFails (fd : Nat)
  | succeed (fd a : Nat)
deriving DecidableEq

/-- The size of a file, from `fstat`. -/
def Os.size (os : Os) (name : Nat) : Nat :=
  match os.files name with
  | none => 0
  | some bytes => bytes.length

/-- What the operating system can do: there is no descriptor of a file that does not exist, descriptors and addresses are given out only when they are free,
and an empty file cannot be mapped. -/
def Possible (os : Os) (name : Nat) : Calls → Prop
  | .openFails => True
  | .fstatFails fd => os.files name ≠ none ∧ os.fds fd = none
  | .mmapFails fd => os.files name ≠ none ∧ os.fds fd = none
  | .succeed fd a => 0 < os.size name ∧ os.fds fd = none ∧ os.maps a = none

instance (os : Os) (name : Nat) (c : Calls) : Decidable (Possible os name c) := by
  cases c <;> unfold Possible <;> infer_instance

/-- `mmapper::open`, `/repo/src/system/mmapper.cpp:46-70`, with the destructor of `tmp` (`/repo/src/system/mmapper.h:53`). -/
def «open» (os : Os) (m : Mapper) (name : Nat) : Calls → Int × Os × Mapper
  | .openFails => (-1, (close os {}).1, m)
  | .fstatFails fd => (-1, (close { os with fds := upd os.fds fd (some name) } { fd := some fd }).1, m)
  | .mmapFails fd => (-1, (close { os with fds := upd os.fds fd (some name) } { fd := some fd, length := os.size name }).1, m)
  | .succeed fd a =>
    (0, (close { os with fds := upd os.fds fd (some name), maps := upd os.maps a (some (name, os.size name)) } m).1,
      { ptr := some a, length := os.size name, fd := some fd })

/-- What a program does with mappers; `extern`: another process writes to a file. -/
inductive Op where
  | create (x : Nat)
  | destroy (x : Nat)
  | open (x name : Nat) (calls : Calls)
  | close (x : Nat)
  | swap (x y : Nat)
  | moveConstruct (x y : Nat)
  | moveAssign (x y : Nat)
  | isOpen (x : Nat)
  | size (x : Nat)
  | get (x n : Nat)
  | set (x n : Nat) (b : UInt8)
  | extern (name n : Nat) (b : UInt8)
deriving DecidableEq

/-- What the program sees. -/
inductive Obs where
  | done
  | result (r : Int)
  | isOpen (b : Bool)
  | size (n : Nat)
  | byte (b : UInt8)
deriving DecidableEq

/-- How a program ends early: undefined behaviour (objects that are not there, or a fault in memory that is not mapped), or the system calls were not `Possible`. -/
inductive Stop where
  | undefined
  | impossible
deriving DecidableEq

/-- Memory at an address, `ptr + n`: the file it belongs to and its content. -/
def Os.memory (os : Os) (a n : Nat) : Option (Nat × List UInt8) :=
  match os.maps a with
  | none => none
  | some m => match os.files m.1 with
    | none => none
    | some bytes => if n < m.2 ∧ n < bytes.length then some (m.1, bytes) else none

/-- One operation. -/
def step (s : State) : Op → Except Stop (Obs × State)
  /- `/repo/src/system/mmapper.h:49` -/
  | .create x => match s.objs x with
    | some _ => .error .undefined
    | none => .ok (.done, { s with objs := upd s.objs x (some {}) })
  /- `/repo/src/system/mmapper.h:53` -/
  | .destroy x => match s.objs x with
    | none => .error .undefined
    | some m => .ok (.done, ⟨(close s.os m).1, upd s.objs x none⟩)
  /- `/repo/src/system/mmapper.cpp:46-70` -/
  | .open x name calls => match s.objs x with
    | none => .error .undefined
    | some m =>
      if Possible s.os name calls then
        .ok (.result («open» s.os m name calls).1, ⟨(«open» s.os m name calls).2.1, upd s.objs x (some («open» s.os m name calls).2.2)⟩)
      else .error .impossible
  /- `/repo/src/system/mmapper.cpp:72-83` -/
  | .close x => match s.objs x with
    | none => .error .undefined
    | some m => .ok (.result 0, ⟨(close s.os m).1, upd s.objs x (some (close s.os m).2)⟩)
  /- `/repo/src/system/mmapper.h:75-79` -/
  | .swap x y => match s.objs x, s.objs y with
    | some m, some n => .ok (.done, { s with objs := upd (upd s.objs x (some n)) y (some m) })
    | _, _ => .error .undefined
  /- `/repo/src/system/mmapper.h:50-52`: the members are copied (for pointers and numbers `std::move` is a copy); the temporary gets those of `rhs` and is
  destroyed. -/
  | .moveConstruct x y => match s.objs x, s.objs y with
    | none, some m => .ok (.done, ⟨(close s.os m).1, upd (upd s.objs x (some m)) y (some {})⟩)
    | _, _ => .error .undefined
  /- `/repo/src/system/mmapper.h:55-59`: as above for `tmp`, which then gets the old members of this object and is destroyed. -/
  | .moveAssign x y => match s.objs x, s.objs y with
    | some _, some m =>
      let os := (close s.os m).1
      let objs := upd s.objs y (some {})
      match objs x with
      | none => .error .undefined
      | some old => .ok (.done, ⟨(close os old).1, upd objs x (some m)⟩)
    | _, _ => .error .undefined
  /- `/repo/src/system/mmapper.h:70` -/
  | .isOpen x => match s.objs x with
    | none => .error .undefined
    | some m => .ok (.isOpen m.ptr.isSome, s)
  /- `/repo/src/system/mmapper.h:69` -/
  | .size x => match s.objs x with
    | none => .error .undefined
    | some m => .ok (.size m.length, s)
  /- `/repo/src/system/mmapper.h:61-68` -/
  | .get x n => match s.objs x with
    | none => .error .undefined
    | some m => match m.ptr with
      | none => .error .undefined
      | some a => match s.os.memory a n with
        | none => .error .undefined
        | some r => .ok (.byte (r.2.getD n 0), s)
  /- `/repo/src/system/mmapper.h:61-66`; the mapping is shared with the file (`/repo/src/system/mmapper.cpp:62`). -/
  | .set x n b => match s.objs x with
    | none => .error .undefined
    | some m => match m.ptr with
      | none => .error .undefined
      | some a => match s.os.memory a n with
        | none => .error .undefined
        | some r => .ok (.done, { s with os := { s.os with files := upd s.os.files r.1 (some (r.2.set n b)) } })
  /- Another process. -/
  | .extern name n b => .ok (.done, { s with os := { s.os with files := upd s.os.files name ((s.os.files name).map (fun bytes => bytes.set n b)) } })

/-- A program. -/
def run (s : State) : List Op → Except Stop (List Obs × State)
  | [] => .ok ([], s)
  | op :: ops => match step s op with
    | .error e => .error e
    | .ok r => match run r.2 ops with
      | .error e => .error e
      | .ok q => .ok (r.1 :: q.1, q.2)

end Verif.Mmapper
