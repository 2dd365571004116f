import Verif.Serial.Model
import Verif.AssocMap
/-!
# Model of `serialization::stream` and temporary files

Source: `/repo/src/data/serialization/iostream.h`, `/repo/src/system/file.cpp`,
`/repo/src/system/file.h`.

A `stream<>` object owns a temporary file or refers to a stream of the client.
The system is modelled by a directory and by the streams that are open. A name
that is removed while its file is open leaves the file open, as in POSIX. Shared
ownership of a stream is modelled by its meaning: it is closed when no object
holds it (`Verif/SharedPtr` treats the counts). Streams of clients are taken
to live longer than the objects that refer to them. There is one thread, and
nobody else removes files.
-/
namespace Verif.TmpStream

abbrev Name := List UInt8

/-! ### Streams -/

/-- A stream for reading and writing. A file has one position for both (`joint`); a
`stringstream` has two. `fail` is the failbit. -/
structure S where
  data : List UInt8
  gpos : Nat
  ppos : Nat
  joint : Bool
  fail : Bool
deriving DecidableEq

/-- A new file (`/repo/src/system/file.cpp:48-50`, `/repo/src/system/file.h:45-48`). -/
def newFile : S := ⟨[], 0, 0, true, false⟩

/-- A new `stringstream`. -/
def newString : S := ⟨[], 0, 0, false, false⟩

/-- Move the position for reading. -/
def setG (p : Nat) (s : S) : S := { s with gpos := p, ppos := if s.joint then p else s.ppos }

/-- Move the position for writing. -/
def setP (p : Nat) (s : S) : S := { s with ppos := p, gpos := if s.joint then p else s.gpos }

/-- Read all that is left (`/repo/src/data/serialization/iostream.h:118-121`). -/
def takeAll (s : S) : List UInt8 × S := (s.data.drop s.gpos, setG (s.gpos + (s.data.drop s.gpos).length) s)

/-- Write over what is there (`/repo/src/data/serialization/iostream.h:102-113`); a gap before the
position is filled with zeros. -/
def put (bs : List UInt8) (s : S) : S :=
  setP (s.ppos + bs.length) { s with
    data := s.data.take s.ppos ++ List.replicate (s.ppos - s.data.length) 0 ++ bs ++ s.data.drop (s.ppos + bs.length) }

/-- `ios.seekg(0)` (`/repo/src/data/serialization/iostream.h:115`), which does nothing if the failbit is
set. -/
def seek0 (s : S) : S := if s.fail then s else setG 0 s

/-- `serialize` for writing (`/repo/src/data/serialization/iostream.h:117-130`): the bytes in the archive, and
the stream afterwards. -/
def send (s : S) : List UInt8 × S := (Serial.escape (takeAll s).1, (takeAll s).2)

/-- `serialize` for reading (`/repo/src/data/serialization/iostream.h:101-116`), for at most `fuel`
iterations of the loop. -/
def recv (fuel : Nat) (ar : Serial.Strm) (s : S) : Option (Serial.Strm × S) :=
  (Serial.unescape fuel 0 0 [] ar).map fun r => (r.2, seek0 (put r.1 s))

/-- The client reads with `>>` until nothing is left: the failbit is set. -/
def drain (s : S) : S := { (takeAll s).2 with fail := true }

/-! ### Objects and files -/

/-- A file: one that somebody else made, or the temporary file number `h`. -/
inductive File
  | other
  | tmp (h : Nat)
deriving DecidableEq

/-- What `pios` points to. -/
inductive Ptr
  | null
  | own (h : Nat)
  | client (u : Nat)
deriving DecidableEq

/-- The members of `stream` (`/repo/src/data/serialization/iostream.h:88-90`). -/
structure Obj where
  fname : Name
  spios : Option Nat
  pios : Ptr
deriving DecidableEq

/-- The directory, the open temporary files, the streams of the client, the objects
and the number of the next file. -/
structure World where
  dir : Name → Option File
  files : Nat → Option S
  clients : Nat → S
  objs : List (Nat × Obj)
  next : Nat

/-- Point update. -/
def upd {α β : Type} [DecidableEq α] (f : α → β) (a : α) (b : β) : α → β := fun x => if x = a then b else f x

/-- Outcome of `mkstemp` (`/repo/src/system/file.cpp:48`): a new file with a name that nobody had, or
no file, with whatever is then in the template. -/
inductive Made
  | ok (n : Name)
  | failed (n : Name)

/-- What happens. -/
inductive Op
  | create (x : Nat) (r : Made)
  | wrap (x u : Nat)
  | copy (x y : Nat)
  | assign (x y : Nat)
  | destroy (x : Nat)
  /-- somebody else makes a file -/
  | foreign (n : Name)
  /-- the client uses the stream of an object, in any way -/
  | use (x : Nat) (f : S → S)

/-- Whether an object holds a file. -/
def held (objs : List (Nat × Obj)) (h : Nat) : Bool := objs.any fun e => e.2.spios = some h

/-- A `shared_ptr` to a stream goes away: the stream is closed if it was the last. -/
def release (w : World) : Option Nat → World
  | none => w
  | some h => if held w.objs h then w else { w with files := upd w.files h none }

/-- `unlink`, unless the name is empty (`/repo/src/data/serialization/iostream.h:80-81`). -/
def unlink (w : World) (n : Name) : World := if n = [] then w else { w with dir := upd w.dir n none }

/-- Why there is no next state: undefined behaviour, or it cannot happen. -/
inductive Fault
  | ub
  | impossible
deriving DecidableEq

/-- One event. Constructors: `/repo/src/data/serialization/iostream.h:62-75` and
`/repo/src/system/file.cpp:45-51`; destructor: `/repo/src/data/serialization/iostream.h:77-82`; copies and
assignments are those that the compiler makes, as none are declared
(`/repo/src/data/serialization/iostream.h:59-91`); `get`: `/repo/src/data/serialization/iostream.h:85`. -/
def step (w : World) : Op → Except Fault World
  | .create x r =>
    if (AssocMap.find w.objs x).isSome then .error .impossible
    else match r with
      | .ok n =>
        if (w.dir n).isSome ∨ n = [] then .error .impossible
        else .ok { w with
          dir := upd w.dir n (some (.tmp w.next)), files := upd w.files w.next (some newFile),
          objs := AssocMap.upsert w.objs x ⟨n, some w.next, .own w.next⟩, next := w.next + 1 }
      | .failed n => .ok { w with objs := AssocMap.upsert w.objs x ⟨n, none, .null⟩ }
  | .wrap x u =>
    if (AssocMap.find w.objs x).isSome then .error .impossible
    else .ok { w with objs := AssocMap.upsert w.objs x ⟨[], none, .client u⟩ }
  | .copy x y =>
    match AssocMap.find w.objs x, AssocMap.find w.objs y with
    | none, some o => .ok { w with objs := AssocMap.upsert w.objs x o }
    | _, _ => .error .impossible
  | .assign x y =>
    match AssocMap.find w.objs x, AssocMap.find w.objs y with
    | some a, some o => .ok (release { w with objs := AssocMap.upsert w.objs x o } a.spios)
    | _, _ => .error .impossible
  | .destroy x =>
    match AssocMap.find w.objs x with
    | some o => .ok (unlink (release { w with objs := AssocMap.erase w.objs x } o.spios) o.fname)
    | none => .error .impossible
  | .foreign n => if (w.dir n).isSome then .error .impossible else .ok { w with dir := upd w.dir n (some .other) }
  | .use x f =>
    match AssocMap.find w.objs x with
    | none => .error .impossible
    | some o =>
      match o.pios with
      | .null => .error .ub
      | .client u => .ok { w with clients := upd w.clients u (f (w.clients u)) }
      | .own h =>
        match w.files h with
        | none => .error .ub
        | some s => .ok { w with files := upd w.files h (some (f s)) }

/-- A history. -/
def run (w : World) : List Op → Except Fault World
  | [] => .ok w
  | op :: ops =>
    match step w op with
    | .error e => .error e
    | .ok w => run w ops

/-- Before any object: some files, made by others. -/
def start (names : Name → Bool) (clients : Nat → S) : World :=
  ⟨fun n => if names n then some .other else none, fun _ => none, clients, [], 0⟩

end Verif.TmpStream
