import Verif.Code.Model
/-! Model of the memory that a `decoder` reads from: `attach`, `detach`, destruction and copies, `/repo/src/data/code/code.cpp:134-185`. What the bits mean is in `Verif.Code`. -/

namespace Verif.CodeFile

abbrev Str := List UInt8

/-- An array; `none` is an element that was not initialised. -/
abbrev Mem := List (Option UInt8)

/-- `bytes`, `/repo/src/data/code/code.h:121`: null, an array on the heap, or memory of the user. -/
inductive Buf
  | null | heap (id : Nat) | user (m : Mem)
deriving DecidableEq, Repr

/-- A decoder, `/repo/src/data/code/code.h:118-121`, without the position. -/
structure Dec where
  newed : Bool := false
  buf : Buf := .null
deriving DecidableEq, Repr

/-- The arrays ever made, `none` for those that are freed; the decoders ever made, `none` for those that are destroyed. -/
structure State where
  heap : List (Option Mem) := []
  decs : List (Option Dec) := []
deriving DecidableEq, Repr

/-- What a call gives: the number returned, an exception, a byte. -/
inductive Res
  | int (n : Int) | threw | byte (b : UInt8) | unit
deriving DecidableEq, Repr

/-- `detach`, `/repo/src/data/code/code.cpp:170-176`; also the destructor (138-141). `none` is undefined behaviour: memory that is freed already, or was not made by `new`. -/
def detach (h : List (Option Mem)) (d : Dec) : Option (List (Option Mem)) :=
  match d.buf with
  | .null => some h
  | .heap id => if d.newed then (match h[id]? with
      | some (some _) => some (h.set id none)
      | _ => none) else some h
  | .user _ => if d.newed then none else some h

/-- The array that `attach(istream&, int)` makes and fills, `/repo/src/data/code/code.cpp:155-158`. `read` stores what the stream has; the loop stores zeros unless `(int)(size+sizeof(long long))` is negative. -/
def content (data : Str) (size : Nat) : Mem :=
  (data.take size).map some ++ List.replicate (size - data.length) none ++ List.replicate 8 (if size + 8 < 2 ^ 31 then some 0 else none)

/-- `attach(istream&, int)`, `/repo/src/data/code/code.cpp:153-160`, for a stream with these bytes: the outcome, the heap, the decoder. `room`: the heap has room for the array. A size below -8 is a number
of elements that no heap has; with one from -8 to -1 the loop writes in front of the array. -/
def attachStream (h : List (Option Mem)) (d : Dec) (data : Str) (size : Int) (room : Bool) : Option (Res × List (Option Mem) × Dec) :=
  (detach h d).bind fun h =>
    if size < -8 then some (.threw, h, {})
    else if size < 0 then none
    else if room then some (.int 0, h ++ [some (content data size.toNat)], ⟨true, .heap h.length⟩)
    else some (.threw, h, {})

/-- A file, when it is opened and when `stat` is called. -/
structure File where
  data : Str
  stat : Option Nat
deriving DecidableEq, Repr

/-- `get_file_size`, `/repo/src/system/file.cpp:53-62`, and its conversion to `int` at `/repo/src/data/code/code.cpp:150`. -/
def fileSize (f : File) : Int := Int.bmod (match f.stat with | some n => n | none => -1) (2 ^ 32)

/-- `attach(string)`, `/repo/src/data/code/code.cpp:147-151`; `none`: the file cannot be opened. -/
def attachFile (h : List (Option Mem)) (d : Dec) (f : Option File) (room : Bool) : Option (Res × List (Option Mem) × Dec) :=
  match f with
  | none => some (.int (-1), h, d)
  | some f => attachStream h d f.data (fileSize f) room

/-- `attach(unsigned char*)`, `/repo/src/data/code/code.cpp:162-168`. -/
def attachBuf (h : List (Option Mem)) (d : Dec) (m : Mem) : Option (Res × List (Option Mem) × Dec) :=
  (detach h d).map fun h => (.int 0, h, ⟨false, .user m⟩)

/-- `bytes[pos]`, as in `/repo/src/data/code/code.cpp:184`. -/
def readByte (h : List (Option Mem)) (d : Dec) (pos : Nat) : Option UInt8 :=
  match d.buf with
  | .null => none
  | .heap id => match h[id]? with
    | some (some m) => (m[pos]?).bind fun b => b
    | _ => none
  | .user m => (m[pos]?).bind fun b => b

/-- What a program does with its decoders. -/
inductive Cmd
  | new | attachFile (i : Nat) (f : Option File) (room : Bool) | attachStream (i : Nat) (data : Str) (size : Int) (room : Bool) | attachBuf (i : Nat) (m : Mem) | detach (i : Nat)
  | read (i pos : Nat) | destroy (i : Nat) | copy (i : Nat) | assign (i j : Nat)
deriving DecidableEq, Repr

/-- The state after a call on decoder `i`. -/
def put (st : State) (i : Nat) (r : Res × List (Option Mem) × Dec) : State × Res := (⟨r.2.1, st.decs.set i (some r.2.2)⟩, r.1)

/-- A step of a program; `none` is undefined behaviour. Copies and assignments are those of the compiler, for `/repo/src/data/code/code.h:99-122`. -/
def step (st : State) : Cmd → Option (State × Res)
  | .new => some (⟨st.heap, st.decs ++ [some {}]⟩, .unit)
  | .attachFile i f room => match st.decs[i]? with
    | some (some d) => (attachFile st.heap d f room).map (put st i)
    | _ => none
  | .attachStream i data size room => match st.decs[i]? with
    | some (some d) => (attachStream st.heap d data size room).map (put st i)
    | _ => none
  | .attachBuf i m => match st.decs[i]? with
    | some (some d) => (attachBuf st.heap d m).map (put st i)
    | _ => none
  | .detach i => match st.decs[i]? with
    | some (some d) => (detach st.heap d).map fun h => (⟨h, st.decs.set i (some {})⟩, .unit)
    | _ => none
  | .read i pos => match st.decs[i]? with
    | some (some d) => (readByte st.heap d pos).map fun b => (st, .byte b)
    | _ => none
  | .destroy i => match st.decs[i]? with
    | some (some d) => (detach st.heap d).map fun h => (⟨h, st.decs.set i none⟩, .unit)
    | _ => none
  | .copy i => match st.decs[i]? with
    | some (some d) => some (⟨st.heap, st.decs ++ [some d]⟩, .unit)
    | _ => none
  | .assign i j => match st.decs[i]?, st.decs[j]? with
    | some (some _), some (some d) => some (⟨st.heap, st.decs.set i (some d)⟩, .unit)
    | _, _ => none

/-- A program. -/
def run : List Cmd → State → Option State
  | [], st => some st
  | c :: cs, st => match step st c with
    | some (st, _) => run cs st
    | none => none

end Verif.CodeFile
