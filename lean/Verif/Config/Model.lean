import Verif.AssocMap
import Verif.Util
/-!
# Model of `pfi::data::config_file`

Source: `/repo/src/data/config_file.cpp`, `/repo/src/data/config_file.h`.
Byte strings are `List UInt8`; a `const char*` into a line is the rest of the
line up to its first NUL byte. The file name carried by the exception and the
opening of the file are not modelled.
-/
namespace Verif.Config

abbrev Str := List UInt8

/-- `isspace` in the "C" locale (used at `/repo/src/data/config_file.cpp:61,63,72`):
space, `\t`, `\n`, `\v`, `\f`, `\r`. Negative `char` values rely on glibc's
table, which classifies them as non-space. -/
def isSpace (b : UInt8) : Bool := b = 32 || (9 ≤ b && b ≤ 13)

/-- `trim` (`/repo/src/data/config_file.cpp:58-68`): the two index scans are
written as dropping from the front and from the back. -/
def trim (s : Str) : Str := ((s.dropWhile isSpace).reverse.dropWhile isSpace).reverse

/-- `skip_spaces` (`/repo/src/data/config_file.cpp:70-75`). -/
def skipSpaces (p : Str) : Str := p.dropWhile isSpace

/-- `strchr` (used at `/repo/src/data/config_file.cpp:91,104`): the text
before the character and the text after it. -/
def strchr (c : UInt8) : Str → Option (Str × Str)
  | [] => none
  | x :: xs => if x = c then some ([], xs) else (strchr c xs).map fun r => (x :: r.1, r.2)

/-- Messages of the parse errors
(`/repo/src/data/config_file.cpp:93,97,106`). -/
inductive Msg
  | bracketMissing
  | invalidCharacter
  | equalMissing
deriving Repr, DecidableEq

/-- `parse_error` (`/repo/src/lang/exception.h:52-61`), without file name. -/
structure ParseError where
  lineno : Nat
  pos : Nat
  msg : Msg
deriving Repr, DecidableEq

/-- What a line does. -/
inductive Item
  | nothing
  | sectionHead (name : Str)
  | assign (key val : Str)
deriving Repr, DecidableEq

/-- Removal of surrounding quotes (`/repo/src/data/config_file.cpp:111-115`). -/
def unquote (v : Str) : Str :=
  if 2 ≤ v.length then
    if v.head? = some 34 ∧ v.getLast? = some 34 then (v.drop 1).take (v.length - 2) else v
  else v

/-- One line of `config_file::init`
(`/repo/src/data/config_file.cpp:83-117`). -/
def parseLine (lineno : Nat) (line : Str) : Except ParseError Item :=
  let st := line.takeWhile (· ≠ 0)
  match skipSpaces st with
  | [] => .ok .nothing
  | c :: p =>
    if c = 59 then .ok .nothing
    else if c = 91 then
      match strchr 93 (c :: p) with
      | none => .error ⟨lineno, line.length, .bracketMissing⟩
      | some (before, after) =>
        match skipSpaces after with
        | [] => .ok (.sectionHead (before.drop 1))
        | q => .error ⟨lineno, st.length - q.length, .invalidCharacter⟩
    else
      match strchr 61 (c :: p) with
      | none => .error ⟨lineno, line.length, .equalMissing⟩
      | some (before, after) => .ok (.assign (trim before) (unquote (trim after)))

/-- `std::map<string, section>` with sections `std::map<string, string>`
(`/repo/src/data/config_file.h:75,105`). -/
abbrev Data := List (Str × List (Str × Str))

/-- `dat[sec]`, creating the section (`/repo/src/data/config_file.cpp:99,117`). -/
def touch (d : Data) (sec : Str) : Data := AssocMap.insertNew d sec []

/-- `dat[sec][key] = val` (`/repo/src/data/config_file.cpp:117`). -/
def assign (d : Data) (sec key val : Str) : Data :=
  AssocMap.upsert d sec (AssocMap.upsert ((AssocMap.find d sec).getD []) key val)

/-- `getline` on the whole input (`/repo/src/data/config_file.cpp:82`): the
lines, without their newlines; no line after a final newline. -/
def getLines (s : Str) : List Str :=
  match s with
  | [] => []
  | x :: xs =>
    match h : (x :: xs).dropWhile (· ≠ 10) with
    | [] => [x :: xs]
    | _ :: rest => (x :: xs).takeWhile (· ≠ 10) :: getLines rest
termination_by s.length
decreasing_by
  have := (List.dropWhile_sublist (· ≠ 10) (l := x :: xs)).length_le
  rw [h] at this
  simp only [List.length_cons] at *
  omega

/-- The loop of `config_file::init` (`/repo/src/data/config_file.cpp:81-118`). -/
def initLoop (lineno : Nat) (cur : Str) (d : Data) : List Str → Except ParseError Data
  | [] => .ok d
  | l :: ls =>
    match parseLine lineno l with
    | .error e => .error e
    | .ok .nothing => initLoop (lineno + 1) cur d ls
    | .ok (.sectionHead s) => initLoop (lineno + 1) s (touch d s) ls
    | .ok (.assign k v) => initLoop (lineno + 1) cur (assign d cur k v) ls

/-- `config_file::config_file(istream&)` (`/repo/src/data/config_file.cpp:53-56`
and `77-119`). -/
def load (s : Str) : Except ParseError Data := initLoop 1 [] [] (getLines s)

/-- `find(sec)` then `find(key)` (`/repo/src/data/config_file.h:66,94`). -/
def get? (d : Data) (sec key : Str) : Option Str :=
  (AssocMap.find d sec).bind fun s => AssocMap.find s key

/-- `cfg[sec][key]` on a const object (`/repo/src/data/config_file.h:57-63`
and `85-91`). -/
def get (d : Data) (sec key : Str) : Str :=
  match AssocMap.find d sec with
  | none => []
  | some s =>
    match AssocMap.find s key with
    | none => []
    | some v => v

end Verif.Config
