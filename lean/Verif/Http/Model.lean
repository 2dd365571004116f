import Verif.Socket.Prog
/-! Model of HTTP headers and bodies, `/repo/src/network/http/base.cpp`.

Characters are bytes, the locale is "C", `char` is signed. `tolower` and `isspace` are called with plain `char`s there; for bytes from 128 on this
is outside their contract, and taken to be what glibc does: no change, not a space. What is read from the socket is a `Prog`. -/

namespace Verif.Http
open Verif.Socket

/-- `/repo/src/network/http/base.cpp:45`. -/
def lineLimit : Nat := 4096

/-- `/repo/src/network/http/base.cpp:44`. -/
def bufSize : Nat := 4096

/-- `tolower`. -/
def tolower (c : UInt8) : UInt8 := if 65 ≤ c ∧ c ≤ 90 then c + 32 else c

/-- `isspace`. -/
def isspace (c : UInt8) : Bool := c == 32 || (9 ≤ c && c ≤ 13)

/-- `cicmp`, `/repo/src/network/http/base.cpp:51-59`; the lengths are compared on the way. -/
def cicmp : Str → Str → Bool
  | [], [] => true
  | c :: s, d :: t => tolower c == tolower d && cicmp s t
  | _, _ => false

/-- `header::dat`, `/repo/src/network/http/base.h:87`. -/
abbrev Header := List (Str × Str)

/-- `has_key`, `/repo/src/network/http/base.cpp:148-154`. -/
def hasKey (key : Str) : Header → Bool
  | [] => false
  | e :: h => cicmp e.1 key || hasKey key h

/-- `operator[] const`, `/repo/src/network/http/base.cpp:186-194`. -/
def getConst (key : Str) : Header → Str
  | [] => []
  | e :: h => if cicmp e.1 key then e.2 else getConst key h

/-- `operator[]`, `/repo/src/network/http/base.cpp:176-184`, with a function that is applied to what the reference refers to. -/
def update (key : Str) (f : Str → Str) : Header → Header
  | [] => [(key, f [])]
  | e :: h => if cicmp e.1 key then (e.1, f e.2) :: h else e :: update key f h

/-- `get`, `/repo/src/network/http/base.cpp:156-159`: the answer and the header after it. -/
def get (key : Str) (h : Header) : Str × Header := (getConst key (update key id h), update key id h)

/-- `set`, `/repo/src/network/http/base.cpp:161-164`. -/
def set (key val : Str) (h : Header) : Header := update key (fun _ => val) h

/-- `erase`, `/repo/src/network/http/base.cpp:166-174`. -/
def erase (key : Str) : Header → Header
  | [] => []
  | e :: h => if cicmp e.1 key then h else e :: erase key h

/-- The text of a field, `/repo/src/network/http/base.cpp:219`. -/
def fieldText (e : Str × Str) : Str := e.1 ++ [58, 32] ++ e.2 ++ [13, 10]

/-- The calls made by `header::send`, `/repo/src/network/http/base.cpp:216-224`. A failing call throws, but for the last. -/
def sendOps (h : Header) : List Op := h.map (fun e => .puts (fieldText e)) ++ [.puts [13, 10]]

/-- Lines 76-88 of `read_header`, `/repo/src/network/http/base.cpp:76-88`: name and value of a line; `acc` is `key`. -/
def splitLine : Str → Str → Str × Str
  | acc, [] => (acc, [])
  | acc, c :: s =>
    if c ≠ 58 then splitLine (acc ++ [c]) s
    else ((acc.reverse.dropWhile isspace).reverse, s)

/-- A continuation line, `/repo/src/network/http/base.cpp:102-108`. -/
def joinLws : Str → Str → Str
  | val, [] => val
  | val, c :: s => joinLws (if val.getLast?.any isspace && isspace c then val else val ++ [c]) s

/-- What reading a header can end with, besides the header; `fuel` is a matter of the model. -/
inductive Fail where
  | invalid
  | fuel
  deriving DecidableEq

/-- The inner loop of `read_header`, `/repo/src/network/http/base.cpp:91-112`: the next field's line, if any, and the value. -/
def readLws (f : Prog (Option Str)) : Nat → Str → Prog (Option (Option Str × Str))
  | 0, _ => .ret none
  | n + 1, val => f.bind fun r =>
    match r with
    | none => .ret (some (none, val))
    | some [] => .ret (some (none, val))
    | some (c :: line) =>
      if c :: line = [13] then .ret (some (none, val))
      else if isspace c then readLws f n (joinLws val (c :: line))
      else .ret (some (some (c :: line), val))

/-- The outer loop of `read_header`, `/repo/src/network/http/base.cpp:74-120`. -/
def readFields (f : Prog (Option Str)) : Nat → Str → Header → Prog (Except Fail Header)
  | 0, _, _ => .ret (.error .fuel)
  | n + 1, line, h =>
    let (key, val) := splitLine [] line
    (readLws f (n + 1) val).bind fun r =>
      match r with
      | none => .ret (.error .fuel)
      | some (next, val) =>
        let h := set key (val.dropWhile isspace) h
        match next with
        | none => .ret (.ok h)
        | some line => readFields f n line h

/-- `read_header`, `/repo/src/network/http/base.cpp:65-121`. Only at the end of the stream is there no line any more, so as much fuel as
the stream has bytes, and one more, is enough. -/
def readHeader (f : Prog (Option Str)) (fuel : Nat) : Prog (Except Fail Header) :=
  f.bind fun r =>
    match r with
    | none => .ret (.error .invalid)
    | some [] => .ret (.ok [])
    | some (c :: line) => readFields f fuel (c :: line) []

/-- `header(sock)`, `/repo/src/network/http/base.cpp:123-131`. -/
def headerOfSocket (fuel : Nat) : Prog (Except Fail Header) := readHeader (Prog.getline lineLimit) fuel

/-- `istream_getline`, `/repo/src/network/http/base.cpp:133-137`: as `getline` on the bytes of an `istream`; the stream is not good any more if
it ended before a newline. Other calls do not occur. -/
def istreamStep : Op → Str → Res × Str
  | .getline _, s =>
    if 10 ∈ s then (.line (some (s.takeWhile (· ≠ 10))), s.drop ((s.takeWhile (· ≠ 10)).length + 1)) else (.line none, [])
  | _, s => (.int 0, s)

/-- `header(is)`, `/repo/src/network/http/base.cpp:139-142`, with the rest of the stream. -/
def headerOfStream (s : Str) : Except Fail Header × Str := (readHeader (Prog.getline 0) (s.length + 1)).run istreamStep s

/-! ### Bodies -/

/-- The value of a hexadecimal digit. -/
def hexDigit (c : UInt8) : Option Nat :=
  if 48 ≤ c ∧ c ≤ 57 then some (c.toNat - 48)
  else if 97 ≤ c ∧ c ≤ 102 then some (c.toNat - 87)
  else if 65 ≤ c ∧ c ≤ 70 then some (c.toNat - 55)
  else none

/-- `iss >> hex >> chunk_rest` on a line, `/repo/src/network/http/base.cpp:322-323`: spaces, a sign, `0x`, digits; 0 if there are none; the nearest
`int` if the number is too large. -/
def hexInt (line : Str) : Int :=
  let s := line.dropWhile isspace
  let neg := s.head? = some 45
  let s := if s.head? = some 45 ∨ s.head? = some 43 then s.tail else s
  let s := if s.head? = some 48 ∧ (s[1]? = some 120 ∨ s[1]? = some 88) then s.drop 2 else s
  let n : Int := ((s.takeWhile fun c => (hexDigit c).isSome).foldl (fun n c => 16 * n + (hexDigit c).getD 0) 0 : Nat)
  if neg then max (-n) (-2147483648) else min n 2147483647

/-- `basic_httpbody_chunked_streambuf`, `/repo/src/network/http/base.cpp:326-331`: `buf` from `buf_pos` up to `buf_end`. -/
structure Chunked where
  sock : Bool := true
  rest : Int := 0
  buf : Str := []
  deriving DecidableEq

/-- What filling can end with: the exception of lines 304 and 307; a read of negative size (undefined when the socket has bytes in its
buffer, `/repo/src/network/socket.cpp:220-221`); `fuel` is a matter of the model. -/
inductive Err where
  | footer
  | negative
  | fuel
  deriving DecidableEq

/-- `shutdown`, `/repo/src/network/http/base.cpp:256-261`. -/
def Chunked.shutdown (_ : Chunked) : Chunked := { sock := false, rest := 0, buf := [] }

/-- `read_chunk_size`, `/repo/src/network/http/base.cpp:311-324`. -/
def readChunkSize (b : Chunked) : Prog Chunked :=
  if ¬ b.sock then .ret b
  else (Prog.getline lineLimit).bind fun r =>
    match r with
    | none => .ret b.shutdown
    | some line => .ret { b with rest := hexInt line }

/-- The loop over the trailer, `/repo/src/network/http/base.cpp:280-281`. -/
def skipTrailer : Nat → Prog Bool
  | 0 => .ret false
  | n + 1 => (Prog.getline lineLimit).bind fun r =>
    match r with
    | none => .ret true
    | some [] => .ret true
    | some _ => skipTrailer n

/-- The end of a chunk, `/repo/src/network/http/base.cpp:299-308`. `EOF` becomes a character that is neither. -/
def footer (b : Chunked) : Prog (Except Err Chunked) :=
  if b.rest = 0 then
    Prog.getc.bind fun c =>
      if c = some 13 then Prog.getc.bind fun c => .ret (if c ≠ some 10 then .error .footer else .ok b)
      else .ret (if c ≠ some 10 then .error .footer else .ok b)
  else .ret (.ok b)

/-- `fill` from line 277 on, `/repo/src/network/http/base.cpp:277-308`. -/
def fillChunk (fuel : Nat) (b : Chunked) : Prog (Except Err Chunked) :=
  if b.rest = 0 then
    if b.sock then (skipTrailer fuel).bind fun ok => .ret (if ok then .ok b.shutdown else .error .fuel)
    else .ret (.ok b.shutdown)
  else
    let cur := min b.rest bufSize
    if cur < 0 then .ret (.error .negative)
    else (Prog.read cur.toNat).bind fun d =>
      if d.length ≠ cur.toNat then .ret (.ok b.shutdown)
      else footer { b with buf := d, rest := b.rest - cur }

/-- `fill`, `/repo/src/network/http/base.cpp:271-309`. -/
def fill (fuel : Nat) (b : Chunked) : Prog (Except Err Chunked) :=
  if ¬ b.sock then .ret (.ok b)
  else if b.rest = 0 then (readChunkSize b).bind (fillChunk fuel)
  else fillChunk fuel b

/-- `T::eof()` is -1, and so is the `char` 255. -/
def asInt (c : UInt8) : Option UInt8 := if c = 255 then none else some c

/-- `underflow`, `/repo/src/network/http/base.cpp:247-253`: the character, `none` for `eof`. -/
def Chunked.underflow (fuel : Nat) (b : Chunked) : Prog (Except Err (Option UInt8 × Chunked)) :=
  (if b.buf = [] then fill fuel b else .ret (.ok b)).bind fun r =>
    .ret (r.map fun b => (b.buf.head?.bind asInt, b))

/-- `uflow`, `/repo/src/network/http/base.cpp:241-245`. -/
def Chunked.uflow (fuel : Nat) (b : Chunked) : Prog (Except Err (Option UInt8 × Chunked)) :=
  (b.underflow fuel).bind fun r => .ret (r.map fun (c, b) => (c, { b with buf := b.buf.tail }))

/-- `basic_httpbody_streambuf`, `/repo/src/network/http/base.cpp:363-366`. -/
structure Fixed where
  sock : Bool := true
  rest : Int
  buf : Option UInt8 := none
  deriving DecidableEq

/-- `underflow`, `/repo/src/network/http/base.cpp:351-360`. -/
def Fixed.underflow (b : Fixed) : Prog (Option UInt8 × Fixed) :=
  match b.buf with
  | some c => .ret (some c, b)
  | none =>
    if ¬ b.sock then .ret (none, b)
    else Prog.getc.bind fun c => .ret (c, { sock := if b.rest - 1 = 0 then false else b.sock, rest := b.rest - 1, buf := c })

/-- `uflow`, `/repo/src/network/http/base.cpp:345-349`. -/
def Fixed.uflow (b : Fixed) : Prog (Option UInt8 × Fixed) :=
  b.underflow.bind fun (c, b) => .ret (c, { b with buf := none })

/-- The ways an `istream` takes characters from its buffer: look at the next, or take it. -/
inductive BOp where
  | peek
  | take

/-- Calls on a chunked body in sequence. -/
def Chunked.run (fuel : Nat) : List BOp → Chunked → Prog (Except Err (List (Option UInt8) × Chunked))
  | [], b => .ret (.ok ([], b))
  | o :: os, b =>
    (match o with | .peek => b.underflow fuel | .take => b.uflow fuel).bind fun r =>
      match r with
      | .error e => .ret (.error e)
      | .ok (c, b) => (Chunked.run fuel os b).bind fun r => .ret (r.map fun (cs, b) => (c :: cs, b))

/-- Calls on a body with a length in sequence. -/
def Fixed.run : List BOp → Fixed → Prog (List (Option UInt8) × Fixed)
  | [], b => .ret ([], b)
  | o :: os, b =>
    (match o with | .peek => b.underflow | .take => b.uflow).bind fun (c, b) =>
      (Fixed.run os b).bind fun (cs, b) => .ret (c :: cs, b)

end Verif.Http
