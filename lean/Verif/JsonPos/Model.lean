import Verif.Json.Model
import Verif.Decimal
/-! Model of the JSON parser once more, statement by statement, with what `Verif.Json` leaves out: the line and column it counts, the
texts of its exceptions, the callbacks made before an exception, and the depth of its recursion. `/repo/src/text/json/parser.h`,
`/repo/src/text/json/parser.cpp`, `/repo/src/lang/exception.h`.

`strtod` is a parameter as in `Verif.Json` (`none` is `ERANGE`); `over` says what it returned in that case. Lines and columns are
natural numbers: they are those of `int` for texts of less than 2^31 - 1 characters. -/

namespace Verif.JsonPos
open Verif.Json (Str Event S isSpace isDigit simpleEscape strtoll)
open Verif.Ustring (ucharToChars)

variable {F α β : Type}

/-- The fields of `json_parser` that matter here, `/repo/src/text/json/parser.h:155-158`: the character read ahead (`none` is -1), the
characters still to be decoded, `lineno`, `charno`; and the callbacks made so far. -/
structure P (F : Type) where
  cbuf : Option Nat
  rest : List Nat
  line : Nat
  col : Nat
  evs : List (Event F)
deriving DecidableEq

/-- Why the parser stops without a value. -/
inductive Ex where
  /-- `end_of_data`, `/repo/src/text/json/parser.h:103`, `/repo/src/text/json/parser.cpp:142`. -/
  | eod
  /-- `parse_error` with its line, its position and its message, `/repo/src/text/json/parser.cpp:444-449`. -/
  | parse (line col : Nat) (msg : Str)
  /-- No room for one more call of `parse_impl`: undefined behaviour. -/
  | deep
  /-- The budget of this model is used up; that does not happen. -/
  | stuck
deriving DecidableEq

/-- A result and the state afterwards, or an exception and the state in which it was thrown. -/
inductive R (F α : Type) where
  | ok (a : α) (p : P F)
  | exc (e : Ex) (p : P F)
deriving DecidableEq

/-- What a member function of the parser does. -/
def M (F α : Type) := P F → R F α

/-- One statement after the other; an exception ends the sequence. -/
def M.bind (x : M F α) (f : α → M F β) : M F β := fun p => match x p with
  | .ok a q => f a q
  | .exc e q => .exc e q

instance : Monad (M F) where
  pure a := fun p => .ok a p
  bind := M.bind

/-- `it != end`. -/
def more : M F Bool := fun p => .ok (decide (p.rest ≠ [])) p

/-- `cbuf != -1`. -/
def loadedC : M F Bool := fun p => .ok p.cbuf.isSome p

/-- `throw` of an exception other than `parse_error`. -/
def throw (e : Ex) : M F α := fun p => .exc e p

/-- `error`, `/repo/src/text/json/parser.cpp:444-449`. -/
def error (msg : Str) : M F α := fun p => .exc (.parse p.line p.col msg) p

/-- A callback. -/
def emit (e : Event F) : M F Unit := fun p => .ok () { p with evs := p.evs ++ [e] }

/-- `peek`, `/repo/src/text/json/parser.h:98-106`. -/
def peek : M F Nat := fun p => match p.cbuf with
  | some c => .ok c p
  | none => match p.rest with
    | [] => .exc .eod p
    | c :: tl => .ok c { p with cbuf := some c, rest := tl }

/-- What `incr` does with the character it has taken, `/repo/src/text/json/parser.h:109-115`. -/
def count (c : Nat) (p : P F) : P F :=
  if c = 10 then { p with cbuf := none, line := p.line + 1, col := 1 } else { p with cbuf := none, col := p.col + 1 }

/-- The same as a step. -/
def took (c : Nat) : M F Nat := fun p => .ok c (count c p)

/-- `incr`, `/repo/src/text/json/parser.h:107-116`. -/
def incr : M F Nat := do
  let c ← peek
  took c

/-- The loop of `ss`, `/repo/src/text/json/parser.h:118-119`. The argument bounds its turns. -/
def ssF : Nat → M F Unit
  | 0 => throw .stuck
  | n + 1 => do
    if !(← more) then return
    if isSpace (← peek) then
      let _ ← incr
      ssF n
    else return

/-- `ss`, `/repo/src/text/json/parser.h:117-120`. -/
def ss : M F Unit := fun p => ssF (p.rest.length + 2) p

/-- A byte string from a text of ASCII characters. -/
def ascii (s : String) : Str := s.toList.map fun c => UInt8.ofNat c.toNat

/-- The message of `match`, `/repo/src/text/json/parser.h:139`; `(char)peek()` keeps the low eight bits. -/
def requiredMsg (c d : Nat) : Str :=
  ascii "'" ++ [UInt8.ofNat c] ++ ascii "' is required but got '" ++ [UInt8.ofNat d] ++ ascii "'"

/-- `match`, `/repo/src/text/json/parser.h:137-141`. -/
def mtch (c : Nat) : M F Unit := do
  let d ← peek
  if d ≠ c then error (requiredMsg c d)
  let _ ← incr

/-- `speek`, `/repo/src/text/json/parser.h:143-146`. -/
def speek : M F Nat := do
  ss
  peek

/-- `smatch`, `/repo/src/text/json/parser.h:148-151`. -/
def smatch (c : Nat) : M F Unit := do
  ss
  mtch c

/-- A hexadecimal digit as `%X` writes it. -/
def hexDigit (d : Nat) : UInt8 := if d < 10 then UInt8.ofNat (48 + d) else UInt8.ofNat (55 + d)

/-- The hexadecimal digits of a number, at least `k` of them: `%04X` with `k = 4`. -/
def hexPad (k n : Nat) : Str :=
  if n < 16 then List.replicate (k - 1) 48 ++ [hexDigit n] else hexPad (k - 1) (n / 16) ++ [hexDigit (n % 16)]

/-- A string handed over as `const char*`: up to its first zero byte. -/
def cstr (s : Str) : Str := s.takeWhile (· ≠ 0)

/-- `snprintf` into 64 bytes: 63 and a zero byte. -/
def snprintf64 (s : Str) : Str := s.take 63

/-- `"...: '%s' (U+%04X)"`, `/repo/src/text/json/parser.cpp:179-182,385-388,402-405`; `uchar_to_string` is
`/repo/src/data/string/ustring.cpp:117-122`. -/
def charMsg (pre : String) (c : Nat) : Str :=
  snprintf64 (ascii pre ++ ascii ": '" ++ cstr (ucharToChars c) ++ ascii "' (U+" ++ hexPad 4 c ++ ascii ")")

/-- The message of `parse_hex`, `/repo/src/text/json/parser.h:94`. -/
def hexMsg (c : Nat) : Str := ascii "hex required but got '" ++ [UInt8.ofNat c] ++ ascii "'"

/-- `parse_hex`, `/repo/src/text/json/parser.h:85-96`. -/
def parseHex : M F Nat := do
  let c ← incr
  if isDigit c then return c - 48
  if 65 ≤ c ∧ c ≤ 70 then return c - 65 + 10
  if 97 ≤ c ∧ c ≤ 102 then return c - 97 + 10
  error (hexMsg c)

/-- The four digits of `\u`, `/repo/src/text/json/parser.cpp:350-354,366-370`. -/
def parseHex4 : M F Nat := do
  let a ← parseHex
  let b ← parseHex
  let c ← parseHex
  let d ← parseHex
  return (a <<< 12) ||| (b <<< 8) ||| (c <<< 4) ||| d

/-- The message `/repo/src/text/json/parser.cpp:357-359`. -/
def lowMsg (u : Nat) : Str := snprintf64 (ascii "unexpected low surrogate char: (U+" ++ hexPad 4 u ++ ascii ")")

/-- The message `/repo/src/text/json/parser.cpp:372-374`. -/
def pairMsg (l u : Nat) : Str :=
  snprintf64 (ascii "unexpected char(U+" ++ hexPad 4 l ++ ascii ") after high surrogate char: (U+" ++ hexPad 4 u ++ ascii ")")

/-- `\u`, `/repo/src/text/json/parser.cpp:349-382`: the bytes stored. -/
def parseU : M F Str := do
  let u ← parseHex4
  if 0xDC00 ≤ u ∧ u ≤ 0xDFFF then error (lowMsg u)
  else if 0xD800 ≤ u ∧ u ≤ 0xDBFF then
    mtch 92
    mtch 117
    let l ← parseHex4
    if l < 0xDC00 ∨ 0xDFFF < l then error (pairMsg l u)
    else return ucharToChars (0x10000 + (u - 0xD800) * 0x400 + (l - 0xDC00))
  else return ucharToChars u

/-- The message `/repo/src/text/json/parser.cpp:385-388,402-405`. -/
def unescapedMsg (c : Nat) : Str := charMsg "unexpected unescaped char" c

/-- One turn of the loop in `parse_string_prim` after the test for the quote, `/repo/src/text/json/parser.cpp:334-408`: the bytes
stored through `p`. -/
def strStep : M F Str := do
  if (← peek) = 92 then
    let _ ← incr
    let c ← incr
    if c = 117 then parseU
    else match simpleEscape c with
      | some b => return [b]
      | none => error (unescapedMsg c)
  else
    let c ← incr
    if (0x20 ≤ c ∧ c ≤ 0x21) ∨ (0x23 ≤ c ∧ c ≤ 0x5B) ∨ (0x5D ≤ c ∧ c ≤ 0x10FFFF) then return ucharToChars c
    else error (unescapedMsg c)

/-- The loop of `parse_string_prim`, `/repo/src/text/json/parser.cpp:320-409`. The argument bounds its turns. -/
def strLoop : Nat → M F Str
  | 0 => throw .stuck
  | n + 1 => do
    if (← peek) = 34 then return []
    let bs ← strStep
    let out ← strLoop n
    return bs ++ out

/-- The same loop with enough turns for what is left. -/
def strAll : M F Str := fun p => strLoop (p.cbuf.toList.length + p.rest.length + 1) p

/-- `parse_string_prim`, `/repo/src/text/json/parser.cpp:314-414`. -/
def parseStringPrim : M F Str := do
  mtch 34
  let out ← strAll
  mtch 34
  return out

/-- The loop `/repo/src/text/json/parser.cpp:245-248`: the digits read. -/
def digitsAF : Nat → M F (List Nat)
  | 0 => throw .stuck
  | n + 1 => do
    if !((← loadedC) || (← more)) then return []
    let c ← peek
    if isDigit c then
      let _ ← incr
      let ds ← digitsAF n
      return c :: ds
    else return []

/-- The loops `/repo/src/text/json/parser.cpp:254-257,274-277`: the digits read. -/
def digitsBF : Nat → M F (List Nat)
  | 0 => throw .stuck
  | n + 1 => do
    if !(← more) then return []
    let c ← peek
    if isDigit c then
      let _ ← incr
      let ds ← digitsBF n
      return c :: ds
    else return []

/-- The same loops with enough turns for what is left. -/
def digitsA : M F (List Nat) := fun p => digitsAF (p.rest.length + 2) p
/-- The same loops with enough turns for what is left. -/
def digitsB : M F (List Nat) := fun p => digitsBF (p.rest.length + 2) p

/-- The sign, `/repo/src/text/json/parser.cpp:240-243`. -/
def signPart : M F (List Nat) := do
  if (← peek) = 45 then
    let _ ← incr
    return [45]
  else return []

/-- The fraction, `/repo/src/text/json/parser.cpp:250-258`: the characters read, and whether there is one. -/
def fracPart : M F (List Nat × Bool) := do
  if !(← more) then return ([], false)
  if (← peek) = 46 then
    let _ ← incr
    let ds ← digitsB
    return (46 :: ds, true)
  else return ([], false)

/-- The message `/repo/src/text/json/parser.cpp:266`. -/
def expMsg : Str := ascii "after exp, digit required."

/-- The letter and the sign of the exponent, `/repo/src/text/json/parser.cpp:260-272`. -/
def expPart : M F (List Nat × Bool) := do
  if !(← more) then return ([], false)
  let e ← peek
  if e = 101 ∨ e = 69 then
    let _ ← incr
    if !(← more) then error expMsg
    let d ← peek
    if d = 43 ∨ d = 45 then
      let _ ← incr
      return ([e, d], true)
    else return ([e], true)
  else return ([], false)

/-- What `strtod` returned with `ERANGE`, as far as `/repo/src/text/json/parser.cpp:286-290` looks at it: plus infinity, zero, or
anything else. -/
inductive Range where
  | huge
  | zero
  | other
deriving DecidableEq

/-- The messages `/repo/src/text/json/parser.cpp:286-290`. -/
def rangeMsg : Range → Str
  | .huge => ascii "strtod overflow range over. Too huge value for double."
  | .zero => ascii "strtod underflow range over."
  | .other => ascii "strtod range over."

/-- The message `/repo/src/text/json/parser.cpp:298`: with `ERANGE`, `strtoll` returns one of the ends of its range. -/
def intMsg : Str := ascii "strtoll overflow range over. Too huge value for int64_t."

/-- The C library's conversions as far as they are not modelled. -/
structure Lib (F : Type) where
  strtod : List Nat → Option F
  over : List Nat → Range

/-- The conversion of the collected text and the callback, `/repo/src/text/json/parser.cpp:279-304`. -/
def convNum (lib : Lib F) (src : List Nat) (isFrac : Bool) : M F Unit :=
  if isFrac then match lib.strtod src with
    | some x => emit (.num x)
    | none => error (rangeMsg (lib.over src))
  else match strtoll src with
    | some n => emit (.int n)
    | none => error intMsg

/-- `parse_number`, `/repo/src/text/json/parser.cpp:235-305`. -/
def parseNumber (lib : Lib F) : M F Unit := do
  let sg ← signPart
  let ip ← digitsA
  let (fr, f1) ← fracPart
  let (ex, f2) ← expPart
  let ds ← digitsB
  convNum lib (sg ++ ip ++ fr ++ ex ++ ds) (f1 || f2)

/-- A sequence of `match`. -/
def mtchAll : List Nat → M F Unit
  | [] => return
  | c :: cs => do
    mtch c
    mtchAll cs

/-- The separator, `/repo/src/text/json/parser.cpp:199-200,224-225`; `first` is `i == 0`. -/
def comma (first : Bool) : M F Unit := if first then pure () else smatch 44

/-- The message `/repo/src/text/json/parser.cpp:179-182`. -/
def invalidMsg (c : Nat) : Str := charMsg "invalid char" c

mutual
/-- `parse_impl`, `/repo/src/text/json/parser.cpp:146-188`, with `parse_object` (190-213), `parse_array` (215-233), `parse_string`
(307-312), `parse_false`, `parse_null` and `parse_true` (416-442). The first argument is the number of calls of `parse_impl` for which
there is room on the stack, the second one bounds the recursion of this model. -/
def parseImpl (lib : Lib F) : Nat → Nat → M F Unit
  | 0, _ => throw .deep
  | _ + 1, 0 => throw .stuck
  | d + 1, n + 1 => do
    ss
    let c ← peek
    if c = 123 then
      emit .startObj
      smatch 123
      objLoop lib d n true
      smatch 125
      emit .endObj
    else if c = 91 then
      emit .startArr
      smatch 91
      arrLoop lib d n true
      smatch 93
      emit .endArr
    else if isDigit c ∨ c = 45 then parseNumber lib
    else if c = 34 then
      let t ← parseStringPrim
      emit (.str t)
    else if c = 102 then
      mtchAll [102, 97, 108, 115, 101]
      emit (.bool false)
    else if c = 110 then
      mtchAll [110, 117, 108, 108]
      emit .null
    else if c = 116 then
      mtchAll [116, 114, 117, 101]
      emit (.bool true)
    else error (invalidMsg c)
/-- The loop of `parse_array`, `/repo/src/text/json/parser.cpp:221-228`; `first` is `i == 0`. -/
def arrLoop (lib : Lib F) : Nat → Nat → Bool → M F Unit
  | _, 0, _ => throw .stuck
  | d, n + 1, first => do
    if (← speek) = 93 then return
    comma first
    parseImpl lib d n
    arrLoop lib d n false
/-- The loop of `parse_object`, `/repo/src/text/json/parser.cpp:196-208`. -/
def objLoop (lib : Lib F) : Nat → Nat → Bool → M F Unit
  | _, 0, _ => throw .stuck
  | d, n + 1, first => do
    if (← speek) = 125 then return
    comma first
    ss
    let k ← parseStringPrim
    emit (.key k)
    smatch 58
    parseImpl lib d n
    objLoop lib d n false
end

/-- `parse_impl` with a budget that is enough for what is left. -/
def parseAll (lib : Lib F) (room : Nat) : M F Unit :=
  fun p => parseImpl lib room (2 * (p.cbuf.toList.length + p.rest.length) + 1) p

/-- `parse_stream`, `/repo/src/text/json/parser.cpp:138-144`, with room for `room` nested values. -/
def parseStream (lib : Lib F) (room : Nat) : M F Unit := do
  ss
  if !((← loadedC) || (← more)) then throw .eod
  parseAll lib room

/-- A new `json_parser`, `/repo/src/text/json/parser.cpp:118-124`, in front of these characters. -/
def fresh (us : List Nat) : P F := ⟨none, us, 1, 1, []⟩

/-- `parse_error::what`, `/repo/src/lang/exception.h:66,74-80`, with the file name of `/repo/src/text/json/parser.cpp:446`; what a
reader of the `const char*` sees. -/
def what (line col : Nat) (msg : Str) : Str :=
  cstr (ascii "<istream>" ++ ascii ":" ++ Verif.Decimal.digits line ++ ascii ":" ++ Verif.Decimal.digits col ++ ascii " " ++ msg)

end Verif.JsonPos
