import Verif.Ustring.Model
import Verif.Json.Value
/-! Model of the JSON parser `/repo/src/text/json/parser.h`, `parser.cpp` and of the printers in `/repo/src/text/json/base.h`.

A character (`uchar`, an `int` in the parser) is a natural number. The C library's `strtod` and the stream's formatting of a
`double` are parameters. Line and character numbers, which only go into error messages, are left out. -/

namespace Verif.Json
open Verif.Ustring

variable {F : Type}

/-- Why a parse ends without a value: `end_of_data` (`/repo/src/text/json/parser.h:103`, `parser.cpp:142`), `parse_error`
(`/repo/src/text/json/parser.cpp:444-449,54`), or the recursion budget of this model used up (the theorem `parse_total` shows that this
does not happen). -/
inductive Err where
  | eod
  | parse
  | stuck
deriving DecidableEq, Repr

/-- The input of the parser: `it` as the characters still to be decoded, and `cbuf`, `/repo/src/text/json/parser.h:155-158`; `none`
is -1. -/
structure S where
  cbuf : Option Nat
  rest : List Nat
deriving DecidableEq, Repr

/-- The characters the parser sees in a byte stream: repeated `chars_to_uchar(it, end)`, `/repo/src/text/json/parser.h:101`. For a
malformed sequence the fallback gets a range built from a copy of an `istreambuf_iterator` whose original has been advanced
(`/repo/src/data/string/ustring.h:129,143`); what that range holds is up to the library, so the character is `bad` of the bytes at
this point (0 for an empty range, else U+FFFD). -/
def decodeAll (bad : List UInt8 → Nat) : List UInt8 → List Nat
  | [] => []
  | b :: bs => ((decodeOne (b :: bs)).1.getD (bad (b :: bs))) :: decodeAll bad (decodeOne (b :: bs)).2
termination_by s => s.length
decreasing_by exact decodeOne_length b bs

/-- `peek`, `/repo/src/text/json/parser.h:98-106`. -/
def peek (s : S) : Except Err (Nat × S) :=
  match s.cbuf with
  | some c => .ok (c, s)
  | none => match s.rest with
    | [] => .error .eod
    | c :: tl => .ok (c, ⟨some c, tl⟩)

/-- `incr`, `/repo/src/text/json/parser.h:107-116`. -/
def incr (s : S) : Except Err (Nat × S) := do
  let (c, s) ← peek s
  .ok (c, { s with cbuf := none })

/-- `safe_isspace`, `/repo/src/text/json/parser.h:122-128`, in the C locale. -/
def isSpace (c : Nat) : Bool := c == 32 || (9 ≤ c && c ≤ 13)

/-- `safe_isdigit`, `/repo/src/text/json/parser.h:129-135`. -/
def isDigit (c : Nat) : Bool := 48 ≤ c && c ≤ 57

/-- `ss` entered with an empty `cbuf`, `/repo/src/text/json/parser.h:117-120`. -/
def ssU : List Nat → S
  | [] => ⟨none, []⟩
  | c :: tl => if isSpace c then ssU tl else ⟨some c, tl⟩

/-- `ss`, `/repo/src/text/json/parser.h:117-120`. The test `it != end` does not take a character in `cbuf` into account. -/
def ss (s : S) : S :=
  match s.cbuf with
  | none => ssU s.rest
  | some c => if s.rest = [] then s else if isSpace c then ssU s.rest else s

/-- `match`, `/repo/src/text/json/parser.h:137-141`. -/
def mtch (c : Nat) (s : S) : Except Err S := do
  let (d, s) ← peek s
  if d ≠ c then .error .parse
  else
    let (_, s) ← incr s
    .ok s

/-- `speek`, `/repo/src/text/json/parser.h:143-146`. -/
def speek (s : S) : Except Err (Nat × S) := peek (ss s)

/-- `smatch`, `/repo/src/text/json/parser.h:148-151`. -/
def smatch (c : Nat) (s : S) : Except Err S := mtch c (ss s)

/-- `parse_hex` on the characters after an empty `cbuf`, `/repo/src/text/json/parser.h:85-96`. -/
def parseHex : List Nat → Except Err (Nat × List Nat)
  | [] => .error .eod
  | c :: us =>
    if isDigit c then .ok (c - 48, us)
    else if 65 ≤ c ∧ c ≤ 70 then .ok (c - 65 + 10, us)
    else if 97 ≤ c ∧ c ≤ 102 then .ok (c - 97 + 10, us)
    else .error .parse

/-- The four digits of `\u`, `/repo/src/text/json/parser.cpp:350-354,366-370`. -/
def parseHex4 (us : List Nat) : Except Err (Nat × List Nat) := do
  let (a, us) ← parseHex us
  let (b, us) ← parseHex us
  let (c, us) ← parseHex us
  let (d, us) ← parseHex us
  .ok ((a <<< 12) ||| (b <<< 8) ||| (c <<< 4) ||| d, us)

/-- `match` on the characters after an empty `cbuf`, `/repo/src/text/json/parser.h:137-141`. -/
def mtchU (c : Nat) : List Nat → Except Err (List Nat)
  | [] => .error .eod
  | d :: us => if d ≠ c then .error .parse else .ok us

/-- The character after a backslash that is not `u`, `/repo/src/text/json/parser.cpp:340-347`; `none`: `default`. -/
def simpleEscape (c : Nat) : Option UInt8 :=
  if c = 34 then some 34 else if c = 92 then some 92 else if c = 47 then some 47 else if c = 98 then some 8
  else if c = 102 then some 12 else if c = 110 then some 10 else if c = 114 then some 13 else if c = 116 then some 9 else none

/-- `\u`, `/repo/src/text/json/parser.cpp:349-382`: the bytes stored. -/
def parseU (us : List Nat) : Except Err (Str × List Nat) := do
  let (u, us) ← parseHex4 us
  if 0xDC00 ≤ u ∧ u ≤ 0xDFFF then .error .parse
  else if 0xD800 ≤ u ∧ u ≤ 0xDBFF then
    let us ← mtchU 92 us
    let us ← mtchU 117 us
    let (l, us) ← parseHex4 us
    if l < 0xDC00 ∨ 0xDFFF < l then .error .parse
    else .ok (ucharToChars (0x10000 + (u - 0xD800) * 0x400 + (l - 0xDC00)), us)
  else .ok (ucharToChars u, us)

/-- One turn of the loop in `parse_string_prim`, `/repo/src/text/json/parser.cpp:334-408`, on the characters after an empty `cbuf`, the
first of which is not a quote: the bytes stored through `p`. -/
def strStep : List Nat → Except Err (Str × List Nat)
  | [] => .error .eod
  | c :: us =>
    if c = 92 then
      match us with
      | [] => .error .eod
      | e :: us =>
        if e = 117 then parseU us
        else match simpleEscape e with
          | some b => .ok ([b], us)
          | none => .error .parse
    else if (0x20 ≤ c ∧ c ≤ 0x21) ∨ (0x23 ≤ c ∧ c ≤ 0x5B) ∨ (0x5D ≤ c ∧ c ≤ 0x10FFFF) then .ok (ucharToChars c, us)
    else .error .parse

/-- The loop and the closing quote of `parse_string_prim`, `/repo/src/text/json/parser.cpp:320-411`. Each turn begins with an empty
`cbuf`. The first argument bounds the number of turns. The growing of the buffer is modelled separately (`growBuf`). -/
def strLoop : Nat → List Nat → Except Err (Str × List Nat)
  | 0, _ => .error .stuck
  | _ + 1, [] => .error .eod
  | n + 1, c :: us =>
    if c = 34 then .ok ([], us)
    else do
      let (bs, us) ← strStep (c :: us)
      let (out, us) ← strLoop n us
      .ok (bs ++ out, us)

/-- `parse_string_prim`, `/repo/src/text/json/parser.cpp:314-414`. -/
def parseStringPrim (s : S) : Except Err (Str × S) := do
  let s ← mtch 34 s
  let (out, us) ← strLoop (s.rest.length + 1) s.rest
  .ok (out, ⟨none, us⟩)

/-- Growing the buffer at the head of each turn, `/repo/src/text/json/parser.cpp:321-329`: `pos` is `p - buf`; the result is the new
`buf_len`. -/
def growBuf (pos len : Nat) : Nat := if pos + 8 ≥ len then 2 * len else len

/-- The buffer length and write position over the turns of one string, `/repo/src/text/json/parser.cpp:320-411`; the list holds the
number of bytes stored by each turn. `none`: a byte is stored outside of the buffer. -/
def bufRun : Nat → Nat → List Nat → Option Nat
  | _, len, [] => some len
  | pos, len, k :: ks => if pos + k ≤ growBuf pos len then bufRun (pos + k) (growBuf pos len) ks else none

/-- A run of digits read from an empty `cbuf`: the loops `/repo/src/text/json/parser.cpp:245-248,254-257,274-277`, whose conditions
agree in this state. -/
def digitsU : List Nat → List Nat × S
  | [] => ([], ⟨none, []⟩)
  | c :: tl => if isDigit c then (c :: (digitsU tl).1, (digitsU tl).2) else ([], ⟨some c, tl⟩)

/-- The loop `/repo/src/text/json/parser.cpp:245-248`, condition `(cbuf != -1 || it != end) && safe_isdigit(peek())`. -/
def digitsA (s : S) : List Nat × S :=
  match s.cbuf with
  | none => digitsU s.rest
  | some c => if isDigit c then (c :: (digitsU s.rest).1, (digitsU s.rest).2) else ([], s)

/-- The loops `/repo/src/text/json/parser.cpp:254-257,274-277`, condition `it != end && safe_isdigit(peek())`. -/
def digitsB (s : S) : List Nat × S :=
  match s.cbuf with
  | none => digitsU s.rest
  | some c => if s.rest = [] then ([], s) else if isDigit c then (c :: (digitsU s.rest).1, (digitsU s.rest).2) else ([], s)

/-- `it != end && p(peek())`, as on the lines `/repo/src/text/json/parser.cpp:250,260`. -/
def look (p : Nat → Bool) (s : S) : Except Err (Bool × S) :=
  if s.rest = [] then .ok (false, s)
  else do
    let (c, s) ← peek s
    .ok (p c, s)

/-- The fraction, `/repo/src/text/json/parser.cpp:250-258`: the characters read, and whether there is one. -/
def fracPart (s : S) : Except Err ((List Nat × Bool) × S) := do
  let (b, s) ← look (· == 46) s
  if b then
    let (_, s) ← incr s
    .ok ((46 :: (digitsB s).1, true), (digitsB s).2)
  else .ok (([], false), s)

/-- The letter and the sign of the exponent, `/repo/src/text/json/parser.cpp:260-272`. -/
def expPart (s : S) : Except Err ((List Nat × Bool) × S) := do
  let (b, s) ← look (fun c => c == 101 || c == 69) s
  if b then
    let (c, s) ← incr s
    if s.rest = [] then .error .parse
    else
      let (d, s) ← peek s
      if d = 43 ∨ d = 45 then
        let (_, s) ← incr s
        .ok (([c, d], true), s)
      else .ok (([c], true), s)
  else .ok (([], false), s)

/-- The value of a run of digits. -/
def natOf (ds : List Nat) : Nat := ds.foldl (fun n d => n * 10 + (d - 48)) 0

/-- The value of an optional minus sign and digits; no digits at all give 0. -/
def signedVal : List Nat → Int
  | [] => 0
  | c :: ds => if c = 45 then - (natOf ds : Int) else natOf (c :: ds)

/-- `strtoll(src, &endptr, 10)` on an optional minus sign and digits, `/repo/src/text/json/parser.cpp:295`: `none` is `ERANGE`. -/
def strtoll (src : List Nat) : Option Int :=
  if -9223372036854775808 ≤ signedVal src ∧ signedVal src ≤ 9223372036854775807 then some (signedVal src) else none

/-- The conversion of the collected text, `/repo/src/text/json/parser.cpp:279-304`. `strtod` gives `none` on `ERANGE`. -/
def convNum (strtod : List Nat → Option F) (src : List Nat) (isFrac : Bool) : Except Err (Event F) :=
  if isFrac then match strtod src with
    | some x => .ok (.num x)
    | none => .error .parse
  else match strtoll src with
    | some n => .ok (.int n)
    | none => .error .parse

/-- The sign, `/repo/src/text/json/parser.cpp:240-243`. -/
def signPart (s : S) : Except Err (List Nat × S) := do
  let (c, s) ← peek s
  if c = 45 then
    let (_, s) ← incr s
    .ok ([45], s)
  else .ok ([], s)

/-- `parse_number`, `/repo/src/text/json/parser.cpp:235-305`. -/
def parseNumber (strtod : List Nat → Option F) (s : S) : Except Err (Event F × S) := do
  let (sg, s) ← signPart s
  let ((fr, f1), s') ← fracPart (digitsA s).2
  let ((ex, f2), s'') ← expPart s'
  let ev ← convNum strtod (sg ++ (digitsA s).1 ++ fr ++ ex ++ (digitsB s'').1) (f1 || f2)
  .ok (ev, (digitsB s'').2)

/-- A sequence of `match`. -/
def mtchAll : List Nat → S → Except Err S
  | [], s => .ok s
  | c :: cs, s => do
    let s ← mtch c s
    mtchAll cs s

/-- The separator, `/repo/src/text/json/parser.cpp:199-200,224-225`; `first` is `i == 0`. -/
def comma (first : Bool) (s : S) : Except Err S := if first then .ok s else smatch 44 s

mutual
/-- `parse_impl`, `/repo/src/text/json/parser.cpp:146-188`, with `parse_object` (190-213), `parse_array` (215-233), `parse_string`
(307-312), `parse_false`, `parse_null` and `parse_true` (416-442): the events, in order. The first argument bounds the recursion. -/
def parseImpl (strtod : List Nat → Option F) : Nat → S → Except Err (List (Event F) × S)
  | 0, _ => .error .stuck
  | n + 1, s => do
    let (c, s) ← peek (ss s)
    if c = 123 then
      let s ← smatch 123 s
      let (evs, s) ← objLoop strtod n true s
      let s ← smatch 125 s
      .ok (.startObj :: evs ++ [.endObj], s)
    else if c = 91 then
      let s ← smatch 91 s
      let (evs, s) ← arrLoop strtod n true s
      let s ← smatch 93 s
      .ok (.startArr :: evs ++ [.endArr], s)
    else if isDigit c ∨ c = 45 then
      let (ev, s) ← parseNumber strtod s
      .ok ([ev], s)
    else if c = 34 then
      let (t, s) ← parseStringPrim s
      .ok ([.str t], s)
    else if c = 102 then
      let s ← mtchAll [102, 97, 108, 115, 101] s
      .ok ([.bool false], s)
    else if c = 110 then
      let s ← mtchAll [110, 117, 108, 108] s
      .ok ([.null], s)
    else if c = 116 then
      let s ← mtchAll [116, 114, 117, 101] s
      .ok ([.bool true], s)
    else .error .parse
/-- The loop of `parse_array`, `/repo/src/text/json/parser.cpp:221-228`; `first` is `i == 0`. -/
def arrLoop (strtod : List Nat → Option F) : Nat → Bool → S → Except Err (List (Event F) × S)
  | 0, _, _ => .error .stuck
  | n + 1, first, s => do
    let (c, s) ← speek s
    if c = 93 then .ok ([], s)
    else
      let s ← comma first s
      let (evs, s) ← parseImpl strtod n s
      let (more, s) ← arrLoop strtod n false s
      .ok (evs ++ more, s)
/-- The loop of `parse_object`, `/repo/src/text/json/parser.cpp:196-208`. -/
def objLoop (strtod : List Nat → Option F) : Nat → Bool → S → Except Err (List (Event F) × S)
  | 0, _, _ => .error .stuck
  | n + 1, first, s => do
    let (c, s) ← speek s
    if c = 125 then .ok ([], s)
    else
      let s ← comma first s
      let (k, s) ← parseStringPrim (ss s)
      let s ← smatch 58 s
      let (evs, s) ← parseImpl strtod n s
      let (more, s) ← objLoop strtod n false s
      .ok (.key k :: evs ++ more, s)
end

/-- `parse_stream`, `/repo/src/text/json/parser.cpp:138-144`. -/
def parseStream (strtod : List Nat → Option F) (s : S) : Except Err (List (Event F) × S) :=
  let s := ss s
  if s.cbuf = none ∧ s.rest = [] then .error .eod
  else parseImpl strtod (2 * (s.cbuf.toList.length + s.rest.length) + 1) s

/-- `json_object::add`, `/repo/src/text/json/base.h:411-413`: `member[name] = j`. (The place in the enumeration carries no meaning.) -/
def addMember (ms : List (Str × Value F)) (k : Str) (v : Value F) : List (Str × Value F) := ms.filter (fun m => m.1 ≠ k) ++ [(k, v)]

/-- The fields of `json_builder`, `/repo/src/text/json/parser.cpp:112-115`; the top of `ixs` is its head. -/
structure Builder (F : Type) where
  stk : List (Value F)
  key : List Str
  ixs : List Nat

/-- One callback of `json_builder`, `/repo/src/text/json/parser.cpp:58-110`. `none`: undefined behaviour (`top` or `pop` of an empty
stack, or an index or iterator outside of a vector). -/
def step (b : Builder F) : Event F → Option (Builder F)
  | .null => some { b with stk := b.stk ++ [.null] }
  | .bool v => some { b with stk := b.stk ++ [.bool v] }
  | .int v => some { b with stk := b.stk ++ [.int v] }
  | .num v => some { b with stk := b.stk ++ [.flt v] }
  | .str v => some { b with stk := b.stk ++ [.str v] }
  | .startObj => some { b with ixs := b.stk.length :: b.ixs }
  | .startArr => some { b with ixs := b.stk.length :: b.ixs }
  | .key k => some { b with key := b.key ++ [k] }
  | .endObj => match b.ixs with
    | [] => none
    | ix :: ixs =>
      let sz := b.stk.length - ix
      if b.stk.length < ix ∨ b.key.length < sz then none
      else
        let ms := (b.key.drop (b.key.length - sz)).zip (b.stk.drop ix)
        some ⟨b.stk.take ix ++ [.obj (ms.foldl (fun o m => addMember o m.1 m.2) [])], b.key.take (b.key.length - sz), ixs⟩
  | .endArr => match b.ixs with
    | [] => none
    | ix :: ixs =>
      if b.stk.length < ix then none
      else some ⟨b.stk.take ix ++ [.arr (b.stk.drop ix)], b.key, ixs⟩

/-- The callbacks one after the other. -/
def run (b : Builder F) : List (Event F) → Option (Builder F)
  | [] => some b
  | e :: es => (step b e).bind (run · es)

/-- What `parse` does. -/
inductive Outcome (F : Type) where
  /-- A value, and the parser's state after it. -/
  | value (v : Value F) (s : S)
  /-- An exception. -/
  | exc (e : Err)
  /-- Undefined behaviour. -/
  | ub
deriving DecidableEq

/-- `json_parser::parse`, `/repo/src/text/json/parser.cpp:131-136`, and `json_builder::get` (52-56). -/
def parseFrom (strtod : List Nat → Option F) (s : S) : Outcome F :=
  match parseStream strtod s with
  | .error e => .exc e
  | .ok (evs, s) => match run ⟨[], [], []⟩ evs with
    | none => .ub
    | some b => match b.stk with
      | [v] => .value v s
      | _ => .exc .parse

/-- A new `json_parser` on a stream (`/repo/src/text/json/parser.cpp:118-124`) and one `parse`; also `operator>>`,
`/repo/src/text/json/parser.h:164-168`. -/
def parse (strtod : List Nat → Option F) (bad : List UInt8 → Nat) (bytes : List UInt8) : Outcome F :=
  parseFrom strtod ⟨none, decodeAll bad bytes⟩

/-- `tohex`, `/repo/src/text/json/base.h:378-382`. -/
def tohex (c : Nat) : UInt8 := if c ≤ 9 then UInt8.ofNat (48 + c) else UInt8.ofNat (65 + c - 10)

/-- The tables `escs` and `cnvs`, `/repo/src/text/json/base.h:319-324,356-361`. -/
def escTable : List (Nat × UInt8) := [(0x22, 34), (0x5C, 92), (0x2F, 47), (0x08, 98), (0x0C, 102), (0x0A, 110), (0x0D, 114), (0x09, 116)]

/-- `iscntrl` in the C locale; for the negative `char` values of bytes from 0x80 on it is taken to be false (formally those
arguments are undefined behaviour of `iscntrl`). -/
def isCntrl (c : Nat) : Bool := c < 32 || c == 127

/-- `print_char` for one unit below 0x10000, `/repo/src/text/json/base.h:328-346`. -/
def printUnit (u : Nat) : Str :=
  if u ≤ 0x7F then
    match escTable.lookup u with
    | some c => [92, c]
    | none =>
      if isCntrl u then [92, 117, 48, 48, tohex ((u >>> 4) &&& 0xf), tohex (u &&& 0xf)]
      else [UInt8.ofNat u]
  else [92, 117, tohex ((u >>> 12) &&& 0xf), tohex ((u >>> 8) &&& 0xf), tohex ((u >>> 4) &&& 0xf), tohex ((u >>> 0) &&& 0xf)]

/-- `print_char`, `/repo/src/text/json/base.h:318-353`. -/
def printChar (u : Nat) : Str :=
  if u < 0x10000 then printUnit u
  else printUnit (0xD800 + (u - 0x10000) / 0x400) ++ printUnit (0xDC00 + (u - 0x10000) % 0x400)

/-- `print_char_without_escape`, `/repo/src/text/json/base.h:355-376`. -/
def printCharRaw (b : UInt8) : Str :=
  match escTable.lookup b.toNat with
  | some c => [92, c]
  | none =>
    if isCntrl b.toNat then [92, 117, 48, 48, tohex ((b.toNat >>> 4) &&& 0xf), tohex (b.toNat &&& 0xf)]
    else [b]

/-- The loop `/repo/src/text/json/base.h:300-303`: it ends at the first zero byte at the start of a character, at the latest at the
terminator of `c_str()`. -/
def escLoop : List UInt8 → Str
  | [] => []
  | b :: bs =>
    if b = 0 then []
    else printChar ((decodeOne (b :: bs)).1.getD 0xFFFD) ++ escLoop (decodeOne (b :: bs)).2
termination_by s => s.length
decreasing_by exact decodeOne_length b bs

/-- The loop `/repo/src/text/json/base.h:306-308`. -/
def rawLoop : List UInt8 → Str
  | [] => []
  | b :: bs => if b = 0 then [] else printCharRaw b ++ rawLoop bs

/-- `json_string::print`, `/repo/src/text/json/base.h:295-311`. -/
def printString (escape : Bool) (s : Str) : Str := 34 :: ((if escape then escLoop s else rawLoop s) ++ [34])

/-- Decimal digits of a natural number. -/
def digits (n : Nat) : Str := if n < 10 then [UInt8.ofNat (48 + n)] else digits (n / 10) ++ [UInt8.ofNat (48 + n % 10)]

/-- `os << dat` for an `int64_t`, `/repo/src/text/json/base.h:235-237` (classic locale). -/
def printInt (n : Int) : Str := if n < 0 then 45 :: digits n.natAbs else digits n.natAbs

/-- The bytes of `true` and `false`, `/repo/src/text/json/base.h:517-519`. -/
def printBool (b : Bool) : Str := if b then [116, 114, 117, 101] else [102, 97, 108, 115, 101]

mutual
/-- `print`: arrays `/repo/src/text/json/base.h:179-190`, integers (235-237), floats (261-271), strings (291-293), objects (459-472),
booleans (517-519), null (537-539). -/
def print (showF : F → Str) (escape : Bool) : Value F → Str
  | .null => [110, 117, 108, 108]
  | .int n => printInt n
  | .flt x => showF x
  | .bool b => printBool b
  | .str s => printString escape s
  | .arr vs => 91 :: (printElems showF escape true vs ++ [93])
  | .obj ms => 123 :: (printMembers showF escape true ms ++ [125])
/-- The loop `/repo/src/text/json/base.h:182-188`; the flag is `fst`. -/
def printElems (showF : F → Str) (escape : Bool) : Bool → List (Value F) → Str
  | _, [] => []
  | fst, v :: vs => (if fst then [] else [44]) ++ print showF escape v ++ printElems showF escape false vs
/-- The loop `/repo/src/text/json/base.h:462-470`. -/
def printMembers (showF : F → Str) (escape : Bool) : Bool → List (Str × Value F) → Str
  | _, [] => []
  | fst, (k, v) :: ms =>
    (if fst then [] else [44]) ++ printString escape k ++ [58] ++ print showF escape v ++ printMembers showF escape false ms
end

/-- `n` blanks. -/
def blanks (n : Nat) : Str := List.replicate n 32

mutual
/-- `pretty`: arrays `/repo/src/text/json/base.h:192-210`, objects (474-494), the rest as `print` (145-147). -/
def prettyAt (showF : F → Str) (escape : Bool) : Nat → Value F → Str
  | _, .null => [110, 117, 108, 108]
  | _, .int n => printInt n
  | _, .flt x => showF x
  | _, .bool b => printBool b
  | _, .str s => printString escape s
  | l, .arr vs => 91 :: (prettyElems showF escape l true vs ++ [10] ++ blanks (l * 2) ++ [93])
  | l, .obj ms => 123 :: (prettyMembers showF escape l true ms ++ [10] ++ blanks (l * 2) ++ [125])
/-- The loop `/repo/src/text/json/base.h:195-205`. -/
def prettyElems (showF : F → Str) (escape : Bool) : Nat → Bool → List (Value F) → Str
  | _, _, [] => []
  | l, fst, v :: vs => (if fst then [10] else [44, 10]) ++ blanks ((l + 1) * 2) ++ prettyAt showF escape (l + 1) v
      ++ prettyElems showF escape l false vs
/-- The loop `/repo/src/text/json/base.h:477-489`. -/
def prettyMembers (showF : F → Str) (escape : Bool) : Nat → Bool → List (Str × Value F) → Str
  | _, _, [] => []
  | l, fst, (k, v) :: ms => (if fst then [10] else [44, 10]) ++ blanks ((l + 1) * 2) ++ printString escape k ++ [58, 32]
      ++ prettyAt showF escape (l + 1) v ++ prettyMembers showF escape l false ms
end

/-- `json::pretty`, `/repo/src/text/json/base.h:714-718`. -/
def pretty (showF : F → Str) (escape : Bool) (v : Value F) : Str := prettyAt showF escape 0 v ++ [10]

end Verif.Json
