import Verif.Ustring.Model
import Verif.Lexical.Model

/-! Model of the ways text reaches and leaves a `ustring`, `/repo/src/data/string/ustring.h` and `ustring.cpp`: C strings, strings,
pointers without an end, and streams. The decoder itself is `Verif.Ustring.decodeOne`.

Memory from a pointer on is the list of the bytes that may be read; reading behind them is undefined and has the outcome `none`. -/

namespace Verif.UText
open Verif.Ustring

/-- `strlen(p)` and the bytes before the terminator, used at `/repo/src/data/string/ustring.cpp:91`. `none`: there is no terminator
and `strlen` runs out of the memory. -/
def cstr : List UInt8 → Option (List UInt8)
  | [] => none
  | b :: m => if b = 0 then some [] else (cstr m).map (b :: ·)

/-- `string_to_ustring(const char*)`, `/repo/src/data/string/ustring.cpp:90-99`. -/
def ofCString (m : List UInt8) : Option (List Nat) := (cstr m).map stringToUstring

/-- The loop `while (p[n] && n < 6)`, `/repo/src/data/string/ustring.cpp:125-127`: `n` is the number of bytes that may still be
counted. `p[n]` is read before `n` is tested, so a seventh byte is read. `none`: it lies behind the memory. -/
def count6 : Nat → List UInt8 → Option Nat
  | _, [] => none
  | n, b :: m => if b = 0 then some 0 else
    match n with
    | 0 => some 0
    | n + 1 => (count6 n m).map (· + 1)

/-- `string_to_uchar(const char*)`, `/repo/src/data/string/ustring.cpp:124-129`. -/
def ucharOfCString (m : List UInt8) : Option Nat := (count6 6 m).map fun n => (decodeOne (m.take n)).1.getD 0xFFFD

/-- `string_to_uchar(const std::string&)`, `/repo/src/data/string/ustring.cpp:131-134`. -/
def ucharOfString (s : List UInt8) : Nat := (decodeOne s).1.getD 0xFFFD

/-- The loop over continuation bytes, `/repo/src/data/string/ustring.h:162-173`, when the test `in == end` is always false
(`/repo/src/data/string/ustring.h:203-209`). -/
def contRaw : Nat → Nat → List UInt8 → Option (Option Nat × List UInt8)
  | 0, ret, bs => some (some ret, bs)
  | _ + 1, _, [] => none
  | n + 1, ret, b :: bs =>
    if b.toNat &&& 0xC0 ≠ 0x80 then some (none, b :: bs)
    else contRaw n ((ret <<< 6) ||| (b.toNat &&& 0x3F)) bs

/-- The deprecated `chars_to_uchar(in)`, `/repo/src/data/string/ustring.h:218-223`, which is `chars_to_uchar_impl` (125-201) with an
end that is never reached: the character and what `in` points to afterwards. -/
def decodeRaw : List UInt8 → Option (Nat × List UInt8)
  | [] => none
  | b :: bs =>
    if b.toNat &&& 0x80 = 0 then some (b.toNat, bs)
    else
      let c := b.toNat &&& 0xFF
      if c < 0xC0 ∨ c > 0xFD then some (0xFFFD, bs)
      else
        match contRaw ((head c).2 - 1) (head c).1 bs with
        | none => none
        | some (none, rest) => some (0xFFFD, rest)
        | some (some ret, rest) => some ((finish (head c).2 ret).getD 0xFFFD, rest)

/-- `out << us`, `/repo/src/data/string/ustring.cpp:344-349`: what is appended to the stream, a stream that accepts every byte. -/
def put (out : List UInt8) (us : List Nat) : List UInt8 := us.foldl (fun o c => o ++ ucharToChars c) out

/-- `in >> us`, `/repo/src/data/string/ustring.cpp:351-356`: the new value of `us`, whether the stream is still good for the caller
(`!in.fail()`), and what is left. When there is no word, `in >> s` leaves the local `s` empty and `us` is assigned all the same. -/
def get (inp : List UInt8) : List Nat × Bool × List UInt8 :=
  let w := Lexical.getWord inp
  (stringToUstring (w.1.getD []), w.1.isSome, w.2)

/-- `us` after `while (in >> us) v.push_back(us)`, the loop a caller writes: the words, `n` bounds the number of turns. -/
def getAll : Nat → List UInt8 → List (List Nat)
  | 0, _ => []
  | n + 1, inp => if (get inp).2.1 then (get inp).1 :: getAll n (get inp).2.2 else []

/-- `is_alnum`, `/repo/src/data/string/ustring.cpp:139-141`, in the "C" locale. -/
def isAlnum (c : Nat) : Bool := decide (c ≤ 0x7f) && (inR 0x30 c 0x39 || inR 0x41 c 0x5a || inR 0x61 c 0x7a)
/-- `is_hiragana`, `/repo/src/data/string/ustring.cpp:142-144`. -/
def isHiragana (c : Nat) : Bool := inR 0x3040 c 0x309f
/-- `is_kanji`, `/repo/src/data/string/ustring.cpp:148-150`. -/
def isKanji (c : Nat) : Bool := inR 0x4e00 c 0x9fff

end Verif.UText
