import Verif.JsonPos.Model
import Verif.Json.Spec
/-! What the exceptions of the JSON parser should say: where in the text the parser was, and what is wrong there. -/

namespace Verif.JsonPos.Spec
open Verif.Json (Str Value)
open Verif.Json.Spec (utf8 hexVal Hex4 Digit decVal IsInt64 escapes)

variable {F : Type}

/-- The line on which the character after `before` stands, counted from 1. -/
def line (before : List Nat) : Nat := before.count 10 + 1

/-- Its place on that line, counted from 1. -/
def column (before : List Nat) : Nat := (before.reverse.takeWhile (· ≠ 10)).length + 1

/-- A hexadecimal digit with a capital letter. -/
def Hex (b : UInt8) : Prop := (48 ≤ b ∧ b ≤ 57) ∨ (65 ≤ b ∧ b ≤ 70)

/-- What hexadecimal digits stand for. -/
def hexNum (h : Str) : Nat := h.foldl (fun n b => 16 * n + (if b ≤ 57 then b.toNat - 48 else b.toNat - 55)) 0

/-- `h` is the number `c` as in `U+0041` or `U+1F600`: at least four digits, more only if needed. -/
def CodePoint (h : Str) (c : Nat) : Prop := 4 ≤ h.length ∧ (∀ b ∈ h, Hex b) ∧ hexNum h = c ∧ (4 < h.length → h.head? ≠ some 48)

/-- A character in a message; the character 0 is left out. -/
def shown (c : Nat) : Str := if c = 0 then [] else utf8 c

/-- No value begins with this character. -/
def NoValue (c : Nat) : Prop := ¬ Digit c ∧ c ∉ [123, 91, 45, 34, 102, 110, 116]

/-- What is said about a number that no `double` is near to: too large, too small, or anything else. -/
def outOfRange : Range → Str
  | .huge => ascii "strtod overflow range over. Too huge value for double."
  | .zero => ascii "strtod underflow range over."
  | .other => ascii "strtod range over."

/-- `Fits lib msg before after`: the message `msg` describes what is wrong with a text that has been read up to the end of `before`
and goes on with `after`. -/
inductive Fits (lib : Lib F) : Str → List Nat → List Nat → Prop where
  /-- The next character is not the one that has to be there. The message has its code modulo 256. -/
  | required (w r : List Nat) (x c : Nat) (hx : x < 128) (h : c ≠ x) :
    Fits lib (ascii "'" ++ utf8 x ++ ascii "' is required but got '" ++ [UInt8.ofNat (c % 256)] ++ ascii "'") w (c :: r)
  /-- No value begins with the next character. -/
  | invalid (w r : List Nat) (c : Nat) (h : Str) (hn : NoValue c) (hh : CodePoint h c) :
    Fits lib (ascii "invalid char: '" ++ shown c ++ ascii "' (U+" ++ h ++ ascii ")") w (c :: r)
  /-- The last character is not a hexadecimal digit. -/
  | hex (w r : List Nat) (c : Nat) (hn : hexVal c = none) :
    Fits lib (ascii "hex required but got '" ++ [UInt8.ofNat (c % 256)] ++ ascii "'") (w ++ [c]) r
  /-- The last character may not follow a backslash. -/
  | escape (w r : List Nat) (c : Nat) (h : Str) (hn : c ≠ 117 ∧ ∀ b, (c, b) ∉ escapes) (hh : CodePoint h c) :
    Fits lib (ascii "unexpected unescaped char: '" ++ shown c ++ ascii "' (U+" ++ h ++ ascii ")") (w ++ [92, c]) r
  /-- The last character may not stand in a string. -/
  | control (w r : List Nat) (c : Nat) (h : Str) (hn : c < 32) (hh : CodePoint h c) :
    Fits lib (ascii "unexpected unescaped char: '" ++ shown c ++ ascii "' (U+" ++ h ++ ascii ")") (w ++ [c]) r
  /-- A low surrogate with nothing in front of it. -/
  | low (w r g : List Nat) (u : Nat) (h : Str) (hg : Hex4 g u) (hl : 0xDC00 ≤ u ∧ u ≤ 0xDFFF) (hh : CodePoint h u) :
    Fits lib (ascii "unexpected low surrogate char: (U+" ++ h ++ ascii ")") (w ++ g) r
  /-- A high surrogate that no low one follows. -/
  | pair (w r g g' : List Nat) (u l : Nat) (h h' : Str) (hg : Hex4 g u) (hu : 0xD800 ≤ u ∧ u ≤ 0xDBFF) (hg' : Hex4 g' l)
    (hl : l < 0xDC00 ∨ 0xDFFF < l) (hh : CodePoint h u) (hh' : CodePoint h' l) :
    Fits lib (ascii "unexpected char(U+" ++ h' ++ ascii ") after high surrogate char: (U+" ++ h ++ ascii ")") (w ++ g ++ [92, 117] ++ g') r
  /-- The text ends after the letter of an exponent. -/
  | exponent (w : List Nat) (e : Nat) (he : e = 101 ∨ e = 69) : Fits lib (ascii "after exp, digit required.") (w ++ [e]) []
  /-- An integer outside of the range. -/
  | integer (w r sg ds : List Nat) (hs : sg = [] ∨ sg = [45]) (hd : ∀ c ∈ ds, Digit c)
    (hr : ¬ IsInt64 (if sg = [] then (decVal ds : Int) else - (decVal ds : Int))) :
    Fits lib (ascii "strtoll overflow range over. Too huge value for int64_t.") (w ++ (sg ++ ds)) r
  /-- A floating point number outside of the range: sign, digits, fraction, exponent. -/
  | double (w r sg ip fr ex : List Nat) (hs : sg = [] ∨ sg = [45]) (hd : ∀ c ∈ ip, Digit c)
    (hf : fr = [] ∨ ∃ ds, fr = 46 :: ds ∧ ∀ c ∈ ds, Digit c)
    (he : ex = [] ∨ ∃ e s ds, ex = e :: (s ++ ds) ∧ (e = 101 ∨ e = 69) ∧ (s = [] ∨ s = [43] ∨ s = [45]) ∧ ∀ c ∈ ds, Digit c)
    (hn : fr ≠ [] ∨ ex ≠ []) (ht : lib.strtod (sg ++ ip ++ fr ++ ex) = none) :
    Fits lib (outOfRange (lib.over (sg ++ ip ++ fr ++ ex))) (w ++ (sg ++ ip ++ fr ++ ex)) r

mutual
/-- How deep a value is nested: 1 for a value that has no elements or members. -/
def height : Value F → Nat
  | .arr vs => 1 + heightL vs
  | .obj ms => 1 + heightM ms
  | _ => 1
/-- The largest height of some elements. -/
def heightL : List (Value F) → Nat
  | [] => 0
  | v :: vs => max (height v) (heightL vs)
/-- The largest height of some members. -/
def heightM : List (Str × Value F) → Nat
  | [] => 0
  | (_, v) :: ms => max (height v) (heightM ms)
end

/-- The number of opening brackets and braces. -/
def opens (us : List Nat) : Nat := us.countP fun c => c == 91 || c == 123

end Verif.JsonPos.Spec
