import Verif.Ustring.Spec
import Verif.Json.Value
/-! The JSON grammar (RFC 8259) with the values its texts denote, and what a printable value is, independently of the code.
Characters are code points. -/

namespace Verif.Json.Spec
open Verif.Json Verif.Ustring.Spec

variable {F : Type}

/-- The UTF-8 bytes of a character. -/
def utf8 (c : Nat) : Str := (enc c).map UInt8.ofNat

/-- The bytes of a text. -/
def bytes (us : List Nat) : Str := us.flatMap utf8

/-- The value of a hexadecimal digit. -/
def hexVal (c : Nat) : Option Nat :=
  if 48 ≤ c ∧ c ≤ 57 then some (c - 48) else if 65 ≤ c ∧ c ≤ 70 then some (c - 55) else if 97 ≤ c ∧ c ≤ 102 then some (c - 87) else none

/-- `h` consists of four hexadecimal digits with value `u`. -/
def Hex4 (h : List Nat) (u : Nat) : Prop :=
  ∃ a b c d x y z w, h = [a, b, c, d] ∧ hexVal a = some x ∧ hexVal b = some y ∧ hexVal c = some z ∧ hexVal d = some w ∧
    u = 4096 * x + 256 * y + 16 * z + w

/-- The two-character escapes: quotation mark, reverse solidus, solidus, b, f, n, r, t. -/
def escapes : List (Nat × UInt8) := [(34, 34), (92, 92), (47, 47), (98, 8), (102, 12), (110, 10), (114, 13), (116, 9)]

/-- The text between the quotation marks of a string (RFC 8259 section 7), and the UTF-8 bytes it denotes. -/
inductive StrBody : List Nat → Str → Prop where
  | nil : StrBody [] []
  | raw (c t s) : Scalar c → 0x20 ≤ c → c ≠ 34 → c ≠ 92 → StrBody t s → StrBody (c :: t) (utf8 c ++ s)
  | esc (e b t s) : (e, b) ∈ escapes → StrBody t s → StrBody (92 :: e :: t) (b :: s)
  | uni (h u t s) : Hex4 h u → Scalar u → StrBody t s → StrBody (92 :: 117 :: (h ++ t)) (utf8 u ++ s)
  | pair (h u l v t s) : Hex4 h u → Hex4 l v → 0xD800 ≤ u → u ≤ 0xDBFF → 0xDC00 ≤ v → v ≤ 0xDFFF → StrBody t s →
      StrBody (92 :: 117 :: (h ++ 92 :: 117 :: (l ++ t))) (utf8 (0x10000 + (u - 0xD800) * 0x400 + (v - 0xDC00)) ++ s)

/-- A decimal digit. -/
def Digit (c : Nat) : Prop := 48 ≤ c ∧ c ≤ 57

/-- The value of a sequence of decimal digits. -/
def decVal (ds : List Nat) : Nat := ds.foldl (fun n d => 10 * n + (d - 48)) 0

/-- A signed 64-bit integer. -/
def IsInt64 (n : Int) : Prop := - 2 ^ 63 ≤ n ∧ n < 2 ^ 63

/-- The value of a number text in its parts: sign, digits before the point, fraction, exponent. Without fraction and exponent it is
a 64-bit integer, else what `strtod` makes of the text. -/
def NumVal (strtod : List Nat → Option F) (sg ip fr ex : List Nat) (v : Value F) : Prop :=
  if fr = [] ∧ ex = [] then
    ∃ n : Int, IsInt64 n ∧ n = (if sg = [] then (decVal ip : Int) else - (decVal ip : Int)) ∧ v = .int n
  else ∃ x, strtod (sg ++ ip ++ fr ++ ex) = some x ∧ v = .flt x

/-- RFC 8259 section 6: `[ minus ] int [ frac ] [ exp ]`. -/
def Num (strtod : List Nat → Option F) (t : List Nat) (v : Value F) : Prop :=
  ∃ sg ip fr ex, t = sg ++ ip ++ fr ++ ex ∧ (sg = [] ∨ sg = [45]) ∧
    (ip = [48] ∨ ∃ d ds, ip = d :: ds ∧ Digit d ∧ d ≠ 48 ∧ ∀ c ∈ ds, Digit c) ∧
    (fr = [] ∨ ∃ ds, fr = 46 :: ds ∧ ds ≠ [] ∧ ∀ c ∈ ds, Digit c) ∧
    (ex = [] ∨ ∃ e s ds, ex = e :: (s ++ ds) ∧ (e = 101 ∨ e = 69) ∧ (s = [] ∨ s = [43] ∨ s = [45]) ∧ ds ≠ [] ∧ ∀ c ∈ ds, Digit c) ∧
    NumVal strtod sg ip fr ex v

/-- The number texts the parser takes: any of the digit sequences may be empty, the integer part may have leading zeros. -/
def LaxNum (strtod : List Nat → Option F) (t : List Nat) (v : Value F) : Prop :=
  ∃ sg ip fr ex, t = sg ++ ip ++ fr ++ ex ∧ (sg = [45] ∨ sg = [] ∧ ip ≠ []) ∧ (∀ c ∈ ip, Digit c) ∧
    (fr = [] ∨ ∃ ds, fr = 46 :: ds ∧ ∀ c ∈ ds, Digit c) ∧
    (ex = [] ∨ ∃ e s ds, ex = e :: (s ++ ds) ∧ (e = 101 ∨ e = 69) ∧ (s = [] ∨ s = [43] ∨ s = [45]) ∧ ∀ c ∈ ds, Digit c) ∧
    NumVal strtod sg ip fr ex v

/-- White space, RFC 8259 section 2: space, tab, line feed, carriage return. -/
def Ws (c : Nat) : Prop := c = 32 ∨ c = 9 ∨ c = 10 ∨ c = 13

/-- White space of the parser: vertical tab and form feed too. -/
def LaxWs (c : Nat) : Prop := c = 32 ∨ (9 ≤ c ∧ c ≤ 13)

/-- What a text stands for: a value, the elements of an array or the members of an object. -/
inductive Item (F : Type) where
  | val (v : Value F)
  | elems (vs : List (Value F))
  | mems (ms : List (Str × Value F))

/-- The grammar of RFC 8259 sections 2 to 7, over a given notion of white space and of number. Members are listed as they come, so a
key can occur more than once. -/
inductive G (ws : Nat → Prop) (num : List Nat → Value F → Prop) : Item F → List Nat → Prop where
  | null : G ws num (.val .null) [110, 117, 108, 108]
  | tru : G ws num (.val (.bool true)) [116, 114, 117, 101]
  | fls : G ws num (.val (.bool false)) [102, 97, 108, 115, 101]
  | num (v t) : num t v → G ws num (.val v) t
  | str (s t) : StrBody t s → G ws num (.val (.str s)) (34 :: (t ++ [34]))
  | arr0 (w) : (∀ c ∈ w, ws c) → G ws num (.val (.arr [])) (91 :: (w ++ [93]))
  | arr (vs e) : G ws num (.elems vs) e → G ws num (.val (.arr vs)) (91 :: (e ++ [93]))
  | obj0 (w) : (∀ c ∈ w, ws c) → G ws num (.val (.obj [])) (123 :: (w ++ [125]))
  | obj (ms e) : G ws num (.mems ms) e → G ws num (.val (.obj ms)) (123 :: (e ++ [125]))
  | elem1 (v t w w') : (∀ c ∈ w, ws c) → (∀ c ∈ w', ws c) → G ws num (.val v) t → G ws num (.elems [v]) (w ++ (t ++ w'))
  | elemS (v t w w' vs e) : (∀ c ∈ w, ws c) → (∀ c ∈ w', ws c) → G ws num (.val v) t → G ws num (.elems vs) e →
      G ws num (.elems (v :: vs)) (w ++ (t ++ (w' ++ 44 :: e)))
  | mem1 (k s v t w w1 w2 w') : (∀ c ∈ w, ws c) → (∀ c ∈ w1, ws c) → (∀ c ∈ w2, ws c) → (∀ c ∈ w', ws c) → StrBody s k →
      G ws num (.val v) t → G ws num (.mems [(k, v)]) (w ++ 34 :: (s ++ 34 :: (w1 ++ 58 :: (w2 ++ (t ++ w')))))
  | memS (k s v t w w1 w2 w' ms e) : (∀ c ∈ w, ws c) → (∀ c ∈ w1, ws c) → (∀ c ∈ w2, ws c) → (∀ c ∈ w', ws c) → StrBody s k →
      G ws num (.val v) t → G ws num (.mems ms) e →
      G ws num (.mems ((k, v) :: ms)) (w ++ 34 :: (s ++ 34 :: (w1 ++ 58 :: (w2 ++ (t ++ (w' ++ 44 :: e))))))

/-- `t` is a JSON text (without surrounding white space) for `v`, RFC 8259. -/
def Text (strtod : List Nat → Option F) (v : Value F) (t : List Nat) : Prop := G Ws (Num strtod) (.val v) t

/-- The same with the parser's own white space and numbers. -/
def LaxText (strtod : List Nat → Option F) (v : Value F) (t : List Nat) : Prop := G LaxWs (LaxNum strtod) (.val v) t

mutual
/-- The callbacks for a value, in document order. -/
def events : Value F → List (Event F)
  | .null => [.null]
  | .int n => [.int n]
  | .flt x => [.num x]
  | .bool b => [.bool b]
  | .str s => [.str s]
  | .arr vs => .startArr :: (eventsL vs ++ [.endArr])
  | .obj ms => .startObj :: (eventsM ms ++ [.endObj])
/-- The same for elements. -/
def eventsL : List (Value F) → List (Event F)
  | [] => []
  | v :: vs => events v ++ eventsL vs
/-- The same for members. -/
def eventsM : List (Str × Value F) → List (Event F)
  | [] => []
  | (k, v) :: ms => .key k :: (events v ++ eventsM ms)
end

/-- Of several members with the same key the last one counts. -/
def collapse : List (Str × Value F) → List (Str × Value F)
  | [] => []
  | (k, v) :: ms => if k ∈ ms.map (·.1) then collapse ms else (k, v) :: collapse ms

mutual
/-- The value with one member per key in all its objects, the last one of the text. -/
def norm : Value F → Value F
  | .null => .null
  | .int n => .int n
  | .flt x => .flt x
  | .bool b => .bool b
  | .str s => .str s
  | .arr vs => .arr (normL vs)
  | .obj ms => .obj (collapse (normM ms))
/-- The same for elements. -/
def normL : List (Value F) → List (Value F)
  | [] => []
  | v :: vs => norm v :: normL vs
/-- The same for members. -/
def normM : List (Str × Value F) → List (Str × Value F)
  | [] => []
  | (k, v) :: ms => (k, norm v) :: normM ms
end

/-- The text ends in an exponent of one digit without sign, like `1e5`. -/
def ShortExp (t : List Nat) : Prop := ∃ p e d, t = p ++ [e, d] ∧ (e = 101 ∨ e = 69) ∧ Digit d

/-- The number text in front ends before `rest`: no character that could continue a number. -/
def Ends (rest : List Nat) : Prop := ∀ c, rest.head? = some c → ¬ Digit c ∧ c ≠ 46 ∧ c ≠ 101 ∧ c ≠ 69

/-- A string the printer can write: well-formed UTF-8 without U+0000. -/
def GoodStr (s : Str) : Prop := WellFormed (octets s) ∧ 0 ∉ s

mutual
/-- A value whose text can be read back: 64-bit integers, good strings, no key twice in an object, and floating point numbers whose
formatting is a number text with a fraction or an exponent that `strtod` reads back as the number. -/
def Printable (strtod : List Nat → Option F) (showF : F → Str) : Value F → Prop
  | .null => True
  | .int n => IsInt64 n
  | .flt x => ∃ t, showF x = bytes t ∧ Num strtod t (.flt x) ∧ ¬ ShortExp t
  | .bool _ => True
  | .str s => GoodStr s
  | .arr vs => PrintableL strtod showF vs
  | .obj ms => (ms.map (·.1)).Nodup ∧ PrintableM strtod showF ms
/-- The same for elements. -/
def PrintableL (strtod : List Nat → Option F) (showF : F → Str) : List (Value F) → Prop
  | [] => True
  | v :: vs => Printable strtod showF v ∧ PrintableL strtod showF vs
/-- The same for members. -/
def PrintableM (strtod : List Nat → Option F) (showF : F → Str) : List (Str × Value F) → Prop
  | [] => True
  | (k, v) :: ms => GoodStr k ∧ Printable strtod showF v ∧ PrintableM strtod showF ms
end

end Verif.Json.Spec
