import Verif.Double.Model
import Verif.Json.Model
/-!
# Floating point numbers as text

What the library leaves to the C++ library when a `double` is written to a
stream or read from a text: `operator<<` with a precision (`%.<P>g`) and
`strtod`. The JSON printer and parser use them with 12 digits. The number is
the rational number a finite `double` stands for; infinities and NaN do not
get here (`/repo/src/text/json/base.h:249-253` throws). Left out: the sign of
zero, locales other than `"C"` and stream flags other than the default ones.
-/
namespace Verif.FloatText
open Verif.Double

/-- The last `w` decimal digits of a number, as characters. Not code of
`/repo`: part of `operator<<`, used in `/repo/src/text/json/base.h:264-265`. -/
def digitsW : Nat → Nat → List Nat
  | 0, _ => []
  | w + 1, n => (48 + n / 10 ^ w % 10) :: digitsW w n

/-- The number of decimal digits of a number (part of `operator<<`, `/repo/src/text/json/base.h:264-265`). -/
def dlen (n : Nat) : Nat := if n < 10 then 1 else dlen (n / 10) + 1

/-- The whole part of the decimal logarithm of a positive number (part of
`operator<<`, `/repo/src/text/json/base.h:264-265`). -/
def tenExpo (a : Rat) : Int :=
  let e := (dlen a.num.natAbs : Int) - (dlen a.den : Int)
  if (10 : Rat) ^ e ≤ a then e else e - 1

/-- A positive number rounded to `P` digits: the digits as a whole number, and
the exponent of the first one (part of `operator<<`,
`/repo/src/text/json/base.h:264-265`; C17 7.21.6.1, `e` and `g`). -/
def sci (P : Nat) (a : Rat) : Nat × Int :=
  let X := tenExpo a
  let m := (halfEven (a / (10 : Rat) ^ (X - ((P : Int) - 1)))).toNat
  if m = 10 ^ P then (10 ^ (P - 1), X + 1) else (m, X)

/-- Without the zeros at the end (part of `operator<<`, `/repo/src/text/json/base.h:264-265`). -/
def strip (ds : List Nat) : List Nat := (ds.reverse.dropWhile (· == 48)).reverse

/-- Whole part and fraction with the point, if there is a fraction (part of
`operator<<`, `/repo/src/text/json/base.h:264-265`). -/
def point (ip fr : List Nat) : List Nat := if fr = [] then ip else ip ++ 46 :: fr

/-- The exponent: a sign and at least two digits (part of `operator<<`,
`/repo/src/text/json/base.h:264-265`). -/
def expText (X : Int) : List Nat :=
  101 :: (if X < 0 then 45 else 43) :: (if X.natAbs < 100 then digitsW 2 X.natAbs else digitsW (dlen X.natAbs) X.natAbs)

/-- `%.<P>g` of a positive number or zero (part of `operator<<`,
`/repo/src/text/json/base.h:264-265`; C17 7.21.6.1, `g`). -/
def fmtAbs (P : Nat) (a : Rat) : List Nat :=
  if a = 0 then [48]
  else
    let (m, X) := sci P a
    let ds := digitsW P m
    if X < -4 ∨ (P : Int) ≤ X then point (ds.take 1) (strip (ds.drop 1)) ++ expText X
    else if 0 ≤ X then point (ds.take (X.toNat + 1)) (strip (ds.drop (X.toNat + 1)))
    else point [48] (strip (List.replicate (-X - 1).toNat 48 ++ ds))

/-- `os << std::setprecision(P) << x`, `/repo/src/text/json/base.h:264-265`. -/
def fmtG (P : Nat) (x : Rat) : List Nat := if x < 0 then 45 :: fmtAbs P (-x) else fmtAbs P x

/-- `json_float::print`: 12 digits, `/repo/src/text/json/base.h:261-271`. The
precision of the stream is the old one afterwards, so it does not show in the
texts that follow. -/
def showFloat (x : Rat) : List UInt8 := (fmtG 12 x).map UInt8.ofNat

/-- A decimal digit, as `strtod` sees it. -/
def isDig (c : Nat) : Bool := 48 ≤ c && c ≤ 57

/-- The value of an exponent `e`, sign, digits; 0 if there is none (part of
`strtod`, `/repo/src/text/json/parser.cpp:284`). -/
def expVal : List Nat → Int
  | c :: r =>
    if c = 101 ∨ c = 69 then
      match r with
      | 45 :: ds => -(Json.natOf (ds.takeWhile isDig) : Int)
      | 43 :: ds => Json.natOf (ds.takeWhile isDig)
      | ds => Json.natOf (ds.takeWhile isDig)
    else 0
  | [] => 0

/-- The digits after a point, and what follows (part of `strtod`,
`/repo/src/text/json/parser.cpp:284`). -/
def fracSplit : List Nat → List Nat × List Nat
  | 46 :: r => (r.takeWhile isDig, r.dropWhile isDig)
  | r => ([], r)

/-- The number a text without sign stands for (part of `strtod`,
`/repo/src/text/json/parser.cpp:284`). Texts the JSON parser does not pass on
(white space, hexadecimal, `inf`, `nan`) are left out. -/
def textAbs (t : List Nat) : Rat :=
  let ip := t.takeWhile isDig
  let (fr, r) := fracSplit (t.dropWhile isDig)
  (Json.natOf (ip ++ fr) : Rat) * (10 : Rat) ^ (expVal r - (fr.length : Int))

/-- The same with the sign. -/
def textVal : List Nat → Rat
  | 45 :: t => -textAbs t
  | t => textAbs t

/-- The nearest `double`, `none` for `ERANGE`: the number is too large, or it
is so small that digits were lost (part of `strtod`,
`/repo/src/text/json/parser.cpp:284-291`). Simplified: a number that is rounded up
to the smallest normal one counts as in range. -/
def toDouble (q : Rat) : Option Rat :=
  let r := rnd F64 q
  if (2 : Rat) ^ (1024 : Int) ≤ mag r then none
  else if mag r < (2 : Rat) ^ (-1022 : Int) ∧ r ≠ q then none
  else some r

/-- `strtod` with its check, `/repo/src/text/json/parser.cpp:283-291`. -/
def strtod (t : List Nat) : Option Rat := toDouble (textVal t)

end Verif.FloatText
