/-!
# Floating point numbers

The C++ types `double` and `float` of the platforms `/repo` is written for:
IEEE 754 binary64 and binary32, rounding to nearest, ties to even. A number is
a rational number, an infinity or a NaN; the sign of zero is left out, since
none of the code modelled here can see it. There is no code in `/repo` for
these definitions: they are what the compiler and the machine do for `+`, `-`,
`*`, `<`, `<=` and conversions.
-/
namespace Verif.Double

/-- A format: digits of the significand, the exponent of the smallest number
(`2^emin`), and the bound `2^emax` of all numbers. -/
structure Fmt where
  prec : Nat
  emin : Int
  emax : Int
deriving Repr, DecidableEq

/-- `double`. -/
def F64 : Fmt := ⟨53, -1074, 1024⟩

/-- `float`. -/
def F32 : Fmt := ⟨24, -149, 128⟩

/-- The nearest whole number, ties to even. -/
def halfEven (x : Rat) : Int :=
  let f := x.floor
  let d := x - f
  if d < 1 / 2 then f
  else if 1 / 2 < d then f + 1
  else if f % 2 = 0 then f else f + 1

/-- The absolute value. -/
def mag (x : Rat) : Rat := if x < 0 then -x else x

/-- The whole part of the binary logarithm of a positive number. -/
def expo (x : Rat) : Int :=
  let e := (x.num.natAbs.log2 : Int) - (x.den.log2 : Int)
  if (2 : Rat) ^ e ≤ x then e else e - 1

/-- The distance of neighbouring numbers of the format around `x`. -/
def ulp (F : Fmt) (x : Rat) : Rat := (2 : Rat) ^ (max (expo (mag x) - ((F.prec : Int) - 1)) F.emin)

/-- Rounding to the format, without a bound for large numbers. -/
def rnd (F : Fmt) (x : Rat) : Rat := if x = 0 then 0 else halfEven (x / ulp F x) * ulp F x

/-- A floating point number. -/
inductive D where
  | fin (x : Rat)
  | inf (neg : Bool)
  | nan
deriving Repr, DecidableEq

/-- Rounding: too large numbers become infinite. -/
def ofRat (F : Fmt) (x : Rat) : D :=
  let r := rnd F x
  if (2 : Rat) ^ F.emax ≤ r then .inf false
  else if r ≤ -(2 : Rat) ^ F.emax then .inf true
  else .fin r

/-- `-x`. -/
def neg : D → D
  | .fin x => .fin (-x)
  | .inf n => .inf !n
  | .nan => .nan

/-- `x + y`. -/
def add (F : Fmt) : D → D → D
  | .fin x, .fin y => ofRat F (x + y)
  | .nan, _ => .nan
  | _, .nan => .nan
  | .inf n, .fin _ => .inf n
  | .fin _, .inf n => .inf n
  | .inf m, .inf n => if m = n then .inf m else .nan

/-- `x - y`. -/
def sub (F : Fmt) (x y : D) : D := add F x (neg y)

/-- `x * y`. -/
def mul (F : Fmt) : D → D → D
  | .fin x, .fin y => ofRat F (x * y)
  | .nan, _ => .nan
  | _, .nan => .nan
  | .inf n, .fin y => if y = 0 then .nan else .inf (n != decide (y < 0))
  | .fin x, .inf n => if x = 0 then .nan else .inf (n != decide (x < 0))
  | .inf m, .inf n => .inf (m != n)

/-- `x < y`; never true of a NaN. -/
def lt : D → D → Bool
  | .fin x, .fin y => x < y
  | .nan, _ => false
  | _, .nan => false
  | .inf n, .fin _ => n
  | .fin _, .inf n => !n
  | .inf m, .inf n => m && !n

/-- `x <= y`; never true of a NaN. -/
def le : D → D → Bool
  | .fin x, .fin y => x ≤ y
  | .nan, _ => false
  | _, .nan => false
  | .inf n, .fin _ => n
  | .fin _, .inf n => !n
  | .inf m, .inf n => m || !n

/-- Rounding towards zero. -/
def trunc (x : Rat) : Int := if x < 0 then -(-x).floor else x.floor

/-- Conversion to a signed integer type of `bits` bits; undefined (`none`) for
numbers outside its range. -/
def toInt (bits : Nat) : D → Option Int
  | .fin x => if -2 ^ (bits - 1) ≤ trunc x ∧ trunc x < 2 ^ (bits - 1) then some (trunc x) else none
  | _ => none

/-- Conversion to an unsigned integer type of `bits` bits. -/
def toUInt (bits : Nat) : D → Option Int
  | .fin x => if 0 ≤ trunc x ∧ trunc x < 2 ^ bits then some (trunc x) else none
  | _ => none

end Verif.Double
