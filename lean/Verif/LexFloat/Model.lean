import Verif.FloatText.Model
import Verif.Lexical.Model
/-!
# `lexical_cast` of floating point numbers

`/repo/src/lang/cast.h`, for `float` and `double` and strings and integers. Streams are those of the C++11 library in the "C" locale with the
default format, as libstdc++ implements them (`std::num_get::_M_extract_float`, `std::__convert_to_v`): 6 digits are written; what looks like a
number is collected character by character, and then `strtof` or `strtod` must accept all of it. The sign of zero and the sign of a NaN are left
out.
-/
namespace Verif.LexFloat
open Verif.Double Verif.FloatText Verif.Lexical

/-- One more character. -/
def push (c : Nat) (r : List Nat × List Nat) : List Nat × List Nat := (c :: r.1, r.2)

/-- The loop of `istream >> x`, as used at `/repo/src/lang/cast.h:51,82`: what is collected, and the rest. `man`: there was a digit; `dot`: there was
a point; `sci`: there was an `e`; `fresh`: it was the last character. -/
def loop (man dot sci fresh : Bool) : List Nat → List Nat × List Nat
  | [] => ([], [])
  | c :: r =>
    if fresh = true ∧ (c = 43 ∨ c = 45) then push c (loop man dot sci false r)
    else if isDig c then push c (loop true dot sci false r)
    else if c = 46 ∧ dot = false ∧ sci = false then push 46 (loop man true sci false r)
    else if (c = 101 ∨ c = 69) ∧ sci = false ∧ man = true then push 101 (loop man dot true true r)
    else ([], c :: r)

/-- A sign in front, and the rest. -/
def sign : List Nat → List Nat × List Nat
  | 45 :: r => ([45], r)
  | 43 :: r => ([43], r)
  | r => ([], r)

/-- What `istream >> x` collects after the sign, as used at `/repo/src/lang/cast.h:51,82`: of leading zeros one only. -/
def collect (s : List Nat) : List Nat × List Nat :=
  if s.takeWhile (· == 48) = [] then loop false false false false s
  else push 48 (loop true false false false (s.dropWhile (· == 48)))

/-- What `strtod` leaves of an exponent: all of it, if it has no digits. -/
def expRest : List Nat → List Nat
  | [] => []
  | c :: r =>
    if (c = 101 ∨ c = 69) ∧ ((sign r).2.takeWhile isDig) ≠ [] then (sign r).2.dropWhile isDig
    else c :: r

/-- What `strtod` leaves of a text without sign; `none` if it has no number in front. Called through `>>` at `/repo/src/lang/cast.h:51,82`. -/
def numRest (t : List Nat) : Option (List Nat) :=
  if t.takeWhile isDig ++ (fracSplit (t.dropWhile isDig)).1 = [] then none
  else some (expRest (fracSplit (t.dropWhile isDig)).2)

/-- `istream >> x` for a `float` or a `double`, as used at `/repo/src/lang/cast.h:51,82`: `none` if the stream is bad then. A number that is too large
makes it bad, one that is too small does not. -/
def get (F : Fmt) (s : Str) : Option Rat :=
  let s := (s.dropWhile isspace).map UInt8.toNat
  let t := (collect (sign s).2).1
  if numRest t ≠ some [] then none
  else
    let r := rnd F (if (sign s).1 = [45] then -textAbs t else textAbs t)
    if (2 : Rat) ^ F.emax ≤ mag r then none else some r

/-- `lexical_cast<T>(s)` for a string `s` and a floating point type `T`, `/repo/src/lang/cast.h:76-86`: `none` is `bad_cast`. The same for a C string,
`/repo/src/lang/cast.h:45-56`. -/
def floatOfString (F : Fmt) (s : Str) : Option Rat := get F s

/-- `ostream << x`, as used at `/repo/src/lang/cast.h:51,71`. -/
def put : D → Str
  | .fin x => (fmtG 6 x).map UInt8.ofNat
  | .inf false => [105, 110, 102]
  | .inf true => [45, 105, 110, 102]
  | .nan => [110, 97, 110]

/-- `lexical_cast<string>(x)`, `/repo/src/lang/cast.h:66-74`. -/
def stringOfFloat (x : D) : Str := put x

/-- `lexical_cast<T>(x)` for floating point types, `/repo/src/lang/cast.h:45-64`: for the same type the number itself, else by way of the text. -/
def floatOfFloat (T S : Fmt) (x : D) : Option D := if T = S then some x else (get T (put x)).map .fin

/-- `lexical_cast<T>(n)` for an integer `n`, `/repo/src/lang/cast.h:45-56`. -/
def floatOfInt (F : Fmt) (n : Int) : Option Rat := get F (Lexical.put n)

/-- `lexical_cast<T>(x)` for an integer type `T`, `/repo/src/lang/cast.h:45-56`. -/
def intOfFloat (t : IntType) (x : D) : Option Int := intOfString t (put x)

end Verif.LexFloat
