import Verif.Decimal
/-!
# `lexical_cast`

`/repo/src/lang/cast.h`, for strings and for the integer types that are not characters. Streams are those of the C++11 library in the "C" locale,
as libstdc++ implements them: `>>` skips white space, takes a sign and then decimal digits as long as they come.
-/
namespace Verif.Lexical

abbrev Str := List UInt8

/-- An integer type of the language. -/
structure IntType where
  signed : Bool
  bits : Nat
deriving DecidableEq

/-- The least value. -/
def IntType.lo (t : IntType) : Int := if t.signed then -(2 ^ (t.bits - 1) : Nat) else 0

/-- The greatest value. -/
def IntType.hi (t : IntType) : Int := if t.signed then (2 ^ (t.bits - 1) : Nat) - 1 else (2 ^ t.bits : Nat) - 1

/-- `int`. -/
def int32 : IntType := ⟨true, 32⟩

/-- `int64_t`. -/
def int64 : IntType := ⟨true, 64⟩

/-- `isspace`. -/
def isspace (c : UInt8) : Bool := c == 32 || (9 ≤ c && c ≤ 13)

/-- `ostream << n`, as used at `/repo/src/lang/cast.h:51,71`. -/
def put (n : Int) : Str := if n < 0 then 45 :: Decimal.digits n.natAbs else Decimal.digits n.natAbs

/-- What `istream >> n` leaves behind: the value assigned (none if the variable keeps its old one), whether the stream is still good, and the
rest of the characters. -/
structure Got where
  val : Option Int
  ok : Bool
  rest : Str
deriving DecidableEq

/-- The value of a sign and digits: that number, if the type has it; for an unsigned type a minus means the negative modulo the size of the type;
else the nearest value and failure. -/
def clamp (t : IntType) (neg : Bool) (n : Nat) : Int × Bool :=
  if t.signed then
    let v : Int := if neg then -(n : Int) else n
    if v < t.lo then (t.lo, false) else if t.hi < v then (t.hi, false) else (v, true)
  else if t.hi < n then (t.hi, false)
  else (if neg then (-(n : Int)) % (2 ^ t.bits : Nat) else n, true)

/-- `istream >> n`, as used at `/repo/src/lang/cast.h:51,82`. -/
def get (t : IntType) (s : Str) : Got :=
  let s := s.dropWhile isspace
  if s = [] then ⟨none, false, []⟩
  else
    let neg := s.head? = some 45
    let s := if s.head? = some 45 ∨ s.head? = some 43 then s.tail else s
    let ds := s.takeWhile Decimal.isDigit
    let r := s.dropWhile Decimal.isDigit
    if ds = [] then ⟨some 0, false, r⟩
    else
      let c := clamp t neg (Decimal.value ds)
      ⟨some c.1, c.2, r⟩

/-- `istream >> s` for a string, as used at `/repo/src/lang/cast.h:51,82`: the next word; none if there is none. -/
def getWord (s : Str) : Option Str × Str :=
  let s := s.dropWhile isspace
  if s = [] then (none, []) else (some (s.takeWhile fun c => !isspace c), s.dropWhile fun c => !isspace c)

/-- `lexical_cast<T>(s)` for a string `s`, `/repo/src/lang/cast.h:76-86`: `none` is `bad_cast`. -/
def intOfString (t : IntType) (s : Str) : Option Int := if (get t s).ok then (get t s).val else none

/-- `lexical_cast<string>(n)`, `/repo/src/lang/cast.h:66-74`. -/
def stringOfInt (n : Int) : Str := put n

/-- `lexical_cast<T>(n)` for integer types `T` and `S`, `/repo/src/lang/cast.h:45-64`: for the same type the number itself, else by way of the
text. -/
def intOfInt (t s : IntType) (n : Int) : Option Int := if t = s then some n else intOfString t (put n)

end Verif.Lexical
