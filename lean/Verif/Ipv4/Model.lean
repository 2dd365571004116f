/-! Model of `ipv4_address`, `/repo/src/network/ipv4.h` and `/repo/src/network/ipv4.cpp`. -/

namespace Verif.Ipv4

/-- Byte strings. -/
abbrev Str := List UInt8

/-- `ipv4_address`: `unsigned char ip[4]`, `/repo/src/network/ipv4.h:95`. -/
structure Addr where
  a : UInt8
  b : UInt8
  c : UInt8
  d : UInt8
deriving DecidableEq, Repr

/-- `ipv4_address::none`, `/repo/src/network/ipv4.cpp:42`. -/
def noneAddr : Addr := ⟨255, 255, 255, 255⟩

/-- The decimal digits of a number, as `%d` prints them. -/
def digits (n : Nat) : Str := if n < 10 then [UInt8.ofNat (48 + n)] else digits (n / 10) ++ [UInt8.ofNat (48 + n % 10)]

/-- `to_string`, `/repo/src/network/ipv4.h:83-87`; `none` is a write outside the buffer of 16 bytes. -/
def toStr (x : Addr) : Option Str :=
  let t := digits x.a.toNat ++ [46] ++ digits x.b.toNat ++ [46] ++ digits x.c.toNat ++ [46] ++ digits x.d.toNat
  if t.length + 1 ≤ 16 then some t else none

/-- `isspace` in the "C" locale, as used by `sscanf`. -/
def isSpace (c : UInt8) : Bool := c = 32 || (9 ≤ c && c ≤ 13)

/-- `isdigit`. -/
def isDigit (c : UInt8) : Bool := 48 ≤ c && c ≤ 57

/-- The number that digits stand for. -/
def value (ds : Str) : Nat := ds.foldl (fun n d => 10 * n + (d.toNat - 48)) 0

/-- The optional sign that `%d` reads: is it a minus, and what follows. -/
def sign : Str → Bool × Str
  | [] => (false, [])
  | c :: s => if c = 45 then (true, s) else if c = 43 then (false, s) else (false, c :: s)

/-- The conversion `%d` of `sscanf`: white space, a sign, digits; `none` is a matching failure. -/
def scanInt (s : Str) : Option (Int × Str) :=
  let p := sign (s.dropWhile isSpace)
  let ds := p.2.takeWhile isDigit
  if ds = [] then none
  else some (if p.1 then - (value ds : Int) else value ds, p.2.dropWhile isDigit)

/-- `sscanf` with `n + 1` conversions `%d` separated by dots: the numbers stored, `/repo/src/network/ipv4.h:60`. -/
def scanFields : Nat → Str → List Int
  | 0, s => match scanInt s with
    | none => []
    | some (v, _) => [v]
  | n + 1, s => match scanInt s with
    | none => []
    | some (v, r) => if r.head? = some 46 then v :: scanFields n r.tail else [v]

/-- The constructor from a string, `/repo/src/network/ipv4.h:58-71`; `none`: a number does not fit in an `int`, for which `sscanf` has
undefined behaviour. -/
def ofStr (s : Str) : Option Addr :=
  let vs := scanFields 3 s
  if vs.any (fun v => v < - 2 ^ 31 || 2 ^ 31 ≤ v) then none
  else match vs with
    | [v0, v1, v2, v3] =>
      if [v0, v1, v2, v3].any (fun v => v < 0 || v > 255) then some noneAddr
      else some ⟨UInt8.ofNat v0.toNat, UInt8.ofNat v1.toNat, UInt8.ofNat v2.toNat, UInt8.ofNat v3.toNat⟩
    | _ => some noneAddr

/-- `operator==`, `/repo/src/network/ipv4.h:73-75`. -/
def eq (x y : Addr) : Bool := x.a == y.a && x.b == y.b && x.c == y.c && x.d == y.d

/-- `std::lexicographical_compare` on ranges of bytes. -/
def lexLt : Str → Str → Bool
  | _, [] => false
  | [], _ :: _ => true
  | x :: xs, y :: ys => if x < y then true else if y < x then false else lexLt xs ys

/-- `operator<`, `/repo/src/network/ipv4.h:79-81`. -/
def lt (x y : Addr) : Bool := lexLt [x.a, x.b, x.c, x.d] [y.a, y.b, y.c, y.d]

end Verif.Ipv4
