/-!
# Model of `pfi::math::ratio::ratio<T>`

Source: `/repo/src/math/ratio.h`.

`T` is an integer type. Its values are integers in a range; a computation that
leaves the range, or divides by zero, is undefined behaviour (`none`). The
unqualified `abs` is a parameter of the type, because which function it is
depends on `T` and the headers included.
-/
namespace Verif.Ratio

/-- The integer type `T`: its range and the `abs` that
`/repo/src/math/ratio.h:62` calls for it. -/
structure IntTy where
  ok : Int → Bool
  abs : Int → Int

/-- A computation in `T`. -/
def IntTy.chk (T : IntTy) (x : Int) : Option Int := if T.ok x then some x else none

/-- `x / y` of C++: truncates; undefined for `y = 0`. -/
def IntTy.div (T : IntTy) (x y : Int) : Option Int := if y = 0 then none else T.chk (x.tdiv y)

/-- `x % y` of C++. -/
def IntTy.mod (T : IntTy) (x y : Int) : Option Int := if y = 0 then none else T.chk (x.tmod y)

/-- `ratio<T>` (`/repo/src/math/ratio.h:60`). -/
structure R where
  num : Int
  den : Int
deriving Repr, DecidableEq

/-- The loop of `gcd` (`/repo/src/math/ratio.h:63-68`). -/
def gcdLoop (T : IntTy) : Nat → Int → Int → Option Int
  | 0, _, _ => none
  | fuel + 1, a, b => do
    let a ← T.mod a b
    if a = 0 then return b
    let b ← T.mod b a
    if b = 0 then return a
    gcdLoop T fuel a b

/-- `gcd` (`/repo/src/math/ratio.h:61-69`). The second argument shrinks in each
round, so its absolute value bounds the number of rounds. -/
def gcd (T : IntTy) (a b : Int) : Option Int := do
  let a ← T.chk (T.abs a)
  let b ← T.chk (T.abs b)
  gcdLoop T (b.natAbs + 1) a b

/-- `reduce` (`/repo/src/math/ratio.h:73-78`). -/
def reduce (T : IntTy) (r : R) : Option R := do
  let g ← gcd T r.num r.den
  let g ← T.chk (g * (if r.den > 0 then 1 else -1))
  let n ← T.div r.num g
  let d ← T.div r.den g
  return ⟨n, d⟩

/-- `ratio(num0, den0)` (`/repo/src/math/ratio.h:49-54`). -/
def mk2 (T : IntTy) (num den : Int) : Option R :=
  if den < 0 then do
    let d ← T.chk (den * -1)
    let n ← T.chk (num * -1)
    reduce T ⟨n, d⟩
  else reduce T ⟨num, den⟩

/-- `ratio(a)` (`/repo/src/math/ratio.h:48`); `ratio()` (`:47`) is `mk1 0`. -/
def mk1 (a : Int) : R := ⟨a, 1⟩

/-- `operator+=` and `operator+` (`/repo/src/math/ratio.h:91-97`, `:128-131`). -/
def add (T : IntTy) (a b : R) : Option R := do
  let g ← gcd T a.den b.den
  let p ← T.div b.den g
  let x ← T.chk (a.num * p)
  let q ← T.div a.den g
  let y ← T.chk (b.num * q)
  let n ← T.chk (x + y)
  let d ← T.chk (a.den * p)
  reduce T ⟨n, d⟩

/-- `operator-=` and `operator-` (`/repo/src/math/ratio.h:99-105`, `:132-135`). -/
def sub (T : IntTy) (a b : R) : Option R := do
  let g ← gcd T a.den b.den
  let p ← T.div b.den g
  let x ← T.chk (a.num * p)
  let q ← T.div a.den g
  let y ← T.chk (b.num * q)
  let n ← T.chk (x - y)
  let d ← T.chk (a.den * p)
  reduce T ⟨n, d⟩

/-- `operator*=` and `operator*` (`/repo/src/math/ratio.h:107-114`, `:136-139`). -/
def mul (T : IntTy) (a b : R) : Option R := do
  let g1 ← gcd T a.num b.den
  let g2 ← gcd T b.num a.den
  let x ← T.div a.num g1
  let y ← T.div b.num g2
  let n ← T.chk (x * y)
  let u ← T.div a.den g2
  let v ← T.div b.den g1
  let d ← T.chk (u * v)
  return ⟨n, d⟩

/-- `operator/=`, for operands that are different variables (see `Assign.lean`), and `operator/` (`/repo/src/math/ratio.h:116-126`, `:140-143`). -/
def div (T : IntTy) (a b : R) : Option R := do
  let g1 ← gcd T a.num b.num
  let g2 ← gcd T a.den b.den
  let x ← T.div a.num g1
  let y ← T.div b.den g2
  let n ← T.chk (x * y)
  let u ← T.div a.den g2
  let v ← T.div b.num g1
  let d ← T.chk (u * v)
  if d < 0 then do
    let n ← T.chk (n * -1)
    let d ← T.chk (d * -1)
    return ⟨n, d⟩
  else return ⟨n, d⟩

/-- `operator==` (`/repo/src/math/ratio.h:145-148`). -/
def eq (a b : R) : Bool := a.num == b.num && a.den == b.den

end Verif.Ratio
