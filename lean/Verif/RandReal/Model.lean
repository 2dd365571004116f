import Verif.Double.Model
import Verif.Clock.Model
/-!
# Random real numbers

Model of the part of `/repo/src/math/random.h` that yields `double` values:
`next_double`, `next_gaussian` and the seed from the clock. The generator
`Gen` is a parameter, as in the code: `next` draws a 32-bit number. `log`,
`sqrt`, `sin`, `cos` and `pi` (`/repo/src/math/constant.h:40`) are parameters
too. `double` is that of `Verif.Double`.
-/
namespace Verif.RandReal
open Verif.Double

/-- A literal, or an integer converted to `double`. -/
def num (x : Rat) : D := ofRat F64 x

/-- The arithmetic of `next_double()` on the two numbers drawn,
`/repo/src/math/random.h:84-86`. -/
def real53 (u v : UInt32) : D :=
  let a := u >>> 5
  let b := v >>> 6
  mul F64 (add F64 (mul F64 (num a.toNat) (num 67108864)) (num b.toNat)) (num (1 / 9007199254740992))

/-- A `random<Gen>`: the generator, the flag and the value kept by
`next_gaussian`; `none` is the value no constructor sets,
`/repo/src/math/random.h:137-138`. -/
structure Rand (G : Type) where
  g : G
  stocked : Bool
  stock : Option D

/-- The constructors, `/repo/src/math/random.h:51-54,60-63`. -/
def new {G : Type} (g : G) : Rand G := ⟨g, false, none⟩

/-- `feeder`, `/repo/src/math/random.h:56-58`. -/
def feeder (ct : Clock.T) : UInt32 := ct.sec.toUInt32 * 1000000 + UInt32.ofInt ct.usec

/-- `next_double()`, `/repo/src/math/random.h:83-87`. -/
def nextDouble {G : Type} (next : G → UInt32 × G) (r : Rand G) : D × Rand G :=
  let (u, g) := next r.g
  let (v, g) := next g
  (real53 u v, { r with g := g })

/-- `next_double(a)`, `/repo/src/math/random.h:90-92`. -/
def nextDoubleTo {G : Type} (next : G → UInt32 × G) (a : D) (r : Rand G) : D × Rand G :=
  let (x, r) := nextDouble next r
  (mul F64 a x, r)

/-- `next_double(a, b)`, `/repo/src/math/random.h:95-97`. -/
def nextDoubleIn {G : Type} (next : G → UInt32 × G) (a b : D) (r : Rand G) : D × Rand G :=
  let (x, r) := nextDoubleTo next (sub F64 b a) r
  (add F64 a x, r)

/-- `next_int(a)`, `/repo/src/math/random.h:73-75`: `none` where the conversion is undefined. -/
def nextInt {G : Type} (next : G → UInt32 × G) (a : UInt32) (r : Rand G) : Option Int × Rand G :=
  let (x, r) := nextDouble next r
  (toUInt 32 (mul F64 x (num a.toNat)), r)

/-- The functions of `<cmath>`, and `pi`, `/repo/src/math/constant.h:40`. -/
structure Lib where
  log : D → D
  sqrt : D → D
  sin : D → D
  cos : D → D
  pi : D

/-- `next_gaussian()`, `/repo/src/math/random.h:100-113`: `none` is a value
that was never set. -/
def nextGaussian {G : Type} (lib : Lib) (next : G → UInt32 × G) (r : Rand G) : Option D × Rand G :=
  if r.stocked then (r.stock, { r with stocked := false })
  else
    let (x, r) := nextDouble next r
    let a := sub F64 (num 1) x
    let (y, r) := nextDouble next r
    let b := sub F64 (num 1) y
    let s := lib.sqrt (mul F64 (num (-2)) (lib.log a))
    let t := mul F64 (mul F64 (num 2) lib.pi) b
    let r1 := mul F64 s (lib.sin t)
    let r2 := mul F64 s (lib.cos t)
    (some r1, { r with stock := some r2, stocked := true })

/-- `next_gaussian(mean, deviation)`, `/repo/src/math/random.h:116-118`. -/
def nextGaussianAt {G : Type} (lib : Lib) (next : G → UInt32 × G) (mean deviation : D) (r : Rand G) : Option D × Rand G :=
  let (x, r) := nextGaussian lib next r
  (x.map (fun x => add F64 mean (mul F64 deviation x)), r)

end Verif.RandReal
