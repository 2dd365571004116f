/-!
# Model of `pfi::math::random::mersenne_twister`

Source: `/repo/src/math/random/mersenne_twister.{h,cpp}`.

The state array is a list; an access outside it is the outcome `none`.
-/
namespace Verif.Mt

/-- `N` (`/repo/src/math/random/mersenne_twister.h:52`). -/
def N : Nat := 624
/-- `M` (`/repo/src/math/random/mersenne_twister.h:53`). -/
def M : Nat := 397
/-- `MATRIX_A` (`/repo/src/math/random/mersenne_twister.h:54`). -/
def matrixA : UInt32 := 0x9908b0df
/-- `UPPER_MASK` (`/repo/src/math/random/mersenne_twister.h:55`). -/
def upperMask : UInt32 := 0x80000000
/-- `LOWER_MASK` (`/repo/src/math/random/mersenne_twister.h:56`). -/
def lowerMask : UInt32 := 0x7fffffff

/-- The object (`/repo/src/math/random/mersenne_twister.h:58-59`). -/
structure St where
  mt : List UInt32
  mti : Nat
deriving Repr, DecidableEq

/-- `mt[i] = x`. -/
def put (mt : List UInt32) (i : Nat) (x : UInt32) : Option (List UInt32) :=
  if i < mt.length then some (mt.set i x) else none

/-- The loop of `init` (`/repo/src/math/random/mersenne_twister.cpp:61-70`),
from index `i`, with `n` rounds to go. The product is computed in `unsigned
long` and cut to 32 bits, which is multiplication modulo `2^32`. -/
def initLoop : Nat → Nat → List UInt32 → Option (List UInt32)
  | 0, _, mt => some mt
  | n + 1, i, mt => do
    let p ← mt[i - 1]?
    let mt ← put mt i ((1812433253 : UInt32) * (p ^^^ (p >>> 30)) + UInt32.ofNat i)
    initLoop n (i + 1) mt

/-- The constructor (`/repo/src/math/random/mersenne_twister.cpp:42-46`,
`:57-71`). The array starts with indeterminate contents `junk`. -/
def new (junk : List UInt32) (seed : UInt32) : Option St := do
  let mt ← put junk 0 seed
  let mt ← initLoop (N - 1) 1 mt
  return ⟨mt, N⟩

/-- `mag01[y & 1]` (`/repo/src/math/random/mersenne_twister.cpp:78`). -/
def mag01 (y : UInt32) : Option UInt32 := [0, matrixA][(y &&& 1).toNat]?

/-- `y = (mt[i]&UPPER_MASK)|(mt[j]&LOWER_MASK);
mt[i] = mt[k] ^ (y >> 1) ^ mag01[y & 0x1UL];`
(`/repo/src/math/random/mersenne_twister.cpp:85-86`, `:89-90`, `:92-93`). -/
def twist (mt : List UInt32) (i j k : Nat) : Option (List UInt32) := do
  let a ← mt[i]?
  let b ← mt[j]?
  let y := (a &&& upperMask) ||| (b &&& lowerMask)
  let c ← mt[k]?
  let m ← mag01 y
  put mt i (c ^^^ (y >>> 1) ^^^ m)

/-- The loop at `/repo/src/math/random/mersenne_twister.cpp:84-87`, with `n`
rounds to go. -/
def loop1 : Nat → Nat → List UInt32 → Option (List UInt32)
  | 0, _, mt => some mt
  | n + 1, kk, mt => do
    let mt ← twist mt kk (kk + 1) (kk + M)
    loop1 n (kk + 1) mt

/-- The loop at `/repo/src/math/random/mersenne_twister.cpp:88-91`. -/
def loop2 : Nat → Nat → List UInt32 → Option (List UInt32)
  | 0, _, mt => some mt
  | n + 1, kk, mt => do
    let mt ← twist mt kk (kk + 1) (kk + M - N)
    loop2 n (kk + 1) mt

/-- Generation of `N` words at one time
(`/repo/src/math/random/mersenne_twister.cpp:82-93`). -/
def refill (mt : List UInt32) : Option (List UInt32) := do
  let mt ← loop1 (N - M) 0 mt
  let mt ← loop2 (M - 1) (N - M) mt
  twist mt (N - 1) 0 (M - 1)

/-- Tempering (`/repo/src/math/random/mersenne_twister.cpp:101-104`). -/
def temper (y : UInt32) : UInt32 :=
  let y := y ^^^ (y >>> 11)
  let y := y ^^^ ((y <<< 7) &&& 0x9d2c5680)
  let y := y ^^^ ((y <<< 15) &&& 0xefc60000)
  y ^^^ (y >>> 18)

/-- `genrand_int32` and `next`
(`/repo/src/math/random/mersenne_twister.cpp:73-107`, `:52-55`). -/
def next (s : St) : Option (UInt32 × St) := do
  let s ← if s.mti ≥ N then (refill s.mt).map fun mt => (⟨mt, 0⟩ : St) else some s
  let y ← s.mt[s.mti]?
  return (temper y, { s with mti := s.mti + 1 })

/-- The first `n` outputs. -/
def stream : Nat → St → Option (List UInt32)
  | 0, _ => some []
  | n + 1, s => do
    let (x, s) ← next s
    let xs ← stream n s
    return x :: xs

end Verif.Mt
