import Verif.AssocMap
/-!
# Model of `pfi::math::random`: bounded random integers and sampling

Source: `/repo/src/math/random.h`.

The raw generator (`g.next()`) is an input: every function takes the numbers
it draws as arguments. `double` arithmetic is IEEE 754 binary64, rounding to
nearest, ties to even; it is exact here except for one multiplication, see
`nextInt`. `std::map` is an association list; only look-ups and the loop at
the end of `sampleWithout`, whose order does not matter, use it.
The functions that yield `double`s are in `Verif.RandReal`.
-/
namespace Verif.Sampling

/-- Rounding of `m / 2^e` to a whole number, ties to even. -/
def roundShift (m e : Nat) : Nat :=
  let q := m / 2 ^ e
  let r := m % 2 ^ e
  if 2 * r < 2 ^ e then q
  else if 2 ^ e < 2 * r then q + 1
  else if q % 2 = 0 then q else q + 1

/-- Rounding of a whole number to the nearest `double`: 53 significant bits,
ties to even. `m` stays below `2^85` here, so the exponent range does not
matter. -/
def roundDouble (m : Nat) : Nat :=
  let e := (m.log2 + 1) - 53
  roundShift m e * 2 ^ e

/-- `next_double()` (`/repo/src/math/random.h:83-87`) from the two numbers
drawn, in units of `2^-53`. `a*67108864.0+b` is below `2^53` and the last
factor is a power of two, so every operation is exact. -/
def nextDouble (g1 g2 : UInt32) : Nat :=
  (g1 >>> 5).toNat * 67108864 + (g2 >>> 6).toNat

/-- `next_int(a)` (`/repo/src/math/random.h:73-75`): `next_double()*a` is
rounded, scaled by `2^-53` exactly, and truncated. A result of `2^32` or more
would be undefined behaviour. -/
def nextInt (g1 g2 : UInt32) (a : UInt32) : Option UInt32 :=
  let x := roundDouble (nextDouble g1 g2 * a.toNat) / 2 ^ 53
  if x < 2 ^ 32 then some (UInt32.ofNat x) else none

/-- `next_int(a, b)` (`/repo/src/math/random.h:78-80`). -/
def nextIntRange (g1 g2 : UInt32) (a b : UInt32) : Option UInt32 :=
  (nextInt g1 g2 (b - a)).map (a + ·)

/-- `sample_with_replacement` (`/repo/src/math/random.h:144-150`). `draw i` is
the number the `i`-th call of `r(n)` returns. `none` is `return false`. -/
def sampleWith (draw : Nat → Nat) (n k : Int) : Option (List Nat) :=
  if n ≤ 0 ∨ k < 0 then none
  else some ((List.range k.toNat).map draw)

/-- `map[pos]`; inserts 0 when the key is missing. -/
def at' (mm : List (Nat × Nat)) (k : Nat) : Nat × List (Nat × Nat) :=
  match AssocMap.find mm k with
  | some x => (x, mm)
  | none => (0, AssocMap.upsert mm k 0)

/-- The body of the loop at `/repo/src/math/random.h:158-164`. -/
def swapStep (mm : List (Nat × Nat)) (i j : Nat) : List (Nat × Nat) :=
  let mm := if (AssocMap.find mm j).isSome then mm else AssocMap.upsert mm j j
  let (t, mm) := at' mm i
  let (x, mm) := at' mm j
  let mm := AssocMap.upsert mm i x
  AssocMap.upsert mm j t

/-- The loop at `/repo/src/math/random.h:158-164`, from index `i`, with the
numbers drawn by its `r(n-i)`. -/
def swapLoop (mm : List (Nat × Nat)) (i : Nat) : List Nat → List (Nat × Nat)
  | [] => mm
  | d :: ds => swapLoop (swapStep mm i (i + d)) (i + 1) ds

/-- `sample_without_replacement` (`/repo/src/math/random.h:154-171`) with the
numbers `draws` returned by `r(n-i)`, `i = 0, …, k-1`, and the old contents of
`res`. The second component is `res` afterwards. -/
def sampleWithout (n k : Int) (draws : List Nat) (res : List Nat) : Bool × List Nat :=
  if n ≤ 0 ∨ k < 0 ∨ n < k then (false, res)
  else
    let k := k.toNat
    let mm := (List.range k).foldl (fun mm i => AssocMap.upsert mm i i) []
    let mm := swapLoop mm 0 draws
    let res := (res ++ List.replicate (k - res.length) 0).take k
    (true, mm.foldl (fun res e => if e.2 < k then res.set e.2 e.1 else res) res)

end Verif.Sampling
