/-!
# Specification: MT19937

The recurrence as published by Matsumoto and Nishimura (1998, initialisation
of 2002): `w = 32`, `n = 624`, `m = 397`, `r = 31`,
`x(k+n) = x(k+m) ⊕ (upper bit of x(k) | lower 31 bits of x(k+1)) A`,
where `y A` is `y >> 1`, xored with the matrix row `a` when `y` is odd.
Everything is in `BitVec 32`.
-/
namespace Verif.Mt.Spec

/-- The initial words: `x(i) = 1812433253 (x(i-1) ⊕ (x(i-1) >> 30)) + i`. -/
def seedWord (seed : BitVec 32) : Nat → BitVec 32
  | 0 => seed
  | i + 1 =>
    let p := seedWord seed i
    1812433253#32 * (p ^^^ (p >>> 30)) + BitVec.ofNat 32 (i + 1)

/-- Multiplication with the matrix `A`. -/
def mulA (y : BitVec 32) : BitVec 32 :=
  if y.getLsbD 0 then (y >>> 1) ^^^ 0x9908b0df#32 else y >>> 1

/-- Upper bit of `a` in front of the lower 31 bits of `b`. -/
def glue (a b : BitVec 32) : BitVec 32 :=
  (a.extractLsb' 31 1 ++ b.extractLsb' 0 31 : BitVec 32)

/-- The sequence of words. -/
def word (seed : BitVec 32) (k : Nat) : BitVec 32 :=
  if k < 624 then seedWord seed k
  else word seed (k - 624 + 397) ^^^ mulA (glue (word seed (k - 624)) (word seed (k - 624 + 1)))
termination_by k
decreasing_by all_goals omega

/-- Tempering: `u = 11`, `s = 7`, `b = 9d2c5680`, `t = 15`, `c = efc60000`, `l = 18`. -/
def tempered (y0 : BitVec 32) : BitVec 32 :=
  let y1 := y0 ^^^ (y0 >>> 11)
  let y2 := y1 ^^^ ((y1 <<< 7) &&& 0x9d2c5680#32)
  let y3 := y2 ^^^ ((y2 <<< 15) &&& 0xefc60000#32)
  y3 ^^^ (y3 >>> 18)

/-- Output number `k` of MT19937. -/
def output (seed : BitVec 32) (k : Nat) : BitVec 32 := tempered (word seed (624 + k))

end Verif.Mt.Spec
