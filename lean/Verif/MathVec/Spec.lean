import Verif.MathVec.Model
/-! What the classes of vectors should do, in terms of the list of the components. -/

namespace Verif.MathVec.Spec
open Verif.MathVec

/-- The operations of a class of vectors. -/
structure Class (t : Type) where
  V : Type
  dim : Nat
  comps : V → List t
  zero : V
  fromArray : (Nat → t) → V
  writeToArray : V → (Nat → t) → (Nat → t)
  get : V → Int → Option t
  set : V → Int → t → Option V
  add : V → V → V
  sub : V → V → V
  neg : V → V
  smul : t → V → V
  smulR : V → t → V
  sdiv : V → t → V
  inner : V → V → t
  addAssign : V → V → V
  subAssign : V → V → V
  mulAssign : V → t → V
  divAssign : V → t → V
  eq : V → V → Bool
  lt : V → V → Bool
  norm : V → t
  abs : (t → t) → V → t
  normalize : (t → t) → V → t → V
  normalizeM : (t → t) → V → t → V
  proj : V → V → t
  read : (List UInt8 → Option (t × List UInt8)) → Stream → Option V × Stream
  write : (t → List UInt8) → V → List UInt8

variable {t : Type} [Zero t] [Add t] [Sub t] [Neg t] [Mul t] [Div t] [DecidableEq t] [LT t] [DecidableLT t]

/-- The sum from left to right. -/
def sum : List t → t
  | [] => 0
  | x :: xs => xs.foldl (· + ·) x

/-- Dictionary order. -/
def lexLt : List t → List t → Bool
  | x :: xs, y :: ys => if x < y then true else if x = y then lexLt xs ys else false
  | [], _ :: _ => true
  | _, [] => false

/-- Reading `n` components; `none` for one that was never stored. -/
def readN (p : List UInt8 → Option (t × List UInt8)) : Nat → Stream → List (Option t) × Stream
  | 0, s => ([], s)
  | n + 1, s => ((extract p s).1 :: (readN p n (extract p s).2).1, (readN p n (extract p s).2).2)

/-- All of them, if all are there. -/
def allSome : List (Option t) → Option (List t)
  | [] => some []
  | x :: xs => x.bind (fun x => (allSome xs).map (x :: ·))

/-- The components, separated by spaces. -/
def spaced (showT : t → List UInt8) : List t → List UInt8
  | [] => []
  | [x] => showT x
  | x :: xs => showT x ++ [32] ++ spaced showT xs

/-- The operations of a class do with the components what they should. -/
structure Correct (I : Class t) : Prop where
  length : ∀ a, (I.comps a).length = I.dim
  ext : ∀ a b, I.comps a = I.comps b → a = b
  zero : I.comps I.zero = List.replicate I.dim 0
  fromArray : ∀ v, I.comps (I.fromArray v) = (List.range I.dim).map v
  writeToArray : ∀ a v i, I.writeToArray a v i = (I.comps a).getD i (v i)
  get : ∀ a i, I.get a i = if 0 ≤ i then (I.comps a)[i.toNat]? else none
  set : ∀ a i c, (I.set a i c).map I.comps = if 0 ≤ i ∧ i < I.dim then some ((I.comps a).set i.toNat c) else none
  add : ∀ a b, I.comps (I.add a b) = List.zipWith (· + ·) (I.comps a) (I.comps b)
  sub : ∀ a b, I.comps (I.sub a b) = List.zipWith (· - ·) (I.comps a) (I.comps b)
  neg : ∀ a, I.comps (I.neg a) = (I.comps a).map (- ·)
  smul : ∀ m a, I.comps (I.smul m a) = (I.comps a).map (m * ·)
  smulR : ∀ a m, I.comps (I.smulR a m) = (I.comps a).map (m * ·)
  sdiv : ∀ a m, I.comps (I.sdiv a m) = (I.comps a).map (· / m)
  inner : ∀ a b, I.inner a b = sum (List.zipWith (· * ·) (I.comps a) (I.comps b))
  addAssign : ∀ a b, I.addAssign a b = I.add a b
  subAssign : ∀ a b, I.subAssign a b = I.sub a b
  mulAssign : ∀ a m, I.mulAssign a m = I.smul m a
  divAssign : ∀ a m, I.divAssign a m = I.sdiv a m
  eq : ∀ a b, I.eq a b = true ↔ a = b
  lt : (∀ x y : t, x < y → x ≠ y) → ∀ a b, I.lt a b = lexLt (I.comps a) (I.comps b)
  norm : ∀ a, I.norm a = I.inner a a
  abs : ∀ sqrt a, I.abs sqrt a = sqrt (I.norm a)
  normalize : ∀ sqrt a m, I.normalize sqrt a m = I.smul (m / I.abs sqrt a) a
  normalizeM : ∀ sqrt a m, I.normalizeM sqrt a m = I.smul (m / I.abs sqrt a) a
  proj : ∀ a b, I.proj a b = I.inner a b / I.inner b b
  readState : ∀ p s, (I.read p s).2 = (readN p I.dim s).2
  readValue : ∀ p s, (I.read p s).1.map I.comps = allSome (readN p I.dim s).1
  write : ∀ showT a, I.write showT a = spaced showT (I.comps a)

end Verif.MathVec.Spec
