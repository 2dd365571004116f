import Verif.Double.Spec
import Verif.Json.Spec
/-! # Specification: decimals, number texts and what becomes of the numbers of a document -/
namespace Verif.FloatText.Spec
open Verif.Double Verif.Double.Spec Verif.Json Verif.Json.Spec

/-- A decimal of at most `P` digits. -/
def Dec (P : Nat) (q : Rat) : Prop := ∃ m k : Int, m.natAbs < 10 ^ P ∧ q = m * (10 : Rat) ^ k

/-- `q` is `x` rounded to `P` digits: no decimal of `P` digits is nearer to `x`. -/
def Rounded (P : Nat) (x q : Rat) : Prop := Dec P q ∧ ∀ q', Dec P q' → dist x q ≤ dist x q'

/-- The number a text stands for (RFC 8259 section 6, or a decimal constant of C): sign, digits, point and digits, exponent. -/
def Denotes (t : List Nat) (q : Rat) : Prop :=
  ∃ sg ip fd ex k, t = sg ++ ip ++ (if fd = [] then [] else 46 :: fd) ++ ex ∧ (sg = [] ∨ sg = [45]) ∧
    (ip = [48] ∨ ∃ d ds, ip = d :: ds ∧ Digit d ∧ d ≠ 48 ∧ ∀ c ∈ ds, Digit c) ∧ (∀ c ∈ fd, Digit c) ∧
    (ex = [] ∧ k = 0 ∨ ∃ s ds, ex = 101 :: (s :: ds) ∧ (∀ c ∈ ds, Digit c) ∧ ds ≠ [] ∧
      (s = 43 ∧ k = (decVal ds : Int) ∨ s = 45 ∧ k = -(decVal ds : Int))) ∧
    q = (if sg = [] then 1 else -1) * (decVal (ip ++ fd) : Rat) * (10 : Rat) ^ (k - (fd.length : Int))

/-- A finite `double` that is not too close to zero for its full precision. -/
def Normal (x : Rat) : Prop := IsNum F64 x ∧ (x = 0 ∨ (2 : Rat) ^ (-1022 : Int) ≤ dist 0 x)

/-- What may become of a number `x`: it differs by less than one part in 10^11. -/
def Close (x y : Rat) : Prop := dist x y ≤ dist 0 x * (6 / 10 ^ 12)

mutual
/-- `w` is `v` but for its floating point numbers: each is close to what it was, and may have become an integer. -/
def Near : Value Rat → Value Rat → Prop
  | .null, w => w = .null
  | .int n, w => w = .int n
  | .flt x, w => (∃ y, w = .flt y ∧ Close x y) ∨ (∃ n : Int, w = .int n ∧ Close x n)
  | .bool b, w => w = .bool b
  | .str s, w => w = .str s
  | .arr vs, w => ∃ ws, w = .arr ws ∧ NearL vs ws
  | .obj ms, w => ∃ ns, w = .obj ns ∧ NearM ms ns
/-- The same for elements. -/
def NearL : List (Value Rat) → List (Value Rat) → Prop
  | [], ws => ws = []
  | v :: vs, ws => ∃ w ws', ws = w :: ws' ∧ Near v w ∧ NearL vs ws'
/-- The same for members. -/
def NearM : List (Str × Value Rat) → List (Str × Value Rat) → Prop
  | [], ns => ns = []
  | (k, v) :: ms, ns => ∃ w ns', ns = (k, w) :: ns' ∧ Near v w ∧ NearM ms ns'
end

mutual
/-- A value a program can have: 64-bit integers, well-formed UTF-8 without U+0000 in strings and keys, one member per key; the
floating point numbers satisfy `p`. -/
def Holds (p : Rat → Prop) : Value Rat → Prop
  | .null => True
  | .int n => IsInt64 n
  | .flt x => p x
  | .bool _ => True
  | .str s => GoodStr s
  | .arr vs => HoldsL p vs
  | .obj ms => (ms.map (·.1)).Nodup ∧ HoldsM p ms
/-- The same for elements. -/
def HoldsL (p : Rat → Prop) : List (Value Rat) → Prop
  | [] => True
  | v :: vs => Holds p v ∧ HoldsL p vs
/-- The same for members. -/
def HoldsM (p : Rat → Prop) : List (Str × Value Rat) → Prop
  | [] => True
  | (k, v) :: ms => GoodStr k ∧ Holds p v ∧ HoldsM p ms
end

end Verif.FloatText.Spec
