import Verif.Ratio.Assign
import Verif.Ratio.Spec
/-! # Specification: programs on variables that hold rational numbers -/
namespace Verif.Ratio.Spec
open Verif.Ratio

/-- Variables with rational numbers. -/
abbrev Env := Nat → ℚ

/-- One variable gets another value, the others keep theirs. -/
def Env.put (e : Env) (a : Nat) (x : ℚ) : Env := fun k => if k = a then x else e k

/-- What a statement means; `none` for a division by zero. -/
def means (e : Env) : Op → Option Env
  | .int a n => some (e.put a n)
  | .frac a n d => if d = 0 then none else some (e.put a (n / d))
  | .copy a b => some (e.put a (e b))
  | .add a b => some (e.put a (e a + e b))
  | .sub a b => some (e.put a (e a - e b))
  | .mul a b => some (e.put a (e a * e b))
  | .div a b => if e b = 0 then none else some (e.put a (e a / e b))

/-- What a program means. -/
def meansAll : List Op → Env → Option Env
  | [], e => some e
  | o :: os, e => (means e o).bind (meansAll os)

/-- The variables hold these numbers, each in lowest terms. -/
def Holds (m : Mem) (e : Env) : Prop := ∀ k, Canonical (m k) ∧ value (m k) = e k

/-- The program does not divide a variable by itself. -/
def NoSelfDivision (os : List Op) : Prop := ∀ a, Op.div a a ∉ os

end Verif.Ratio.Spec
