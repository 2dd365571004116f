import Verif.Ratio.Model
import Verif.Lexical.Model
/-! The assigning operators of `ratio<T>` on variables, statement by statement, so that it matters whether both operands are the same variable, and the text of a
ratio. Source: `/repo/src/math/ratio.h`. -/

namespace Verif.Ratio

/-- The variables of a program that are of type `ratio<T>`. -/
abbrev Mem := Nat → R

/-- Assignment to one variable. -/
def Mem.set (m : Mem) (i : Nat) (r : R) : Mem := fun k => if k = i then r else m k

/-- `a.num_=x`, as at `/repo/src/math/ratio.h:94`. -/
def Mem.setNum (m : Mem) (i : Nat) (x : Int) : Mem := m.set i ⟨x, (m i).den⟩

/-- `a.den_=x`, as at `/repo/src/math/ratio.h:95`. -/
def Mem.setDen (m : Mem) (i : Nat) (x : Int) : Mem := m.set i ⟨(m i).num, x⟩

/-- `operator+=` for the variables `a` and `b`, `/repo/src/math/ratio.h:92-97`. -/
def addAssign (T : IntTy) (a b : Nat) (m : Mem) : Option Mem := do
  let g ← gcd T (m a).den (m b).den
  let x ← T.chk ((m a).num * (← T.div (m b).den g))
  let y ← T.chk ((m b).num * (← T.div (m a).den g))
  let m := m.setNum a (← T.chk (x + y))
  let m := m.setDen a (← T.chk ((m a).den * (← T.div (m b).den g)))
  return m.set a (← reduce T (m a))

/-- `operator-=` for the variables `a` and `b`, `/repo/src/math/ratio.h:100-105`. -/
def subAssign (T : IntTy) (a b : Nat) (m : Mem) : Option Mem := do
  let g ← gcd T (m a).den (m b).den
  let x ← T.chk ((m a).num * (← T.div (m b).den g))
  let y ← T.chk ((m b).num * (← T.div (m a).den g))
  let m := m.setNum a (← T.chk (x - y))
  let m := m.setDen a (← T.chk ((m a).den * (← T.div (m b).den g)))
  return m.set a (← reduce T (m a))

/-- `operator*=` for the variables `a` and `b`, `/repo/src/math/ratio.h:108-114`. -/
def mulAssign (T : IntTy) (a b : Nat) (m : Mem) : Option Mem := do
  let g1 ← gcd T (m a).num (m b).den
  let g2 ← gcd T (m b).num (m a).den
  let m := m.setNum a (← T.chk ((← T.div (m a).num g1) * (← T.div (m b).num g2)))
  let m := m.setDen a (← T.chk ((← T.div (m a).den g2) * (← T.div (m b).den g1)))
  return m

/-- `operator/=` for the variables `a` and `b`, `/repo/src/math/ratio.h:117-126`. -/
def divAssign (T : IntTy) (a b : Nat) (m : Mem) : Option Mem := do
  let g1 ← gcd T (m a).num (m b).num
  let g2 ← gcd T (m a).den (m b).den
  let m := m.setNum a (← T.chk ((← T.div (m a).num g1) * (← T.div (m b).den g2)))
  let m := m.setDen a (← T.chk ((← T.div (m a).den g2) * (← T.div (m b).num g1)))
  if (m a).den < 0 then do
    let m := m.setNum a (← T.chk ((m a).num * -1))
    let m := m.setDen a (← T.chk ((m a).den * -1))
    return m
  else return m

/-- The statements of a program: `a=ratio<T>(n)`, `a=ratio<T>(n,d)`, `a=b`, and the four assigning operators. -/
inductive Op where
  | int (a : Nat) (n : Int)
  | frac (a : Nat) (n d : Int)
  | copy (a b : Nat)
  | add (a b : Nat)
  | sub (a b : Nat)
  | mul (a b : Nat)
  | div (a b : Nat)
deriving DecidableEq

/-- One statement, `/repo/src/math/ratio.h:48-54,92-126`; the copy is that of the compiler. -/
def exec (T : IntTy) (m : Mem) : Op → Option Mem
  | .int a n => some (m.set a (mk1 n))
  | .frac a n d => (mk2 T n d).map (m.set a)
  | .copy a b => some (m.set a (m b))
  | .add a b => addAssign T a b m
  | .sub a b => subAssign T a b m
  | .mul a b => mulAssign T a b m
  | .div a b => divAssign T a b m

/-- A program of these statements, `/repo/src/math/ratio.h:48-54,92-126`. -/
def runOps (T : IntTy) : List Op → Mem → Option Mem
  | [], m => some m
  | o :: os, m => (exec T m o).bind (runOps T os)

/-- `operator<<`, `/repo/src/math/ratio.h:151-155`. -/
def text (r : R) : List UInt8 := Lexical.put r.num ++ 47 :: Lexical.put r.den

end Verif.Ratio
