/-! Model of the vectors of `/repo/src/math/vector.h`, generated there by `/repo/src/math/vector_h.rb`: three classes with named components and nine with arrays. All
definitions are written out as they are there, one class after the other. The components are of any type with the arithmetic operations; `sqrt` and the conversions
from and to text are parameters. Not modelled: the operator `%` of the classes with arrays, which does not compile when it is used (it needs members `x`, `y` and `z`). -/

namespace Verif.MathVec

/-- A stream that is read: whether it has failed, and what is left. -/
structure Stream where
  fail : Bool := false
  rest : List UInt8
deriving DecidableEq

/-- `>>` of the component type, which `p` describes for a stream that has not failed; a failure makes the component zero, and after a failure nothing is stored (`none`). -/
def extract {t : Type} [Zero t] (p : List UInt8 → Option (t × List UInt8)) (s : Stream) : Option t × Stream :=
  if s.fail then (none, s)
  else match p s.rest with
    | some r => (some r.1, ⟨false, r.2⟩)
    | none => (some 0, ⟨true, s.rest⟩)

/-- A function changed at one place: `v[i]=x` for the array at a pointer. -/
def upd {t : Type} (f : Nat → t) (i : Nat) (v : t) : Nat → t := fun j => if j = i then v else f j

variable {t : Type} [Zero t] [Add t] [Sub t] [Neg t] [Mul t] [Div t] [DecidableEq t] [LT t] [DecidableLT t]

/-- `component_by_name::vector2`, `/repo/src/math/vector.h:48`. -/
structure N2 (t : Type) where
  x : t
  y : t
deriving DecidableEq

namespace N2

/-- The zero constructor, `/repo/src/math/vector.h:50`. -/
def zero : N2 t := { x := 0, y := 0 }

/-- The constructor from components, `/repo/src/math/vector.h:52`. -/
def make (cx cy : t) : N2 t := { x := cx, y := cy }

/-- The constructor from a pointer, `/repo/src/math/vector.h:54`. -/
def fromArray (v : Nat → t) : N2 t := { x := v 0, y := v 1 }

/-- `writeToArray`, `/repo/src/math/vector.h:58-60`. -/
def writeToArray (a : N2 t) (v : Nat → t) : Nat → t :=
  upd (upd v 0 a.x) 1 a.y

/-- `operator[]`, `/repo/src/math/vector.h:63-69`; `none`: the assertion fails. -/
def get (a : N2 t) (index : Int) : Option t :=
  if index ≥ 0 ∧ index < 2 then (if index = 0 then some a.x else some a.y) else none

/-- Assignment to what `operator[]` returns, `/repo/src/math/vector.h:63-69`. -/
def set (a : N2 t) (index : Int) (c : t) : Option (N2 t) :=
  if index ≥ 0 ∧ index < 2 then (if index = 0 then some { a with x := c } else some { a with y := c }) else none

/-- Addition, `/repo/src/math/vector.h:74-76`. -/
def add (a b : N2 t) : N2 t :=
  make (a.x + b.x) (a.y + b.y)

/-- Subtraction, `/repo/src/math/vector.h:80-82`. -/
def sub (a b : N2 t) : N2 t :=
  make (a.x - b.x) (a.y - b.y)

/-- Negation, `/repo/src/math/vector.h:86-88`. -/
def neg (a : N2 t) : N2 t :=
  make (-a.x) (-a.y)

/-- Scalar multiplication, `/repo/src/math/vector.h:92-94`. -/
def smul (m : t) (a : N2 t) : N2 t :=
  make (m*a.x) (m*a.y)

/-- Scalar multiplication, with the scalar behind, `/repo/src/math/vector.h:96-98`. -/
def smulR (a : N2 t) (m : t) : N2 t :=
  make (m*a.x) (m*a.y)

/-- Division by a scalar, `/repo/src/math/vector.h:102-104`. -/
def sdiv (a : N2 t) (m : t) : N2 t :=
  make (a.x/m) (a.y/m)

/-- Inner product, `/repo/src/math/vector.h:108-110`. -/
def inner (a b : N2 t) : t :=
  a.x*b.x + a.y*b.y

/-- Outer product, `/repo/src/math/vector.h:114-116`. -/
def cross (a b : N2 t) : t :=
  a.x*b.y - a.y*b.x

/-- `+=`: the new value of `a`, `/repo/src/math/vector.h:120-122`. -/
def addAssign (a b : N2 t) : N2 t :=
  add a b

/-- `-=`, `/repo/src/math/vector.h:125-127`. -/
def subAssign (a b : N2 t) : N2 t :=
  sub a b

/-- `*=`, `/repo/src/math/vector.h:130-132`. -/
def mulAssign (a : N2 t) (b : t) : N2 t :=
  smul b a

/-- `/=`, `/repo/src/math/vector.h:135-137`. -/
def divAssign (a : N2 t) (b : t) : N2 t :=
  sdiv a b

/-- Equality, `/repo/src/math/vector.h:143-145`. -/
def eq (a b : N2 t) : Bool :=
  decide (a.x = b.x) && decide (a.y = b.y)

/-- Dictionary order, `/repo/src/math/vector.h:149-152`. -/
def lt (a b : N2 t) : Bool :=
  if a.x ≠ b.x then decide (a.x < b.x) else decide (a.y < b.y)

/-- Square of the absolute value, `/repo/src/math/vector.h:156-158`. -/
def norm (a : N2 t) : t :=
  inner a a

/-- Absolute value, `/repo/src/math/vector.h:162-164`. -/
def abs (sqrt : t → t) (a : N2 t) : t :=
  sqrt (norm a)

/-- Normalization, `/repo/src/math/vector.h:169-171`. -/
def normalize (sqrt : t → t) (a : N2 t) (b : t) : N2 t :=
  smul (b / abs sqrt a) a

/-- Projection factor, `/repo/src/math/vector.h:175-177`. -/
def proj (a b : N2 t) : t :=
  inner a b / inner b b

/-- Normalization as a method, `/repo/src/math/vector.h:182-184`. -/
def normalizeM (sqrt : t → t) (self : N2 t) (a : t) : N2 t :=
  smul (a / abs sqrt self) self

/-- `operator>>`, `/repo/src/math/vector.h:189-194`; `none`: the vector is given values that were never stored. -/
def read (p : List UInt8 → Option (t × List UInt8)) (s : Stream) : Option (N2 t) × Stream :=
  let q0 := extract p s
  let q1 := extract p q0.2
  (q0.1.bind fun tmp0 => q1.1.bind fun tmp1 => some (make tmp0 tmp1), q1.2)

/-- `operator<<`, `/repo/src/math/vector.h:198-200`. -/
def write (showT : t → List UInt8) (a : N2 t) : List UInt8 :=
  showT a.x ++ [32] ++ showT a.y

end N2

/-- `component_by_array::vector2`, `/repo/src/math/vector.h:210`. -/
structure A2 (t : Type) where
  r0 : t
  r1 : t
deriving DecidableEq

namespace A2

/-- The zero constructor, `/repo/src/math/vector.h:212-214`. -/
def zero : A2 t := { r0 := 0, r1 := 0 }

/-- The constructor from components, `/repo/src/math/vector.h:216-218`. -/
def make (cr0 cr1 : t) : A2 t := { r0 := cr0, r1 := cr1 }

/-- The constructor from a pointer, `/repo/src/math/vector.h:220-222`. -/
def fromArray (v : Nat → t) : A2 t := { r0 := v 0, r1 := v 1 }

/-- `writeToArray`, `/repo/src/math/vector.h:226-228`. -/
def writeToArray (a : A2 t) (v : Nat → t) : Nat → t :=
  upd (upd v 0 a.r0) 1 a.r1

/-- `operator[]`, `/repo/src/math/vector.h:231-236`; `none`: undefined, as no value is returned. -/
def get (a : A2 t) (index : Int) : Option t :=
  if index = 0 then some a.r0 else if index = 1 then some a.r1 else none

/-- Assignment to what `operator[]` returns, `/repo/src/math/vector.h:231-236`. -/
def set (a : A2 t) (index : Int) (c : t) : Option (A2 t) :=
  if index = 0 then some { a with r0 := c } else if index = 1 then some { a with r1 := c } else none

/-- Addition, `/repo/src/math/vector.h:241-243`. -/
def add (a b : A2 t) : A2 t :=
  make (a.r0 + b.r0) (a.r1 + b.r1)

/-- Subtraction, `/repo/src/math/vector.h:247-249`. -/
def sub (a b : A2 t) : A2 t :=
  make (a.r0 - b.r0) (a.r1 - b.r1)

/-- Negation, `/repo/src/math/vector.h:253-255`. -/
def neg (a : A2 t) : A2 t :=
  make (-a.r0) (-a.r1)

/-- Scalar multiplication, `/repo/src/math/vector.h:259-261`. -/
def smul (m : t) (a : A2 t) : A2 t :=
  make (m*a.r0) (m*a.r1)

/-- Scalar multiplication, with the scalar behind, `/repo/src/math/vector.h:263-265`. -/
def smulR (a : A2 t) (m : t) : A2 t :=
  make (m*a.r0) (m*a.r1)

/-- Division by a scalar, `/repo/src/math/vector.h:269-271`. -/
def sdiv (a : A2 t) (m : t) : A2 t :=
  make (a.r0/m) (a.r1/m)

/-- Inner product, `/repo/src/math/vector.h:275-277`. -/
def inner (a b : A2 t) : t :=
  a.r0*b.r0 + a.r1*b.r1

/-- `+=`: the new value of `a`, `/repo/src/math/vector.h:287-289`. -/
def addAssign (a b : A2 t) : A2 t :=
  add a b

/-- `-=`, `/repo/src/math/vector.h:292-294`. -/
def subAssign (a b : A2 t) : A2 t :=
  sub a b

/-- `*=`, `/repo/src/math/vector.h:297-299`. -/
def mulAssign (a : A2 t) (b : t) : A2 t :=
  smul b a

/-- `/=`, `/repo/src/math/vector.h:302-304`. -/
def divAssign (a : A2 t) (b : t) : A2 t :=
  sdiv a b

/-- Equality, `/repo/src/math/vector.h:310-312`. -/
def eq (a b : A2 t) : Bool :=
  decide (a.r0 = b.r0) && decide (a.r1 = b.r1)

/-- Dictionary order, `/repo/src/math/vector.h:316-319`. -/
def lt (a b : A2 t) : Bool :=
  if a.r0 ≠ b.r0 then decide (a.r0 < b.r0) else decide (a.r1 < b.r1)

/-- Square of the absolute value, `/repo/src/math/vector.h:323-325`. -/
def norm (a : A2 t) : t :=
  inner a a

/-- Absolute value, `/repo/src/math/vector.h:329-331`. -/
def abs (sqrt : t → t) (a : A2 t) : t :=
  sqrt (norm a)

/-- Normalization, `/repo/src/math/vector.h:336-338`. -/
def normalize (sqrt : t → t) (a : A2 t) (b : t) : A2 t :=
  smul (b / abs sqrt a) a

/-- Projection factor, `/repo/src/math/vector.h:342-344`. -/
def proj (a b : A2 t) : t :=
  inner a b / inner b b

/-- Normalization as a method, `/repo/src/math/vector.h:349-351`. -/
def normalizeM (sqrt : t → t) (self : A2 t) (a : t) : A2 t :=
  smul (a / abs sqrt self) self

/-- `operator>>`, `/repo/src/math/vector.h:356-361`; `none`: the vector is given values that were never stored. -/
def read (p : List UInt8 → Option (t × List UInt8)) (s : Stream) : Option (A2 t) × Stream :=
  let q0 := extract p s
  let q1 := extract p q0.2
  (q0.1.bind fun tmp0 => q1.1.bind fun tmp1 => some (make tmp0 tmp1), q1.2)

/-- `operator<<`, `/repo/src/math/vector.h:365-367`. -/
def write (showT : t → List UInt8) (a : A2 t) : List UInt8 :=
  showT a.r0 ++ [32] ++ showT a.r1

end A2

/-- `component_by_name::vector3`, `/repo/src/math/vector.h:377`. -/
structure N3 (t : Type) where
  x : t
  y : t
  z : t
deriving DecidableEq

namespace N3

/-- The zero constructor, `/repo/src/math/vector.h:379`. -/
def zero : N3 t := { x := 0, y := 0, z := 0 }

/-- The constructor from components, `/repo/src/math/vector.h:381`. -/
def make (cx cy cz : t) : N3 t := { x := cx, y := cy, z := cz }

/-- The constructor from a pointer, `/repo/src/math/vector.h:383`. -/
def fromArray (v : Nat → t) : N3 t := { x := v 0, y := v 1, z := v 2 }

/-- `writeToArray`, `/repo/src/math/vector.h:387-389`. -/
def writeToArray (a : N3 t) (v : Nat → t) : Nat → t :=
  upd (upd (upd v 0 a.x) 1 a.y) 2 a.z

/-- `operator[]`, `/repo/src/math/vector.h:392-398`; `none`: undefined, as no value is returned. -/
def get (a : N3 t) (index : Int) : Option t :=
  if index = 0 then some a.x else if index = 1 then some a.y else if index = 2 then some a.z else none

/-- Assignment to what `operator[]` returns, `/repo/src/math/vector.h:392-398`. -/
def set (a : N3 t) (index : Int) (c : t) : Option (N3 t) :=
  if index = 0 then some { a with x := c } else if index = 1 then some { a with y := c } else if index = 2 then some { a with z := c } else none

/-- Addition, `/repo/src/math/vector.h:403-405`. -/
def add (a b : N3 t) : N3 t :=
  make (a.x + b.x) (a.y + b.y) (a.z + b.z)

/-- Subtraction, `/repo/src/math/vector.h:409-411`. -/
def sub (a b : N3 t) : N3 t :=
  make (a.x - b.x) (a.y - b.y) (a.z - b.z)

/-- Negation, `/repo/src/math/vector.h:415-417`. -/
def neg (a : N3 t) : N3 t :=
  make (-a.x) (-a.y) (-a.z)

/-- Scalar multiplication, `/repo/src/math/vector.h:421-423`. -/
def smul (m : t) (a : N3 t) : N3 t :=
  make (m*a.x) (m*a.y) (m*a.z)

/-- Scalar multiplication, with the scalar behind, `/repo/src/math/vector.h:425-427`. -/
def smulR (a : N3 t) (m : t) : N3 t :=
  make (m*a.x) (m*a.y) (m*a.z)

/-- Division by a scalar, `/repo/src/math/vector.h:431-433`. -/
def sdiv (a : N3 t) (m : t) : N3 t :=
  make (a.x/m) (a.y/m) (a.z/m)

/-- Inner product, `/repo/src/math/vector.h:437-439`. -/
def inner (a b : N3 t) : t :=
  a.x*b.x + a.y*b.y + a.z*b.z

/-- Outer product, `/repo/src/math/vector.h:443-445`. -/
def cross (a b : N3 t) : N3 t :=
  make (a.y*b.z - a.z*b.y) (a.z*b.x - a.x*b.z) (a.x*b.y - a.y*b.x)

/-- `+=`: the new value of `a`, `/repo/src/math/vector.h:449-451`. -/
def addAssign (a b : N3 t) : N3 t :=
  add a b

/-- `-=`, `/repo/src/math/vector.h:454-456`. -/
def subAssign (a b : N3 t) : N3 t :=
  sub a b

/-- `*=`, `/repo/src/math/vector.h:459-461`. -/
def mulAssign (a : N3 t) (b : t) : N3 t :=
  smul b a

/-- `/=`, `/repo/src/math/vector.h:464-466`. -/
def divAssign (a : N3 t) (b : t) : N3 t :=
  sdiv a b

/-- Equality, `/repo/src/math/vector.h:472-474`. -/
def eq (a b : N3 t) : Bool :=
  decide (a.x = b.x) && decide (a.y = b.y) && decide (a.z = b.z)

/-- Dictionary order, `/repo/src/math/vector.h:478-482`. -/
def lt (a b : N3 t) : Bool :=
  if a.x ≠ b.x then decide (a.x < b.x) else if a.y ≠ b.y then decide (a.y < b.y) else decide (a.z < b.z)

/-- Square of the absolute value, `/repo/src/math/vector.h:486-488`. -/
def norm (a : N3 t) : t :=
  inner a a

/-- Absolute value, `/repo/src/math/vector.h:492-494`. -/
def abs (sqrt : t → t) (a : N3 t) : t :=
  sqrt (norm a)

/-- Normalization, `/repo/src/math/vector.h:499-501`. -/
def normalize (sqrt : t → t) (a : N3 t) (b : t) : N3 t :=
  smul (b / abs sqrt a) a

/-- Projection factor, `/repo/src/math/vector.h:505-507`. -/
def proj (a b : N3 t) : t :=
  inner a b / inner b b

/-- Normalization as a method, `/repo/src/math/vector.h:512-514`. -/
def normalizeM (sqrt : t → t) (self : N3 t) (a : t) : N3 t :=
  smul (a / abs sqrt self) self

/-- `operator>>`, `/repo/src/math/vector.h:519-524`; `none`: the vector is given values that were never stored. -/
def read (p : List UInt8 → Option (t × List UInt8)) (s : Stream) : Option (N3 t) × Stream :=
  let q0 := extract p s
  let q1 := extract p q0.2
  let q2 := extract p q1.2
  (q0.1.bind fun tmp0 => q1.1.bind fun tmp1 => q2.1.bind fun tmp2 => some (make tmp0 tmp1 tmp2), q2.2)

/-- `operator<<`, `/repo/src/math/vector.h:528-530`. -/
def write (showT : t → List UInt8) (a : N3 t) : List UInt8 :=
  showT a.x ++ [32] ++ showT a.y ++ [32] ++ showT a.z

end N3

/-- `component_by_array::vector3`, `/repo/src/math/vector.h:540`. -/
structure A3 (t : Type) where
  r0 : t
  r1 : t
  r2 : t
deriving DecidableEq

namespace A3

/-- The zero constructor, `/repo/src/math/vector.h:542-544`. -/
def zero : A3 t := { r0 := 0, r1 := 0, r2 := 0 }

/-- The constructor from components, `/repo/src/math/vector.h:546-548`. -/
def make (cr0 cr1 cr2 : t) : A3 t := { r0 := cr0, r1 := cr1, r2 := cr2 }

/-- The constructor from a pointer, `/repo/src/math/vector.h:550-552`. -/
def fromArray (v : Nat → t) : A3 t := { r0 := v 0, r1 := v 1, r2 := v 2 }

/-- `writeToArray`, `/repo/src/math/vector.h:556-558`. -/
def writeToArray (a : A3 t) (v : Nat → t) : Nat → t :=
  upd (upd (upd v 0 a.r0) 1 a.r1) 2 a.r2

/-- `operator[]`, `/repo/src/math/vector.h:561-567`; `none`: undefined, as no value is returned. -/
def get (a : A3 t) (index : Int) : Option t :=
  if index = 0 then some a.r0 else if index = 1 then some a.r1 else if index = 2 then some a.r2 else none

/-- Assignment to what `operator[]` returns, `/repo/src/math/vector.h:561-567`. -/
def set (a : A3 t) (index : Int) (c : t) : Option (A3 t) :=
  if index = 0 then some { a with r0 := c } else if index = 1 then some { a with r1 := c } else if index = 2 then some { a with r2 := c } else none

/-- Addition, `/repo/src/math/vector.h:572-574`. -/
def add (a b : A3 t) : A3 t :=
  make (a.r0 + b.r0) (a.r1 + b.r1) (a.r2 + b.r2)

/-- Subtraction, `/repo/src/math/vector.h:578-580`. -/
def sub (a b : A3 t) : A3 t :=
  make (a.r0 - b.r0) (a.r1 - b.r1) (a.r2 - b.r2)

/-- Negation, `/repo/src/math/vector.h:584-586`. -/
def neg (a : A3 t) : A3 t :=
  make (-a.r0) (-a.r1) (-a.r2)

/-- Scalar multiplication, `/repo/src/math/vector.h:590-592`. -/
def smul (m : t) (a : A3 t) : A3 t :=
  make (m*a.r0) (m*a.r1) (m*a.r2)

/-- Scalar multiplication, with the scalar behind, `/repo/src/math/vector.h:594-596`. -/
def smulR (a : A3 t) (m : t) : A3 t :=
  make (m*a.r0) (m*a.r1) (m*a.r2)

/-- Division by a scalar, `/repo/src/math/vector.h:600-602`. -/
def sdiv (a : A3 t) (m : t) : A3 t :=
  make (a.r0/m) (a.r1/m) (a.r2/m)

/-- Inner product, `/repo/src/math/vector.h:606-608`. -/
def inner (a b : A3 t) : t :=
  a.r0*b.r0 + a.r1*b.r1 + a.r2*b.r2

/-- `+=`: the new value of `a`, `/repo/src/math/vector.h:618-620`. -/
def addAssign (a b : A3 t) : A3 t :=
  add a b

/-- `-=`, `/repo/src/math/vector.h:623-625`. -/
def subAssign (a b : A3 t) : A3 t :=
  sub a b

/-- `*=`, `/repo/src/math/vector.h:628-630`. -/
def mulAssign (a : A3 t) (b : t) : A3 t :=
  smul b a

/-- `/=`, `/repo/src/math/vector.h:633-635`. -/
def divAssign (a : A3 t) (b : t) : A3 t :=
  sdiv a b

/-- Equality, `/repo/src/math/vector.h:641-643`. -/
def eq (a b : A3 t) : Bool :=
  decide (a.r0 = b.r0) && decide (a.r1 = b.r1) && decide (a.r2 = b.r2)

/-- Dictionary order, `/repo/src/math/vector.h:647-651`. -/
def lt (a b : A3 t) : Bool :=
  if a.r0 ≠ b.r0 then decide (a.r0 < b.r0) else if a.r1 ≠ b.r1 then decide (a.r1 < b.r1) else decide (a.r2 < b.r2)

/-- Square of the absolute value, `/repo/src/math/vector.h:655-657`. -/
def norm (a : A3 t) : t :=
  inner a a

/-- Absolute value, `/repo/src/math/vector.h:661-663`. -/
def abs (sqrt : t → t) (a : A3 t) : t :=
  sqrt (norm a)

/-- Normalization, `/repo/src/math/vector.h:668-670`. -/
def normalize (sqrt : t → t) (a : A3 t) (b : t) : A3 t :=
  smul (b / abs sqrt a) a

/-- Projection factor, `/repo/src/math/vector.h:674-676`. -/
def proj (a b : A3 t) : t :=
  inner a b / inner b b

/-- Normalization as a method, `/repo/src/math/vector.h:681-683`. -/
def normalizeM (sqrt : t → t) (self : A3 t) (a : t) : A3 t :=
  smul (a / abs sqrt self) self

/-- `operator>>`, `/repo/src/math/vector.h:688-693`; `none`: the vector is given values that were never stored. -/
def read (p : List UInt8 → Option (t × List UInt8)) (s : Stream) : Option (A3 t) × Stream :=
  let q0 := extract p s
  let q1 := extract p q0.2
  let q2 := extract p q1.2
  (q0.1.bind fun tmp0 => q1.1.bind fun tmp1 => q2.1.bind fun tmp2 => some (make tmp0 tmp1 tmp2), q2.2)

/-- `operator<<`, `/repo/src/math/vector.h:697-699`. -/
def write (showT : t → List UInt8) (a : A3 t) : List UInt8 :=
  showT a.r0 ++ [32] ++ showT a.r1 ++ [32] ++ showT a.r2

end A3

/-- `component_by_name::vector4`, `/repo/src/math/vector.h:709`. -/
structure N4 (t : Type) where
  x : t
  y : t
  z : t
  w : t
deriving DecidableEq

namespace N4

/-- The zero constructor, `/repo/src/math/vector.h:711`. -/
def zero : N4 t := { x := 0, y := 0, z := 0, w := 0 }

/-- The constructor from components, `/repo/src/math/vector.h:713`. -/
def make (cx cy cz cw : t) : N4 t := { x := cx, y := cy, z := cz, w := cw }

/-- The constructor from a pointer, `/repo/src/math/vector.h:715`. -/
def fromArray (v : Nat → t) : N4 t := { x := v 0, y := v 1, z := v 2, w := v 3 }

/-- `writeToArray`, `/repo/src/math/vector.h:719-721`. -/
def writeToArray (a : N4 t) (v : Nat → t) : Nat → t :=
  upd (upd (upd (upd v 0 a.x) 1 a.y) 2 a.z) 3 a.w

/-- `operator[]`, `/repo/src/math/vector.h:724-731`; `none`: undefined, as no value is returned. -/
def get (a : N4 t) (index : Int) : Option t :=
  if index = 0 then some a.x else if index = 1 then some a.y else if index = 2 then some a.z else if index = 3 then some a.w else none

/-- Assignment to what `operator[]` returns, `/repo/src/math/vector.h:724-731`. -/
def set (a : N4 t) (index : Int) (c : t) : Option (N4 t) :=
  if index = 0 then some { a with x := c } else if index = 1 then some { a with y := c } else if index = 2 then some { a with z := c } else if index = 3 then some { a with w := c } else none

/-- Addition, `/repo/src/math/vector.h:736-738`. -/
def add (a b : N4 t) : N4 t :=
  make (a.x + b.x) (a.y + b.y) (a.z + b.z) (a.w + b.w)

/-- Subtraction, `/repo/src/math/vector.h:742-744`. -/
def sub (a b : N4 t) : N4 t :=
  make (a.x - b.x) (a.y - b.y) (a.z - b.z) (a.w - b.w)

/-- Negation, `/repo/src/math/vector.h:748-750`. -/
def neg (a : N4 t) : N4 t :=
  make (-a.x) (-a.y) (-a.z) (-a.w)

/-- Scalar multiplication, `/repo/src/math/vector.h:754-756`. -/
def smul (m : t) (a : N4 t) : N4 t :=
  make (m*a.x) (m*a.y) (m*a.z) (m*a.w)

/-- Scalar multiplication, with the scalar behind, `/repo/src/math/vector.h:758-760`. -/
def smulR (a : N4 t) (m : t) : N4 t :=
  make (m*a.x) (m*a.y) (m*a.z) (m*a.w)

/-- Division by a scalar, `/repo/src/math/vector.h:764-766`. -/
def sdiv (a : N4 t) (m : t) : N4 t :=
  make (a.x/m) (a.y/m) (a.z/m) (a.w/m)

/-- Inner product, `/repo/src/math/vector.h:770-772`. -/
def inner (a b : N4 t) : t :=
  a.x*b.x + a.y*b.y + a.z*b.z + a.w*b.w

/-- `+=`: the new value of `a`, `/repo/src/math/vector.h:777-779`. -/
def addAssign (a b : N4 t) : N4 t :=
  add a b

/-- `-=`, `/repo/src/math/vector.h:782-784`. -/
def subAssign (a b : N4 t) : N4 t :=
  sub a b

/-- `*=`, `/repo/src/math/vector.h:787-789`. -/
def mulAssign (a : N4 t) (b : t) : N4 t :=
  smul b a

/-- `/=`, `/repo/src/math/vector.h:792-794`. -/
def divAssign (a : N4 t) (b : t) : N4 t :=
  sdiv a b

/-- Equality, `/repo/src/math/vector.h:800-802`. -/
def eq (a b : N4 t) : Bool :=
  decide (a.x = b.x) && decide (a.y = b.y) && decide (a.z = b.z) && decide (a.w = b.w)

/-- Dictionary order, `/repo/src/math/vector.h:806-811`. -/
def lt (a b : N4 t) : Bool :=
  if a.x ≠ b.x then decide (a.x < b.x) else if a.y ≠ b.y then decide (a.y < b.y) else if a.z ≠ b.z then decide (a.z < b.z) else decide (a.w < b.w)

/-- Square of the absolute value, `/repo/src/math/vector.h:815-817`. -/
def norm (a : N4 t) : t :=
  inner a a

/-- Absolute value, `/repo/src/math/vector.h:821-823`. -/
def abs (sqrt : t → t) (a : N4 t) : t :=
  sqrt (norm a)

/-- Normalization, `/repo/src/math/vector.h:828-830`. -/
def normalize (sqrt : t → t) (a : N4 t) (b : t) : N4 t :=
  smul (b / abs sqrt a) a

/-- Projection factor, `/repo/src/math/vector.h:834-836`. -/
def proj (a b : N4 t) : t :=
  inner a b / inner b b

/-- Normalization as a method, `/repo/src/math/vector.h:841-843`. -/
def normalizeM (sqrt : t → t) (self : N4 t) (a : t) : N4 t :=
  smul (a / abs sqrt self) self

/-- `operator>>`, `/repo/src/math/vector.h:848-853`; `none`: the vector is given values that were never stored. -/
def read (p : List UInt8 → Option (t × List UInt8)) (s : Stream) : Option (N4 t) × Stream :=
  let q0 := extract p s
  let q1 := extract p q0.2
  let q2 := extract p q1.2
  let q3 := extract p q2.2
  (q0.1.bind fun tmp0 => q1.1.bind fun tmp1 => q2.1.bind fun tmp2 => q3.1.bind fun tmp3 => some (make tmp0 tmp1 tmp2 tmp3), q3.2)

/-- `operator<<`, `/repo/src/math/vector.h:857-859`. -/
def write (showT : t → List UInt8) (a : N4 t) : List UInt8 :=
  showT a.x ++ [32] ++ showT a.y ++ [32] ++ showT a.z ++ [32] ++ showT a.w

end N4

/-- `component_by_array::vector4`, `/repo/src/math/vector.h:869`. -/
structure A4 (t : Type) where
  r0 : t
  r1 : t
  r2 : t
  r3 : t
deriving DecidableEq

namespace A4

/-- The zero constructor, `/repo/src/math/vector.h:871-873`. -/
def zero : A4 t := { r0 := 0, r1 := 0, r2 := 0, r3 := 0 }

/-- The constructor from components, `/repo/src/math/vector.h:875-877`. -/
def make (cr0 cr1 cr2 cr3 : t) : A4 t := { r0 := cr0, r1 := cr1, r2 := cr2, r3 := cr3 }

/-- The constructor from a pointer, `/repo/src/math/vector.h:879-881`. -/
def fromArray (v : Nat → t) : A4 t := { r0 := v 0, r1 := v 1, r2 := v 2, r3 := v 3 }

/-- `writeToArray`, `/repo/src/math/vector.h:885-887`. -/
def writeToArray (a : A4 t) (v : Nat → t) : Nat → t :=
  upd (upd (upd (upd v 0 a.r0) 1 a.r1) 2 a.r2) 3 a.r3

/-- `operator[]`, `/repo/src/math/vector.h:890-897`; `none`: undefined, as no value is returned. -/
def get (a : A4 t) (index : Int) : Option t :=
  if index = 0 then some a.r0 else if index = 1 then some a.r1 else if index = 2 then some a.r2 else if index = 3 then some a.r3 else none

/-- Assignment to what `operator[]` returns, `/repo/src/math/vector.h:890-897`. -/
def set (a : A4 t) (index : Int) (c : t) : Option (A4 t) :=
  if index = 0 then some { a with r0 := c } else if index = 1 then some { a with r1 := c } else if index = 2 then some { a with r2 := c } else if index = 3 then some { a with r3 := c } else none

/-- Addition, `/repo/src/math/vector.h:902-904`. -/
def add (a b : A4 t) : A4 t :=
  make (a.r0 + b.r0) (a.r1 + b.r1) (a.r2 + b.r2) (a.r3 + b.r3)

/-- Subtraction, `/repo/src/math/vector.h:908-910`. -/
def sub (a b : A4 t) : A4 t :=
  make (a.r0 - b.r0) (a.r1 - b.r1) (a.r2 - b.r2) (a.r3 - b.r3)

/-- Negation, `/repo/src/math/vector.h:914-916`. -/
def neg (a : A4 t) : A4 t :=
  make (-a.r0) (-a.r1) (-a.r2) (-a.r3)

/-- Scalar multiplication, `/repo/src/math/vector.h:920-922`. -/
def smul (m : t) (a : A4 t) : A4 t :=
  make (m*a.r0) (m*a.r1) (m*a.r2) (m*a.r3)

/-- Scalar multiplication, with the scalar behind, `/repo/src/math/vector.h:924-926`. -/
def smulR (a : A4 t) (m : t) : A4 t :=
  make (m*a.r0) (m*a.r1) (m*a.r2) (m*a.r3)

/-- Division by a scalar, `/repo/src/math/vector.h:930-932`. -/
def sdiv (a : A4 t) (m : t) : A4 t :=
  make (a.r0/m) (a.r1/m) (a.r2/m) (a.r3/m)

/-- Inner product, `/repo/src/math/vector.h:936-938`. -/
def inner (a b : A4 t) : t :=
  a.r0*b.r0 + a.r1*b.r1 + a.r2*b.r2 + a.r3*b.r3

/-- `+=`: the new value of `a`, `/repo/src/math/vector.h:943-945`. -/
def addAssign (a b : A4 t) : A4 t :=
  add a b

/-- `-=`, `/repo/src/math/vector.h:948-950`. -/
def subAssign (a b : A4 t) : A4 t :=
  sub a b

/-- `*=`, `/repo/src/math/vector.h:953-955`. -/
def mulAssign (a : A4 t) (b : t) : A4 t :=
  smul b a

/-- `/=`, `/repo/src/math/vector.h:958-960`. -/
def divAssign (a : A4 t) (b : t) : A4 t :=
  sdiv a b

/-- Equality, `/repo/src/math/vector.h:966-968`. -/
def eq (a b : A4 t) : Bool :=
  decide (a.r0 = b.r0) && decide (a.r1 = b.r1) && decide (a.r2 = b.r2) && decide (a.r3 = b.r3)

/-- Dictionary order, `/repo/src/math/vector.h:972-977`. -/
def lt (a b : A4 t) : Bool :=
  if a.r0 ≠ b.r0 then decide (a.r0 < b.r0) else if a.r1 ≠ b.r1 then decide (a.r1 < b.r1) else if a.r2 ≠ b.r2 then decide (a.r2 < b.r2) else decide (a.r3 < b.r3)

/-- Square of the absolute value, `/repo/src/math/vector.h:981-983`. -/
def norm (a : A4 t) : t :=
  inner a a

/-- Absolute value, `/repo/src/math/vector.h:987-989`. -/
def abs (sqrt : t → t) (a : A4 t) : t :=
  sqrt (norm a)

/-- Normalization, `/repo/src/math/vector.h:994-996`. -/
def normalize (sqrt : t → t) (a : A4 t) (b : t) : A4 t :=
  smul (b / abs sqrt a) a

/-- Projection factor, `/repo/src/math/vector.h:1000-1002`. -/
def proj (a b : A4 t) : t :=
  inner a b / inner b b

/-- Normalization as a method, `/repo/src/math/vector.h:1007-1009`. -/
def normalizeM (sqrt : t → t) (self : A4 t) (a : t) : A4 t :=
  smul (a / abs sqrt self) self

/-- `operator>>`, `/repo/src/math/vector.h:1014-1019`; `none`: the vector is given values that were never stored. -/
def read (p : List UInt8 → Option (t × List UInt8)) (s : Stream) : Option (A4 t) × Stream :=
  let q0 := extract p s
  let q1 := extract p q0.2
  let q2 := extract p q1.2
  let q3 := extract p q2.2
  (q0.1.bind fun tmp0 => q1.1.bind fun tmp1 => q2.1.bind fun tmp2 => q3.1.bind fun tmp3 => some (make tmp0 tmp1 tmp2 tmp3), q3.2)

/-- `operator<<`, `/repo/src/math/vector.h:1023-1025`. -/
def write (showT : t → List UInt8) (a : A4 t) : List UInt8 :=
  showT a.r0 ++ [32] ++ showT a.r1 ++ [32] ++ showT a.r2 ++ [32] ++ showT a.r3

end A4

/-- `component_by_array::vector5`, `/repo/src/math/vector.h:1035`. -/
structure A5 (t : Type) where
  r0 : t
  r1 : t
  r2 : t
  r3 : t
  r4 : t
deriving DecidableEq

namespace A5

/-- The zero constructor, `/repo/src/math/vector.h:1037-1039`. -/
def zero : A5 t := { r0 := 0, r1 := 0, r2 := 0, r3 := 0, r4 := 0 }

/-- The constructor from components, `/repo/src/math/vector.h:1041-1043`. -/
def make (cr0 cr1 cr2 cr3 cr4 : t) : A5 t := { r0 := cr0, r1 := cr1, r2 := cr2, r3 := cr3, r4 := cr4 }

/-- The constructor from a pointer, `/repo/src/math/vector.h:1045-1047`. -/
def fromArray (v : Nat → t) : A5 t := { r0 := v 0, r1 := v 1, r2 := v 2, r3 := v 3, r4 := v 4 }

/-- `writeToArray`, `/repo/src/math/vector.h:1051-1053`. -/
def writeToArray (a : A5 t) (v : Nat → t) : Nat → t :=
  upd (upd (upd (upd (upd v 0 a.r0) 1 a.r1) 2 a.r2) 3 a.r3) 4 a.r4

/-- `operator[]`, `/repo/src/math/vector.h:1056-1064`; `none`: undefined, as no value is returned. -/
def get (a : A5 t) (index : Int) : Option t :=
  if index = 0 then some a.r0 else if index = 1 then some a.r1 else if index = 2 then some a.r2 else if index = 3 then some a.r3 else if index = 4 then some a.r4 else none

/-- Assignment to what `operator[]` returns, `/repo/src/math/vector.h:1056-1064`. -/
def set (a : A5 t) (index : Int) (c : t) : Option (A5 t) :=
  if index = 0 then some { a with r0 := c } else if index = 1 then some { a with r1 := c } else if index = 2 then some { a with r2 := c } else if index = 3 then some { a with r3 := c } else if index = 4 then some { a with r4 := c } else none

/-- Addition, `/repo/src/math/vector.h:1069-1071`. -/
def add (a b : A5 t) : A5 t :=
  make (a.r0 + b.r0) (a.r1 + b.r1) (a.r2 + b.r2) (a.r3 + b.r3) (a.r4 + b.r4)

/-- Subtraction, `/repo/src/math/vector.h:1075-1077`. -/
def sub (a b : A5 t) : A5 t :=
  make (a.r0 - b.r0) (a.r1 - b.r1) (a.r2 - b.r2) (a.r3 - b.r3) (a.r4 - b.r4)

/-- Negation, `/repo/src/math/vector.h:1081-1083`. -/
def neg (a : A5 t) : A5 t :=
  make (-a.r0) (-a.r1) (-a.r2) (-a.r3) (-a.r4)

/-- Scalar multiplication, `/repo/src/math/vector.h:1087-1089`. -/
def smul (m : t) (a : A5 t) : A5 t :=
  make (m*a.r0) (m*a.r1) (m*a.r2) (m*a.r3) (m*a.r4)

/-- Scalar multiplication, with the scalar behind, `/repo/src/math/vector.h:1091-1093`. -/
def smulR (a : A5 t) (m : t) : A5 t :=
  make (m*a.r0) (m*a.r1) (m*a.r2) (m*a.r3) (m*a.r4)

/-- Division by a scalar, `/repo/src/math/vector.h:1097-1099`. -/
def sdiv (a : A5 t) (m : t) : A5 t :=
  make (a.r0/m) (a.r1/m) (a.r2/m) (a.r3/m) (a.r4/m)

/-- Inner product, `/repo/src/math/vector.h:1103-1105`. -/
def inner (a b : A5 t) : t :=
  a.r0*b.r0 + a.r1*b.r1 + a.r2*b.r2 + a.r3*b.r3 + a.r4*b.r4

/-- `+=`: the new value of `a`, `/repo/src/math/vector.h:1110-1112`. -/
def addAssign (a b : A5 t) : A5 t :=
  add a b

/-- `-=`, `/repo/src/math/vector.h:1115-1117`. -/
def subAssign (a b : A5 t) : A5 t :=
  sub a b

/-- `*=`, `/repo/src/math/vector.h:1120-1122`. -/
def mulAssign (a : A5 t) (b : t) : A5 t :=
  smul b a

/-- `/=`, `/repo/src/math/vector.h:1125-1127`. -/
def divAssign (a : A5 t) (b : t) : A5 t :=
  sdiv a b

/-- Equality, `/repo/src/math/vector.h:1133-1135`. -/
def eq (a b : A5 t) : Bool :=
  decide (a.r0 = b.r0) && decide (a.r1 = b.r1) && decide (a.r2 = b.r2) && decide (a.r3 = b.r3) && decide (a.r4 = b.r4)

/-- Dictionary order, `/repo/src/math/vector.h:1139-1145`. -/
def lt (a b : A5 t) : Bool :=
  if a.r0 ≠ b.r0 then decide (a.r0 < b.r0) else if a.r1 ≠ b.r1 then decide (a.r1 < b.r1) else if a.r2 ≠ b.r2 then decide (a.r2 < b.r2) else if a.r3 ≠ b.r3 then decide (a.r3 < b.r3) else decide (a.r4 < b.r4)

/-- Square of the absolute value, `/repo/src/math/vector.h:1149-1151`. -/
def norm (a : A5 t) : t :=
  inner a a

/-- Absolute value, `/repo/src/math/vector.h:1155-1157`. -/
def abs (sqrt : t → t) (a : A5 t) : t :=
  sqrt (norm a)

/-- Normalization, `/repo/src/math/vector.h:1162-1164`. -/
def normalize (sqrt : t → t) (a : A5 t) (b : t) : A5 t :=
  smul (b / abs sqrt a) a

/-- Projection factor, `/repo/src/math/vector.h:1168-1170`. -/
def proj (a b : A5 t) : t :=
  inner a b / inner b b

/-- Normalization as a method, `/repo/src/math/vector.h:1175-1177`. -/
def normalizeM (sqrt : t → t) (self : A5 t) (a : t) : A5 t :=
  smul (a / abs sqrt self) self

/-- `operator>>`, `/repo/src/math/vector.h:1182-1187`; `none`: the vector is given values that were never stored. -/
def read (p : List UInt8 → Option (t × List UInt8)) (s : Stream) : Option (A5 t) × Stream :=
  let q0 := extract p s
  let q1 := extract p q0.2
  let q2 := extract p q1.2
  let q3 := extract p q2.2
  let q4 := extract p q3.2
  (q0.1.bind fun tmp0 => q1.1.bind fun tmp1 => q2.1.bind fun tmp2 => q3.1.bind fun tmp3 => q4.1.bind fun tmp4 => some (make tmp0 tmp1 tmp2 tmp3 tmp4), q4.2)

/-- `operator<<`, `/repo/src/math/vector.h:1191-1193`. -/
def write (showT : t → List UInt8) (a : A5 t) : List UInt8 :=
  showT a.r0 ++ [32] ++ showT a.r1 ++ [32] ++ showT a.r2 ++ [32] ++ showT a.r3 ++ [32] ++ showT a.r4

end A5

/-- `component_by_array::vector6`, `/repo/src/math/vector.h:1203`. -/
structure A6 (t : Type) where
  r0 : t
  r1 : t
  r2 : t
  r3 : t
  r4 : t
  r5 : t
deriving DecidableEq

namespace A6

/-- The zero constructor, `/repo/src/math/vector.h:1205-1207`. -/
def zero : A6 t := { r0 := 0, r1 := 0, r2 := 0, r3 := 0, r4 := 0, r5 := 0 }

/-- The constructor from components, `/repo/src/math/vector.h:1209-1211`. -/
def make (cr0 cr1 cr2 cr3 cr4 cr5 : t) : A6 t := { r0 := cr0, r1 := cr1, r2 := cr2, r3 := cr3, r4 := cr4, r5 := cr5 }

/-- The constructor from a pointer, `/repo/src/math/vector.h:1213-1215`. -/
def fromArray (v : Nat → t) : A6 t := { r0 := v 0, r1 := v 1, r2 := v 2, r3 := v 3, r4 := v 4, r5 := v 5 }

/-- `writeToArray`, `/repo/src/math/vector.h:1219-1221`. -/
def writeToArray (a : A6 t) (v : Nat → t) : Nat → t :=
  upd (upd (upd (upd (upd (upd v 0 a.r0) 1 a.r1) 2 a.r2) 3 a.r3) 4 a.r4) 5 a.r5

/-- `operator[]`, `/repo/src/math/vector.h:1224-1233`; `none`: undefined, as no value is returned. -/
def get (a : A6 t) (index : Int) : Option t :=
  if index = 0 then some a.r0 else if index = 1 then some a.r1 else if index = 2 then some a.r2 else if index = 3 then some a.r3 else if index = 4 then some a.r4 else if index = 5 then some a.r5 else none

/-- Assignment to what `operator[]` returns, `/repo/src/math/vector.h:1224-1233`. -/
def set (a : A6 t) (index : Int) (c : t) : Option (A6 t) :=
  if index = 0 then some { a with r0 := c } else if index = 1 then some { a with r1 := c } else if index = 2 then some { a with r2 := c } else if index = 3 then some { a with r3 := c } else if index = 4 then some { a with r4 := c } else if index = 5 then some { a with r5 := c } else none

/-- Addition, `/repo/src/math/vector.h:1238-1240`. -/
def add (a b : A6 t) : A6 t :=
  make (a.r0 + b.r0) (a.r1 + b.r1) (a.r2 + b.r2) (a.r3 + b.r3) (a.r4 + b.r4) (a.r5 + b.r5)

/-- Subtraction, `/repo/src/math/vector.h:1244-1246`. -/
def sub (a b : A6 t) : A6 t :=
  make (a.r0 - b.r0) (a.r1 - b.r1) (a.r2 - b.r2) (a.r3 - b.r3) (a.r4 - b.r4) (a.r5 - b.r5)

/-- Negation, `/repo/src/math/vector.h:1250-1252`. -/
def neg (a : A6 t) : A6 t :=
  make (-a.r0) (-a.r1) (-a.r2) (-a.r3) (-a.r4) (-a.r5)

/-- Scalar multiplication, `/repo/src/math/vector.h:1256-1258`. -/
def smul (m : t) (a : A6 t) : A6 t :=
  make (m*a.r0) (m*a.r1) (m*a.r2) (m*a.r3) (m*a.r4) (m*a.r5)

/-- Scalar multiplication, with the scalar behind, `/repo/src/math/vector.h:1260-1262`. -/
def smulR (a : A6 t) (m : t) : A6 t :=
  make (m*a.r0) (m*a.r1) (m*a.r2) (m*a.r3) (m*a.r4) (m*a.r5)

/-- Division by a scalar, `/repo/src/math/vector.h:1266-1268`. -/
def sdiv (a : A6 t) (m : t) : A6 t :=
  make (a.r0/m) (a.r1/m) (a.r2/m) (a.r3/m) (a.r4/m) (a.r5/m)

/-- Inner product, `/repo/src/math/vector.h:1272-1274`. -/
def inner (a b : A6 t) : t :=
  a.r0*b.r0 + a.r1*b.r1 + a.r2*b.r2 + a.r3*b.r3 + a.r4*b.r4 + a.r5*b.r5

/-- `+=`: the new value of `a`, `/repo/src/math/vector.h:1279-1281`. -/
def addAssign (a b : A6 t) : A6 t :=
  add a b

/-- `-=`, `/repo/src/math/vector.h:1284-1286`. -/
def subAssign (a b : A6 t) : A6 t :=
  sub a b

/-- `*=`, `/repo/src/math/vector.h:1289-1291`. -/
def mulAssign (a : A6 t) (b : t) : A6 t :=
  smul b a

/-- `/=`, `/repo/src/math/vector.h:1294-1296`. -/
def divAssign (a : A6 t) (b : t) : A6 t :=
  sdiv a b

/-- Equality, `/repo/src/math/vector.h:1302-1304`. -/
def eq (a b : A6 t) : Bool :=
  decide (a.r0 = b.r0) && decide (a.r1 = b.r1) && decide (a.r2 = b.r2) && decide (a.r3 = b.r3) && decide (a.r4 = b.r4) && decide (a.r5 = b.r5)

/-- Dictionary order, `/repo/src/math/vector.h:1308-1315`. -/
def lt (a b : A6 t) : Bool :=
  if a.r0 ≠ b.r0 then decide (a.r0 < b.r0) else if a.r1 ≠ b.r1 then decide (a.r1 < b.r1) else if a.r2 ≠ b.r2 then decide (a.r2 < b.r2) else if a.r3 ≠ b.r3 then decide (a.r3 < b.r3) else if a.r4 ≠ b.r4 then decide (a.r4 < b.r4) else decide (a.r5 < b.r5)

/-- Square of the absolute value, `/repo/src/math/vector.h:1319-1321`. -/
def norm (a : A6 t) : t :=
  inner a a

/-- Absolute value, `/repo/src/math/vector.h:1325-1327`. -/
def abs (sqrt : t → t) (a : A6 t) : t :=
  sqrt (norm a)

/-- Normalization, `/repo/src/math/vector.h:1332-1334`. -/
def normalize (sqrt : t → t) (a : A6 t) (b : t) : A6 t :=
  smul (b / abs sqrt a) a

/-- Projection factor, `/repo/src/math/vector.h:1338-1340`. -/
def proj (a b : A6 t) : t :=
  inner a b / inner b b

/-- Normalization as a method, `/repo/src/math/vector.h:1345-1347`. -/
def normalizeM (sqrt : t → t) (self : A6 t) (a : t) : A6 t :=
  smul (a / abs sqrt self) self

/-- `operator>>`, `/repo/src/math/vector.h:1352-1357`; `none`: the vector is given values that were never stored. -/
def read (p : List UInt8 → Option (t × List UInt8)) (s : Stream) : Option (A6 t) × Stream :=
  let q0 := extract p s
  let q1 := extract p q0.2
  let q2 := extract p q1.2
  let q3 := extract p q2.2
  let q4 := extract p q3.2
  let q5 := extract p q4.2
  (q0.1.bind fun tmp0 => q1.1.bind fun tmp1 => q2.1.bind fun tmp2 => q3.1.bind fun tmp3 => q4.1.bind fun tmp4 => q5.1.bind fun tmp5 => some (make tmp0 tmp1 tmp2 tmp3 tmp4 tmp5), q5.2)

/-- `operator<<`, `/repo/src/math/vector.h:1361-1363`. -/
def write (showT : t → List UInt8) (a : A6 t) : List UInt8 :=
  showT a.r0 ++ [32] ++ showT a.r1 ++ [32] ++ showT a.r2 ++ [32] ++ showT a.r3 ++ [32] ++ showT a.r4 ++ [32] ++ showT a.r5

end A6

/-- `component_by_array::vector7`, `/repo/src/math/vector.h:1373`. -/
structure A7 (t : Type) where
  r0 : t
  r1 : t
  r2 : t
  r3 : t
  r4 : t
  r5 : t
  r6 : t
deriving DecidableEq

namespace A7

/-- The zero constructor, `/repo/src/math/vector.h:1375-1377`. -/
def zero : A7 t := { r0 := 0, r1 := 0, r2 := 0, r3 := 0, r4 := 0, r5 := 0, r6 := 0 }

/-- The constructor from components, `/repo/src/math/vector.h:1379-1381`. -/
def make (cr0 cr1 cr2 cr3 cr4 cr5 cr6 : t) : A7 t := { r0 := cr0, r1 := cr1, r2 := cr2, r3 := cr3, r4 := cr4, r5 := cr5, r6 := cr6 }

/-- The constructor from a pointer, `/repo/src/math/vector.h:1383-1385`. -/
def fromArray (v : Nat → t) : A7 t := { r0 := v 0, r1 := v 1, r2 := v 2, r3 := v 3, r4 := v 4, r5 := v 5, r6 := v 6 }

/-- `writeToArray`, `/repo/src/math/vector.h:1389-1391`. -/
def writeToArray (a : A7 t) (v : Nat → t) : Nat → t :=
  upd (upd (upd (upd (upd (upd (upd v 0 a.r0) 1 a.r1) 2 a.r2) 3 a.r3) 4 a.r4) 5 a.r5) 6 a.r6

/-- `operator[]`, `/repo/src/math/vector.h:1394-1404`; `none`: undefined, as no value is returned. -/
def get (a : A7 t) (index : Int) : Option t :=
  if index = 0 then some a.r0 else if index = 1 then some a.r1 else if index = 2 then some a.r2 else if index = 3 then some a.r3 else if index = 4 then some a.r4 else if index = 5 then some a.r5 else if index = 6 then some a.r6 else none

/-- Assignment to what `operator[]` returns, `/repo/src/math/vector.h:1394-1404`. -/
def set (a : A7 t) (index : Int) (c : t) : Option (A7 t) :=
  if index = 0 then some { a with r0 := c } else if index = 1 then some { a with r1 := c } else if index = 2 then some { a with r2 := c } else if index = 3 then some { a with r3 := c } else if index = 4 then some { a with r4 := c } else if index = 5 then some { a with r5 := c } else if index = 6 then some { a with r6 := c } else none

/-- Addition, `/repo/src/math/vector.h:1409-1411`. -/
def add (a b : A7 t) : A7 t :=
  make (a.r0 + b.r0) (a.r1 + b.r1) (a.r2 + b.r2) (a.r3 + b.r3) (a.r4 + b.r4) (a.r5 + b.r5) (a.r6 + b.r6)

/-- Subtraction, `/repo/src/math/vector.h:1415-1417`. -/
def sub (a b : A7 t) : A7 t :=
  make (a.r0 - b.r0) (a.r1 - b.r1) (a.r2 - b.r2) (a.r3 - b.r3) (a.r4 - b.r4) (a.r5 - b.r5) (a.r6 - b.r6)

/-- Negation, `/repo/src/math/vector.h:1421-1423`. -/
def neg (a : A7 t) : A7 t :=
  make (-a.r0) (-a.r1) (-a.r2) (-a.r3) (-a.r4) (-a.r5) (-a.r6)

/-- Scalar multiplication, `/repo/src/math/vector.h:1427-1429`. -/
def smul (m : t) (a : A7 t) : A7 t :=
  make (m*a.r0) (m*a.r1) (m*a.r2) (m*a.r3) (m*a.r4) (m*a.r5) (m*a.r6)

/-- Scalar multiplication, with the scalar behind, `/repo/src/math/vector.h:1431-1433`. -/
def smulR (a : A7 t) (m : t) : A7 t :=
  make (m*a.r0) (m*a.r1) (m*a.r2) (m*a.r3) (m*a.r4) (m*a.r5) (m*a.r6)

/-- Division by a scalar, `/repo/src/math/vector.h:1437-1439`. -/
def sdiv (a : A7 t) (m : t) : A7 t :=
  make (a.r0/m) (a.r1/m) (a.r2/m) (a.r3/m) (a.r4/m) (a.r5/m) (a.r6/m)

/-- Inner product, `/repo/src/math/vector.h:1443-1445`. -/
def inner (a b : A7 t) : t :=
  a.r0*b.r0 + a.r1*b.r1 + a.r2*b.r2 + a.r3*b.r3 + a.r4*b.r4 + a.r5*b.r5 + a.r6*b.r6

/-- `+=`: the new value of `a`, `/repo/src/math/vector.h:1450-1452`. -/
def addAssign (a b : A7 t) : A7 t :=
  add a b

/-- `-=`, `/repo/src/math/vector.h:1455-1457`. -/
def subAssign (a b : A7 t) : A7 t :=
  sub a b

/-- `*=`, `/repo/src/math/vector.h:1460-1462`. -/
def mulAssign (a : A7 t) (b : t) : A7 t :=
  smul b a

/-- `/=`, `/repo/src/math/vector.h:1465-1467`. -/
def divAssign (a : A7 t) (b : t) : A7 t :=
  sdiv a b

/-- Equality, `/repo/src/math/vector.h:1473-1475`. -/
def eq (a b : A7 t) : Bool :=
  decide (a.r0 = b.r0) && decide (a.r1 = b.r1) && decide (a.r2 = b.r2) && decide (a.r3 = b.r3) && decide (a.r4 = b.r4) && decide (a.r5 = b.r5) && decide (a.r6 = b.r6)

/-- Dictionary order, `/repo/src/math/vector.h:1479-1487`. -/
def lt (a b : A7 t) : Bool :=
  if a.r0 ≠ b.r0 then decide (a.r0 < b.r0) else if a.r1 ≠ b.r1 then decide (a.r1 < b.r1) else if a.r2 ≠ b.r2 then decide (a.r2 < b.r2) else if a.r3 ≠ b.r3 then decide (a.r3 < b.r3) else if a.r4 ≠ b.r4 then decide (a.r4 < b.r4) else if a.r5 ≠ b.r5 then decide (a.r5 < b.r5) else decide (a.r6 < b.r6)

/-- Square of the absolute value, `/repo/src/math/vector.h:1491-1493`. -/
def norm (a : A7 t) : t :=
  inner a a

/-- Absolute value, `/repo/src/math/vector.h:1497-1499`. -/
def abs (sqrt : t → t) (a : A7 t) : t :=
  sqrt (norm a)

/-- Normalization, `/repo/src/math/vector.h:1504-1506`. -/
def normalize (sqrt : t → t) (a : A7 t) (b : t) : A7 t :=
  smul (b / abs sqrt a) a

/-- Projection factor, `/repo/src/math/vector.h:1510-1512`. -/
def proj (a b : A7 t) : t :=
  inner a b / inner b b

/-- Normalization as a method, `/repo/src/math/vector.h:1517-1519`. -/
def normalizeM (sqrt : t → t) (self : A7 t) (a : t) : A7 t :=
  smul (a / abs sqrt self) self

/-- `operator>>`, `/repo/src/math/vector.h:1524-1529`; `none`: the vector is given values that were never stored. -/
def read (p : List UInt8 → Option (t × List UInt8)) (s : Stream) : Option (A7 t) × Stream :=
  let q0 := extract p s
  let q1 := extract p q0.2
  let q2 := extract p q1.2
  let q3 := extract p q2.2
  let q4 := extract p q3.2
  let q5 := extract p q4.2
  let q6 := extract p q5.2
  (q0.1.bind fun tmp0 => q1.1.bind fun tmp1 => q2.1.bind fun tmp2 => q3.1.bind fun tmp3 => q4.1.bind fun tmp4 => q5.1.bind fun tmp5 => q6.1.bind fun tmp6 => some (make tmp0 tmp1 tmp2 tmp3 tmp4 tmp5 tmp6), q6.2)

/-- `operator<<`, `/repo/src/math/vector.h:1533-1535`. -/
def write (showT : t → List UInt8) (a : A7 t) : List UInt8 :=
  showT a.r0 ++ [32] ++ showT a.r1 ++ [32] ++ showT a.r2 ++ [32] ++ showT a.r3 ++ [32] ++ showT a.r4 ++ [32] ++ showT a.r5 ++ [32] ++ showT a.r6

end A7

/-- `component_by_array::vector8`, `/repo/src/math/vector.h:1545`. -/
structure A8 (t : Type) where
  r0 : t
  r1 : t
  r2 : t
  r3 : t
  r4 : t
  r5 : t
  r6 : t
  r7 : t
deriving DecidableEq

namespace A8

/-- The zero constructor, `/repo/src/math/vector.h:1547-1549`. -/
def zero : A8 t := { r0 := 0, r1 := 0, r2 := 0, r3 := 0, r4 := 0, r5 := 0, r6 := 0, r7 := 0 }

/-- The constructor from components, `/repo/src/math/vector.h:1551-1553`. -/
def make (cr0 cr1 cr2 cr3 cr4 cr5 cr6 cr7 : t) : A8 t := { r0 := cr0, r1 := cr1, r2 := cr2, r3 := cr3, r4 := cr4, r5 := cr5, r6 := cr6, r7 := cr7 }

/-- The constructor from a pointer, `/repo/src/math/vector.h:1555-1557`. -/
def fromArray (v : Nat → t) : A8 t := { r0 := v 0, r1 := v 1, r2 := v 2, r3 := v 3, r4 := v 4, r5 := v 5, r6 := v 6, r7 := v 7 }

/-- `writeToArray`, `/repo/src/math/vector.h:1561-1563`. -/
def writeToArray (a : A8 t) (v : Nat → t) : Nat → t :=
  upd (upd (upd (upd (upd (upd (upd (upd v 0 a.r0) 1 a.r1) 2 a.r2) 3 a.r3) 4 a.r4) 5 a.r5) 6 a.r6) 7 a.r7

/-- `operator[]`, `/repo/src/math/vector.h:1566-1577`; `none`: undefined, as no value is returned. -/
def get (a : A8 t) (index : Int) : Option t :=
  if index = 0 then some a.r0 else if index = 1 then some a.r1 else if index = 2 then some a.r2 else if index = 3 then some a.r3 else if index = 4 then some a.r4 else if index = 5 then some a.r5 else if index = 6 then some a.r6 else if index = 7 then some a.r7 else none

/-- Assignment to what `operator[]` returns, `/repo/src/math/vector.h:1566-1577`. -/
def set (a : A8 t) (index : Int) (c : t) : Option (A8 t) :=
  if index = 0 then some { a with r0 := c } else if index = 1 then some { a with r1 := c } else if index = 2 then some { a with r2 := c } else if index = 3 then some { a with r3 := c } else if index = 4 then some { a with r4 := c } else if index = 5 then some { a with r5 := c } else if index = 6 then some { a with r6 := c } else if index = 7 then some { a with r7 := c } else none

/-- Addition, `/repo/src/math/vector.h:1582-1584`. -/
def add (a b : A8 t) : A8 t :=
  make (a.r0 + b.r0) (a.r1 + b.r1) (a.r2 + b.r2) (a.r3 + b.r3) (a.r4 + b.r4) (a.r5 + b.r5) (a.r6 + b.r6) (a.r7 + b.r7)

/-- Subtraction, `/repo/src/math/vector.h:1588-1590`. -/
def sub (a b : A8 t) : A8 t :=
  make (a.r0 - b.r0) (a.r1 - b.r1) (a.r2 - b.r2) (a.r3 - b.r3) (a.r4 - b.r4) (a.r5 - b.r5) (a.r6 - b.r6) (a.r7 - b.r7)

/-- Negation, `/repo/src/math/vector.h:1594-1596`. -/
def neg (a : A8 t) : A8 t :=
  make (-a.r0) (-a.r1) (-a.r2) (-a.r3) (-a.r4) (-a.r5) (-a.r6) (-a.r7)

/-- Scalar multiplication, `/repo/src/math/vector.h:1600-1602`. -/
def smul (m : t) (a : A8 t) : A8 t :=
  make (m*a.r0) (m*a.r1) (m*a.r2) (m*a.r3) (m*a.r4) (m*a.r5) (m*a.r6) (m*a.r7)

/-- Scalar multiplication, with the scalar behind, `/repo/src/math/vector.h:1604-1606`. -/
def smulR (a : A8 t) (m : t) : A8 t :=
  make (m*a.r0) (m*a.r1) (m*a.r2) (m*a.r3) (m*a.r4) (m*a.r5) (m*a.r6) (m*a.r7)

/-- Division by a scalar, `/repo/src/math/vector.h:1610-1612`. -/
def sdiv (a : A8 t) (m : t) : A8 t :=
  make (a.r0/m) (a.r1/m) (a.r2/m) (a.r3/m) (a.r4/m) (a.r5/m) (a.r6/m) (a.r7/m)

/-- Inner product, `/repo/src/math/vector.h:1616-1618`. -/
def inner (a b : A8 t) : t :=
  a.r0*b.r0 + a.r1*b.r1 + a.r2*b.r2 + a.r3*b.r3 + a.r4*b.r4 + a.r5*b.r5 + a.r6*b.r6 + a.r7*b.r7

/-- `+=`: the new value of `a`, `/repo/src/math/vector.h:1623-1625`. -/
def addAssign (a b : A8 t) : A8 t :=
  add a b

/-- `-=`, `/repo/src/math/vector.h:1628-1630`. -/
def subAssign (a b : A8 t) : A8 t :=
  sub a b

/-- `*=`, `/repo/src/math/vector.h:1633-1635`. -/
def mulAssign (a : A8 t) (b : t) : A8 t :=
  smul b a

/-- `/=`, `/repo/src/math/vector.h:1638-1640`. -/
def divAssign (a : A8 t) (b : t) : A8 t :=
  sdiv a b

/-- Equality, `/repo/src/math/vector.h:1646-1648`. -/
def eq (a b : A8 t) : Bool :=
  decide (a.r0 = b.r0) && decide (a.r1 = b.r1) && decide (a.r2 = b.r2) && decide (a.r3 = b.r3) && decide (a.r4 = b.r4) && decide (a.r5 = b.r5) && decide (a.r6 = b.r6) && decide (a.r7 = b.r7)

/-- Dictionary order, `/repo/src/math/vector.h:1652-1661`. -/
def lt (a b : A8 t) : Bool :=
  if a.r0 ≠ b.r0 then decide (a.r0 < b.r0) else if a.r1 ≠ b.r1 then decide (a.r1 < b.r1) else if a.r2 ≠ b.r2 then decide (a.r2 < b.r2) else if a.r3 ≠ b.r3 then decide (a.r3 < b.r3) else if a.r4 ≠ b.r4 then decide (a.r4 < b.r4) else if a.r5 ≠ b.r5 then decide (a.r5 < b.r5) else if a.r6 ≠ b.r6 then decide (a.r6 < b.r6) else decide (a.r7 < b.r7)

/-- Square of the absolute value, `/repo/src/math/vector.h:1665-1667`. -/
def norm (a : A8 t) : t :=
  inner a a

/-- Absolute value, `/repo/src/math/vector.h:1671-1673`. -/
def abs (sqrt : t → t) (a : A8 t) : t :=
  sqrt (norm a)

/-- Normalization, `/repo/src/math/vector.h:1678-1680`. -/
def normalize (sqrt : t → t) (a : A8 t) (b : t) : A8 t :=
  smul (b / abs sqrt a) a

/-- Projection factor, `/repo/src/math/vector.h:1684-1686`. -/
def proj (a b : A8 t) : t :=
  inner a b / inner b b

/-- Normalization as a method, `/repo/src/math/vector.h:1691-1693`. -/
def normalizeM (sqrt : t → t) (self : A8 t) (a : t) : A8 t :=
  smul (a / abs sqrt self) self

/-- `operator>>`, `/repo/src/math/vector.h:1698-1703`; `none`: the vector is given values that were never stored. -/
def read (p : List UInt8 → Option (t × List UInt8)) (s : Stream) : Option (A8 t) × Stream :=
  let q0 := extract p s
  let q1 := extract p q0.2
  let q2 := extract p q1.2
  let q3 := extract p q2.2
  let q4 := extract p q3.2
  let q5 := extract p q4.2
  let q6 := extract p q5.2
  let q7 := extract p q6.2
  (q0.1.bind fun tmp0 => q1.1.bind fun tmp1 => q2.1.bind fun tmp2 => q3.1.bind fun tmp3 => q4.1.bind fun tmp4 => q5.1.bind fun tmp5 => q6.1.bind fun tmp6 => q7.1.bind fun tmp7 => some (make tmp0 tmp1 tmp2 tmp3 tmp4 tmp5 tmp6 tmp7), q7.2)

/-- `operator<<`, `/repo/src/math/vector.h:1707-1709`. -/
def write (showT : t → List UInt8) (a : A8 t) : List UInt8 :=
  showT a.r0 ++ [32] ++ showT a.r1 ++ [32] ++ showT a.r2 ++ [32] ++ showT a.r3 ++ [32] ++ showT a.r4 ++ [32] ++ showT a.r5 ++ [32] ++ showT a.r6 ++ [32] ++ showT a.r7

end A8

/-- `component_by_array::vector9`, `/repo/src/math/vector.h:1719`. -/
structure A9 (t : Type) where
  r0 : t
  r1 : t
  r2 : t
  r3 : t
  r4 : t
  r5 : t
  r6 : t
  r7 : t
  r8 : t
deriving DecidableEq

namespace A9

/-- The zero constructor, `/repo/src/math/vector.h:1721-1723`. -/
def zero : A9 t := { r0 := 0, r1 := 0, r2 := 0, r3 := 0, r4 := 0, r5 := 0, r6 := 0, r7 := 0, r8 := 0 }

/-- The constructor from components, `/repo/src/math/vector.h:1725-1727`. -/
def make (cr0 cr1 cr2 cr3 cr4 cr5 cr6 cr7 cr8 : t) : A9 t := { r0 := cr0, r1 := cr1, r2 := cr2, r3 := cr3, r4 := cr4, r5 := cr5, r6 := cr6, r7 := cr7, r8 := cr8 }

/-- The constructor from a pointer, `/repo/src/math/vector.h:1729-1731`. -/
def fromArray (v : Nat → t) : A9 t := { r0 := v 0, r1 := v 1, r2 := v 2, r3 := v 3, r4 := v 4, r5 := v 5, r6 := v 6, r7 := v 7, r8 := v 8 }

/-- `writeToArray`, `/repo/src/math/vector.h:1735-1737`. -/
def writeToArray (a : A9 t) (v : Nat → t) : Nat → t :=
  upd (upd (upd (upd (upd (upd (upd (upd (upd v 0 a.r0) 1 a.r1) 2 a.r2) 3 a.r3) 4 a.r4) 5 a.r5) 6 a.r6) 7 a.r7) 8 a.r8

/-- `operator[]`, `/repo/src/math/vector.h:1740-1752`; `none`: undefined, as no value is returned. -/
def get (a : A9 t) (index : Int) : Option t :=
  if index = 0 then some a.r0 else if index = 1 then some a.r1 else if index = 2 then some a.r2 else if index = 3 then some a.r3 else if index = 4 then some a.r4 else if index = 5 then some a.r5 else if index = 6 then some a.r6 else if index = 7 then some a.r7 else if index = 8 then some a.r8 else none

/-- Assignment to what `operator[]` returns, `/repo/src/math/vector.h:1740-1752`. -/
def set (a : A9 t) (index : Int) (c : t) : Option (A9 t) :=
  if index = 0 then some { a with r0 := c } else if index = 1 then some { a with r1 := c } else if index = 2 then some { a with r2 := c } else if index = 3 then some { a with r3 := c } else if index = 4 then some { a with r4 := c } else if index = 5 then some { a with r5 := c } else if index = 6 then some { a with r6 := c } else if index = 7 then some { a with r7 := c } else if index = 8 then some { a with r8 := c } else none

/-- Addition, `/repo/src/math/vector.h:1757-1759`. -/
def add (a b : A9 t) : A9 t :=
  make (a.r0 + b.r0) (a.r1 + b.r1) (a.r2 + b.r2) (a.r3 + b.r3) (a.r4 + b.r4) (a.r5 + b.r5) (a.r6 + b.r6) (a.r7 + b.r7) (a.r8 + b.r8)

/-- Subtraction, `/repo/src/math/vector.h:1763-1765`. -/
def sub (a b : A9 t) : A9 t :=
  make (a.r0 - b.r0) (a.r1 - b.r1) (a.r2 - b.r2) (a.r3 - b.r3) (a.r4 - b.r4) (a.r5 - b.r5) (a.r6 - b.r6) (a.r7 - b.r7) (a.r8 - b.r8)

/-- Negation, `/repo/src/math/vector.h:1769-1771`. -/
def neg (a : A9 t) : A9 t :=
  make (-a.r0) (-a.r1) (-a.r2) (-a.r3) (-a.r4) (-a.r5) (-a.r6) (-a.r7) (-a.r8)

/-- Scalar multiplication, `/repo/src/math/vector.h:1775-1777`. -/
def smul (m : t) (a : A9 t) : A9 t :=
  make (m*a.r0) (m*a.r1) (m*a.r2) (m*a.r3) (m*a.r4) (m*a.r5) (m*a.r6) (m*a.r7) (m*a.r8)

/-- Scalar multiplication, with the scalar behind, `/repo/src/math/vector.h:1779-1781`. -/
def smulR (a : A9 t) (m : t) : A9 t :=
  make (m*a.r0) (m*a.r1) (m*a.r2) (m*a.r3) (m*a.r4) (m*a.r5) (m*a.r6) (m*a.r7) (m*a.r8)

/-- Division by a scalar, `/repo/src/math/vector.h:1785-1787`. -/
def sdiv (a : A9 t) (m : t) : A9 t :=
  make (a.r0/m) (a.r1/m) (a.r2/m) (a.r3/m) (a.r4/m) (a.r5/m) (a.r6/m) (a.r7/m) (a.r8/m)

/-- Inner product, `/repo/src/math/vector.h:1791-1793`. -/
def inner (a b : A9 t) : t :=
  a.r0*b.r0 + a.r1*b.r1 + a.r2*b.r2 + a.r3*b.r3 + a.r4*b.r4 + a.r5*b.r5 + a.r6*b.r6 + a.r7*b.r7 + a.r8*b.r8

/-- `+=`: the new value of `a`, `/repo/src/math/vector.h:1798-1800`. -/
def addAssign (a b : A9 t) : A9 t :=
  add a b

/-- `-=`, `/repo/src/math/vector.h:1803-1805`. -/
def subAssign (a b : A9 t) : A9 t :=
  sub a b

/-- `*=`, `/repo/src/math/vector.h:1808-1810`. -/
def mulAssign (a : A9 t) (b : t) : A9 t :=
  smul b a

/-- `/=`, `/repo/src/math/vector.h:1813-1815`. -/
def divAssign (a : A9 t) (b : t) : A9 t :=
  sdiv a b

/-- Equality, `/repo/src/math/vector.h:1821-1823`. -/
def eq (a b : A9 t) : Bool :=
  decide (a.r0 = b.r0) && decide (a.r1 = b.r1) && decide (a.r2 = b.r2) && decide (a.r3 = b.r3) && decide (a.r4 = b.r4) && decide (a.r5 = b.r5) && decide (a.r6 = b.r6) && decide (a.r7 = b.r7) && decide (a.r8 = b.r8)

/-- Dictionary order, `/repo/src/math/vector.h:1827-1837`. -/
def lt (a b : A9 t) : Bool :=
  if a.r0 ≠ b.r0 then decide (a.r0 < b.r0) else if a.r1 ≠ b.r1 then decide (a.r1 < b.r1) else if a.r2 ≠ b.r2 then decide (a.r2 < b.r2) else if a.r3 ≠ b.r3 then decide (a.r3 < b.r3) else if a.r4 ≠ b.r4 then decide (a.r4 < b.r4) else if a.r5 ≠ b.r5 then decide (a.r5 < b.r5) else if a.r6 ≠ b.r6 then decide (a.r6 < b.r6) else if a.r7 ≠ b.r7 then decide (a.r7 < b.r7) else decide (a.r8 < b.r8)

/-- Square of the absolute value, `/repo/src/math/vector.h:1841-1843`. -/
def norm (a : A9 t) : t :=
  inner a a

/-- Absolute value, `/repo/src/math/vector.h:1847-1849`. -/
def abs (sqrt : t → t) (a : A9 t) : t :=
  sqrt (norm a)

/-- Normalization, `/repo/src/math/vector.h:1854-1856`. -/
def normalize (sqrt : t → t) (a : A9 t) (b : t) : A9 t :=
  smul (b / abs sqrt a) a

/-- Projection factor, `/repo/src/math/vector.h:1860-1862`. -/
def proj (a b : A9 t) : t :=
  inner a b / inner b b

/-- Normalization as a method, `/repo/src/math/vector.h:1867-1869`. -/
def normalizeM (sqrt : t → t) (self : A9 t) (a : t) : A9 t :=
  smul (a / abs sqrt self) self

/-- `operator>>`, `/repo/src/math/vector.h:1874-1879`; `none`: the vector is given values that were never stored. -/
def read (p : List UInt8 → Option (t × List UInt8)) (s : Stream) : Option (A9 t) × Stream :=
  let q0 := extract p s
  let q1 := extract p q0.2
  let q2 := extract p q1.2
  let q3 := extract p q2.2
  let q4 := extract p q3.2
  let q5 := extract p q4.2
  let q6 := extract p q5.2
  let q7 := extract p q6.2
  let q8 := extract p q7.2
  (q0.1.bind fun tmp0 => q1.1.bind fun tmp1 => q2.1.bind fun tmp2 => q3.1.bind fun tmp3 => q4.1.bind fun tmp4 => q5.1.bind fun tmp5 => q6.1.bind fun tmp6 => q7.1.bind fun tmp7 => q8.1.bind fun tmp8 => some (make tmp0 tmp1 tmp2 tmp3 tmp4 tmp5 tmp6 tmp7 tmp8), q8.2)

/-- `operator<<`, `/repo/src/math/vector.h:1883-1885`. -/
def write (showT : t → List UInt8) (a : A9 t) : List UInt8 :=
  showT a.r0 ++ [32] ++ showT a.r1 ++ [32] ++ showT a.r2 ++ [32] ++ showT a.r3 ++ [32] ++ showT a.r4 ++ [32] ++ showT a.r5 ++ [32] ++ showT a.r6 ++ [32] ++ showT a.r7 ++ [32] ++ showT a.r8

end A9

/-- `component_by_array::vector10`, `/repo/src/math/vector.h:1895`. -/
structure A10 (t : Type) where
  r0 : t
  r1 : t
  r2 : t
  r3 : t
  r4 : t
  r5 : t
  r6 : t
  r7 : t
  r8 : t
  r9 : t
deriving DecidableEq

namespace A10

/-- The zero constructor, `/repo/src/math/vector.h:1897-1899`. -/
def zero : A10 t := { r0 := 0, r1 := 0, r2 := 0, r3 := 0, r4 := 0, r5 := 0, r6 := 0, r7 := 0, r8 := 0, r9 := 0 }

/-- The constructor from components, `/repo/src/math/vector.h:1901-1903`. -/
def make (cr0 cr1 cr2 cr3 cr4 cr5 cr6 cr7 cr8 cr9 : t) : A10 t := { r0 := cr0, r1 := cr1, r2 := cr2, r3 := cr3, r4 := cr4, r5 := cr5, r6 := cr6, r7 := cr7, r8 := cr8, r9 := cr9 }

/-- The constructor from a pointer, `/repo/src/math/vector.h:1905-1907`. -/
def fromArray (v : Nat → t) : A10 t := { r0 := v 0, r1 := v 1, r2 := v 2, r3 := v 3, r4 := v 4, r5 := v 5, r6 := v 6, r7 := v 7, r8 := v 8, r9 := v 9 }

/-- `writeToArray`, `/repo/src/math/vector.h:1911-1913`. -/
def writeToArray (a : A10 t) (v : Nat → t) : Nat → t :=
  upd (upd (upd (upd (upd (upd (upd (upd (upd (upd v 0 a.r0) 1 a.r1) 2 a.r2) 3 a.r3) 4 a.r4) 5 a.r5) 6 a.r6) 7 a.r7) 8 a.r8) 9 a.r9

/-- `operator[]`, `/repo/src/math/vector.h:1916-1929`; `none`: undefined, as no value is returned. -/
def get (a : A10 t) (index : Int) : Option t :=
  if index = 0 then some a.r0 else if index = 1 then some a.r1 else if index = 2 then some a.r2 else if index = 3 then some a.r3 else if index = 4 then some a.r4 else if index = 5 then some a.r5 else if index = 6 then some a.r6 else if index = 7 then some a.r7 else if index = 8 then some a.r8 else if index = 9 then some a.r9 else none

/-- Assignment to what `operator[]` returns, `/repo/src/math/vector.h:1916-1929`. -/
def set (a : A10 t) (index : Int) (c : t) : Option (A10 t) :=
  if index = 0 then some { a with r0 := c } else if index = 1 then some { a with r1 := c } else if index = 2 then some { a with r2 := c } else if index = 3 then some { a with r3 := c } else if index = 4 then some { a with r4 := c } else if index = 5 then some { a with r5 := c } else if index = 6 then some { a with r6 := c } else if index = 7 then some { a with r7 := c } else if index = 8 then some { a with r8 := c } else if index = 9 then some { a with r9 := c } else none

/-- Addition, `/repo/src/math/vector.h:1934-1936`. -/
def add (a b : A10 t) : A10 t :=
  make (a.r0 + b.r0) (a.r1 + b.r1) (a.r2 + b.r2) (a.r3 + b.r3) (a.r4 + b.r4) (a.r5 + b.r5) (a.r6 + b.r6) (a.r7 + b.r7) (a.r8 + b.r8) (a.r9 + b.r9)

/-- Subtraction, `/repo/src/math/vector.h:1940-1942`. -/
def sub (a b : A10 t) : A10 t :=
  make (a.r0 - b.r0) (a.r1 - b.r1) (a.r2 - b.r2) (a.r3 - b.r3) (a.r4 - b.r4) (a.r5 - b.r5) (a.r6 - b.r6) (a.r7 - b.r7) (a.r8 - b.r8) (a.r9 - b.r9)

/-- Negation, `/repo/src/math/vector.h:1946-1948`. -/
def neg (a : A10 t) : A10 t :=
  make (-a.r0) (-a.r1) (-a.r2) (-a.r3) (-a.r4) (-a.r5) (-a.r6) (-a.r7) (-a.r8) (-a.r9)

/-- Scalar multiplication, `/repo/src/math/vector.h:1952-1954`. -/
def smul (m : t) (a : A10 t) : A10 t :=
  make (m*a.r0) (m*a.r1) (m*a.r2) (m*a.r3) (m*a.r4) (m*a.r5) (m*a.r6) (m*a.r7) (m*a.r8) (m*a.r9)

/-- Scalar multiplication, with the scalar behind, `/repo/src/math/vector.h:1956-1958`. -/
def smulR (a : A10 t) (m : t) : A10 t :=
  make (m*a.r0) (m*a.r1) (m*a.r2) (m*a.r3) (m*a.r4) (m*a.r5) (m*a.r6) (m*a.r7) (m*a.r8) (m*a.r9)

/-- Division by a scalar, `/repo/src/math/vector.h:1962-1964`. -/
def sdiv (a : A10 t) (m : t) : A10 t :=
  make (a.r0/m) (a.r1/m) (a.r2/m) (a.r3/m) (a.r4/m) (a.r5/m) (a.r6/m) (a.r7/m) (a.r8/m) (a.r9/m)

/-- Inner product, `/repo/src/math/vector.h:1968-1970`. -/
def inner (a b : A10 t) : t :=
  a.r0*b.r0 + a.r1*b.r1 + a.r2*b.r2 + a.r3*b.r3 + a.r4*b.r4 + a.r5*b.r5 + a.r6*b.r6 + a.r7*b.r7 + a.r8*b.r8 + a.r9*b.r9

/-- `+=`: the new value of `a`, `/repo/src/math/vector.h:1975-1977`. -/
def addAssign (a b : A10 t) : A10 t :=
  add a b

/-- `-=`, `/repo/src/math/vector.h:1980-1982`. -/
def subAssign (a b : A10 t) : A10 t :=
  sub a b

/-- `*=`, `/repo/src/math/vector.h:1985-1987`. -/
def mulAssign (a : A10 t) (b : t) : A10 t :=
  smul b a

/-- `/=`, `/repo/src/math/vector.h:1990-1992`. -/
def divAssign (a : A10 t) (b : t) : A10 t :=
  sdiv a b

/-- Equality, `/repo/src/math/vector.h:1998-2000`. -/
def eq (a b : A10 t) : Bool :=
  decide (a.r0 = b.r0) && decide (a.r1 = b.r1) && decide (a.r2 = b.r2) && decide (a.r3 = b.r3) && decide (a.r4 = b.r4) && decide (a.r5 = b.r5) && decide (a.r6 = b.r6) && decide (a.r7 = b.r7) && decide (a.r8 = b.r8) && decide (a.r9 = b.r9)

/-- Dictionary order, `/repo/src/math/vector.h:2004-2015`. -/
def lt (a b : A10 t) : Bool :=
  if a.r0 ≠ b.r0 then decide (a.r0 < b.r0) else if a.r1 ≠ b.r1 then decide (a.r1 < b.r1) else if a.r2 ≠ b.r2 then decide (a.r2 < b.r2) else if a.r3 ≠ b.r3 then decide (a.r3 < b.r3) else if a.r4 ≠ b.r4 then decide (a.r4 < b.r4) else if a.r5 ≠ b.r5 then decide (a.r5 < b.r5) else if a.r6 ≠ b.r6 then decide (a.r6 < b.r6) else if a.r7 ≠ b.r7 then decide (a.r7 < b.r7) else if a.r8 ≠ b.r8 then decide (a.r8 < b.r8) else decide (a.r9 < b.r9)

/-- Square of the absolute value, `/repo/src/math/vector.h:2019-2021`. -/
def norm (a : A10 t) : t :=
  inner a a

/-- Absolute value, `/repo/src/math/vector.h:2025-2027`. -/
def abs (sqrt : t → t) (a : A10 t) : t :=
  sqrt (norm a)

/-- Normalization, `/repo/src/math/vector.h:2032-2034`. -/
def normalize (sqrt : t → t) (a : A10 t) (b : t) : A10 t :=
  smul (b / abs sqrt a) a

/-- Projection factor, `/repo/src/math/vector.h:2038-2040`. -/
def proj (a b : A10 t) : t :=
  inner a b / inner b b

/-- Normalization as a method, `/repo/src/math/vector.h:2045-2047`. -/
def normalizeM (sqrt : t → t) (self : A10 t) (a : t) : A10 t :=
  smul (a / abs sqrt self) self

/-- `operator>>`, `/repo/src/math/vector.h:2052-2057`; `none`: the vector is given values that were never stored. -/
def read (p : List UInt8 → Option (t × List UInt8)) (s : Stream) : Option (A10 t) × Stream :=
  let q0 := extract p s
  let q1 := extract p q0.2
  let q2 := extract p q1.2
  let q3 := extract p q2.2
  let q4 := extract p q3.2
  let q5 := extract p q4.2
  let q6 := extract p q5.2
  let q7 := extract p q6.2
  let q8 := extract p q7.2
  let q9 := extract p q8.2
  (q0.1.bind fun tmp0 => q1.1.bind fun tmp1 => q2.1.bind fun tmp2 => q3.1.bind fun tmp3 => q4.1.bind fun tmp4 => q5.1.bind fun tmp5 => q6.1.bind fun tmp6 => q7.1.bind fun tmp7 => q8.1.bind fun tmp8 => q9.1.bind fun tmp9 => some (make tmp0 tmp1 tmp2 tmp3 tmp4 tmp5 tmp6 tmp7 tmp8 tmp9), q9.2)

/-- `operator<<`, `/repo/src/math/vector.h:2061-2063`. -/
def write (showT : t → List UInt8) (a : A10 t) : List UInt8 :=
  showT a.r0 ++ [32] ++ showT a.r1 ++ [32] ++ showT a.r2 ++ [32] ++ showT a.r3 ++ [32] ++ showT a.r4 ++ [32] ++ showT a.r5 ++ [32] ++ showT a.r6 ++ [32] ++ showT a.r7 ++ [32] ++ showT a.r8 ++ [32] ++ showT a.r9

end A10

end Verif.MathVec
