import Verif.MathVec.Spec
/-! The twelve classes of `/repo/src/math/vector.h`. -/

namespace Verif.MathVec
open Verif.MathVec.Spec

variable (t : Type) [Zero t] [Add t] [Sub t] [Neg t] [Mul t] [Div t] [DecidableEq t] [LT t] [DecidableLT t]

/-- `component_by_name::vector2`, `/repo/src/math/vector.h:45-201`. -/
def vn2 : Class t where
  V := N2 t
  dim := 2
  comps a := [a.x, a.y]
  zero := N2.zero
  fromArray := N2.fromArray
  writeToArray := N2.writeToArray
  get := N2.get
  set := N2.set
  add := N2.add
  sub := N2.sub
  neg := N2.neg
  smul := N2.smul
  smulR := N2.smulR
  sdiv := N2.sdiv
  inner := N2.inner
  addAssign := N2.addAssign
  subAssign := N2.subAssign
  mulAssign := N2.mulAssign
  divAssign := N2.divAssign
  eq := N2.eq
  lt := N2.lt
  norm := N2.norm
  abs := N2.abs
  normalize := N2.normalize
  normalizeM := N2.normalizeM
  proj := N2.proj
  read := N2.read
  write := N2.write

/-- `component_by_array::vector2`, `/repo/src/math/vector.h:207-368`. -/
def va2 : Class t where
  V := A2 t
  dim := 2
  comps a := [a.r0, a.r1]
  zero := A2.zero
  fromArray := A2.fromArray
  writeToArray := A2.writeToArray
  get := A2.get
  set := A2.set
  add := A2.add
  sub := A2.sub
  neg := A2.neg
  smul := A2.smul
  smulR := A2.smulR
  sdiv := A2.sdiv
  inner := A2.inner
  addAssign := A2.addAssign
  subAssign := A2.subAssign
  mulAssign := A2.mulAssign
  divAssign := A2.divAssign
  eq := A2.eq
  lt := A2.lt
  norm := A2.norm
  abs := A2.abs
  normalize := A2.normalize
  normalizeM := A2.normalizeM
  proj := A2.proj
  read := A2.read
  write := A2.write

/-- `component_by_name::vector3`, `/repo/src/math/vector.h:374-531`. -/
def vn3 : Class t where
  V := N3 t
  dim := 3
  comps a := [a.x, a.y, a.z]
  zero := N3.zero
  fromArray := N3.fromArray
  writeToArray := N3.writeToArray
  get := N3.get
  set := N3.set
  add := N3.add
  sub := N3.sub
  neg := N3.neg
  smul := N3.smul
  smulR := N3.smulR
  sdiv := N3.sdiv
  inner := N3.inner
  addAssign := N3.addAssign
  subAssign := N3.subAssign
  mulAssign := N3.mulAssign
  divAssign := N3.divAssign
  eq := N3.eq
  lt := N3.lt
  norm := N3.norm
  abs := N3.abs
  normalize := N3.normalize
  normalizeM := N3.normalizeM
  proj := N3.proj
  read := N3.read
  write := N3.write

/-- `component_by_array::vector3`, `/repo/src/math/vector.h:537-700`. -/
def va3 : Class t where
  V := A3 t
  dim := 3
  comps a := [a.r0, a.r1, a.r2]
  zero := A3.zero
  fromArray := A3.fromArray
  writeToArray := A3.writeToArray
  get := A3.get
  set := A3.set
  add := A3.add
  sub := A3.sub
  neg := A3.neg
  smul := A3.smul
  smulR := A3.smulR
  sdiv := A3.sdiv
  inner := A3.inner
  addAssign := A3.addAssign
  subAssign := A3.subAssign
  mulAssign := A3.mulAssign
  divAssign := A3.divAssign
  eq := A3.eq
  lt := A3.lt
  norm := A3.norm
  abs := A3.abs
  normalize := A3.normalize
  normalizeM := A3.normalizeM
  proj := A3.proj
  read := A3.read
  write := A3.write

/-- `component_by_name::vector4`, `/repo/src/math/vector.h:706-860`. -/
def vn4 : Class t where
  V := N4 t
  dim := 4
  comps a := [a.x, a.y, a.z, a.w]
  zero := N4.zero
  fromArray := N4.fromArray
  writeToArray := N4.writeToArray
  get := N4.get
  set := N4.set
  add := N4.add
  sub := N4.sub
  neg := N4.neg
  smul := N4.smul
  smulR := N4.smulR
  sdiv := N4.sdiv
  inner := N4.inner
  addAssign := N4.addAssign
  subAssign := N4.subAssign
  mulAssign := N4.mulAssign
  divAssign := N4.divAssign
  eq := N4.eq
  lt := N4.lt
  norm := N4.norm
  abs := N4.abs
  normalize := N4.normalize
  normalizeM := N4.normalizeM
  proj := N4.proj
  read := N4.read
  write := N4.write

/-- `component_by_array::vector4`, `/repo/src/math/vector.h:866-1026`. -/
def va4 : Class t where
  V := A4 t
  dim := 4
  comps a := [a.r0, a.r1, a.r2, a.r3]
  zero := A4.zero
  fromArray := A4.fromArray
  writeToArray := A4.writeToArray
  get := A4.get
  set := A4.set
  add := A4.add
  sub := A4.sub
  neg := A4.neg
  smul := A4.smul
  smulR := A4.smulR
  sdiv := A4.sdiv
  inner := A4.inner
  addAssign := A4.addAssign
  subAssign := A4.subAssign
  mulAssign := A4.mulAssign
  divAssign := A4.divAssign
  eq := A4.eq
  lt := A4.lt
  norm := A4.norm
  abs := A4.abs
  normalize := A4.normalize
  normalizeM := A4.normalizeM
  proj := A4.proj
  read := A4.read
  write := A4.write

/-- `component_by_array::vector5`, `/repo/src/math/vector.h:1032-1194`. -/
def va5 : Class t where
  V := A5 t
  dim := 5
  comps a := [a.r0, a.r1, a.r2, a.r3, a.r4]
  zero := A5.zero
  fromArray := A5.fromArray
  writeToArray := A5.writeToArray
  get := A5.get
  set := A5.set
  add := A5.add
  sub := A5.sub
  neg := A5.neg
  smul := A5.smul
  smulR := A5.smulR
  sdiv := A5.sdiv
  inner := A5.inner
  addAssign := A5.addAssign
  subAssign := A5.subAssign
  mulAssign := A5.mulAssign
  divAssign := A5.divAssign
  eq := A5.eq
  lt := A5.lt
  norm := A5.norm
  abs := A5.abs
  normalize := A5.normalize
  normalizeM := A5.normalizeM
  proj := A5.proj
  read := A5.read
  write := A5.write

/-- `component_by_array::vector6`, `/repo/src/math/vector.h:1200-1364`. -/
def va6 : Class t where
  V := A6 t
  dim := 6
  comps a := [a.r0, a.r1, a.r2, a.r3, a.r4, a.r5]
  zero := A6.zero
  fromArray := A6.fromArray
  writeToArray := A6.writeToArray
  get := A6.get
  set := A6.set
  add := A6.add
  sub := A6.sub
  neg := A6.neg
  smul := A6.smul
  smulR := A6.smulR
  sdiv := A6.sdiv
  inner := A6.inner
  addAssign := A6.addAssign
  subAssign := A6.subAssign
  mulAssign := A6.mulAssign
  divAssign := A6.divAssign
  eq := A6.eq
  lt := A6.lt
  norm := A6.norm
  abs := A6.abs
  normalize := A6.normalize
  normalizeM := A6.normalizeM
  proj := A6.proj
  read := A6.read
  write := A6.write

/-- `component_by_array::vector7`, `/repo/src/math/vector.h:1370-1536`. -/
def va7 : Class t where
  V := A7 t
  dim := 7
  comps a := [a.r0, a.r1, a.r2, a.r3, a.r4, a.r5, a.r6]
  zero := A7.zero
  fromArray := A7.fromArray
  writeToArray := A7.writeToArray
  get := A7.get
  set := A7.set
  add := A7.add
  sub := A7.sub
  neg := A7.neg
  smul := A7.smul
  smulR := A7.smulR
  sdiv := A7.sdiv
  inner := A7.inner
  addAssign := A7.addAssign
  subAssign := A7.subAssign
  mulAssign := A7.mulAssign
  divAssign := A7.divAssign
  eq := A7.eq
  lt := A7.lt
  norm := A7.norm
  abs := A7.abs
  normalize := A7.normalize
  normalizeM := A7.normalizeM
  proj := A7.proj
  read := A7.read
  write := A7.write

/-- `component_by_array::vector8`, `/repo/src/math/vector.h:1542-1710`. -/
def va8 : Class t where
  V := A8 t
  dim := 8
  comps a := [a.r0, a.r1, a.r2, a.r3, a.r4, a.r5, a.r6, a.r7]
  zero := A8.zero
  fromArray := A8.fromArray
  writeToArray := A8.writeToArray
  get := A8.get
  set := A8.set
  add := A8.add
  sub := A8.sub
  neg := A8.neg
  smul := A8.smul
  smulR := A8.smulR
  sdiv := A8.sdiv
  inner := A8.inner
  addAssign := A8.addAssign
  subAssign := A8.subAssign
  mulAssign := A8.mulAssign
  divAssign := A8.divAssign
  eq := A8.eq
  lt := A8.lt
  norm := A8.norm
  abs := A8.abs
  normalize := A8.normalize
  normalizeM := A8.normalizeM
  proj := A8.proj
  read := A8.read
  write := A8.write

/-- `component_by_array::vector9`, `/repo/src/math/vector.h:1716-1886`. -/
def va9 : Class t where
  V := A9 t
  dim := 9
  comps a := [a.r0, a.r1, a.r2, a.r3, a.r4, a.r5, a.r6, a.r7, a.r8]
  zero := A9.zero
  fromArray := A9.fromArray
  writeToArray := A9.writeToArray
  get := A9.get
  set := A9.set
  add := A9.add
  sub := A9.sub
  neg := A9.neg
  smul := A9.smul
  smulR := A9.smulR
  sdiv := A9.sdiv
  inner := A9.inner
  addAssign := A9.addAssign
  subAssign := A9.subAssign
  mulAssign := A9.mulAssign
  divAssign := A9.divAssign
  eq := A9.eq
  lt := A9.lt
  norm := A9.norm
  abs := A9.abs
  normalize := A9.normalize
  normalizeM := A9.normalizeM
  proj := A9.proj
  read := A9.read
  write := A9.write

/-- `component_by_array::vector10`, `/repo/src/math/vector.h:1892-2064`. -/
def va10 : Class t where
  V := A10 t
  dim := 10
  comps a := [a.r0, a.r1, a.r2, a.r3, a.r4, a.r5, a.r6, a.r7, a.r8, a.r9]
  zero := A10.zero
  fromArray := A10.fromArray
  writeToArray := A10.writeToArray
  get := A10.get
  set := A10.set
  add := A10.add
  sub := A10.sub
  neg := A10.neg
  smul := A10.smul
  smulR := A10.smulR
  sdiv := A10.sdiv
  inner := A10.inner
  addAssign := A10.addAssign
  subAssign := A10.subAssign
  mulAssign := A10.mulAssign
  divAssign := A10.divAssign
  eq := A10.eq
  lt := A10.lt
  norm := A10.norm
  abs := A10.abs
  normalize := A10.normalize
  normalizeM := A10.normalizeM
  proj := A10.proj
  read := A10.read
  write := A10.write

/-- All of them. -/
def classes : List (Class t) := [vn2 t, va2 t, vn3 t, va3 t, vn4 t, va4 t, va5 t, va6 t, va7 t, va8 t, va9 t, va10 t]

end Verif.MathVec
