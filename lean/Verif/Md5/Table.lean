import Verif.Md5.Model
import Verif.Double.Model
/-!
# Model of the sine table of MD5

`md5sum::calc` fills its table on every call with the floating point sine of
the C library. The library function is a parameter; its accuracy is a
hypothesis of the theorems. Numbers are those of `Verif.Double`.
-/
namespace Verif.Md5.Table
open Verif.Double

/-- `abs` of a `double` (the overload of `<cmath>`, made visible by
`/repo/src/data/digest/md5.cpp:35-39`). -/
def absD : D → D
  | .fin x => .fin (mag x)
  | .inf _ => .inf false
  | .nan => .nan

/-- One round of the loop that fills the table: `i` as a `double`, its sine,
the product, and the conversion to `unsigned int`, which is undefined (`none`)
out of range (`/repo/src/data/digest/md5.cpp:77-78`). -/
def entry (sin : D → D) (i : Nat) : Option UInt32 :=
  (toUInt 32 (mul F64 (.fin 4294967296) (absD (sin (.fin (i : Rat)))))).map fun r => UInt32.ofNat r.toNat

/-- The loop: entries `i` to `64` (`/repo/src/data/digest/md5.cpp:76-79`). The
table is given as the list of the entries filled so far. -/
def fill (sin : D → D) (i : Nat) (tbl : List UInt32) : Option (List UInt32) :=
  if _h : i ≤ 64 then
    match entry sin i with
    | some v => fill sin (i + 1) (tbl ++ [v])
    | none => none
  else some tbl
termination_by 65 - i

/-- `md5sum::calc` with its own table: `none` when filling it is undefined
(`/repo/src/data/digest/md5.cpp:67-128`). -/
def calcOwn (sin : D → D) (m : List UInt8) : Option Regs :=
  (fill sin 0 []).map fun tbl => md5 (fun i => tbl.getD i 0) m

end Verif.Md5.Table
