import Verif.Clock.Model
/-!
# Calendar times

`/repo/src/system/time_util.cpp` and the class `calendar_time` of `/repo/src/system/time_util.h:105-123`. `localtime_r` is modelled for any time zone,
`mktime` is a parameter. `none` is undefined behaviour.
-/
namespace Verif.Calendar
open Verif

/-! ### `localtime_r` of the C library -/

/-- `struct tm` of the C library. -/
structure Tm where
  sec : Int := 0
  min : Int := 0
  hour : Int := 0
  mday : Int := 0
  mon : Int := 0
  year : Int := 0
  wday : Int := 0
  yday : Int := 0
  isdst : Int := 0
deriving DecidableEq

/-- A time zone: the seconds that its clocks are ahead of UTC, and whether they show summer time, at every instant. -/
structure Zone where
  ahead : Int → Int
  summer : Int → Bool

/-- Whether there is a 29th of February. -/
def leap (y : Int) : Bool := y % 4 = 0 && (y % 100 ≠ 0 || y % 400 = 0)

/-- Days of a year. -/
def yearLength (y : Int) : Nat := if leap y then 366 else 365

/-- Days of a month, counted from 1. -/
def monthLength (y : Int) (m : Nat) : Nat :=
  if m = 2 then (if leap y then 29 else 28) else if m = 4 ∨ m = 6 ∨ m = 9 ∨ m = 11 then 30 else 31

/-- The year, and the day in it, of the day that is `r` days behind the first of year `y`. -/
def splitYear (y : Int) (r : Nat) : Int × Nat :=
  if r < yearLength y then (y, r) else splitYear (y + 1) (r - yearLength y)
termination_by r
decreasing_by
  have : 365 ≤ yearLength y := by unfold yearLength; split <;> omega
  omega

/-- The month, and the day in it, of the day that is `r` days behind the first of month `m`. -/
def splitMonth (y : Int) (m r : Nat) : Nat × Nat :=
  if r < monthLength y m ∨ 12 ≤ m then (m, r + 1) else splitMonth y (m + 1) (r - monthLength y m)
termination_by 12 - m

/-- The year, month, day in the month and day in the year (from 0) of the day `n`, counted from the first of January 1970. 400 years have 146097 days. -/
def civil (n : Int) : Int × Nat × Nat × Nat :=
  let y := splitYear 1970 (n % 146097).toNat
  let m := splitMonth y.1 1 y.2
  (y.1 + 400 * (n / 146097), m.1, m.2, y.2)

/-- `localtime_r`: what the clocks of the zone show at the instant `t`. -/
def localtime (z : Zone) (t : Int) : Tm :=
  let l := t + z.ahead t
  let n := l / 86400
  let s := l % 86400
  let c := civil n
  ⟨s % 60, s / 60 % 60, s / 3600, c.2.2.1, c.2.1 - 1, c.1 - 1900, (n + 4) % 7, c.2.2.2, if z.summer t then 1 else 0⟩

/-! ### The code -/

/-- Members of `calendar_time`, `/repo/src/system/time_util.h:112-122`; `isdst` is `none` as long as it has no value. -/
structure Cal where
  yday : Int := 0
  wday : Int := 0
  year : Int := 0
  mon : Int := 0
  mday : Int := 0
  hour : Int := 0
  min : Int := 0
  sec : Int := 0
  usec : Int := 0
  isdst : Option Bool := none
deriving DecidableEq

/-- The value of a `uint64_t` as `time_t`. -/
def toTime (s : UInt64) : Int := if s.toNat < 2 ^ 63 then s.toNat else s.toNat - 2 ^ 64

/-- The value of a `time_t` as `uint64_t`. -/
def ofTime (t : Int) : UInt64 := UInt64.ofNat (t % 2 ^ 64).toNat

/-- The constructor from a `calendar_time`, `/repo/src/system/time_util.cpp:42-57`. Undefined are the read of an `isdst` without a value, and the
overflow of `int` in lines 49 and 50. -/
def toClock (mktime : Tm → Int) (c : Cal) : Option Clock.T := do
  let mon ← Clock.chk (c.mon - 1)
  let year ← Clock.chk (c.year - 1900)
  let dst ← c.isdst
  let t : Tm := { sec := c.sec, min := c.min, hour := c.hour, mday := c.mday, mon := mon, year := year, isdst := if dst then 1 else 0 }
  return ⟨ofTime (mktime t), c.usec⟩

/-- The constructor from a `clock_time`, `/repo/src/system/time_util.cpp:73-90`. If the year is no `int`, `localtime_r` fails and `t` has no value;
line 81 can overflow. -/
def ofClock (z : Zone) (c : Clock.T) : Option Cal := do
  let t := localtime z (toTime c.sec)
  let _ ← Clock.chk t.year
  let year ← Clock.chk (t.year + 1900)
  let mon := t.mon + 1
  return ⟨t.yday, t.wday, year, mon, t.mday, t.hour, t.min, t.sec, c.usec, some (t.isdst ≠ 0)⟩

/-- The constructor without arguments, `/repo/src/system/time_util.cpp:59-71`. -/
def zero : Cal := ⟨0, 0, 0, 0, 0, 0, 0, 0, 0, some false⟩

/-- The constructor from year, month and so on, `/repo/src/system/time_util.cpp:92-104`, if the memory of `isdst` holds `memory`. -/
def makeIn (memory : Option Bool) (z : Zone) (mktime : Tm → Int) (year mon mday hour min sec usec : Int) : Option Cal := do
  let ct ← toClock mktime { year := year, mon := mon, mday := mday, hour := hour, min := min, sec := sec, usec := usec, isdst := memory }
  ofClock z ct

/-- The constructor from year, month and so on, `/repo/src/system/time_util.cpp:92-104`: it does not give `isdst` a value. -/
def make : (z : Zone) → (mktime : Tm → Int) → (year mon mday hour min sec usec : Int) → Option Cal := makeIn none

end Verif.Calendar
