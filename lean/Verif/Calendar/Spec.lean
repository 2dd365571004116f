import Verif.Calendar.Model
/-! What calendar times should mean. -/

namespace Verif.Calendar.Spec
open Verif Verif.Calendar

/-- A date of the Gregorian calendar. -/
structure Date where
  year : Int
  month : Nat
  day : Nat
deriving DecidableEq

/-- Every fourth year is a leap year, but only every fourth century. -/
def LeapYear (y : Int) : Prop := if 100 ∣ y then 400 ∣ y else 4 ∣ y

instance (y : Int) : Decidable (LeapYear y) := by unfold LeapYear; infer_instance

/-- The lengths of the months. -/
def lastDay (y : Int) : Nat → Nat
  | 1 => 31 | 2 => if LeapYear y then 29 else 28 | 3 => 31 | 4 => 30 | 5 => 31 | 6 => 30
  | 7 => 31 | 8 => 31 | 9 => 30 | 10 => 31 | 11 => 30 | 12 => 31 | _ => 0

/-- A date that there is. -/
def Date.Valid (d : Date) : Prop := 1 ≤ d.month ∧ d.month ≤ 12 ∧ 1 ≤ d.day ∧ d.day ≤ lastDay d.year d.month

/-- The day behind. -/
def tomorrow (d : Date) : Date :=
  if d.day < lastDay d.year d.month then ⟨d.year, d.month, d.day + 1⟩
  else if d.month < 12 then ⟨d.year, d.month + 1, 1⟩
  else ⟨d.year + 1, 1, 1⟩

/-- `n` days behind the first of January 1970 (before, if `n` is negative) is the date `d`. -/
inductive DayIs : Int → Date → Prop
  | epoch : DayIs 0 ⟨1970, 1, 1⟩
  | next {n : Int} {d : Date} : DayIs n d → DayIs (n + 1) (tomorrow d)
  | prev {n : Int} {d : Date} : DayIs (n + 1) (tomorrow d) → d.Valid → DayIs n d

/-- What the clocks of the zone show at the instant `t`, in seconds since the epoch. The first of January 1970 was a Thursday. -/
structure Shows (z : Zone) (t : Int) (c : Cal) : Prop where
  time : ∃ n, DayIs n ⟨c.year, c.mon.toNat, c.mday.toNat⟩ ∧ 86400 * n + 3600 * c.hour + 60 * c.min + c.sec = t + z.ahead t ∧ c.wday = (n + 4) % 7
    ∧ DayIs (n - c.yday) ⟨c.year, 1, 1⟩
  mon : 1 ≤ c.mon
  mday : 1 ≤ c.mday
  hour : 0 ≤ c.hour ∧ c.hour < 24
  min : 0 ≤ c.min ∧ c.min < 60
  sec : 0 ≤ c.sec ∧ c.sec < 60
  summer : c.isdst = some (z.summer t)

/-- What the C standard says of `mktime`: if there is an instant at which the clocks show this time, and summer time or not as `tm_isdst` has it, it
gives such an instant. -/
def Inverts (z : Zone) (mktime : Tm → Int) : Prop := ∀ t w y, -2 ^ 63 ≤ t → t < 2 ^ 63 →
  ∃ t', mktime { localtime z t with wday := w, yday := y } = t' ∧ localtime z t' = localtime z t ∧ -2 ^ 63 ≤ t' ∧ t' < 2 ^ 63

/-- At no other instant do the clocks show the same. -/
def Once (z : Zone) (t : Int) : Prop := ∀ t', localtime z t' = localtime z t → t' = t

/-- A year as `int`, also as the C library counts it. -/
def YearFits (z : Zone) (t : Int) : Prop := -2147483648 ≤ (localtime z t).year ∧ (localtime z t).year + 1900 < 2147483648

instance (z : Zone) (t : Int) : Decidable (YearFits z t) := by unfold YearFits; infer_instance

end Verif.Calendar.Spec
