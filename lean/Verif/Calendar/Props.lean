import Verif.Calendar.Lemmas
/-! C67: calendar times. -/

namespace Verif.Calendar.Props
open Verif Verif.Calendar Verif.Calendar.Spec Verif.Calendar.Lemmas

/-- C67: a calendar time made from a clock time is the date and time of that instant in the zone, with the right days of the week and of the year, if
the year is an `int`. -/
theorem calendar_of_clock (z : Zone) (c : Clock.T) (h : YearFits z (toTime c.sec)) :
    ∃ k, ofClock z c = some k ∧ Shows z (toTime c.sec) k ∧ k.usec = c.usec := by
  refine ⟨_, ofClock_eq h, ?_, rfl⟩
  have hc := civil_civ ((toTime c.sec + z.ahead (toTime c.sec)) / 86400)
  have hm := hc.mon
  have hd := hc.inMonth
  have day := dayIs_dateOf ((toTime c.sec + z.ahead (toTime c.sec)) / 86400)
  have first := dayIs_dateOf ((toTime c.sec + z.ahead (toTime c.sec)) / 86400 - (civil ((toTime c.sec + z.ahead (toTime c.sec)) / 86400)).2.2.2)
  rw [start_dateOf] at first
  unfold dateOf at day
  refine ⟨⟨(toTime c.sec + z.ahead (toTime c.sec)) / 86400, ?_, ?_, rfl, ?_⟩, ?_, ?_, ?_, ?_, ?_, ?_⟩ 
  case refine_9 => exact congrArg some (summer_eq _ _)
  all_goals dsimp only [localtime, calOf]
  all_goals generalize (toTime c.sec + z.ahead (toTime c.sec)) = l at *
  · have e1 : (civil (l / 86400)).1 - 1900 + 1900 = (civil (l / 86400)).1 := by omega
    have e2 : (((civil (l / 86400)).2.1 : Int) - 1 + 1).toNat = (civil (l / 86400)).2.1 := by omega
    rw [e1, e2, Int.toNat_natCast]
    exact day
  · omega
  · have e1 : (civil (l / 86400)).1 - 1900 + 1900 = (civil (l / 86400)).1 := by omega
    rw [e1]
    exact first
  · omega
  · omega
  · omega
  · omega
  · omega

/-- C67: no other calendar time shows that instant. -/
theorem shows_unique (z : Zone) (c : Clock.T) (h : YearFits z (toTime c.sec)) (k : Cal) (hk : Shows z (toTime c.sec) k) (hu : k.usec = c.usec) :
    ofClock z c = some k := by
  rw [ofClock_eq h]
  obtain ⟨⟨n, h1, h2, h3, h4⟩, h5, h6, h7, h8, h9, h10⟩ := hk
  have hn : n = (toTime c.sec + z.ahead (toTime c.sec)) / 86400 := by omega
  have d := (dayIs_unique h1).2
  have f := (dayIs_unique h4).2
  unfold dateOf at d f
  simp only [Date.mk.injEq] at d f
  obtain ⟨d1, d2, d3⟩ := d
  obtain ⟨f1, f2, f3⟩ := f
  have g := civil_civ (n - k.yday)
  have g' := civil_civ n
  rw [← f1, ← f2, ← f3] at g
  rw [← d1] at g'
  have a1 := g.year
  have a2 := g.day
  have a3 := g'.year
  have a4 : before k.year 1 = 0 := rfl
  obtain ⟨yday, wday, year, mon, mday, hour, min, sec, usec, isdst⟩ := k
  dsimp only at *
  subst h10 hu hn h3
  unfold calOf
  rw [summer_eq]
  unfold localtime
  dsimp only
  simp only [Option.some.injEq, Cal.mk.injEq]
  refine ⟨by omega, trivial, by omega, by omega, by omega, by omega, by omega, by omega, trivial, trivial⟩

/-- C67: such a calendar time, made a clock time again, gives an instant at which the clocks show the same; and the very same instant, if the clocks show
this only once. -/
theorem round_trip (z : Zone) (mktime : Tm → Int) (hm : Inverts z mktime) (c : Clock.T) (h : YearFits z (toTime c.sec)) :
    ∃ k c', ofClock z c = some k ∧ toClock mktime k = some c' ∧ ofClock z c' = some k ∧ (Once z (toTime c.sec) → c' = c) := by
  obtain ⟨hr1, hr2⟩ := toTime_range c.sec
  obtain ⟨t', h1, h2, h3, h4⟩ := hm (toTime c.sec) 0 0 hr1 hr2
  have e : toTime (ofTime t') = t' := toTime_ofTime h3 h4
  refine ⟨_, ⟨ofTime t', c.usec⟩, ofClock_eq h, ?_, ?_, ?_⟩
  · rw [toClock_calOf h, h1]
  · have hf : YearFits z (toTime (ofTime t')) := by
      unfold YearFits
      rw [e, h2]
      exact h
    rw [ofClock_eq (c := ⟨ofTime t', c.usec⟩) hf]
    dsimp only
    rw [e, h2]
  · intro ho
    have e := ho t' h2
    show (⟨ofTime t', c.usec⟩ : Clock.T) = ⟨c.sec, c.usec⟩
    have : ofTime t' = c.sec := (congrArg ofTime e).trans (ofTime_toTime _)
    rw [this]

/-- C67: where the clocks are never set, they show everything only once. -/
theorem once_fixed (z : Zone) (a : Int) (h : ∀ t, z.ahead t = a) (t : Int) : Once z t := by
  intro t' h'
  have := localtime_inj h'
  rw [h, h] at this
  omega

/-- Finding: the constructor from year, month and so on reads `isdst` before it has a value: its behaviour is always undefined. -/
theorem make_undefined (z : Zone) (mktime : Tm → Int) (year mon mday hour min sec usec : Int) :
    make z mktime year mon mday hour min sec usec = none := by
  unfold make makeIn toClock
  cases Clock.chk (mon - 1) with
  | none => rfl
  | some m =>
    show ((Clock.chk (year - 1900)).bind _).bind _ = none
    cases Clock.chk (year - 1900) <;> rfl

/-- C67, part: if the memory happens to hold whether there is summer time, the constructor gives the calendar time whose date and time these are, with
the days of the week and of the year. -/
theorem make_partial (z : Zone) (mktime : Tm → Int) (hm : Inverts z mktime) (t : Int) (h1 : -2 ^ 63 ≤ t) (h2 : t < 2 ^ 63) (hf : YearFits z t) (usec : Int)
    (k : Cal) (hk : ofClock z ⟨ofTime t, usec⟩ = some k) :
    makeIn (some (z.summer t)) z mktime k.year k.mon k.mday k.hour k.min k.sec usec = some k := by
  have e : toTime (ofTime t) = t := toTime_ofTime h1 h2
  obtain ⟨k', c', g1, g2, g3, _⟩ := round_trip z mktime hm ⟨ofTime t, usec⟩ (by rw [e]; exact hf)
  rw [hk] at g1
  cases g1
  unfold makeIn
  have : toClock mktime { year := k.year, mon := k.mon, mday := k.mday, hour := k.hour, min := k.min, sec := k.sec, usec := usec, isdst := some (z.summer t) }
      = toClock mktime k := by
    have hs : k.isdst = some (z.summer t) ∧ k.usec = usec := by
      obtain ⟨k'', a, b, c⟩ := calendar_of_clock z ⟨ofTime t, usec⟩ (by rw [e]; exact hf)
      rw [hk] at a
      cases a
      rw [b.summer, e]
      exact ⟨rfl, c⟩
    unfold toClock
    dsimp only
    rw [hs.1, hs.2]
  rw [this, g2]
  exact g3

def utc : Zone := ⟨fun _ => 0, fun _ => false⟩

/-- Finding: what the memory holds decides on the date: without summer time, but with a true `isdst`, `mktime` may fail, and its -1 becomes the end
of 1969. -/
theorem make_depends : ∃ mktime, Inverts utc mktime ∧ (makeIn (some true) utc mktime 2000 1 1 0 0 0 0).map (fun k => (k.year, k.mon, k.mday)) = some (1969, 12, 31)
    ∧ (makeIn (some false) utc mktime 2000 1 1 0 0 0 0).map (fun k => (k.year, k.mon, k.mday)) = some (2000, 1, 1) := by
  refine ⟨someMktime utc, someMktime_inverts utc, ?_, ?_⟩
  · have : someMktime utc { sec := 0, min := 0, hour := 0, mday := 1, mon := 0, year := 100, isdst := 1 } = -1 := by
      unfold someMktime
      rw [dif_neg]
      rintro ⟨t, w, y, _, _, h⟩
      simp only [Tm.mk.injEq] at h
      exact absurd h.2.2.2.2.2.2.2.2 (by show (1 : Int) ≠ 0; decide)
    have e : toClock (someMktime utc) { year := 2000, mon := 1, mday := 1, isdst := some true } = some ⟨ofTime (-1), 0⟩ := by
      rw [← this]
      rfl
    unfold makeIn
    rw [e]
    show (ofClock utc ⟨ofTime (-1), 0⟩).map _ = _
    decide +kernel
  · obtain ⟨k, h1, _⟩ := calendar_of_clock utc ⟨ofTime 946684800, 0⟩ (by decide +kernel)
    have e := make_partial utc (someMktime utc) (someMktime_inverts utc) 946684800 (by decide) (by decide) (by decide +kernel) 0 k h1
    have hk : ofClock utc ⟨ofTime 946684800, 0⟩ = some ⟨0, 6, 2000, 1, 1, 0, 0, 0, 0, some false⟩ := by decide +kernel
    rw [hk] at h1
    cases h1
    show (makeIn (some (utc.summer 946684800)) utc _ 2000 1 1 0 0 0 0).map _ = _
    rw [e]
    rfl

/-! ### Concrete cases -/

/-- Tokyo. -/
def tokyo : Zone := ⟨fun _ => 32400, fun _ => false⟩

example : ofClock tokyo ⟨1247801696, 5⟩ = some ⟨197, 5, 2009, 7, 17, 12, 34, 56, 5, some false⟩ ∧ YearFits tokyo (toTime 1247801696) := by decide +kernel

example : Once tokyo 1247801696 := once_fixed tokyo 32400 (fun _ => rfl) _

example : Inverts tokyo (someMktime tokyo) := someMktime_inverts tokyo

/-- A leap day, and the day before the epoch, west of Greenwich. -/
example : (ofClock utc ⟨1709208000, 0⟩).map (fun k => (k.year, k.mon, k.mday, k.yday, k.wday)) = some (2024, 2, 29, 59, 4)
    ∧ (ofClock ⟨fun _ => -36000, fun _ => false⟩ ⟨0, 0⟩).map (fun k => (k.year, k.mon, k.mday, k.hour)) = some (1969, 12, 31, 14) := by decide +kernel

/-- Clocks that are set back by an hour at the instant 7200 show the hour before twice, and it is `isdst` that tells which. -/
def autumn : Zone := ⟨fun t => if t < 7200 then 3600 else 0, fun t => t < 7200⟩

example : (ofClock autumn ⟨5000, 0⟩).map (fun k => (k.hour, k.min, k.sec, k.isdst)) = some (2, 23, 20, some true)
    ∧ (ofClock autumn ⟨8600, 0⟩).map (fun k => (k.hour, k.min, k.sec, k.isdst)) = some (2, 23, 20, some false) := by decide +kernel

/-- Finding: seconds so large that the year is no `int` give undefined behaviour. -/
theorem far_future_undefined : ofClock utc ⟨9223372036854775807, 0⟩ = none := by decide +kernel

/-- C67. Two calendar times that the constructor without arguments made are the same time, and no clock ever shows it: its members are 0, and there is
neither a month nor a day of that number. -/
theorem default_no_date (z : Zone) (t : Int) (mktime : Tm → Int) : ¬ Shows z t zero ∧
    toClock mktime zero = some ⟨ofTime (mktime ⟨0, 0, 0, 0, -1, -1900, 0, 0, 0⟩), 0⟩ :=
  ⟨fun h => absurd h.mon (by decide), rfl⟩

end Verif.Calendar.Props
