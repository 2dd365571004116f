import Verif.Calendar.Spec
/-! Lemmas for calendar times. -/

namespace Verif.Calendar.Lemmas
open Verif Verif.Calendar Verif.Calendar.Spec

/-! ### Years and months -/

/-- The number of the first day of a year. -/
def start (y : Int) : Int := 365 * (y - 1970) + (y - 1) / 4 - (y - 1) / 100 + (y - 1) / 400 - 477

theorem leap_iff (y : Int) : leap y = true ↔ y % 4 = 0 ∧ (y % 100 ≠ 0 ∨ y % 400 = 0) := by simp [leap]

theorem leapYear_iff (y : Int) : LeapYear y ↔ leap y = true := by
  rw [leap_iff]
  unfold LeapYear
  split <;> omega

theorem yearLength_cases (y : Int) : (leap y = true ∧ yearLength y = 366) ∨ (leap y = false ∧ yearLength y = 365) := by
  unfold yearLength
  cases leap y <;> simp

theorem start_succ (y : Int) : start (y + 1) = start y + yearLength y := by
  have h := leap_iff y
  rcases yearLength_cases y with ⟨a, b⟩ | ⟨a, b⟩ <;> rw [b] <;> rw [a] at h <;> simp only [start, true_iff, Bool.false_eq_true, false_iff] at * <;> omega

theorem start_add (y k : Int) : start (y + 400 * k) = start y + 146097 * k := by
  unfold start
  omega

theorem leap_add (y k : Int) : leap (y + 400 * k) = leap y := by
  have h1 := leap_iff y
  have h2 := leap_iff (y + 400 * k)
  cases ha : leap y <;> cases hb : leap (y + 400 * k) <;> simp only [ha, hb, true_iff, Bool.false_eq_true, false_iff] at h1 h2 <;> first | rfl | omega

theorem monthLength_add (y k : Int) (m : Nat) : monthLength (y + 400 * k) m = monthLength y m := by unfold monthLength; rw [leap_add]

theorem yearLength_add (y k : Int) : yearLength (y + 400 * k) = yearLength y := by unfold yearLength; rw [leap_add]

theorem splitYear_spec (y : Int) (r : Nat) : start (splitYear y r).1 + (splitYear y r).2 = start y + r ∧ (splitYear y r).2 < yearLength (splitYear y r).1 := by
  induction y, r using splitYear.induct with
  | case1 y r h => rw [splitYear, if_pos h]; exact ⟨rfl, h⟩
  | case2 y r h ih =>
    rw [splitYear, if_neg h]
    refine ⟨?_, ih.2⟩
    rw [ih.1, start_succ]
    omega

/-- The number of days before a month. -/
def before (y : Int) : Nat → Nat
  | 0 => 0
  | 1 => 0
  | m + 2 => before y (m + 1) + monthLength y (m + 1)

theorem before_last (y : Int) : before y 12 + 31 = yearLength y := by
  unfold yearLength
  simp only [before, monthLength]
  cases leap y <;> decide

theorem splitMonth_spec (y : Int) (m r : Nat) (h1 : 1 ≤ m) (h2 : m ≤ 12) (h3 : before y m + r < yearLength y) :
    1 ≤ (splitMonth y m r).1 ∧ (splitMonth y m r).1 ≤ 12 ∧ before y (splitMonth y m r).1 + (splitMonth y m r).2 = before y m + r + 1
      ∧ 1 ≤ (splitMonth y m r).2 ∧ (splitMonth y m r).2 ≤ monthLength y (splitMonth y m r).1 := by
  induction m, r using splitMonth.induct (y := y) with
  | case1 m r h =>
    rw [splitMonth, if_pos h]
    refine ⟨h1, h2, by dsimp only; omega, by dsimp only; omega, ?_⟩
    rcases h with h | h
    · exact h
    · have : m = 12 := by omega
      subst this
      have := before_last y
      show r + 1 ≤ 31
      omega
  | case2 m r h ih =>
    rw [splitMonth, if_neg h]
    have hb : before y (m + 1) = before y m + monthLength y m := by
      cases m with
      | zero => omega
      | succ m => rfl
    have := ih (by omega) (by omega) (by omega)
    refine ⟨this.1, this.2.1, ?_, this.2.2.2⟩
    rw [this.2.2.1]
    omega

/-! ### Days -/

/-- What is known of the date of a day. -/
structure Civ (n y : Int) (m d yd : Nat) : Prop where
  year : start y + yd = n
  inYear : yd < yearLength y
  mon : 1 ≤ m ∧ m ≤ 12
  day : before y m + d = yd + 1
  inMonth : 1 ≤ d ∧ d ≤ monthLength y m

theorem before_add (y k : Int) (m : Nat) : before (y + 400 * k) m = before y m := by
  induction m with
  | zero => rfl
  | succ m ih =>
    cases m with
    | zero => rfl
    | succ m => simp only [before] at *; rw [ih, monthLength_add]

theorem civil_civ (n : Int) : Civ n (civil n).1 (civil n).2.1 (civil n).2.2.1 (civil n).2.2.2 := by
  unfold civil
  dsimp only
  have h := splitYear_spec 1970 (n % 146097).toNat
  have hm := splitMonth_spec (splitYear 1970 (n % 146097).toNat).1 1 (splitYear 1970 (n % 146097).toNat).2 (Nat.le_refl _) (by omega)
    (by simpa [before] using h.2)
  refine ⟨?_, ?_, ⟨hm.1, hm.2.1⟩, ?_, hm.2.2.2.1, ?_⟩
  · rw [start_add]
    have : start 1970 = 0 := by decide
    omega
  · rw [yearLength_add]; exact h.2
  · rw [before_add, hm.2.2.1]; simp [before]
  · rw [monthLength_add]; exact hm.2.2.2.2

theorem lastDay_eq (y : Int) (m : Nat) (h : 1 ≤ m ∧ m ≤ 12) : lastDay y m = monthLength y m := by
  have hl := leapYear_iff y
  obtain ⟨h1, h2⟩ := h
  have : m = 1 ∨ m = 2 ∨ m = 3 ∨ m = 4 ∨ m = 5 ∨ m = 6 ∨ m = 7 ∨ m = 8 ∨ m = 9 ∨ m = 10 ∨ m = 11 ∨ m = 12 := by omega
  rcases this with rfl | rfl | rfl | rfl | rfl | rfl | rfl | rfl | rfl | rfl | rfl | rfl <;> simp [lastDay, monthLength, hl]

theorem month_end (y : Int) {k : Nat} (h : 1 ≤ k ∧ k ≤ 12) : before y k + monthLength y k ≤ yearLength y := by
  have : k = 1 ∨ k = 2 ∨ k = 3 ∨ k = 4 ∨ k = 5 ∨ k = 6 ∨ k = 7 ∨ k = 8 ∨ k = 9 ∨ k = 10 ∨ k = 11 ∨ k = 12 := by omega
  rcases yearLength_cases y with ⟨a, b⟩ | ⟨a, b⟩ <;>
    rcases this with rfl | rfl | rfl | rfl | rfl | rfl | rfl | rfl | rfl | rfl | rfl | rfl <;> simp [before, monthLength, a, b]

theorem civ_next {n y : Int} {m d yd : Nat} (h : Civ n y m d yd) :
    ∃ yd', Civ (n + 1) (tomorrow ⟨y, m, d⟩).year (tomorrow ⟨y, m, d⟩).month (tomorrow ⟨y, m, d⟩).day yd' := by
  obtain ⟨h1, h2, h3, h4, h5⟩ := h
  unfold tomorrow
  dsimp only
  rw [lastDay_eq y m h3]
  have hb : before y (m + 1) = before y m + monthLength y m := by
    cases m with
    | zero => omega
    | succ m => rfl
  split
  · rename_i hd
    refine ⟨yd + 1, ?_, ?_, h3, ?_, ?_⟩ <;> dsimp only
    · omega
    · have := month_end y h3
      omega
    · omega
    · omega
  · rename_i hd
    split
    · rename_i hm
      have hl : 1 ≤ monthLength y (m + 1) := by
        unfold monthLength
        split
        · split <;> omega
        · split <;> omega
      refine ⟨yd + 1, ?_, ?_, ?_, ?_, ?_⟩ <;> dsimp only
      · omega
      · have : before y (m + 1) < yearLength y := by
          have : m = 1 ∨ m = 2 ∨ m = 3 ∨ m = 4 ∨ m = 5 ∨ m = 6 ∨ m = 7 ∨ m = 8 ∨ m = 9 ∨ m = 10 ∨ m = 11 := by omega
          rcases yearLength_cases y with ⟨a, b⟩ | ⟨a, b⟩ <;>
            rcases this with rfl | rfl | rfl | rfl | rfl | rfl | rfl | rfl | rfl | rfl | rfl <;> simp [before, monthLength, a, b]
        omega
      · omega
      · omega
      · omega
    · have : m = 12 := by omega
      subst this
      have hy := before_last y
      have h31 : monthLength y 12 = 31 := by simp [monthLength]
      have hs := start_succ y
      refine ⟨0, ?_, ?_, ?_, ?_, ?_⟩ <;> dsimp only
      · omega
      · rcases yearLength_cases (y + 1) with ⟨_, b⟩ | ⟨_, b⟩ <;> omega
      · omega
      · rfl
      · simp [monthLength]

theorem start_mono {y y' : Int} (h : y ≤ y') : start y ≤ start y' := by
  unfold start
  omega

theorem before_mono (y : Int) {m m' : Nat} (h : m < m') (h1 : 1 ≤ m) (h2 : m' ≤ 12) : before y m + monthLength y m ≤ before y m' := by
  induction h with
  | refl =>
    cases m with
    | zero => omega
    | succ m => exact Nat.le_refl _
  | @step k hk ih =>
    have hk' : m + 1 ≤ k := hk
    cases k with
    | zero => omega
    | succ k =>
      have := ih (by omega)
      simp only [before] at *
      omega

theorem civ_unique {n y y' : Int} {m d yd m' d' yd' : Nat} (h : Civ n y m d yd) (h' : Civ n y' m' d' yd') : y = y' ∧ m = m' ∧ d = d' ∧ yd = yd' := by
  obtain ⟨a1, a2, a3, a4, a5⟩ := h
  obtain ⟨b1, b2, b3, b4, b5⟩ := h'
  have hy : y = y' := by
    rcases Int.lt_trichotomy y y' with h | h | h
    · have := start_mono (show y + 1 ≤ y' by omega)
      have := start_succ y
      omega
    · exact h
    · have := start_mono (show y' + 1 ≤ y by omega)
      have := start_succ y'
      omega
  subst hy
  have hyd : yd = yd' := by omega
  subst hyd
  have hm : m = m' := by
    rcases Nat.lt_trichotomy m m' with h | h | h
    · have := before_mono y h a3.1 b3.2
      omega
    · exact h
    · have := before_mono y h b3.1 a3.2
      omega
  subst hm
  exact ⟨rfl, rfl, by omega, rfl⟩

/-- The date of a day. -/
def dateOf (n : Int) : Date := ⟨(civil n).1, (civil n).2.1, (civil n).2.2.1⟩

theorem dateOf_next (n : Int) : dateOf (n + 1) = tomorrow (dateOf n) := by
  obtain ⟨yd, h⟩ := civ_next (civil_civ n)
  obtain ⟨h1, h2, h3, _⟩ := civ_unique (civil_civ (n + 1)) h
  unfold dateOf
  rw [h1, h2, h3]

theorem dateOf_valid (n : Int) : (dateOf n).Valid := by
  have h := civil_civ n
  refine ⟨h.mon.1, h.mon.2, h.inMonth.1, ?_⟩
  show (civil n).2.2.1 ≤ lastDay (civil n).1 (civil n).2.1
  rw [lastDay_eq _ _ h.mon]
  exact h.inMonth.2

theorem dayIs_dateOf (n : Int) : DayIs n (dateOf n) := by
  have e : dateOf 0 = ⟨1970, 1, 1⟩ := by decide +kernel
  have hp : ∀ k : Nat, DayIs k (dateOf k) := by
    intro k
    induction k with
    | zero => show DayIs 0 (dateOf 0); rw [e]; exact .epoch
    | succ k ih =>
      have := DayIs.next ih
      rw [← dateOf_next] at this
      exact this
  have hn : ∀ k : Nat, DayIs (-(k : Int)) (dateOf (-(k : Int))) := by
    intro k
    induction k with
    | zero => exact hp 0
    | succ k ih =>
      refine .prev ?_ (dateOf_valid _)
      rw [← dateOf_next]
      have : -((k + 1 : Nat) : Int) + 1 = -(k : Int) := by omega
      rw [this]
      exact ih
  rcases Int.le_total 0 n with h | h
  · have := hp n.toNat
    rwa [Int.toNat_of_nonneg h] at this
  · have := hn (-n).toNat
    rwa [Int.toNat_of_nonneg (by omega), Int.neg_neg] at this

theorem start_dateOf (n : Int) : dateOf (n - (civil n).2.2.2) = ⟨(civil n).1, 1, 1⟩ := by
  have h := civil_civ n
  have : Civ (n - (civil n).2.2.2) (civil n).1 1 1 0 := by
    refine ⟨by have := h.year; omega, ?_, by omega, rfl, by simp [monthLength]⟩
    have := h.inYear
    omega
  obtain ⟨h1, h2, h3, _⟩ := civ_unique (civil_civ _) this
  unfold dateOf
  rw [h1, h2, h3]

/-- The converse: a day has one date. -/
theorem dayIs_unique {n : Int} {d : Date} (h : DayIs n d) : d.Valid ∧ d = dateOf n := by
  have civ : ∀ a : Date, a.Valid → ∃ n yd, Civ n a.year a.month a.day yd := by
    intro ⟨y, m, d⟩ ⟨a1, a2, a3, a4⟩
    dsimp only at *
    rw [lastDay_eq y m ⟨a1, a2⟩] at a4
    refine ⟨_, before y m + d - 1, rfl, ?_, ⟨a1, a2⟩, by omega, a3, a4⟩
    have := month_end y ⟨a1, a2⟩
    omega
  have inj : ∀ a b : Date, a.Valid → b.Valid → tomorrow a = tomorrow b → a = b := by
    intro a b ha hb e
    obtain ⟨n, yd, h1⟩ := civ a ha
    obtain ⟨n', yd', h2⟩ := civ b hb
    obtain ⟨u, h3⟩ := civ_next h1
    obtain ⟨u', h4⟩ := civ_next h2
    rw [show (⟨a.year, a.month, a.day⟩ : Date) = a from rfl, e] at h3
    have e1 := h3.year
    have e2 := h3.day
    have e3 := h4.year
    have e4 := h4.day
    rw [show (⟨b.year, b.month, b.day⟩ : Date) = b from rfl] at e3 e4
    have : n = n' := by omega
    subst this
    obtain ⟨g1, g2, g3, _⟩ := civ_unique h1 h2
    cases a; cases b
    simp only [Date.mk.injEq]
    exact ⟨g1, g2, g3⟩
  induction h with
  | epoch => exact ⟨by unfold Date.Valid; decide, by decide +kernel⟩
  | next h ih => obtain ⟨_, rfl⟩ := ih; rw [← dateOf_next]; exact ⟨dateOf_valid _, rfl⟩
  | @prev n d h hv ih =>
    refine ⟨hv, inj _ _ hv (dateOf_valid _) ?_⟩
    rw [ih.2, dateOf_next]

/-! ### Clocks -/

theorem toTime_ofTime {t : Int} (h1 : -2 ^ 63 ≤ t) (h2 : t < 2 ^ 63) : toTime (ofTime t) = t := by
  unfold toTime ofTime
  rw [UInt64.toNat_ofNat']
  split <;> omega

theorem toTime_range (s : UInt64) : -2 ^ 63 ≤ toTime s ∧ toTime s < 2 ^ 63 := by
  unfold toTime
  have := s.toNat_lt
  split <;> omega

theorem ofTime_toTime (s : UInt64) : ofTime (toTime s) = s := by
  apply UInt64.toNat_inj.1
  unfold toTime ofTime
  have := s.toNat_lt
  rw [UInt64.toNat_ofNat']
  split <;> omega

/-- What the clocks show tells the local time. -/
theorem localtime_inj {z z' : Zone} {t t' : Int} (h : localtime z t = localtime z' t') : t + z.ahead t = t' + z'.ahead t' := by
  unfold localtime at h
  dsimp only at h
  simp only [Tm.mk.injEq] at h
  obtain ⟨h1, h2, h3, h4, h5, h6, h7, h8, _⟩ := h
  have a := (civil_civ ((t + z.ahead t) / 86400)).year
  have b := (civil_civ ((t' + z'.ahead t') / 86400)).year
  have : (civil ((t + z.ahead t) / 86400)).1 = (civil ((t' + z'.ahead t') / 86400)).1 := by omega
  rw [this] at a
  omega

/-- The members, from those of `tm`. -/
def calOf (t : Tm) (usec : Int) : Cal := ⟨t.yday, t.wday, t.year + 1900, t.mon + 1, t.mday, t.hour, t.min, t.sec, usec, some (t.isdst ≠ 0)⟩

theorem ofClock_eq {z : Zone} {c : Clock.T} (h : YearFits z (toTime c.sec)) : ofClock z c = some (calOf (localtime z (toTime c.sec)) c.usec) := by
  obtain ⟨h1, h2⟩ := h
  unfold ofClock Clock.chk
  dsimp only
  rw [if_pos (by unfold Clock.int32; omega), if_pos (by unfold Clock.int32; omega)]
  rfl

theorem summer_eq (z : Zone) (t : Int) : decide ((localtime z t).isdst ≠ 0) = z.summer t := by
  have : ∀ b : Bool, decide ((if b = true then (1 : Int) else 0) ≠ 0) = b := by decide
  exact this _

theorem toClock_calOf {z : Zone} {t : Int} (h : YearFits z t) (mktime : Tm → Int) (usec : Int) :
    toClock mktime (calOf (localtime z t) usec) = some ⟨ofTime (mktime { localtime z t with wday := 0, yday := 0 }), usec⟩ := by
  have hmon : Clock.int32 ((localtime z t).mon) := by
    have := (civil_civ ((t + z.ahead t) / 86400)).mon
    unfold Clock.int32 localtime
    dsimp only
    omega
  unfold toClock Clock.chk calOf
  dsimp only
  rw [summer_eq, Int.add_sub_cancel, Int.add_sub_cancel, if_pos hmon, if_pos (by obtain ⟨a, b⟩ := h; unfold Clock.int32; omega)]
  rfl

/-- A `mktime` that gives -1 if there is no such instant. -/
noncomputable def someMktime (z : Zone) (tm : Tm) : Int :=
  open Classical in if h : ∃ t w y, -2 ^ 63 ≤ t ∧ t < 2 ^ 63 ∧ tm = { localtime z t with wday := w, yday := y } then h.choose else -1

/-- Every zone has a `mktime` as the C standard has it. -/
theorem someMktime_inverts (z : Zone) : Inverts z (someMktime z) := by
  intro t w y h1 h2
  have h : ∃ t' w' y', -2 ^ 63 ≤ t' ∧ t' < 2 ^ 63 ∧ { localtime z t with wday := w, yday := y } = { localtime z t' with wday := w', yday := y' } :=
    ⟨t, w, y, h1, h2, rfl⟩
  obtain ⟨w', y', a, b, c⟩ := h.choose_spec
  refine ⟨h.choose, by unfold someMktime; rw [dif_pos h], ?_, a, b⟩
  generalize h.choose = t' at *
  simp only [Tm.mk.injEq] at c
  obtain ⟨c1, c2, c3, c4, c5, c6, _, _, c9⟩ := c
  have hl : t + z.ahead t = t' + z.ahead t' := by
    simp only [localtime] at c1 c2 c3 c4 c5 c6
    have p := civil_civ ((t + z.ahead t) / 86400)
    have q := civil_civ ((t' + z.ahead t') / 86400)
    have e1 : (civil ((t + z.ahead t) / 86400)).1 = (civil ((t' + z.ahead t') / 86400)).1 := by omega
    have e2 : (civil ((t + z.ahead t) / 86400)).2.1 = (civil ((t' + z.ahead t') / 86400)).2.1 := by omega
    have p1 := p.year
    have p2 := p.day
    have q1 := q.year
    have q2 := q.day
    rw [e1] at p1 p2
    rw [e2] at p2
    omega
  have hw : (localtime z t').wday = (localtime z t).wday ∧ (localtime z t').yday = (localtime z t).yday := by
    unfold localtime
    dsimp only
    rw [hl]
    exact ⟨rfl, rfl⟩
  have ext : ∀ p q : Tm, q.sec = p.sec → q.min = p.min → q.hour = p.hour → q.mday = p.mday → q.mon = p.mon → q.year = p.year → p.wday = q.wday →
      p.yday = q.yday → q.isdst = p.isdst → p = q := by
    rintro ⟨⟩ ⟨⟩ h1 h2 h3 h4 h5 h6 h7 h8 h9
    simp only at *
    subst_vars
    rfl
  exact ext _ _ c1 c2 c3 c4 c5 c6 hw.1 hw.2 c9

end Verif.Calendar.Lemmas
