import Verif.Duration.Waits
import Verif.Clock.Props
/-!
# C87: times in seconds reach the system as asked

`IsNum F64 x` says that `x` is a finite `double`.
-/
namespace Verif.Duration.Props
open Verif.Duration Verif.Duration.Spec Verif.Duration.Lemmas
open Verif.Double hiding add sub
open Verif.Double.Lemmas
open Verif.Double.Spec (IsNum)

/-- The witness for the examples: 1.5 is a `double`. -/
theorem num_3_2 : IsNum F64 (3 / 2) := ⟨3, -1, by decide, by decide, by decide, by norm_num⟩

/-! ## Sleeping -/

/-- C87. `thread::sleep` asks the system for the given time up to a nanosecond. -/
theorem sleep_exact {x : Rat} (hx : IsNum F64 x) (h0 : 0 ≤ x) (h1 : x < 2 ^ 63) :
    ∃ t, sleepReq (.fin x) = some t ∧ Valid 1000000000 t ∧ Within nano (secs 1000000000 t) x := by
  obtain ⟨a, b⟩ := secs_within (x := x) (U := 1000000000) (by decide) (by decide) h0
  refine ⟨_, sleep_eq (mem_of hx) h0 h1, by exact_mod_cast a, ?_⟩
  simpa [nano] using b

example : IsNum F64 (3 / 2) ∧ sleepReq (.fin (3 / 2)) = some ⟨1, 500000000⟩ := ⟨num_3_2, by decide +kernel⟩

/-- C87. Zero, negative times and NaN do not sleep. -/
theorem sleep_not_positive {d : D} (h : lt (.fin 0) d = false) : sleepReq d = some ⟨0, 0⟩ := by
  have : sleepReq d = sleepReq (.fin 0) := by simp only [sleepReq, num0, h]; simp [lt]
  rw [this]
  decide +kernel

example : lt (.fin 0) .nan = false ∧ lt (.fin 0) (.inf true) = false ∧ lt (.fin 0) (.fin (-3)) = false := by decide +kernel

/-- C87. A sleep of `2^63` seconds or more, such as an infinite one, is undefined. -/
theorem sleep_too_long {d : D} (h : le (.fin (2 ^ 63)) d = true) : sleepReq d = none := by
  have hpos : lt (.fin 0) d = true := by
    cases d with
    | fin x => simp only [le, decide_eq_true_eq] at h; simp only [lt, decide_eq_true_eq]; exact lt_of_lt_of_le (by norm_num) h
    | inf n => simpa [le, lt] using h
    | nan => simp [le] at h
  have : toInt 64 d = none := by
    cases d with
    | fin x => simp only [le, decide_eq_true_eq] at h; exact toInt_none (b := 64) (by norm_num at h ⊢; exact h)
    | inf n => rfl
    | nan => rfl
  simp [sleepReq, num0, hpos, this]

example : le (.fin (2 ^ 63)) (.inf false) = true := by decide +kernel

/-! ## Waiting until a point in time -/

/-- C87. Whatever the time, the system is never given a `timespec` it would refuse. -/
theorem timespec_valid {d : D} {t : Tv} (h : toTimespec d = some t) : Valid 1000000000 t := by
  obtain ⟨n, -, h⟩ := Option.bind_eq_some_iff.1 h
  obtain ⟨m, -, h⟩ := Option.bind_eq_some_iff.1 h
  cases h
  have := clampA m 1000000000 (by decide)
  refine ⟨?_, by simpa using this.1, by simpa using this.2⟩
  simp only [maxI]; split <;> omega

example : toTimespec (.fin (3 / 2)) = some ⟨1, 500000000⟩ := by decide +kernel

/-- C87. A wait for a time ends at the point asked for up to a microsecond, until the year 2106. -/
theorem deadline_near {now : Clock.T} (hn : Now now) {x : Rat} (h0 : 0 ≤ x) (h1 : clock now + x ≤ 2 ^ 32) :
    ∃ t, deadline now (.fin x) = some t ∧ Valid 1000000000 t ∧ Within micro (secs 1000000000 t) (clock now + x) := by
  obtain ⟨y, e, hm, y0, yd, yb, _⟩ := clock_add hn (x := x) (n := 0) (by decide) (by linarith) (by norm_num at h1 ⊢; linarith)
  obtain ⟨t, e2, v, w1, w2⟩ := spec_near hm (y0 h0) (lt_of_lt_of_le yb (by norm_num))
  refine ⟨t, by rw [deadline, e, e2], v, ?_⟩
  rw [abs_le] at yd
  have : 2 ^ 0 * eps + eps + 1 / 2 ^ 50 + nano < micro := by unfold eps nano micro; norm_num
  constructor <;> linarith

example : Now ⟨1700000000, 123456⟩ ∧ clock ⟨1700000000, 123456⟩ + 3 / 2 ≤ 2 ^ 32 ∧
    deadline ⟨1700000000, 123456⟩ (.fin (3 / 2)) = some ⟨1700000001, 623456001⟩ := by decide +kernel

/-- C87. A wait for a negative time ends now. -/
theorem deadline_past {now : Clock.T} (hn : Now now) {x : Rat} (h0 : x ≤ 0) (h1 : -(2 ^ 32) ≤ x) :
    ∃ t, deadline now (.fin x) = some t ∧ Valid 1000000000 t ∧ secs 1000000000 t < clock now + micro := by
  have hc := hn.2
  obtain ⟨y, e, hm, -, yd, yb, yl⟩ := clock_add hn (x := x) (n := 0) (by decide) h1 (by norm_num at hc ⊢; linarith)
  rw [abs_le] at yd
  have hsum : 2 ^ 0 * eps + eps + 1 / 2 ^ 50 + nano < micro := by unfold eps nano micro; norm_num
  by_cases hy : 0 ≤ y
  · obtain ⟨t, e2, v, w1, w2⟩ := spec_near hm hy (lt_of_lt_of_le yb (by norm_num))
    exact ⟨t, by rw [deadline, e, e2], v, by linarith⟩
  · have hy := le_of_lt (not_le.1 hy)
    have hb : -(2 ^ 63 : Rat) ≤ rnd F64 (y * 1000000000) := by
      apply le_rnd hp
      · have := mem_pow (F := F64) (E := 63) (by decide)
        exact mem_neg (by exact_mod_cast this)
      · have : (2 : Rat) ^ 33 * 1000000000 ≤ 2 ^ 63 := by norm_num
        linarith
    obtain ⟨n, n2, a, b, c, d⟩ := steps_neg (b := 64) (b2 := 64) (U := 1000000000) hm hy (by decide) (by decide) (by norm_num at yl ⊢; linarith)
      (by norm_num at yl ⊢; linarith) (by norm_num at hb ⊢; exact hb)
    refine ⟨⟨0, 0⟩, ?_, by decide, ?_⟩
    · rw [deadline, e]
      have c := c
      push_cast at c
      have z : ((0 : Int) : Rat) = 0 := by norm_num
      simp only [toTimespec, a, b, bind, Option.bind, pure, z, c, d]
      rfl
    · have hm0 : 0 ≤ clock now := by
        rw [clock_eq]
        have : (0 : Rat) ≤ now.usec := by exact_mod_cast hn.1.1
        positivity
      simp only [secs, micro]
      push_cast
      linarith [hm0]

example : Now ⟨1700000000, 123456⟩ ∧ deadline ⟨1700000000, 123456⟩ (.fin (-2)) = some ⟨1699999998, 123456001⟩ := by decide +kernel

/-- C87. A longer wait never ends earlier. -/
theorem deadline_mono {now : Clock.T} (hn : Now now) {x y : Rat} (h0 : 0 ≤ x) (h : x ≤ y) (h1 : y ≤ 2 ^ 50) :
    ∃ s t, deadline now (.fin x) = some s ∧ deadline now (.fin y) = some t ∧ secs 1000000000 s ≤ secs 1000000000 t := by
  have hc := hn.2
  obtain ⟨r, e, r0, rd⟩ := ofClock_near hn
  rw [abs_le] at rd
  have n1 : eps + 1 / 2 ^ 50 < (1 : Rat) := by unfold eps; norm_num
  have rb : r ≤ 2 ^ 33 := by norm_num at hc ⊢; linarith
  have key : ∀ z : Rat, 0 ≤ z → z ≤ 2 ^ 50 → deadline now (.fin z) = some ⟨(rnd F64 (r + z)).floor, units 1000000000 (rnd F64 (r + z))⟩ := by
    intro z z0 z1
    have s0 : 0 ≤ r + z := by linarith
    have s1 : r + z ≤ 2 ^ 51 := by norm_num at rb z1 ⊢; linarith
    have m51 : Mem F64 ((2 : Rat) ^ 51) := by
      have := mem_pow (F := F64) (E := 51) (by decide)
      exact_mod_cast this
    rw [deadline, e, Double.add, of_small (by rw [abs_of_nonneg s0]; exact le_big (n := 51) (by decide) s1)]
    exact toTimespec_eq (rnd_mem _) (rnd_nonneg hp s0) (lt_of_le_of_lt (rnd_le hp m51 s1) (by norm_num))
  refine ⟨_, _, key x h0 (by linarith), key y (by linarith) h1, ?_⟩
  exact secs_mono (U := 1000000000) (by decide) (by decide) (rnd_mono hp (by linarith))

example : Now ⟨1700000000, 123456⟩ ∧ (0 : Rat) ≤ 3 / 2 ∧ (3 / 2 : Rat) ≤ 5 / 2 ∧ (5 / 2 : Rat) ≤ 2 ^ 50 := by decide +kernel

/-- C87, what the code does: a wait for an infinite time, for NaN or for `2^63` seconds is undefined. -/
theorem deadline_too_far {now : Clock.T} (hn : Now now) {d : D} (h : lt d (.fin (2 ^ 63)) = false) : deadline now d = none := by
  obtain ⟨r, e, r0, rd⟩ := ofClock_near hn
  rw [deadline, e]
  cases d with
  | nan => rfl
  | inf n => cases n <;> rfl
  | fin x =>
    simp only [lt, decide_eq_false_iff_not, not_lt] at h
    rw [Double.add]
    have m63 : Mem F64 ((2 : Rat) ^ 63) := by
      have := mem_pow (F := F64) (E := 63) (by decide)
      exact_mod_cast this
    have hr : (2 : Rat) ^ 63 ≤ rnd F64 (r + x) := le_rnd hp m63 (by linarith)
    have ht : toInt 64 (ofRat F64 (r + x)) = none := by
      unfold ofRat
      dsimp only
      split
      · rfl
      · split
        · rfl
        · exact toInt_none (b := 64) (by norm_num at hr ⊢; exact hr)
    simp only [toTimespec, ht, bind, Option.bind]

example : lt (.inf false) (.fin (2 ^ 63)) = false ∧ lt .nan (.fin (2 ^ 63)) = false ∧ Now ⟨1700000000, 123456⟩ := by decide +kernel

/-- C87. `rw_mutex` waits until the point asked for; for less than a nanosecond it does not wait. -/
theorem rw_wait {now : Clock.T} (hn : Now now) {x : Rat} (hx : IsNum F64 x) (h1 : clock now + x ≤ 2 ^ 32) :
    (x < nano → rwWait now (.fin x) = some .try) ∧
    (nano ≤ x → ∃ t, rwWait now (.fin x) = some (.until t) ∧ Valid 1000000000 t ∧ Within micro (secs 1000000000 t) (clock now + x)) := by
  have hk : num (1 / 1000000000) = .fin (rnd F64 nano) := by
    rw [num, of_small]
    · rfl
    · rw [abs_of_nonneg (by norm_num)]
      norm_num
  have hlt : nano < rnd F64 nano := by decide +kernel
  refine ⟨fun h => ?_, fun h => ?_⟩
  · have : lt (.fin x) (.fin (rnd F64 nano)) = true := by simp only [lt, decide_eq_true_eq]; linarith
    rw [rwWait, hk, if_pos this]
  · have : lt (.fin x) (.fin (rnd F64 nano)) = false := by
      simp only [lt, decide_eq_false_iff_not, not_lt]
      exact rnd_le hp (mem_of hx) h
    obtain ⟨t, a, b⟩ := deadline_near hn (x := x) (le_trans (by unfold nano; norm_num) h) h1
    exact ⟨t, by rw [rwWait, hk, this, a]; rfl, b⟩

example : Now ⟨1700000000, 123456⟩ ∧ IsNum F64 (3 / 2) ∧ nano ≤ 3 / 2 ∧ clock ⟨1700000000, 123456⟩ + 3 / 2 ≤ 2 ^ 32 :=
  ⟨by decide +kernel, num_3_2, by decide +kernel, by decide +kernel⟩

/-! ## `pcbuf` -/

/-- C87. A timed `push` or `pop` that finds no room gives up only when the time has passed, up to two microseconds, and then it does. -/
theorem pcbuf_gives_up {start now then_ : Clock.T} (hs : Now start) (hn : Now now) {x : Rat} :
    (pcbufRound start now then_ (.fin x) = some none → x - 2 * micro < clock now - clock start) ∧
    (x + 2 * micro ≤ clock now - clock start → pcbufRound start now then_ (.fin x) = some none) := by
  obtain ⟨e, h1, hd⟩ := elapsed_near hs hn
  rw [abs_le] at hd
  have hsum : 3 * eps + 1 / 2 ^ 49 < 2 * micro := by unfold eps micro; norm_num
  refine ⟨fun h => ?_, fun h => ?_⟩
  · simp only [pcbufRound, h1] at h
    split at h
    · rename_i hl
      simp only [le, decide_eq_true_eq] at hl
      linarith
    · cases hdl : deadline then_ (Double.sub F64 (.fin x) (.fin e)) with
      | none => rw [hdl] at h; cases h
      | some t => rw [hdl] at h; cases h
  · have hl : le (.fin x) (.fin e) = true := by simp only [le, decide_eq_true_eq]; linarith
    simp [pcbufRound, h1, hl]

example : Now ⟨1700000000, 123456⟩ ∧ Now ⟨1700000002, 123456⟩ ∧
    (3 / 2 + 2 * micro : Rat) ≤ clock ⟨1700000002, 123456⟩ - clock ⟨1700000000, 123456⟩ := by decide +kernel

/-- C87. However often a timed `push` or `pop` is woken in vain, it goes on waiting until the same point in time, the given time after its
start, up to five microseconds: what it waits for after each waking is what is left. (`then_ - now` is the time between the two readings of
the clock in a round.) -/
theorem pcbuf_same_end {start now then_ : Clock.T} (hs : Now start) (hn : Now now) (ht : Now then_) {x : Rat} (h1 : x ≤ 2 ^ 32) :
    pcbufRound start now then_ (.fin x) = some none ∨
    ∃ t, pcbufRound start now then_ (.fin x) = some (some t) ∧ Valid 1000000000 t ∧
      Within (5 * micro) (secs 1000000000 t) (clock start + x + (clock then_ - clock now)) := by
  obtain ⟨e, he, hd⟩ := elapsed_near hs hn
  rw [abs_le] at hd
  by_cases hl : le (.fin x) (.fin e) = true
  · exact Or.inl (by simp [pcbufRound, he, hl])
  right
  have hl' : e < x := by simpa [le] using hl
  have pos : ∀ t, Now t → 0 ≤ clock t := by
    intro t ht
    rw [clock_eq]
    have : (0 : Rat) ≤ t.usec := by exact_mod_cast ht.1.1
    positivity
  have a := hs.2
  have b := hn.2
  have c := ht.2
  have a0 := pos _ hs
  have b0 := pos _ hn
  have c0 := pos _ ht
  have n1 : 3 * eps + 1 / 2 ^ 49 < (1 : Rat) := by unfold eps; norm_num
  obtain ⟨m, hm, -, m0, -, md⟩ := sub_near (a := x) (b := e) (n := 1) (by decide) (by
    rw [abs_lt]
    norm_num at a b h1 ⊢
    constructor <;> linarith)
  have m0 := m0 (by linarith)
  rw [abs_le] at md
  have n2 : 2 ^ 1 * eps < (1 : Rat) := by unfold eps; norm_num
  obtain ⟨y, hy, hym, y0, yd, yb, _⟩ := clock_add ht (x := m) (n := 2) (by decide) (by linarith) (by norm_num at a b c h1 ⊢; linarith)
  rw [abs_le] at yd
  obtain ⟨t, e2, v, w1, w2⟩ := spec_near hym (y0 m0) (lt_of_lt_of_le yb (by norm_num))
  refine ⟨t, ?_, v, ?_⟩
  · simp only [pcbufRound, he, hl, hm, deadline, hy, e2]
    rfl
  · have hsum : (3 * eps + 1 / 2 ^ 49) + 2 ^ 1 * eps + (2 ^ 2 * eps + eps + 1 / 2 ^ 50) + nano < 5 * micro := by unfold eps nano micro; norm_num
    constructor <;> linarith

example : Now ⟨1700000000, 123456⟩ ∧ Now ⟨1700000001, 123456⟩ ∧ Now ⟨1700000001, 123457⟩ ∧
    pcbufRound ⟨1700000000, 123456⟩ ⟨1700000001, 123456⟩ ⟨1700000001, 123457⟩ (.fin 5) = some (some ⟨1700000005, 123456954⟩) := by decide +kernel

/-! ## Timeouts of sockets -/

/-- C87. A socket is given the timeout asked for up to a microsecond. -/
theorem timeout_exact {x : Rat} (hx : IsNum F64 x) (h0 : 0 ≤ x) (h1 : x < 2 ^ 31) :
    ∃ t, setTimeo (.fin x) = some (.set t) ∧ mpSetTimeout (.fin x) = some (.set t) ∧ Valid 1000000 t ∧ Within micro (secs 1000000 t) x := by
  obtain ⟨a, b⟩ := secs_within (x := x) (U := 1000000) (by decide) (by decide) h0
  have hv := timeval_eq (mem_of hx) h0 h1
  have hl : lt (.fin x) (.fin 0) = false := by simpa [lt] using h0
  refine ⟨⟨x.floor, units 1000000 x⟩, by simp [setTimeo, num0, hl, hv], by simp [mpSetTimeout, hv], by exact_mod_cast a, ?_⟩
  simpa [micro] using b

example : IsNum F64 (3 / 2) ∧ setTimeo (.fin (3 / 2)) = some (.set ⟨1, 500000⟩) := ⟨num_3_2, by decide +kernel⟩

/-- C87. Timeouts that were given to a socket are never refused by the system. -/
theorem timeval_valid {d : D} {t : Tv} (h : timeval d = some t) : Valid 1000000 t := by
  obtain ⟨n, -, h⟩ := Option.bind_eq_some_iff.1 h
  obtain ⟨m, -, h⟩ := Option.bind_eq_some_iff.1 h
  cases h
  have := clampA m 1000000 (by decide)
  refine ⟨?_, by simpa using this.1, by simpa using this.2⟩
  simp only [maxI]; split <;> omega

example : timeval (.fin (3 / 2)) = some ⟨1, 500000⟩ := by decide +kernel

/-- C87. `set_timeout` of the ordinary sockets refuses negative timeouts. -/
theorem timeout_negative {d : D} (h : lt d (.fin 0) = true) : setTimeo d = some .refused := by
  simp [setTimeo, num0, h]

example : lt (.fin (-1)) (.fin 0) = true := by decide +kernel

/-- C87, what the code does: a negative timeout of an `mprpc` socket is no timeout. -/
theorem mp_timeout_negative {x : Rat} (hx : IsNum F64 x) (h0 : x ≤ 0) (h1 : -2147 ≤ x) : mpSetTimeout (.fin x) = some (.set forever) := by
  have hb : -((2147000000 : Int) : Rat) ≤ rnd F64 (x * 1000000) := le_rnd hp (mem_neg (mem_whole (by norm_num))) (by push_cast; linarith)
  obtain ⟨n, n2, a, b, c, d⟩ := steps_neg (b := 32) (b2 := 32) (U := 1000000) (mem_of hx) h0 (by decide) (by decide) (by norm_num; linarith) (by norm_num; linarith)
    (by push_cast at hb ⊢; linarith)
  push_cast at c
  have z : ((0 : Int) : Rat) = 0 := by norm_num
  simp only [mpSetTimeout, timeval, a, b, z, bind, Option.bind, pure, c, d]
  rfl

example : mpSetTimeout (.fin (-1)) = some (.set forever) := by decide +kernel

/-- C87, what the code does: a negative timeout of an `mprpc` socket below -2148 seconds is undefined. -/
theorem mp_timeout_very_negative {x : Rat} (hx : IsNum F64 x) (h1 : x ≤ -2148) : mpSetTimeout (.fin x) = none := by
  by_cases h2 : x ≤ -(2 ^ 32)
  · have : toInt 32 (.fin x) = none := toInt_low (k := 2 ^ 32) (by norm_num) (by push_cast; exact h2)
    simp only [mpSetTimeout, timeval, this, bind, Option.bind, Option.map]
  · have h2 := not_le.1 h2
    have hx0 : x ≤ 0 := by linarith
    have y0 : x * 1000000 ≤ 0 := by linarith
    have hb : rnd F64 (x * 1000000) ≤ -((2148000000 : Int) : Rat) := rnd_le hp (mem_neg (mem_whole (by norm_num))) (by push_cast; linarith)
    have e3 : toInt 32 (.fin (rnd F64 (x * 1000000))) = none := toInt_low (k := 2148000000) (by norm_num) hb
    cases ht : toInt 32 (.fin x) with
    | none => simp only [mpSetTimeout, timeval, ht, bind, Option.bind, Option.map]
    | some n =>
      have hn : maxI 0 n = 0 := by
        simp only [toInt] at ht
        split at ht
        · cases ht
          have := (trunc_nonpos hx0).1
          simp [maxI]; omega
        · cases ht
      have e1 : Double.sub F64 (.fin x) (num ((0 : Int) : Rat)) = .fin x := by
        rw [Int.cast_zero, num0, Double.sub, neg, Double.add, neg_zero, add_zero, of_small, rnd_of_mem hp (mem_of hx)]
        rw [abs_of_nonpos hx0]
        exact le_big (n := 64) (by omega) (by norm_num at h2 ⊢; linarith)
      have e2 : mul F64 (.fin x) (num 1000000) = .fin (rnd F64 (x * 1000000)) := by
        rw [num6, mul, of_small]
        rw [abs_of_nonpos y0]
        exact le_big (n := 64) (by omega) (by norm_num at h2 ⊢; linarith)
      simp only [mpSetTimeout, timeval, ht, hn, e1, e2, e3, bind, Option.bind, Option.map]

example : mpSetTimeout (.fin (-3000)) = none := by decide +kernel

/-- C87, what the code does: timeouts of `2^31` seconds or more, and NaN, are undefined. -/
theorem timeout_undefined {d : D} (h : lt d (.fin (2 ^ 31)) = false) : setTimeo d = none ∧ mpSetTimeout d = none := by
  have ht : toInt 32 d = none := by
    cases d with
    | nan => rfl
    | inf n => rfl
    | fin x =>
      simp only [lt, decide_eq_false_iff_not, not_lt] at h
      exact toInt_none (b := 32) (by norm_num at h ⊢; exact h)
  have hl : lt d (.fin 0) = false := by
    cases d with
    | nan => rfl
    | inf n => simpa [lt] using h
    | fin x =>
      simp only [lt, decide_eq_false_iff_not, not_lt] at h ⊢
      norm_num at h; linarith
  have hv : timeval d = none := by simp only [timeval, ht, bind, Option.bind]
  simp [setTimeo, mpSetTimeout, num0, hl, hv]

example : lt (.inf false) (.fin (2 ^ 31)) = false := by decide +kernel

/-- C87. A timeout of a microsecond or more is a timeout: never the value that stands for none. -/
theorem timeout_not_forever {x : Rat} (hx : IsNum F64 x) (h0 : micro ≤ x) (h1 : x < 2 ^ 31) :
    ∃ t, setTimeo (.fin x) = some (.set t) ∧ mpSetTimeout (.fin x) = some (.set t) ∧ t ≠ forever := by
  have x0 : 0 ≤ x := le_trans (by unfold micro; norm_num) h0
  have hv := timeval_eq (mem_of hx) x0 h1
  have hl : lt (.fin x) (.fin 0) = false := by simpa [lt] using x0
  refine ⟨⟨x.floor, units 1000000 x⟩, by simp [setTimeo, num0, hl, hv], by simp [mpSetTimeout, hv], fun h => ?_⟩
  have f0 : x.floor = 0 := congrArg Tv.sec h
  have u0 : units 1000000 x = 0 := congrArg Tv.frac h
  have : (1 : Rat) ≤ rnd F64 ((x - x.floor) * 1000000) := by
    apply le_rnd hp
    · simpa using mem_whole (n := 1) (by norm_num)
    · rw [f0]; unfold micro at h0; push_cast; linarith
  have : 1 ≤ (rnd F64 ((x - x.floor) * 1000000)).floor := Rat.le_floor_iff.2 (by simpa using this)
  have hu : units 1000000 x = minI 999999 (rnd F64 ((x - x.floor) * 1000000)).floor := by
    unfold units; push_cast; norm_num
  rw [hu] at u0
  unfold minI at u0
  split at u0 <;> omega

example : IsNum F64 (3 / 2) ∧ micro ≤ 3 / 2 := ⟨num_3_2, by decide +kernel⟩

/-- C87, what the code does: every positive timeout below a microsecond (by more than a rounding error) is set as no timeout at all, also
by servers and clients that were given it as their timeout. -/
theorem tiny_timeout_forever {x : Rat} (hx : IsNum F64 x) (h0 : 0 < x) (h1 : x ≤ micro - 1 / 2 ^ 72) :
    guarded setTimeo (.fin x) = some (some (.set forever)) ∧ guarded mpSetTimeout (.fin x) = some (some (.set forever)) := by
  have xm : x < 1 := by unfold micro at h1; norm_num at h1; linarith
  have hv := timeval_eq (mem_of hx) (le_of_lt h0) (lt_trans xm (by norm_num))
  have hl : lt (.fin x) (.fin 0) = false := by simpa [lt] using le_of_lt h0
  have hl2 : lt (.fin 0) (.fin x) = true := by simpa [lt] using h0
  have f0 : x.floor = 0 := by
    have a : 0 ≤ x.floor := Rat.le_floor_iff.2 (by simpa using le_of_lt h0)
    have b : x.floor < 1 := Rat.floor_lt_iff.2 (by simpa using xm)
    omega
  have hm : Mem F64 (1 - 1 / 2 ^ 53) := ⟨2 ^ 53 - 1, -53, by norm_num [F64], by decide, by norm_num⟩
  have hr : rnd F64 ((x - x.floor) * 1000000) ≤ 1 - 1 / 2 ^ 53 := by
    apply rnd_le hp hm
    rw [f0]
    unfold micro at h1
    norm_num at h1 ⊢
    linarith
  have hfl : (rnd F64 ((x - x.floor) * 1000000)).floor = 0 := by
    have a : 0 ≤ (rnd F64 ((x - x.floor) * 1000000)).floor := Rat.le_floor_iff.2 (by
      have := rnd_nonneg hp (F := F64) (x := (x - x.floor) * 1000000) (by rw [f0]; push_cast; linarith)
      simpa using this)
    have b : (rnd F64 ((x - x.floor) * 1000000)).floor < 1 := Rat.floor_lt_iff.2 (by norm_num at hr ⊢; linarith)
    omega
  have hu : units 1000000 x = 0 := by
    have : units 1000000 x = minI 999999 (rnd F64 ((x - x.floor) * 1000000)).floor := by
      unfold units; push_cast; norm_num
    rw [this, hfl]; rfl
  rw [f0, hu] at hv
  simp [guarded, setTimeo, mpSetTimeout, num0, hl, hl2, hv, forever]

example : IsNum F64 (1 / 2 ^ 21) ∧ (0 : Rat) < 1 / 2 ^ 21 ∧ (1 / 2 ^ 21 : Rat) ≤ micro - 1 / 2 ^ 72 :=
  ⟨⟨1, -21, by decide, by decide, by decide, by norm_num⟩, by decide +kernel, by decide +kernel⟩

/-- C87, the full claim that a positive timeout is one fails. -/
theorem timeout_forever_fails : ∃ x, IsNum F64 x ∧ 0 < x ∧ guarded setTimeo (.fin x) = some (some (.set forever)) :=
  ⟨1 / 2 ^ 21, ⟨1, -21, by decide, by decide, by decide, by norm_num⟩, by decide +kernel, by decide +kernel⟩

/-! ## Timeouts of `mprpc` streams -/

/-- C87. While the clock does not go back, a stream times out only when the time has passed, up to a microsecond, and then it does. -/
theorem expired_iff {start now : Clock.T} (hs : Now start) (hn : Now now) (h : clock start ≤ clock now) {x : Rat} (hx : 0 < x) :
    (expired start now (.fin x) = some true → x - micro < clock now - clock start) ∧
    (x + micro ≤ clock now - clock start → expired start now (.fin x) = some true) ∧ expired start now (.fin x) ≠ none := by
  obtain ⟨d, e, hd, hc⟩ := clock_sub hs hn h
  obtain ⟨r, hr, _, rd⟩ := ofClock_near hd
  rw [hc, abs_le] at rd
  have hl : lt (.fin 0) (.fin x) = true := by simpa [lt] using hx
  have hsum : eps + 1 / 2 ^ 50 < micro := by unfold eps micro; norm_num
  have key : expired start now (.fin x) = some (decide (x < r)) := by
    rw [expired, num0, if_pos hl, e]
    simp only [Option.map, hr, lt]
  rw [key]
  refine ⟨fun h => ?_, fun h => ?_, by simp⟩
  · simp only [Option.some.injEq, decide_eq_true_eq] at h
    linarith
  · simp only [Option.some.injEq, decide_eq_true_eq]
    linarith

example : Now ⟨1700000000, 900000⟩ ∧ Now ⟨1700000002, 100000⟩ ∧ clock ⟨1700000000, 900000⟩ ≤ clock ⟨1700000002, 100000⟩ ∧
    expired ⟨1700000000, 900000⟩ ⟨1700000002, 100000⟩ (.fin 1) = some true ∧
    expired ⟨1700000000, 900000⟩ ⟨1700000002, 100000⟩ (.fin (3 / 2)) = some false := by decide +kernel

/-- C87. A stream without a positive timeout never times out. -/
theorem no_timeout {start now : Clock.T} {d : D} (h : lt (.fin 0) d = false) : expired start now d = some false := by
  simp [expired, num0, h]

example : lt (.fin 0) (.fin (-1)) = false := by decide +kernel

/-- C87, what the code does: if the clock is set back during a call, by however little, the next look at it times out, whatever the
timeout. -/
theorem clock_back_expires {start now : Clock.T} (hs : Now start) (hn : Now now) (h : clock now < clock start) {x : Rat} (hx : 0 < x) (h1 : x ≤ 2 ^ 62) :
    expired start now (.fin x) = some true := by
  have hm : Clock.Spec.micros now < Clock.Spec.micros start := by
    unfold clock at h
    have : (Clock.Spec.micros now : Rat) < Clock.Spec.micros start := by linarith
    exact_mod_cast this
  obtain ⟨a1, a2⟩ := hs.1
  obtain ⟨b1, b2⟩ := hn.1
  obtain ⟨d, e, hd, he⟩ := Clock.Props.sub_exact now start (by unfold Clock.int32; omega)
  have hS : Clock.Spec.micros start ≤ 2 ^ 32 * 1000000 := by
    have := hs.2
    unfold clock at this
    have : (Clock.Spec.micros start : Rat) ≤ 2 ^ 32 * 1000000 := by linarith
    exact_mod_cast this
  have hN := (Clock.Lemmas.micros_range hn.1).1
  have hbig : (2 ^ 63 : Int) * 1000000 ≤ Clock.Spec.micros d := by
    rw [he]
    have : Clock.Spec.wrap = 2 ^ 64 * 1000000 := rfl
    rw [this]
    omega
  have hsec : 2 ^ 63 ≤ d.sec.toNat := by
    obtain ⟨c1, c2⟩ := hd
    unfold Clock.Spec.micros at hbig
    omega
  have hsec2 := Clock.Lemmas.sec_lt d
  have hsq : (2 : Rat) ^ 63 ≤ (d.sec.toNat : Rat) := by exact_mod_cast hsec
  have hsq2 : (d.sec.toNat : Rat) ≤ 2 ^ 64 := by
    have : (d.sec.toNat : Rat) < ((2 ^ 64 : Nat) : Rat) := by exact_mod_cast hsec2
    push_cast at this
    exact le_of_lt this
  have m63 : Mem F64 ((2 : Rat) ^ 63) := by
    have := mem_pow (F := F64) (E := 63) (by decide)
    exact_mod_cast this
  have m64 : Mem F64 ((2 : Rat) ^ 64) := by
    have := mem_pow (F := F64) (E := 64) (by decide)
    exact_mod_cast this
  have ns : num (d.sec.toNat : Rat) = .fin (rnd F64 (d.sec.toNat : Rat)) := by
    rw [num, of_small]
    rw [abs_of_nonneg (by positivity)]
    exact le_big (n := 64) (by decide) hsq2
  have hr1 := le_rnd hp m63 hsq
  have hr2 := rnd_le hp m64 hsq2
  obtain ⟨k, hk, k0, kd⟩ := k6
  rw [abs_le] at kd
  have u0q : (0 : Rat) ≤ d.usec := by exact_mod_cast hd.1
  have u1q : (d.usec : Rat) ≤ 999999 := by
    have := hd.2
    exact_mod_cast (show d.usec ≤ 999999 by omega)
  have nu : num (d.usec : Rat) = .fin (d.usec : Rat) := num_whole (by rw [abs_of_nonneg hd.1]; have := hd.2; omega)
  have p0 : 0 ≤ (d.usec : Rat) * k := mul_nonneg u0q k0
  have k1 : k ≤ 1 := by
    have : (1 : Rat) / 1000000 + 1 / 2 ^ 73 ≤ 1 := by norm_num
    linarith
  have p1 : (d.usec : Rat) * k ≤ 2 ^ 20 := by
    have : (999999 : Rat) ≤ 2 ^ 20 := by norm_num
    nlinarith
  have m20 : Mem F64 ((2 : Rat) ^ 20) := by
    have := mem_pow (F := F64) (E := 20) (by decide)
    exact_mod_cast this
  have m1 : mul F64 (.fin (d.usec : Rat)) (.fin k) = .fin (rnd F64 ((d.usec : Rat) * k)) := by
    rw [mul, of_small]
    rw [abs_of_nonneg p0]
    exact le_big (n := 20) (by decide) p1
  have w0 : 0 ≤ rnd F64 ((d.usec : Rat) * k) := rnd_nonneg hp p0
  have w1 : rnd F64 ((d.usec : Rat) * k) ≤ 2 ^ 20 := rnd_le hp m20 p1
  have hs2 : (2 : Rat) ^ 63 ≤ rnd F64 (d.sec.toNat : Rat) + rnd F64 ((d.usec : Rat) * k) := by linarith
  have hd2 : ofClock d = .fin (rnd F64 (rnd F64 (d.sec.toNat : Rat) + rnd F64 ((d.usec : Rat) * k))) := by
    rw [ofClock, ns, nu, hk, m1, Double.add, of_small]
    rw [abs_of_nonneg (le_trans (by norm_num) hs2)]
    apply le_big (n := 65) (by decide)
    norm_num at hr2 w1 ⊢
    linarith
  have hge := le_rnd hp m63 hs2
  have hl : lt (.fin 0) (.fin x) = true := by simpa [lt] using hx
  rw [expired, num0, if_pos hl, e]
  simp only [Option.map, hd2, lt]
  congr 1
  simp only [decide_eq_true_eq]
  norm_num at h1 hge ⊢
  linarith

example : Now ⟨1700000000, 900000⟩ ∧ Now ⟨1700000000, 899999⟩ ∧ clock ⟨1700000000, 899999⟩ < clock ⟨1700000000, 900000⟩ ∧
    expired ⟨1700000000, 900000⟩ ⟨1700000000, 899999⟩ (.fin 3600) = some true := by decide +kernel

end Verif.Duration.Props
