import Verif.RandReal.Lemmas
/-! # Random real numbers: the theorems -/
namespace Verif.RandReal.Props
open Verif.Double Verif.Double.Spec Verif.Double.Lemmas Verif.RandReal Verif.RandReal.Spec Verif.RandReal.Lemmas

/-- A random real number is a whole multiple of `2^-53`, from 0 to below 1:
nothing is rounded. Two numbers of the generator are used. -/
theorem real_exact {G : Type} (next : G → UInt32 × G) (r : Rand G) :
    ∃ k : Nat, k < 2 ^ 53 ∧ (nextDouble next r).1 = .fin ((k : Rat) / 2 ^ 53) ∧ (nextDouble next r).2 = { r with g := after next 2 r.g } := by
  refine ⟨_, k53_lt (next r.g).1 (next (next r.g).2).1, ?_, ?_⟩
  · rw [nextDouble_eq]
  · rw [nextDouble_eq]; rfl

example : (nextDouble (always 4294967295) (new ())).1 = .fin (1 - 1 / 2 ^ 53) := by decide +kernel

/-- All `2^53` numbers are equally likely if the numbers of the generator are:
each is made by exactly 32 times 64 pairs, one for every remainder `i` and `j`. -/
theorem real_uniform (k i j : Nat) (hk : k < 2 ^ 53) (hi : i < 32) (hj : j < 64) :
    ∃ u v : UInt32, (real53 u v = .fin ((k : Rat) / 2 ^ 53) ∧ u.toNat % 32 = i ∧ v.toNat % 64 = j) ∧
      ∀ u' v' : UInt32, real53 u' v' = .fin ((k : Rat) / 2 ^ 53) → u'.toNat % 32 = i → v'.toNat % 64 = j → u' = u ∧ v' = v := by
  have inj : ∀ u v : UInt32, real53 u v = .fin ((k : Rat) / 2 ^ 53) ↔ k53 u v = k := by
    intro u v
    rw [real53_eq, D.fin.injEq, div_left_inj' (by norm_num), Nat.cast_inj]
  have hu : k / 67108864 * 32 + i < 2 ^ 32 := by omega
  have hv : k % 67108864 * 64 + j < 2 ^ 32 := by omega
  refine ⟨UInt32.ofNat (k / 67108864 * 32 + i), UInt32.ofNat (k % 67108864 * 64 + j), ⟨(inj _ _).2 ?_, ?_, ?_⟩, ?_⟩
  · rw [k53, UInt32.toNat_ofNat_of_lt' hu, UInt32.toNat_ofNat_of_lt' hv]; omega
  · rw [UInt32.toNat_ofNat_of_lt' hu]; omega
  · rw [UInt32.toNat_ofNat_of_lt' hv]; omega
  · intro u' v' h1 h2 h3
    have h1 := (inj _ _).1 h1
    rw [k53] at h1
    have := u'.toNat_lt
    have := v'.toNat_lt
    refine ⟨UInt32.toNat_inj.1 ?_, UInt32.toNat_inj.1 ?_⟩
    · rw [UInt32.toNat_ofNat_of_lt' hu]; omega
    · rw [UInt32.toNat_ofNat_of_lt' hv]; omega

example : real53 2147483648 0 = .fin (1 / 2) ∧ real53 2147483679 63 = .fin (1 / 2) ∧ real53 2147483680 0 ≠ .fin (1 / 2) := by decide +kernel

/-- A random number up to `a` lies from 0 to below `a`, for every `double` `a`
above the smallest normal one. -/
theorem real_to {G : Type} (next : G → UInt32 × G) (r : Rand G) {a : Rat} (ha : IsNum F64 a) (hlo : (2 : Rat) ^ (-1022 : Int) < a) :
    ∃ y, (nextDoubleTo next (.fin a) r).1 = .fin y ∧ 0 ≤ y ∧ y < a := by
  have ha0 : 0 < a := lt_trans (two_zpow_pos _) hlo
  unfold nextDoubleTo
  rw [nextDouble_eq]
  dsimp only
  generalize (next r.g).1 = u
  generalize (next (next r.g).2).1 = v
  obtain ⟨f1, f2⟩ := k53_frac u v
  generalize (k53 u v : Rat) / 2 ^ 53 = x at *
  have hlt := mul_lt (mem_of ha) hlo f2
  have h0 := rnd_mul_nonneg ha0.le f1
  refine ⟨rnd F64 (a * x), ofRat_fin ?_, h0, hlt⟩
  rw [abs_of_nonneg h0]
  have := num_lt ha
  rw [abs_of_pos ha0] at this
  linarith

example : (nextDoubleTo (always 4294967295) (.fin 3) (new ())).1 = .fin (3 - 1 / 2 ^ 51) := by decide +kernel

/-- For the numbers `a` closest to zero `a` itself is returned, although
`[0,a)` is documented; nothing above it is. -/
theorem real_to_tiny :
    (nextDoubleTo (always 4294967295) (.fin ((2 : Rat) ^ (-1022 : Int))) (new ())).1 = .fin ((2 : Rat) ^ (-1022 : Int)) ∧
    ∀ {G : Type} (next : G → UInt32 × G) (r : Rand G) (a : Rat), IsNum F64 a → 0 ≤ a →
      ∃ y, (nextDoubleTo next (.fin a) r).1 = .fin y ∧ 0 ≤ y ∧ y ≤ a := by
  refine ⟨by decide +kernel, ?_⟩
  intro G next r a ha ha0
  unfold nextDoubleTo
  rw [nextDouble_eq]
  dsimp only
  generalize (next r.g).1 = u
  generalize (next (next r.g).2).1 = v
  obtain ⟨f1, f2⟩ := k53_frac u v
  generalize (k53 u v : Rat) / 2 ^ 53 = x at *
  have hle := rnd_mul_le (mem_of ha) ha0 (r := x) (by linarith [show (0 : Rat) ≤ 1 / 2 ^ 53 by norm_num])
  have h0 := rnd_mul_nonneg ha0 f1
  refine ⟨rnd F64 (a * x), ofRat_fin ?_, h0, hle⟩
  rw [abs_of_nonneg h0]
  have := num_lt ha
  rw [abs_of_nonneg ha0] at this
  linarith

/-- A random number from `a` to `b` is never outside `a` to `b`, for all
`double`s `a ≤ b` whose distance is not above the largest `double`, whatever
is rounded on the way. -/
theorem real_in {G : Type} (next : G → UInt32 × G) (r : Rand G) {a b : Rat} (ha : IsNum F64 a) (hb : IsNum F64 b) (hab : a ≤ b)
    (hd : b - a ≤ largest) :
    ∃ y, (nextDoubleIn next (.fin a) (.fin b) r).1 = .fin y ∧ a ≤ y ∧ y ≤ b := by
  have hd0 : 0 ≤ b - a := by linarith
  have hD : sub F64 (.fin b) (.fin a) = .fin (rnd F64 (b - a)) := by
    rw [sub, neg, add, ← sub_eq_add_neg]
    exact ofRat_of_le hp mem_largest largest_lt (by rw [abs_of_nonneg hd0]; exact hd)
  unfold nextDoubleIn nextDoubleTo
  rw [nextDouble_eq]
  dsimp only
  generalize (next r.g).1 = u
  generalize (next (next r.g).2).1 = v
  obtain ⟨f1, f2⟩ := k53_frac u v
  generalize (k53 u v : Rat) / 2 ^ 53 = x at *
  have hr0 : 0 ≤ rnd F64 (b - a) := rnd_nonneg hp hd0
  have hp0 := rnd_mul_nonneg hr0 f1
  have hp1 := mul_sub_le (mem_of ha) (mem_of hb) hab f2
  have hp2 := rnd_mul_le (rnd_mem (F := F64) (b - a)) hr0 (r := x) (by linarith [show (0 : Rat) ≤ 1 / 2 ^ 53 by norm_num])
  have hM : mul F64 (.fin (rnd F64 (b - a))) (.fin x) = .fin (rnd F64 (rnd F64 (b - a) * x)) := by
    refine ofRat_fin ?_
    rw [abs_of_nonneg hp0]
    linarith [largest_lt]
  rw [hD, hM, add]
  generalize rnd F64 (rnd F64 (b - a) * x) = q at *
  have h1 : a ≤ a + q := by linarith
  have h2 : a + q ≤ b := by linarith
  refine ⟨rnd F64 (a + q), ?_, le_rnd hp (mem_of ha) h1, rnd_le hp (mem_of hb) h2⟩
  refine ofRat_of_le hp (mem_max (mem_of ha) (mem_of hb)) (max_lt (num_lt ha) (num_lt hb)) ?_
  rw [abs_le]
  constructor
  · have := neg_abs_le a
    have := le_max_left |a| |b|
    linarith
  · have := le_abs_self b
    have := le_max_right |a| |b|
    linarith

example : (nextDoubleIn (always 2147483648) (.fin (-1)) (.fin 3) (new ())).1 = .fin (1 + 1 / 2 ^ 26) := by decide +kernel

/-- `b` itself is returned, although `[a,b)` is documented: between 1 and 2
by the largest random number. -/
theorem real_in_end : (nextDoubleIn (always 4294967295) (.fin 1) (.fin 2) (new ())).1 = .fin 2 := by decide +kernel

/-- If the distance is too large for a `double` the result is infinite or no number at all. -/
theorem real_in_overflow :
    IsNum F64 largest ∧
    (nextDoubleIn (always 0) (.fin (-largest)) (.fin largest) (new ())).1 = .nan ∧
    (nextDoubleIn (always 64) (.fin (-largest)) (.fin largest) (new ())).1 = .inf false := by
  refine ⟨⟨2 ^ 53 - 1, 971, by decide, by decide, by decide, ?_⟩, by decide +kernel, by decide +kernel⟩
  rw [largest, show (2 : Rat) ^ (971 : Int) = 2 ^ 971 from zpow_natCast _ _]
  generalize (2 : Rat) ^ 971 = p
  norm_num

/-- A random whole number below `a` is below `a`, and the conversion is defined. -/
theorem int_below {G : Type} (next : G → UInt32 × G) (r : Rand G) {a : UInt32} (ha : 0 < a.toNat) :
    ∃ n : Int, (nextInt next a r).1 = some n ∧ 0 ≤ n ∧ n < a.toNat := by
  obtain ⟨n, h, h0, _, h1⟩ := nextInt_eq next a r
  exact ⟨n, by rw [h], h0, h1 ha⟩

example : (nextInt (always 4294967295) 4294967295 (new ())).1 = some 4294967294 := by decide +kernel

/-- Whatever is called before, in whatever order, every value returned was
set, and a normally distributed number is a finite number between -9 and 9:
the logarithm is never taken of zero. -/
theorem gaussian_finite {G : Type} {lib : Lib} (hs : Sane lib) (next : G → UInt32 × G) (g : G) (cs : List Call) :
    (∀ o ∈ (calls lib next (new g) cs).1, o ≠ none) ∧
    ∀ i : Nat, cs[i]? = some Call.gaussian → ∃ x, (calls lib next (new g) cs).1[i]? = some (some (.fin x)) ∧ -9 ≤ x ∧ x ≤ 9 := by
  have hok : Ok (new g) := fun h => by cases h
  generalize new g = r at *
  induction cs generalizing r with
  | nil => exact ⟨fun o h => (by cases h), fun i h => (by simp at h)⟩
  | cons c cs ih =>
    have hstep : (call lib next r c).1 ≠ none ∧ Ok (call lib next r c).2 ∧
        (c = .gaussian → ∃ x, (call lib next r c).1 = some (.fin x) ∧ -9 ≤ x ∧ x ≤ 9) := by
      cases hg : c.isGaussian with
      | false =>
        obtain ⟨e1, e2⟩ := call_real lib next r hg
        refine ⟨fun h => (by rw [h] at e2; cases e2), by rw [e1]; exact hok, fun h => (by rw [h] at hg; cases hg)⟩
      | true =>
        obtain ⟨⟨x, e1, e2⟩, e3⟩ := gaussian_ok hs next hok
        refine ⟨?_, by rw [call_gaussian lib next r hg]; exact e3, fun h => by rw [h]; exact ⟨x, e1, abs_le.1 e2⟩⟩
        cases c with
        | gaussian => intro h; rw [call, e1] at h; cases h
        | gaussianAt m d => intro h; simp only [call, nextGaussianAt] at h; rw [e1] at h; cases h
        | real => cases hg
        | realTo => cases hg
        | realIn => cases hg
        | int => cases hg
    obtain ⟨s1, s2, s3⟩ := hstep
    obtain ⟨i1, i2⟩ := ih _ s2
    refine ⟨?_, ?_⟩
    · intro o ho
      simp only [calls, List.mem_cons] at ho
      rcases ho with rfl | ho
      · exact s1
      · exact i1 o ho
    · intro i hi
      cases i with
      | zero =>
        simp only [List.getElem?_cons_zero, Option.some.injEq] at hi
        obtain ⟨x, h1, h2⟩ := s3 hi
        refine ⟨x, ?_, h2⟩
        simp only [calls, List.getElem?_cons_zero, h1]
      | succ i =>
        simp only [List.getElem?_cons_succ] at hi
        obtain ⟨x, h1, h2⟩ := i2 i hi
        refine ⟨x, ?_, h2⟩
        simp only [calls, List.getElem?_cons_succ, h1]

/-- Crude functions, but within the bounds assumed. -/
def crude : Lib := ⟨fun _ => .fin (-8), fun _ => .fin 4, fun _ => .fin (1 / 2), fun _ => .fin (-1), .fin 3⟩

example : Sane crude :=
  ⟨fun _ _ _ => ⟨-8, rfl, by norm_num, by norm_num⟩, fun _ _ _ => ⟨4, rfl, by norm_num, by norm_num⟩,
    fun _ => ⟨1 / 2, rfl, by norm_num, by norm_num⟩, fun _ => ⟨-1, rfl, by norm_num, by norm_num⟩, ⟨3, rfl, by norm_num, by norm_num⟩⟩

example : (calls crude (always 0) (new ()) [.gaussian, .real, .gaussian, .gaussianAt (.fin 10) (.fin 3)]).1 =
    [some (.fin 2), some (.fin 0), some (.fin (-4)), some (.fin 16)] := by decide +kernel

/-- Normally distributed numbers come in pairs from two random real numbers,
by Box and Muller's formula: the second is returned by the second call,
whatever other numbers are drawn in between. -/
theorem gaussian_pair {G : Type} (lib : Lib) (next : G → UInt32 × G) (r : Rand G) (hr : r.stocked = false) (cs : List Call)
    (hcs : ∀ c ∈ cs, c.isGaussian = false) :
    ∃ x y, (nextDouble next r).1 = .fin x ∧ (nextDouble next (nextDouble next r).2).1 = .fin y ∧
      (nextGaussian lib next r).1 = some (boxMuller lib x y).1 ∧
      (nextGaussian lib next (calls lib next (nextGaussian lib next r).2 cs).2).1 = some (boxMuller lib x y).2 ∧
      (nextGaussian lib next (calls lib next (nextGaussian lib next r).2 cs).2).2.stocked = false := by
  obtain ⟨x, y, hx, hy, e⟩ := gaussian_new lib next r hr
  refine ⟨x, y, hx, hy, by rw [e], ?_⟩
  rw [e]
  dsimp only
  have inv : ∀ (cs : List Call) (r : Rand G), (∀ c ∈ cs, c.isGaussian = false) →
      (calls lib next r cs).2.stocked = r.stocked ∧ (calls lib next r cs).2.stock = r.stock := by
    intro cs
    induction cs with
    | nil => intro r _; exact ⟨rfl, rfl⟩
    | cons c cs ih =>
      intro r h
      obtain ⟨h1, h2⟩ := ih (call lib next r c).2 (fun c hc => h c (List.mem_cons_of_mem _ hc))
      rw [(call_real lib next r (h c List.mem_cons_self)).1] at h1 h2
      simp only [calls]
      rw [(call_real lib next r (h c List.mem_cons_self)).1]
      exact ⟨h1, h2⟩
  obtain ⟨h1, h2⟩ := inv cs ⟨after next 4 r.g, true, some (boxMuller lib x y).2⟩ hcs
  unfold nextGaussian
  rw [h1, h2]
  exact ⟨rfl, rfl⟩

example : (nextGaussian crude (always 0) (new ())).1 = some (boxMuller crude 0 0).1 := by decide +kernel

/-- How many numbers of the generator a program uses: two for each random
number, four for every second normally distributed one. -/
theorem generator_use {G : Type} (lib : Lib) (next : G → UInt32 × G) (g : G) (cs : List Call) :
    (calls lib next (new g) cs).2.g =
      after next (2 * (cs.filter (fun c => !c.isGaussian)).length + 4 * (((cs.filter Call.isGaussian).length + 1) / 2)) g := by
  have main : ∀ (cs : List Call) (r : Rand G), (calls lib next r cs).2.g =
      after next (2 * (cs.filter (fun c => !c.isGaussian)).length +
        4 * (((cs.filter Call.isGaussian).length + (if r.stocked then 0 else 1)) / 2)) r.g := by
    intro cs
    induction cs with
    | nil => intro r; cases h : r.stocked <;> simp [calls, after]
    | cons c cs ih =>
      intro r
      simp only [calls]
      rw [ih]
      cases hc : c.isGaussian with
      | false =>
        rw [(call_real lib next r hc).1]
        simp only [List.filter_cons, hc, Bool.not_false, if_true, List.length_cons, after_add]
        congr 1
        simp only [Bool.false_eq_true, if_false]
        omega
      | true =>
        rw [call_gaussian lib next r hc, (gaussian_draw lib next r).1, (gaussian_draw lib next r).2, after_add]
        congr 1
        simp only [List.filter_cons, hc, Bool.not_true, Bool.false_eq_true, if_false, if_true, List.length_cons]
        cases r.stocked
        · simp; omega
        · simp
  exact main cs (new g)

example : (calls crude (fun n : Nat => (0, n + 1)) (new 0) [.gaussian, .real, .gaussian, .int 5, .gaussian]).2.g = 12 := by decide +kernel

/-- With deviation 0 the mean is returned, for every mean. -/
theorem gaussian_mean {G : Type} {lib : Lib} (hs : Sane lib) (next : G → UInt32 × G) (g : G) (cs : List Call) {m : Rat} (hm : IsNum F64 m) :
    (nextGaussianAt lib next (.fin m) (.fin 0) (calls lib next (new g) cs).2).1 = some (.fin m) := by
  obtain ⟨hv, hg⟩ := gaussian_finite hs next g (cs ++ [.gaussian])
  obtain ⟨x, hx, _⟩ := hg cs.length (by simp)
  have app : ∀ (cs : List Call) (r : Rand G), (calls lib next r (cs ++ [.gaussian])).1[cs.length]? = some (nextGaussian lib next (calls lib next r cs).2).1 := by
    intro cs
    induction cs with
    | nil => intro r; rfl
    | cons c cs ih => intro r; simp only [calls, List.cons_append, List.length_cons, List.getElem?_cons_succ]; exact ih _
  rw [app, Option.some.injEq] at hx
  unfold nextGaussianAt
  dsimp only
  rw [hx]
  simp only [Option.map_some, mul, zero_mul, Option.some.injEq]
  have h0 : ofRat F64 0 = .fin 0 := by decide +kernel
  rw [h0, add, add_zero, ofRat_fin (by rw [rnd_of_mem hp (mem_of hm)]; exact num_lt hm), rnd_of_mem hp (mem_of hm)]

example : (nextGaussianAt crude (always 0) (.fin 7) (.fin 0) (new ())).1 = some (.fin 7) := by decide +kernel

/-- With a mean and a deviation up to `2^k` the result is the mean plus the
deviation times the number that would be returned without them, up to an
error of `2^(k-49)`. -/
theorem gaussian_scaled {G : Type} {lib : Lib} (hs : Sane lib) (next : G → UInt32 × G) (g : G) (cs : List Call) {m d : Rat} {k : Int}
    (hk : -1000 ≤ k) (hk' : k ≤ 1000) (hm : dist 0 m ≤ (2 : Rat) ^ k) (hd : dist 0 d ≤ (2 : Rat) ^ k) :
    ∃ x y, (nextGaussian lib next (calls lib next (new g) cs).2).1 = some (.fin x) ∧
      (nextGaussianAt lib next (.fin m) (.fin d) (calls lib next (new g) cs).2).1 = some (.fin y) ∧
      dist y (m + d * x) ≤ (2 : Rat) ^ (k - 49) := by
  have dist_eq : ∀ x y : Rat, dist x y = |y - x| := by
    intro x y
    unfold dist
    split
    · rw [abs_of_nonneg (by linarith)]
    · rw [abs_of_nonpos (by linarith)]; ring
  rw [dist_eq, sub_zero] at hm hd
  obtain ⟨x, hx, hx9⟩ := (gaussian_ok hs next (calls_ok hs next cs (r := new g) (fun h => by cases h))).1
  have P := two_zpow_pos k
  have e4 : (2 : Rat) ^ (k + 4) = 16 * (2 : Rat) ^ k := by rw [zpow_add₀ (by norm_num)]; norm_num; ring
  have e5 : (2 : Rat) ^ (k + 4 - 53) / 2 = (2 : Rat) ^ (k - 49) / 2 := by rw [show k + 4 - 53 = k - 49 by ring]
  have e6 : (2 : Rat) ^ (k - 49) ≤ (2 : Rat) ^ k := zpow_le_iff.2 (by omega)
  have b1 : |d * x| ≤ 9 * (2 : Rat) ^ k := by
    rw [abs_mul]
    nlinarith [abs_nonneg d, abs_nonneg x]
  have fin4 : ∀ q : Rat, |q| < (2 : Rat) ^ (k + 4) → ofRat F64 q = .fin (rnd F64 q) ∧ |rnd F64 q - q| ≤ (2 : Rat) ^ (k - 49) / 2 := by
    intro q hq
    refine ⟨ofRat_of_le hp (mem_pow (by rw [show F64.emin = -1074 by decide]; omega)) (zpow_lt_iff.2 (by rw [show F64.emax = 1024 by decide]; omega)) hq.le, ?_⟩
    have := rnd_err_le (F := F64) hq (by rw [show F64.emin = -1074 by decide, show (F64.prec : Int) = 53 by decide]; omega)
    rw [show (F64.prec : Int) = 53 by decide, e5] at this
    exact this
  obtain ⟨f1, f2⟩ := fin4 (d * x) (by rw [e4]; linarith)
  have f2' := abs_le.1 f2
  have b2 : |m + rnd F64 (d * x)| < (2 : Rat) ^ (k + 4) := by
    rw [e4]
    have h1 := abs_le.1 hm
    have h2 := abs_le.1 b1
    rw [abs_lt]
    constructor <;> linarith [h1.1, h1.2, h2.1, h2.2, f2'.1, f2'.2]
  obtain ⟨g1, g2⟩ := fin4 _ b2
  refine ⟨x, rnd F64 (m + rnd F64 (d * x)), hx, ?_, ?_⟩
  · unfold nextGaussianAt
    dsimp only
    rw [hx]
    simp only [Option.map_some, mul, f1, add, g1]
  · rw [dist_eq]
    have g2' := abs_le.1 g2
    rw [abs_le]
    constructor <;> linarith [g2'.1, g2'.2, f2'.1, f2'.2]

example : (nextGaussianAt crude (always 0) (.fin 10) (.fin 3) (new ())).1 = some (.fin 16) ∧ dist 0 10 ≤ (2 : Rat) ^ (4 : Int) := by decide +kernel

/-- A `random` made without a seed takes it from the clock: two of them
yield the same numbers exactly if their clock readings differ by a multiple
of `2^32` microseconds (0 included, about 71 and a half minutes). -/
theorem clock_seed (s t : Clock.T) : feeder s = feeder t ↔ ∃ n : Int, micros s - micros t = n * 2 ^ 32 := by
  have hf : ∀ ct : Clock.T, ((feeder ct).toNat : Int) = micros ct % 2 ^ 32 := by
    intro ct
    unfold feeder micros
    rw [UInt32.toNat_add, UInt32.toNat_mul]
    have h1 : (UInt32.ofInt ct.usec).toNat = (ct.usec % 2 ^ 32).toNat := by simp [UInt32.ofInt]; omega
    have h2 : ct.sec.toUInt32.toNat = ct.sec.toNat % 2 ^ 32 := by simp
    have h3 : (1000000 : UInt32).toNat = 1000000 := rfl
    rw [h1, h2, h3]
    omega
  rw [← UInt32.toNat_inj]
  have h1 := hf s
  have h2 := hf t
  constructor
  · intro h
    exact ⟨micros s / 2 ^ 32 - micros t / 2 ^ 32, by omega⟩
  · rintro ⟨n, hn⟩
    omega

example : feeder ⟨1700000000, 0⟩ = feeder ⟨1700004294, 967296⟩ ∧ feeder ⟨1700000000, 0⟩ ≠ feeder ⟨1700000000, 1⟩ := by decide +kernel

end Verif.RandReal.Props
