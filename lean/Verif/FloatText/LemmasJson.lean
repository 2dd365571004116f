import Verif.FloatText.LemmasText
import Verif.Json.Props
/-! Lemmas about writing a `double` and reading it back. -/
namespace Verif.FloatText.Lemmas
open Verif.Double Verif.Double.Lemmas Verif.Double.Spec Verif.FloatText Verif.FloatText.Spec Verif.Json Verif.Json.Spec

theorem dist_eq (x y : Rat) : dist x y = |y - x| := by
  unfold dist
  split
  · rw [abs_of_nonneg (by linarith)]
  · rw [abs_of_neg (by linarith)]; ring

/-- What a number is rounded to when it is written with `P` digits. -/
def dec (P : Nat) (x : Rat) : Rat := if x = 0 then 0 else if x < 0 then -sciVal P (-x) else sciVal P x

theorem dec_zero (P : Nat) : dec P 0 = 0 := by simp [dec]
theorem dec_pos (P : Nat) {x : Rat} (h : 0 < x) : dec P x = sciVal P x := by
  rw [dec, if_neg h.ne', if_neg (by linarith)]
theorem dec_neg (P : Nat) {x : Rat} : dec P (-x) = -dec P x := by
  rcases lt_trichotomy x 0 with h | h | h
  · rw [dec_pos P (show 0 < -x by linarith), dec, if_neg h.ne, if_pos h, neg_neg]
  · subst h; simp [dec]
  · rw [dec_pos P h, dec, if_neg (by linarith), if_pos (by linarith), neg_neg]

theorem fmtG_neg (P : Nat) {a : Rat} (h : 0 < a) : fmtG P (-a) = 45 :: fmtG P a := by
  rw [fmtG, if_pos (by linarith), neg_neg, fmtG, if_neg (by linarith)]

theorem fmtG_pos (P : Nat) {a : Rat} (h : 0 < a) : fmtG P a = fmtAbs P a := by rw [fmtG, if_neg (by linarith)]
theorem fmtG_zero (P : Nat) : fmtG P 0 = [48] := by simp [fmtG, fmtAbs]

/-- The text of a number stands for its rounding. -/
theorem fmtG_denotes {P : Nat} (hP : 1 ≤ P) (x : Rat) : Denotes (fmtG P x) (dec P x) := by
  have pos : ∀ {a : Rat}, 0 < a → ∀ sg, (sg = [] ∨ sg = [45]) → Denotes (sg ++ fmtAbs P a) ((if sg = [] then 1 else -1) * sciVal P a) := by
    intro a ha sg hsg
    obtain ⟨ip, fd, ex, k, h1, h2, h3, _, h4, h5⟩ := fmtAbs_parts hP ha
    refine ⟨sg, ip, fd, ex, k, by rw [h1]; simp [List.append_assoc], hsg, h2, h3, ?_, by rw [h5]; ring⟩
    rcases h4 with ⟨a, b, _⟩ | ⟨s, ds, a, b, c, _, d⟩
    · exact .inl ⟨a, b⟩
    · exact .inr ⟨s, ds, a, b, by rintro rfl; simp at c, d⟩
  rcases lt_trichotomy x 0 with h | h | h
  · have := pos (show 0 < -x by linarith) [45] (.inr rfl)
    rw [show fmtG P x = [45] ++ fmtAbs P (-x) by rw [fmtG, if_pos h]; rfl, dec, if_neg h.ne, if_pos h]
    rwa [if_neg (show ¬ ([45] : List Nat) = [] by simp), neg_one_mul] at this
  · subst h
    rw [fmtG_zero, dec_zero]
    exact ⟨[], [48], [], [], 0, rfl, .inl rfl, .inl rfl, by simp, .inl ⟨rfl, rfl⟩, by simp [decVal]⟩
  · have := pos h [] (.inl rfl)
    rw [fmtG_pos P h, dec_pos P h]
    rwa [if_pos rfl, one_mul] at this

theorem dec_dec {P : Nat} (hP : 1 ≤ P) (x : Rat) : Dec P (dec P x) := by
  have pos : ∀ {a : Rat}, 0 < a → Dec P (dec P a) := by
    intro a ha
    rw [dec_pos P ha]
    exact ⟨((sci P a).1 : Int), (sci P a).2 - ((P : Int) - 1), (sci_spec hP ha).2.1, by rw [sciVal]; push_cast; rfl⟩
  rcases lt_trichotomy x 0 with h | h | h
  · obtain ⟨m, k, a, b⟩ := pos (show 0 < -x by linarith)
    rw [dec_neg] at b
    exact ⟨-m, k, by rwa [Int.natAbs_neg], by push_cast; rw [neg_mul, ← b]; ring⟩
  · subst h; rw [dec_zero]; exact ⟨0, 0, by positivity, by simp⟩
  · exact pos h

theorem dec_near {P : Nat} (hP : 1 ≤ P) (x : Rat) {q : Rat} (hq : Dec P q) : |dec P x - x| ≤ |q - x| := by
  have pos : ∀ {a q : Rat}, 0 < a → Dec P q → |dec P a - a| ≤ |q - a| := by
    rintro a q ha ⟨m, k, hm, rfl⟩
    rw [dec_pos P ha]
    apply sciVal_near hP ha
    rw [Int.abs_eq_natAbs]
    exact_mod_cast hm
  rcases lt_trichotomy x 0 with h | h | h
  · obtain ⟨m, k, a, b⟩ := hq
    have := pos (show 0 < -x by linarith) (q := -q) ⟨-m, k, by rwa [Int.natAbs_neg], by rw [b]; push_cast; ring⟩
    rw [dec_neg] at this
    rwa [show -dec P x - -x = -(dec P x - x) by ring, abs_neg, show -q - -x = -(q - x) by ring, abs_neg] at this
  · subst h; rw [dec_zero]; simp
  · exact pos h hq

theorem dec_mono {P : Nat} (hP : 1 ≤ P) {x y : Rat} (h : x ≤ y) : dec P x ≤ dec P y := by
  by_contra hcon
  have hcon := not_le.1 hcon
  have h1 := dec_near hP x (dec_dec hP y)
  have h2 := dec_near hP y (dec_dec hP x)
  rcases h.eq_or_lt with h | h
  · rw [h] at hcon; exact lt_irrefl _ hcon
  rcases abs_cases (dec P x - x) with ⟨e1, g1⟩ | ⟨e1, g1⟩ <;> rcases abs_cases (dec P y - x) with ⟨e2, g2⟩ | ⟨e2, g2⟩ <;>
    rcases abs_cases (dec P x - y) with ⟨e3, g3⟩ | ⟨e3, g3⟩ <;> rcases abs_cases (dec P y - y) with ⟨e4, g4⟩ | ⟨e4, g4⟩ <;>
    rw [e1, e2] at h1 <;> rw [e3, e4] at h2 <;> linarith

/-! The range of the numbers. -/

/-- The smallest normal number. -/
abbrev lo : Rat := (2 : Rat) ^ (-1022 : Int)
/-- The largest number. -/
abbrev hi : Rat := ((2 ^ 53 - 1 : Int) : Rat) * (2 : Rat) ^ (971 : Int)

theorem lo_pos : (0 : Rat) < lo := two_zpow_pos _

theorem dec_lo : lo ≤ dec 12 lo := by decide +kernel
theorem dec_hi : dec 12 hi ≤ hi := by decide +kernel
theorem hi_lt : hi < (2 : Rat) ^ (1024 : Int) := by decide +kernel

theorem hp : 1 ≤ F64.prec := by decide
theorem mem_lo : Mem F64 lo := mem_pow (by decide)
theorem mem_hi : Mem F64 hi := ⟨2 ^ 53 - 1, 971, by decide, by decide, rfl⟩

theorem isNum_mem {x : Rat} (h : IsNum F64 x) : Mem F64 x := by
  obtain ⟨m, e, a, b, _, d⟩ := h
  refine ⟨m, e, ?_, b, d⟩
  rw [Int.abs_eq_natAbs]
  exact_mod_cast a.le

theorem isNum_hi {x : Rat} (h : IsNum F64 x) : |x| ≤ hi := by
  obtain ⟨m, e, a, _, c, rfl⟩ := h
  rw [abs_mul, abs_of_pos (two_zpow_pos e)]
  apply mul_le_mul
  · rw [← Int.cast_abs, Int.abs_eq_natAbs]
    have a : m.natAbs < 2 ^ 53 := a
    have : (m.natAbs : Int) ≤ 2 ^ 53 - 1 := by omega
    exact_mod_cast this
  · exact zpow_le_iff.2 c
  · exact (two_zpow_pos _).le
  · norm_num

/-- The relative error of rounding to a `double`. -/
theorem rnd_rel {q : Rat} (h : lo ≤ q) : |rnd F64 q - q| * 2 ^ 53 ≤ q := by
  have hq : 0 < q := lt_of_lt_of_le lo_pos h
  have h1 := rnd_err F64 q
  obtain ⟨h2, h3⟩ := expo_spec hq
  have he : -1022 ≤ expo q := by
    have := zpow_lt_iff.1 (lt_of_le_of_lt h h3)
    omega
  have hu : ulp F64 q = (2 : Rat) ^ expo q / 2 ^ 52 := by
    have hm : max (expo q - ((F64.prec : Int) - 1)) F64.emin = expo q - 52 := by
      rw [show ((F64.prec : Int) - 1) = 52 by decide, show F64.emin = -1074 by decide]; omega
    rw [ulp, mag_eq, abs_of_pos hq, hm, zpow_sub₀ (by norm_num)]
    norm_num
  rw [hu] at h1
  generalize (2 : Rat) ^ expo q = E at *
  generalize |rnd F64 q - q| = z at *
  norm_num at h1 ⊢
  linarith

theorem lo_le_rnd {q : Rat} (h : lo ≤ q) : lo ≤ rnd F64 q := le_rnd hp mem_lo h
theorem rnd_le_hi {q : Rat} (h : q ≤ hi) : rnd F64 q ≤ hi := rnd_le hp mem_hi h

theorem toDouble_pos {q : Rat} (h1 : lo ≤ q) (h2 : q ≤ hi) : toDouble q = some (rnd F64 q) := by
  have g1 := lo_le_rnd h1
  have g2 := rnd_le_hi h2
  have hpos : 0 < rnd F64 q := lt_of_lt_of_le lo_pos g1
  unfold toDouble
  dsimp only
  rw [mag_eq, abs_of_pos hpos, if_neg (not_le.2 (lt_of_le_of_lt g2 hi_lt)), if_neg (fun h => absurd h.1 (not_lt.2 g1))]

theorem toDouble_neg (q : Rat) : toDouble (-q) = (toDouble q).map (fun x => -x) := by
  unfold toDouble
  dsimp only
  rw [rnd_neg, mag_eq, mag_eq, abs_neg]
  simp only [ne_eq, neg_inj]
  split
  · rfl
  · split <;> rfl

theorem toDouble_zero : toDouble 0 = some 0 := by decide +kernel

theorem dec_range {a : Rat} (h1 : lo ≤ a) (h2 : a ≤ hi) : lo ≤ dec 12 a ∧ dec 12 a ≤ hi :=
  ⟨dec_lo.trans (dec_mono (by norm_num) h1), (dec_mono (by norm_num) h2).trans dec_hi⟩

theorem normal_cases {x : Rat} (h : Normal x) : x = 0 ∨ lo ≤ x ∧ x ≤ hi ∨ lo ≤ -x ∧ -x ≤ hi := by
  obtain ⟨h1, h2⟩ := h
  have h3 := isNum_hi h1
  rw [dist_eq, sub_zero] at h2
  rcases h2 with h2 | h2
  · exact .inl h2
  · rcases abs_cases x with ⟨e, _⟩ | ⟨e, _⟩ <;> rw [e] at h2 h3
    · exact .inr (.inl ⟨h2, h3⟩)
    · exact .inr (.inr ⟨h2, h3⟩)

/-- Writing a number and reading it gives the nearest `double` of its rounding. -/
theorem strtod_fmtG {x : Rat} (h : Normal x) : strtod (fmtG 12 x) = some (rnd F64 (dec 12 x)) := by
  rw [strtod, textVal_denotes (fmtG_denotes (by norm_num) x)]
  rcases normal_cases h with rfl | ⟨h1, h2⟩ | ⟨h1, h2⟩
  · rw [dec_zero, rnd_zero, toDouble_zero]
  · obtain ⟨g1, g2⟩ := dec_range h1 h2
    exact toDouble_pos g1 g2
  · obtain ⟨g1, g2⟩ := dec_range h1 h2
    have := toDouble_pos g1 g2
    rw [dec_neg, toDouble_neg, rnd_neg] at this
    cases ht : toDouble (dec 12 x) with
    | none => rw [ht] at this; cases this
    | some y =>
      rw [ht] at this
      simp only [Option.map_some, Option.some.injEq, neg_inj] at this
      rw [this]

/-- A number close to a decimal of 12 digits is written as this decimal. -/
theorem sci_rnd {P : Nat} (hP : 1 ≤ P) (hP' : 10 ^ P < 2 ^ 52) {m : Nat} {X : Int} (h1 : 10 ^ (P - 1) ≤ m) (h2 : m < 10 ^ P)
    (hq : lo ≤ (m : Rat) * (10 : Rat) ^ (X - ((P : Int) - 1))) :
    sci P (rnd F64 ((m : Rat) * (10 : Rat) ^ (X - ((P : Int) - 1)))) = (m, X) :=
  sci_stable hP hP' h1 h2 (rnd_rel hq)

theorem fmtAbs_eq {P : Nat} {a b : Rat} (ha : 0 < a) (hb : 0 < b) (h : sci P a = sci P b) : fmtAbs P a = fmtAbs P b := by
  unfold fmtAbs
  rw [if_neg ha.ne', if_neg hb.ne', h]

/-- The number that is read has the same text. -/
theorem fmtG_again {x : Rat} (h : Normal x) : fmtG 12 (rnd F64 (dec 12 x)) = fmtG 12 x := by
  have pos : ∀ {a : Rat}, lo ≤ a → a ≤ hi → fmtG 12 (rnd F64 (dec 12 a)) = fmtG 12 a ∧ 0 < rnd F64 (dec 12 a) := by
    intro a h1 h2
    obtain ⟨g1, g2⟩ := dec_range h1 h2
    have ha : 0 < a := lt_of_lt_of_le lo_pos h1
    have hr : 0 < rnd F64 (dec 12 a) := lt_of_lt_of_le lo_pos (lo_le_rnd g1)
    refine ⟨?_, hr⟩
    rw [fmtG_pos 12 hr, fmtG_pos 12 ha]
    apply fmtAbs_eq hr ha
    obtain ⟨s1, s2, _⟩ := sci_spec (P := 12) (by norm_num) ha
    rw [dec_pos 12 ha] at g1 ⊢
    exact sci_rnd (by norm_num) (by norm_num) s1 s2 g1
  rcases normal_cases h with rfl | ⟨h1, h2⟩ | ⟨h1, h2⟩
  · rw [dec_zero, rnd_zero]
  · exact (pos h1 h2).1
  · obtain ⟨p1, p2⟩ := pos h1 h2
    have hx : 0 < -x := lt_of_lt_of_le lo_pos h1
    have e1 := fmtG_neg 12 p2
    have e2 := fmtG_neg 12 hx
    rw [dec_neg, rnd_neg, neg_neg] at e1
    rw [dec_neg, rnd_neg] at p1
    rw [neg_neg] at e2
    rw [e1, e2, p1]

theorem close_of {x : Rat} (h : Normal x) : Close x (dec 12 x) ∧ Close x (rnd F64 (dec 12 x)) := by
  have pos : ∀ {a : Rat}, lo ≤ a → a ≤ hi → |dec 12 a - a| ≤ a * (6 / 10 ^ 12) ∧ |rnd F64 (dec 12 a) - a| ≤ a * (6 / 10 ^ 12) := by
    intro a h1 h2
    obtain ⟨g1, g2⟩ := dec_range h1 h2
    have ha : 0 < a := lt_of_lt_of_le lo_pos h1
    have r1 := rnd_rel g1
    have r2 := sciVal_err (P := 12) (by norm_num) ha
    have r3 := unit_le (P := 12) (by norm_num) ha
    rw [← dec_pos 12 ha] at r2
    have r4 : |dec 12 a - a| ≤ a * (5 / 10 ^ 12) := by
      norm_num at r3 ⊢
      linarith
    refine ⟨by norm_num at r4 ⊢; linarith, ?_⟩
    have r5 := abs_sub_le (rnd F64 (dec 12 a)) (dec 12 a) a
    have r6 := (abs_le.1 r4).2
    norm_num at r1 r4 r6 ⊢
    linarith
  unfold Close
  rw [dist_eq, dist_eq, dist_eq, sub_zero]
  rcases normal_cases h with rfl | ⟨h1, h2⟩ | ⟨h1, h2⟩
  · rw [dec_zero, rnd_zero]; simp
  · rw [abs_of_pos (lt_of_lt_of_le lo_pos h1)]
    exact pos h1 h2
  · have hx : 0 < -x := lt_of_lt_of_le lo_pos h1
    have := pos h1 h2
    rw [dec_neg, rnd_neg, show -dec 12 x - -x = -(dec 12 x - x) by ring, show -rnd F64 (dec 12 x) - -x = -(rnd F64 (dec 12 x) - x) by ring,
      abs_neg, abs_neg] at this
    rwa [abs_of_neg (show x < 0 by linarith)]

/-- The nearest `double` of a decimal of at most 12 digits is written as this decimal. -/
theorem dec_rnd {q : Rat} (hq : Dec 12 q) (h : lo ≤ |q|) : dec 12 (rnd F64 q) = q := by
  have pos : ∀ {q : Rat}, Dec 12 q → lo ≤ q → dec 12 (rnd F64 q) = q := by
    rintro q ⟨m, k, hm, rfl⟩ h1
    have hmpos : 0 < m := by
      have : 0 < (m : Rat) * (10 : Rat) ^ k := lt_of_lt_of_le lo_pos h1
      have := (pos_iff_pos_of_mul_pos this).2 (ten_pos k)
      exact_mod_cast this
    obtain ⟨n, X, a, b, c⟩ := dec_norm (P := 12) (by norm_num) (k := k) hmpos (by omega)
    rw [c] at h1 ⊢
    have hr : 0 < rnd F64 ((n : Rat) * (10 : Rat) ^ (X - (((12 : Nat) : Int) - 1))) := lt_of_lt_of_le lo_pos (lo_le_rnd h1)
    rw [dec_pos 12 hr, sciVal, sci_rnd (by norm_num) (by norm_num) a b h1]
  rcases abs_cases q with ⟨e, _⟩ | ⟨e, _⟩ <;> rw [e] at h
  · exact pos hq h
  · obtain ⟨m, k, a, b⟩ := hq
    have := pos (q := -q) ⟨-m, k, by rwa [Int.natAbs_neg], by rw [b]; push_cast; ring⟩ h
    rw [rnd_neg, dec_neg] at this
    linarith

/-! Texts in documents. -/

theorem bytes_map {t : List Nat} (h : ∀ c ∈ t, c < 128) : bytes t = t.map UInt8.ofNat := by
  induction t with
  | nil => rfl
  | cons c t ih =>
    rw [Verif.Json.Lemmas.bytes_cons, Verif.Json.Lemmas.utf8_ascii (h c (by simp)), ih (fun x hx => h x (by simp [hx])), List.map_cons]
    rfl

theorem digits_eq (ip : List Nat) (h : ip = [48] ∨ ∃ d ds, ip = d :: ds ∧ Digit d ∧ d ≠ 48 ∧ ∀ c ∈ ds, Digit c) :
    Json.digits (decVal ip) = ip.map UInt8.ofNat := by
  rcases h with rfl | ⟨d, ds, rfl, h1, h2, h3⟩
  · decide +kernel
  · induction ds using List.reverseRecOn with
    | nil =>
      unfold Digit at h1
      rw [Json.digits, if_pos (by simp [decVal]; omega)]
      simp [decVal, show 48 + (d - 48) = d by omega]
    | append_singleton ds c ih =>
      have hc := h3 c (by simp)
      unfold Digit at hc h1
      have ih := ih (fun x hx => h3 x (by simp [hx]))
      have e : d :: (ds ++ [c]) = (d :: ds) ++ [c] := rfl
      have hv : 1 ≤ decVal (d :: ds) := by
        have := decVal_append [d] ds
        rw [List.singleton_append] at this
        rw [this]
        have h4 : decVal [d] = d - 48 := by simp [decVal]
        have : 1 ≤ decVal [d] * 10 ^ ds.length := by rw [h4]; exact Nat.mul_pos (by omega) (by positivity)
        omega
      rw [e, Verif.Json.Lemmas.decVal_snoc, Json.digits, if_neg (by omega), show (10 * decVal (d :: ds) + (c - 48)) / 10 = decVal (d :: ds) by omega,
        ih, List.map_append, show 48 + (10 * decVal (d :: ds) + (c - 48)) % 10 = c by omega]
      rfl

/-- The value that comes back for a number. -/
def tripF (x : Rat) : Value Rat :=
  if (dec 12 x).den = 1 ∧ |dec 12 x| < 10 ^ 12 then .int (dec 12 x).num else .flt (rnd F64 (dec 12 x))

theorem digit_lt {c : Nat} (h : Digit c) : c < 128 := by unfold Digit at h; omega

theorem neg_den (q : Rat) : (-q).den = q.den := Rat.neg_den q

/-- A whole number is its numerator. -/
theorem whole {q : Rat} (h : q.den = 1) : q = (q.num : Rat) := by
  conv_lhs => rw [← Rat.num_div_den q, h]
  simp

theorem int_den (n : Int) : (n : Rat).den = 1 ∧ (n : Rat).num = n := ⟨Rat.den_intCast n, Rat.num_intCast n⟩

/-- How a number is written, and what this says about its rounding: as an integer if the rounding is a whole number of at most 12
digits, else with a fraction or an exponent. -/
theorem text_cases {a : Rat} (ha : 0 < a) {sg : List Nat} (hsg : sg = [] ∨ sg = [45]) :
    (∃ ip, fmtAbs 12 a = ip ∧ (∃ d ds, ip = d :: ds ∧ Digit d ∧ d ≠ 48 ∧ ∀ c ∈ ds, Digit c) ∧ sciVal 12 a = (decVal ip : Rat) ∧ decVal ip < 10 ^ 12) ∨
    (¬ ((sciVal 12 a).den = 1 ∧ sciVal 12 a < 10 ^ 12) ∧ ¬ ShortExp (sg ++ fmtAbs 12 a) ∧ (∀ c ∈ fmtAbs 12 a, c < 128) ∧
      ∀ (st : List Nat → Option Rat) (y : Rat), st (sg ++ fmtAbs 12 a) = some y → Num st (sg ++ fmtAbs 12 a) (.flt y)) := by
  obtain ⟨ip, fd, ex, k, h1, h2, h3, h4, h5, h6⟩ := fmtAbs_parts (P := 12) (by norm_num) ha
  have hpos := sciVal_pos (P := 12) (by norm_num) ha
  obtain ⟨_, _, _, hipd⟩ := digs h2
  by_cases hint : fd = [] ∧ ex = []
  · obtain ⟨rfl, rfl⟩ := hint
    left
    rcases h5 with ⟨_, rfl, h7, h8⟩ | ⟨_, _, h, _⟩
    · refine ⟨ip, by rw [h1]; simp, ?_, by rw [h6]; simp, ?_⟩
      · obtain ⟨d, ds, e, hd⟩ := h8 rfl
        rcases h2 with h2 | h2
        · rw [h2] at e; cases e; exact absurd rfl hd
        · exact h2
      · clear h1 h6 h8
        have : ∀ l : List Nat, (∀ c ∈ l, Digit c) → decVal l < 10 ^ l.length := by
          intro l
          induction l using List.reverseRecOn with
          | nil => intro _; simp [decVal]
          | append_singleton l c ih =>
            intro hl
            have hc := hl c (by simp)
            have := ih (fun x hx => hl x (by simp [hx]))
            unfold Digit at hc
            rw [Verif.Json.Lemmas.decVal_snoc, List.length_append, List.length_singleton, pow_succ]
            omega
        exact lt_of_lt_of_le (this ip hipd) (Nat.pow_le_pow_right (by norm_num) h7)
    · cases h
  · right
    have hfr : ∀ c ∈ (if fd = [] then [] else 46 :: fd), c = 46 ∨ Digit c := by
      intro c hc
      split at hc
      · cases hc
      · rcases List.mem_cons.1 hc with rfl | hc
        · exact .inl rfl
        · exact .inr (h3 c hc)
    refine ⟨?_, ?_, ?_, ?_⟩
    · rintro ⟨g1, g2⟩
      have hw := whole g1
      rcases h5 with ⟨rfl, rfl, _, _⟩ | ⟨s, ds, _, _, _, g3 | g3, _⟩
      · rcases h4 with rfl | ⟨p, c, rfl, hc⟩
        · exact hint ⟨rfl, rfl⟩
        · have hcd := h3 c (by simp)
          unfold Digit at hcd
          have hnum : 0 < (sciVal 12 a).num := Rat.num_pos.2 hpos
          rw [hw, zero_sub, List.length_append, List.length_singleton, zpow_neg, ten_nat, ← div_eq_mul_inv,
            eq_div_iff (by positivity)] at h6
          have h7 : (sciVal 12 a).num * (10 ^ (p.length + 1) : Nat) = (decVal (ip ++ (p ++ [c])) : Int) := by exact_mod_cast h6
          rw [← List.append_assoc, Verif.Json.Lemmas.decVal_snoc, pow_succ] at h7
          push_cast at h7
          rw [← mul_assoc] at h7
          omega
      · push_cast at g3; linarith
      · rw [hw] at hpos g3
        have p1 : 0 < (sciVal 12 a).num := by exact_mod_cast hpos
        have p2 : (sciVal 12 a).num < 1 := by exact_mod_cast g3
        omega
    · rintro ⟨p, e, d, g1, g2, g3⟩
      rw [h1] at g1
      rcases h5 with ⟨rfl, _⟩ | ⟨s, ds, rfl, hds, hl, _⟩
      · have : e ∈ sg ++ (ip ++ (if fd = [] then [] else 46 :: fd) ++ []) := by rw [g1]; simp
        simp only [List.mem_append, List.not_mem_nil, or_false] at this
        rcases this with hm | hm | hm
        · rcases hsg with rfl | rfl
          · cases hm
          · simp at hm; omega
        · have := hipd e hm; unfold Digit at this; omega
        · rcases hfr e hm with rfl | hd
          · omega
          · unfold Digit at hd; omega
      · obtain ⟨ds', d2, rfl⟩ := List.eq_nil_or_concat' ds |>.resolve_left (by rintro rfl; simp at hl)
        obtain ⟨ds'', d1, rfl⟩ := List.eq_nil_or_concat' ds' |>.resolve_left (by rintro rfl; simp at hl)
        have : p ++ [e, d] = (sg ++ (ip ++ (if fd = [] then [] else 46 :: fd)) ++ 101 :: s :: ds'') ++ [d1, d2] := by
          rw [← g1]; simp [List.append_assoc]
        have := (List.append_inj' this rfl).2
        simp only [List.cons.injEq, and_true] at this
        have hd1 := hds d1 (by simp)
        unfold Digit at hd1
        omega
    · intro c hc
      rw [h1] at hc
      simp only [List.mem_append] at hc
      rcases hc with (hc | hc) | hc
      · exact digit_lt (hipd c hc)
      · rcases hfr c hc with rfl | hd
        · omega
        · exact digit_lt hd
      · rcases h5 with ⟨rfl, _⟩ | ⟨s, ds, rfl, hds, _, _, hs⟩
        · cases hc
        · simp only [List.mem_cons] at hc
          rcases hc with rfl | rfl | hc
          · omega
          · omega
          · exact digit_lt (hds c hc)
    · intro st y hst
      refine ⟨sg, ip, (if fd = [] then [] else 46 :: fd), ex, by rw [h1]; simp [List.append_assoc], hsg, h2, ?_, ?_, ?_⟩
      · by_cases hf : fd = []
        · left; rw [if_pos hf]
        · right; rw [if_neg hf]; exact ⟨fd, rfl, hf, h3⟩
      · rcases h5 with ⟨rfl, _⟩ | ⟨s, ds, rfl, hds, hl, _, hs⟩
        · exact .inl rfl
        · refine .inr ⟨101, [s], ds, rfl, .inl rfl, ?_, by rintro rfl; simp at hl, hds⟩
          rcases hs with ⟨rfl, _⟩ | ⟨rfl, _⟩ <;> simp
      · unfold NumVal
        rw [if_neg]
        · refine ⟨y, ?_, rfl⟩
          rw [h1] at hst
          simpa [List.append_assoc] using hst
        · rintro ⟨e1, e2⟩
          apply hint
          refine ⟨?_, e2⟩
          by_contra hf
          rw [if_neg hf] at e1
          cases e1

/-- A number between limits is a 64-bit integer. -/
theorem small_int {n : Int} (h : n.natAbs < 10 ^ 12) : IsInt64 n := by unfold IsInt64; omega

/-- The value that comes back is written like the number, and can be read. -/
theorem tripF_spec {x : Rat} (h : Normal x) :
    (∃ n : Int, tripF x = .int n ∧ (n : Rat) = dec 12 x ∧ printInt n = showFloat x ∧ n.natAbs < 10 ^ 12) ∨
    (∃ y : Rat, tripF x = .flt y ∧ y = rnd F64 (dec 12 x) ∧ ¬ (∃ n : Int, dec 12 x = n ∧ n.natAbs < 10 ^ 12) ∧ showFloat y = showFloat x ∧
      Printable strtod showFloat (.flt y)) := by
  have key : ∀ {a : Rat} {sg : List Nat}, 0 < a → (sg = [] ∨ sg = [45]) → fmtG 12 x = sg ++ fmtAbs 12 a →
      dec 12 x = (if sg = [] then 1 else -1) * sciVal 12 a →
      (∃ n : Int, tripF x = .int n ∧ (n : Rat) = dec 12 x ∧ printInt n = showFloat x ∧ n.natAbs < 10 ^ 12) ∨
      (∃ y : Rat, tripF x = .flt y ∧ y = rnd F64 (dec 12 x) ∧ ¬ (∃ n : Int, dec 12 x = n ∧ n.natAbs < 10 ^ 12) ∧ showFloat y = showFloat x ∧
        Printable strtod showFloat (.flt y)) := by
    intro a sg ha hsg hf hd
    have hpos := sciVal_pos (P := 12) (by norm_num) ha
    rcases text_cases ha hsg with ⟨ip, e1, e2, e3, e4⟩ | ⟨e1, e2, e3, e4⟩
    · left
      have hv : 0 < decVal ip := by rw [e3] at hpos; exact_mod_cast hpos
      have hdig := digits_eq ip (.inr e2)
      rcases hsg with rfl | rfl
      · rw [if_pos rfl, one_mul, e3] at hd
        have hd' : dec 12 x = ((decVal ip : Int) : Rat) := by rw [hd]; push_cast; rfl
        refine ⟨decVal ip, ?_, hd'.symm, ?_, by omega⟩
        · rw [tripF, hd', (int_den _).1, (int_den _).2, if_pos]
          exact ⟨rfl, by rw [abs_of_pos (by exact_mod_cast hv)]; exact_mod_cast e4⟩
        · rw [printInt, if_neg (by omega), Int.natAbs_natCast, hdig, showFloat, hf, e1, List.nil_append]
      · rw [if_neg (show ¬ ([45] : List Nat) = [] by simp), neg_one_mul, e3] at hd
        have hd' : dec 12 x = ((-(decVal ip : Int) : Int) : Rat) := by rw [hd]; push_cast; rfl
        refine ⟨-(decVal ip : Int), ?_, hd'.symm, ?_, by omega⟩
        · rw [tripF, hd', (int_den _).1, (int_den _).2, if_pos]
          refine ⟨rfl, ?_⟩
          push_cast
          rw [abs_neg, abs_of_pos (by exact_mod_cast hv)]
          exact_mod_cast e4
        · rw [printInt, if_pos (by omega), Int.natAbs_neg, Int.natAbs_natCast, hdig, showFloat, hf, e1]
          rfl
    · right
      have hnot : ¬ ((dec 12 x).den = 1 ∧ |dec 12 x| < 10 ^ 12) := by
        rintro ⟨g1, g2⟩
        apply e1
        rw [hd] at g1 g2
        rcases hsg with rfl | rfl
        · rw [if_pos rfl, one_mul] at g1 g2
          rw [abs_of_pos hpos] at g2
          exact ⟨g1, g2⟩
        · rw [if_neg (show ¬ ([45] : List Nat) = [] by simp), neg_one_mul] at g1 g2
          rw [abs_neg, abs_of_pos hpos] at g2
          rw [neg_den] at g1
          exact ⟨g1, g2⟩
      refine ⟨_, by rw [tripF, if_neg hnot], rfl, ?_, by rw [showFloat, fmtG_again h, showFloat], ?_⟩
      · rintro ⟨n, g1, g2⟩
        apply hnot
        rw [g1]
        refine ⟨(int_den n).1, ?_⟩
        rw [← Int.cast_abs, Int.abs_eq_natAbs]
        exact_mod_cast g2
      · rw [Printable]
        have hasc : ∀ c ∈ sg ++ fmtAbs 12 a, c < 128 := by
          intro c hc
          rcases List.mem_append.1 hc with hc | hc
          · rcases hsg with rfl | rfl
            · cases hc
            · simp at hc; omega
          · exact e3 c hc
        refine ⟨fmtG 12 x, ?_, ?_, ?_⟩
        · rw [showFloat, fmtG_again h, hf, bytes_map hasc]
        · rw [hf]
          exact e4 strtod _ (by rw [← hf]; exact strtod_fmtG h)
        · rw [hf]; exact e2
  rcases lt_trichotomy x 0 with hx | hx | hx
  · exact key (a := -x) (sg := [45]) (by linarith) (.inr rfl) (by rw [fmtG, if_pos hx]; rfl)
      (by rw [dec, if_neg hx.ne, if_pos hx, if_neg (show ¬ ([45] : List Nat) = [] by simp), neg_one_mul])
  · subst hx
    left
    refine ⟨0, by rw [tripF, dec_zero]; simp, by rw [dec_zero]; simp, ?_, by norm_num⟩
    rw [showFloat, fmtG_zero]
    decide +kernel
  · exact key (a := x) (sg := []) hx (.inl rfl) (by rw [fmtG_pos 12 hx]; rfl) (by rw [dec_pos 12 hx, if_pos rfl, one_mul])

theorem rnd_lt_max {q : Rat} (h : |q| < (2 : Rat) ^ (1024 : Int) - (2 : Rat) ^ (970 : Int)) : |rnd F64 q| < (2 : Rat) ^ (1024 : Int) := by
  have hh : hi = (2 : Rat) ^ (1024 : Int) - (2 : Rat) ^ (971 : Int) := by decide +kernel
  have h71 : (2 : Rat) ^ (971 : Int) = 2 * (2 : Rat) ^ (970 : Int) := by decide +kernel
  have hlt := hi_lt
  have pos : ∀ {q : Rat}, 0 ≤ q → q < (2 : Rat) ^ (1024 : Int) - (2 : Rat) ^ (970 : Int) → rnd F64 q < (2 : Rat) ^ (1024 : Int) := by
    intro q _ h
    by_cases h2 : q ≤ hi
    · exact lt_of_le_of_lt (rnd_le_hi h2) hlt
    · have h2 := not_le.1 h2
      have h3 := rnd_near hp mem_hi q
      rw [abs_sub_comm hi, abs_of_pos (show 0 < q - hi by linarith)] at h3
      have h4 := (abs_le.1 h3).2
      generalize hi = H at *
      generalize (2 : Rat) ^ (1024 : Int) = A at *
      generalize (2 : Rat) ^ (971 : Int) = B at *
      generalize (2 : Rat) ^ (970 : Int) = C at *
      linarith
  rcases abs_cases q with ⟨e, g⟩ | ⟨e, g⟩ <;> rw [e] at h
  · rw [abs_of_nonneg (rnd_nonneg hp g)]
    exact pos g h
  · rw [abs_of_nonpos (rnd_nonpos hp g.le), ← rnd_neg]
    exact pos (by linarith) h

/-- A whole number of at most 12 digits is its own rounding. -/
theorem dec_whole {n : Int} (h : n.natAbs < 10 ^ 12) : dec 12 (n : Rat) = n := by
  have := dec_near (P := 12) (by norm_num) (n : Rat) (q := n) ⟨n, 0, h, by simp⟩
  rw [sub_self, abs_zero, abs_nonpos_iff, sub_eq_zero] at this
  exact this

/-- Numbers of 12 digits before the point are rounded to whole numbers. -/
theorem dec_round {x : Rat} {n : Int} (hn : n.natAbs < 10 ^ 12) (h1 : |(n : Rat) - x| < 1 / 2) (h2 : 10 ^ 11 ≤ |x|) : dec 12 x = n := by
  have pos : ∀ {x : Rat} {n : Int}, n.natAbs < 10 ^ 12 → |(n : Rat) - x| < 1 / 2 → 10 ^ 11 ≤ x → dec 12 x = n := by
    intro x n hn h1 h2
    have hx : 0 < x := by linarith
    have hnr : (n : Rat) ≤ 10 ^ 12 - 1 := by
      have : n ≤ 10 ^ 12 - 1 := by omega
      exact_mod_cast this
    have ht : tenExpo x = 11 := by
      apply tenExpo_eq
      · norm_num at h2 ⊢; exact h2
      · have := (abs_lt.1 h1).1
        norm_num at hnr ⊢; linarith
    rw [dec_pos 12 hx, (sci_spec (P := 12) (by norm_num) hx).2.2.1, unit, ht]
    have : ((11 : Int) - (((12 : Nat) : Int) - 1)) = 0 := by norm_num
    rw [this, zpow_zero, div_one, mul_one, halfEven_eq (n := n) (by rwa [abs_sub_comm])]
  rcases abs_cases x with ⟨e, g⟩ | ⟨e, g⟩ <;> rw [e] at h2
  · exact pos hn h1 h2
  · have := pos (x := -x) (n := -n) (by rwa [Int.natAbs_neg]) (by push_cast; rwa [show -(n : Rat) - -x = -((n : Rat) - x) by ring, abs_neg]) h2
    rw [dec_neg] at this
    push_cast at this
    linarith

theorem parse_flt {x : Rat} (h : Normal x) (bad : List UInt8 → Nat) (escape : Bool) :
    parse strtod bad (print showFloat escape (.flt x)) = .value (tripF x) ⟨none, []⟩ := by
  rcases tripF_spec h with ⟨n, e1, e2, e3, e4⟩ | ⟨y, e1, e2, e3, e4, e5⟩
  · have := Json.Props.parse_print strtod showFloat bad escape (.int n) (by rw [Printable]; exact small_int e4)
    simp only [print] at this ⊢
    rw [← e3, e1]
    exact this
  · have := Json.Props.parse_print strtod showFloat bad escape (.flt y) e5
    simp only [print] at this ⊢
    rw [← e4, e1]
    exact this

mutual
/-- The document that comes back. -/
def trip : Value Rat → Value Rat
  | .null => .null
  | .int n => .int n
  | .flt x => tripF x
  | .bool b => .bool b
  | .str s => .str s
  | .arr vs => .arr (tripL vs)
  | .obj ms => .obj (tripM ms)
/-- The same for elements. -/
def tripL : List (Value Rat) → List (Value Rat)
  | [] => []
  | v :: vs => trip v :: tripL vs
/-- The same for members. -/
def tripM : List (Str × Value Rat) → List (Str × Value Rat)
  | [] => []
  | (k, v) :: ms => (k, trip v) :: tripM ms
end

theorem tripM_keys (ms : List (Str × Value Rat)) : (tripM ms).map (·.1) = ms.map (·.1) := by
  induction ms with
  | nil => rfl
  | cons m ms ih => obtain ⟨k, v⟩ := m; rw [tripM, List.map_cons, ih, List.map_cons]

theorem print_tripF {x : Rat} (h : Normal x) (esc : Bool) (l : Nat) :
    print showFloat esc (tripF x) = showFloat x ∧ prettyAt showFloat esc l (tripF x) = showFloat x ∧ Printable strtod showFloat (tripF x) ∧
      Near (.flt x) (tripF x) := by
  obtain ⟨c1, c2⟩ := close_of h
  rcases tripF_spec h with ⟨n, e1, e2, e3, e4⟩ | ⟨y, e1, e2, e3, e4, e5⟩
  · rw [e1, print, prettyAt, Printable, Near]
    exact ⟨e3, e3, small_int e4, .inr ⟨n, rfl, by rw [e2]; exact c1⟩⟩
  · rw [e1, print, prettyAt, Near]
    exact ⟨e4, e4, e5, .inl ⟨y, rfl, by rw [e2]; exact c2⟩⟩

mutual
theorem trip_spec (esc : Bool) : ∀ v : Value Rat, Holds Normal v →
    print showFloat esc (trip v) = print showFloat esc v ∧ (∀ l, prettyAt showFloat esc l (trip v) = prettyAt showFloat esc l v) ∧
      Printable strtod showFloat (trip v) ∧ Near v (trip v)
  | .null, _ => by simp [trip, Printable, Near]
  | .int n, h => by rw [Holds] at h; simp [trip, Printable, Near, h]
  | .flt x, h => by
    rw [Holds] at h
    rw [trip, print]
    refine ⟨(print_tripF h esc 0).1, fun l => ?_, (print_tripF h esc 0).2.2⟩
    rw [prettyAt]
    exact (print_tripF h esc l).2.1
  | .bool b, _ => by simp [trip, Printable, Near]
  | .str s, h => by rw [Holds] at h; simp [trip, Printable, Near, h]
  | .arr vs, h => by
    rw [Holds] at h
    obtain ⟨a, b, c, d⟩ := trip_specL esc vs h
    rw [trip, print, print, Printable, Near, a]
    refine ⟨rfl, fun l => ?_, c, _, rfl, d⟩
    rw [prettyAt, prettyAt, b]
  | .obj ms, h => by
    rw [Holds] at h
    obtain ⟨a, b, c, d⟩ := trip_specM esc ms h.2
    rw [trip, print, print, Printable, Near, a, tripM_keys]
    refine ⟨rfl, fun l => ?_, ⟨h.1, c⟩, _, rfl, d⟩
    rw [prettyAt, prettyAt, b]
theorem trip_specL (esc : Bool) : ∀ vs : List (Value Rat), HoldsL Normal vs →
    (∀ f, printElems showFloat esc f (tripL vs) = printElems showFloat esc f vs) ∧
      (∀ l f, prettyElems showFloat esc l f (tripL vs) = prettyElems showFloat esc l f vs) ∧
      PrintableL strtod showFloat (tripL vs) ∧ NearL vs (tripL vs)
  | [], _ => by simp [tripL, PrintableL, NearL]
  | v :: vs, h => by
    rw [HoldsL] at h
    obtain ⟨a, b, c, d⟩ := trip_spec esc v h.1
    obtain ⟨a', b', c', d'⟩ := trip_specL esc vs h.2
    rw [tripL, PrintableL, NearL]
    refine ⟨fun f => ?_, fun l f => ?_, ⟨c, c'⟩, _, _, rfl, d, d'⟩
    · rw [printElems, printElems, a, a']
    · rw [prettyElems, prettyElems, b, b']
theorem trip_specM (esc : Bool) : ∀ ms : List (Str × Value Rat), HoldsM Normal ms →
    (∀ f, printMembers showFloat esc f (tripM ms) = printMembers showFloat esc f ms) ∧
      (∀ l f, prettyMembers showFloat esc l f (tripM ms) = prettyMembers showFloat esc l f ms) ∧
      PrintableM strtod showFloat (tripM ms) ∧ NearM ms (tripM ms)
  | [], _ => by simp [tripM, PrintableM, NearM]
  | (k, v) :: ms, h => by
    rw [HoldsM] at h
    obtain ⟨a, b, c, d⟩ := trip_spec esc v h.2.1
    obtain ⟨a', b', c', d'⟩ := trip_specM esc ms h.2.2
    rw [tripM, PrintableM, NearM]
    refine ⟨fun f => ?_, fun l f => ?_, ⟨h.1, c, c'⟩, _, _, rfl, d, d'⟩
    · rw [printMembers, printMembers, a, a']
    · rw [prettyMembers, prettyMembers, b, b']
end

mutual
/-- A document whose numbers come back comes back. -/
theorem trip_same (p : Rat → Prop) (hp : ∀ x, p x → tripF x = .flt x) : ∀ v : Value Rat, Holds p v → trip v = v
  | .null, _ => rfl
  | .int _, _ => rfl
  | .flt x, h => by rw [Holds] at h; rw [trip]; exact hp x h
  | .bool _, _ => rfl
  | .str _, _ => rfl
  | .arr vs, h => by rw [Holds] at h; rw [trip, trip_sameL p hp vs h]
  | .obj ms, h => by rw [Holds] at h; rw [trip, trip_sameM p hp ms h.2]
theorem trip_sameL (p : Rat → Prop) (hp : ∀ x, p x → tripF x = .flt x) : ∀ vs : List (Value Rat), HoldsL p vs → tripL vs = vs
  | [], _ => rfl
  | v :: vs, h => by rw [HoldsL] at h; rw [tripL, trip_same p hp v h.1, trip_sameL p hp vs h.2]
theorem trip_sameM (p : Rat → Prop) (hp : ∀ x, p x → tripF x = .flt x) : ∀ ms : List (Str × Value Rat), HoldsM p ms → tripM ms = ms
  | [], _ => rfl
  | (k, v) :: ms, h => by rw [HoldsM] at h; rw [tripM, trip_same p hp v h.2.1, trip_sameM p hp ms h.2.2]
end

mutual
theorem holds_imp {p q : Rat → Prop} (hp : ∀ x, p x → q x) : ∀ v : Value Rat, Holds p v → Holds q v
  | .null, _ => by rw [Holds]; trivial
  | .int _, h => by rw [Holds] at h ⊢; exact h
  | .flt x, h => by rw [Holds] at h ⊢; exact hp x h
  | .bool _, _ => by rw [Holds]; trivial
  | .str _, h => by rw [Holds] at h ⊢; exact h
  | .arr vs, h => by rw [Holds] at h ⊢; exact holds_impL hp vs h
  | .obj ms, h => by rw [Holds] at h ⊢; exact ⟨h.1, holds_impM hp ms h.2⟩
theorem holds_impL {p q : Rat → Prop} (hp : ∀ x, p x → q x) : ∀ vs : List (Value Rat), HoldsL p vs → HoldsL q vs
  | [], _ => by rw [HoldsL]; trivial
  | v :: vs, h => by rw [HoldsL] at h ⊢; exact ⟨holds_imp hp v h.1, holds_impL hp vs h.2⟩
theorem holds_impM {p q : Rat → Prop} (hp : ∀ x, p x → q x) : ∀ ms : List (Str × Value Rat), HoldsM p ms → HoldsM q ms
  | [], _ => by rw [HoldsM]; trivial
  | (k, v) :: ms, h => by rw [HoldsM] at h ⊢; exact ⟨h.1, holds_imp hp v h.2.1, holds_impM hp ms h.2.2⟩
end

end Verif.FloatText.Lemmas
