import Verif.LexFloat.Lemmas
import Verif.Lexical.Props
import Verif.FloatText.LemmasJson
import Verif.Double.Props
/-! Lemmas about reading floating point numbers, their texts and rounding. -/
namespace Verif.LexFloat.Lemmas
open Verif.Double Verif.Double.Lemmas Verif.Double.Spec Verif.FloatText Verif.FloatText.Spec Verif.FloatText.Lemmas Verif.Lexical Verif.LexFloat
open Verif.LexFloat.Spec
open Verif.Json.Spec (Digit decVal)

/-- What reading gives for the number `q`. -/
def res (F : Fmt) (q : Rat) : Option Rat := if (2 : Rat) ^ F.emax ≤ mag (rnd F q) then none else some (rnd F q)

/-- `get` after the white space. -/
def getN (F : Fmt) (s : List Nat) : Option Rat :=
  if numRest (collect (sign s).2).1 ≠ some [] then none
  else res F (if (sign s).1 = [45] then -textAbs (collect (sign s).2).1 else textAbs (collect (sign s).2).1)

theorem get_eq (F : Fmt) (s : Str) : get F s = getN F ((s.dropWhile isspace).map UInt8.toNat) := rfl

theorem unsigned_head {t : List Nat} {q : Rat} (h : Unsigned t q) : ∃ c r, t = c :: r ∧ (Digit c ∨ c = 46) := by
  rcases h with ⟨ip, e, k, h1, h2, _⟩ | ⟨ip, fd, e, k, h1, _, _, _⟩
  · obtain ⟨d, ds, rfl⟩ := List.exists_cons_of_ne_nil h2
    exact ⟨d, _, rfl, .inl (h1 d (by simp))⟩
  · cases ip with
    | nil => exact ⟨46, _, rfl, .inr rfl⟩
    | cons d ds => exact ⟨d, _, rfl, .inl (h1 d (by simp))⟩

theorem sign_none {c : Nat} {r : List Nat} (h : Digit c ∨ c = 46) : sign (c :: r) = ([], c :: r) := by
  unfold Digit at h
  unfold sign
  split
  · rename_i e; cases e; omega
  · rename_i e; cases e; omega
  · rfl

theorem stops_cons {t : List Nat} {c d : Nat} (hd : d = 43 ∨ d = 45) : Stops (d :: t) c ↔ Stops t c := by
  unfold Stops
  have h : ∀ n, n = 101 ∨ n = 69 ∨ n = 46 → (n ∉ d :: t ↔ n ∉ t) := fun n hn => by
    rw [List.mem_cons]
    constructor
    · exact fun g e => g (.inr e)
    · rintro g (e | e)
      · omega
      · exact g e
  rw [h 101 (.inl rfl), h 69 (.inr (.inl rfl)), h 46 (.inr (.inr rfl))]

/-- The number collected from a text. -/
def valN (s : List Nat) : Rat := if (sign s).1 = [45] then -textAbs (collect (sign s).2).1 else textAbs (collect (sign s).2).1

theorem literal_read {t rest : List Nat} {q : Rat} (h : Literal t q) (hr : ∀ c, rest.head? = some c → Stops t c) :
    numRest (collect (sign (t ++ rest)).2).1 = some [] ∧ valN (t ++ rest) = q := by
  unfold valN
  rcases h with ⟨_, _, h⟩ | ⟨t, _, h⟩ | ⟨t, _, h⟩
  · obtain ⟨u, g1, g2, g3⟩ := unsigned_read h hr
    obtain ⟨c, r, rfl, hc⟩ := unsigned_head h
    have : sign (c :: r ++ rest) = ([], c :: r ++ rest) := sign_none hc
    rw [this, g1]
    exact ⟨g2, g3⟩
  · obtain ⟨u, g1, g2, g3⟩ := unsigned_read h (fun c hc => (stops_cons (.inl rfl)).1 (hr c hc))
    have : sign (43 :: t ++ rest) = ([43], t ++ rest) := rfl
    rw [this, g1]
    exact ⟨g2, g3⟩
  · obtain ⟨u, g1, g2, g3⟩ := unsigned_read h (fun c hc => (stops_cons (.inr rfl)).1 (hr c hc))
    have : sign (45 :: t ++ rest) = ([45], t ++ rest) := rfl
    rw [this, g1]
    exact ⟨g2, by rw [if_pos rfl, g3]⟩

theorem getN_literal (F : Fmt) {t rest : List Nat} {q : Rat} (h : Literal t q) (hr : ∀ c, rest.head? = some c → Stops t c) :
    getN F (t ++ rest) = res F q := by
  obtain ⟨h1, h2⟩ := literal_read h hr
  unfold getN
  rw [if_neg (not_not.2 h1)]
  exact congrArg _ h2

theorem getN_back {F : Fmt} {s : List Nat} {y : Rat} (h : getN F s = some y) :
    ∃ t rest q, s = t ++ rest ∧ Literal t q ∧ ∀ c, rest.head? = some c → Stops t c := by
  unfold getN at h
  split at h
  · cases h
  · rename_i hn
    obtain ⟨t, rest, q, e, hu, hs⟩ := unsigned_back (not_not.1 hn)
    obtain ⟨e1, e2⟩ := sign_spec s
    rw [e] at e1
    rcases e2 with e2 | e2 | e2 <;> rw [e2] at e1
    · exact ⟨t, rest, q, e1, .plain t q hu, hs⟩
    · exact ⟨43 :: t, rest, q, e1, .plus t q hu, fun c hc => (stops_cons (.inl rfl)).2 (hs c hc)⟩
    · exact ⟨45 :: t, rest, -q, e1, .minus t q hu, fun c hc => (stops_cons (.inr rfl)).2 (hs c hc)⟩

theorem literal_head {t : List Nat} {q : Rat} (h : Literal t q) : ∃ c r, t = c :: r ∧ 43 ≤ c ∧ c ≤ 57 := by
  rcases h with ⟨_, _, h⟩ | ⟨t, _, _⟩ | ⟨t, _, _⟩
  · obtain ⟨c, r, rfl, hc⟩ := unsigned_head h
    unfold Digit at hc
    exact ⟨c, r, rfl, by omega, by omega⟩
  · exact ⟨43, t, rfl, by omega, by omega⟩
  · exact ⟨45, t, rfl, by omega, by omega⟩

theorem skip_space {w t rest : Str} {q : Rat} (hw : ∀ c ∈ w, Lexical.Spec.Space c) (h : Literal (t.map UInt8.toNat) q) :
    (w ++ t ++ rest).dropWhile isspace = t ++ rest := by
  rw [List.append_assoc]
  refine (Lexical.Lemmas.takeWhile_split w (t ++ rest) (fun c hc => (Lexical.Lemmas.isspace_iff c).2 (hw c hc)) ?_).2
  obtain ⟨c, r, e, h1, h2⟩ := literal_head h
  cases t with
  | nil => cases e
  | cons d t =>
    intro c' hc
    simp only [List.cons_append, List.head?_cons, Option.mem_def, Option.some.injEq] at hc
    subst hc
    simp only [List.map_cons, List.cons.injEq] at e
    simp only [isspace, Bool.or_eq_false_iff, Bool.and_eq_false_iff, beq_eq_false_iff_ne, decide_eq_false_iff_not, UInt8.le_iff_toNat_le, ne_eq, ← UInt8.toNat_inj]
    rw [e.1]
    refine ⟨?_, .inr ?_⟩
    · show ¬ c = 32; omega
    · show ¬ c ≤ 13; omega

theorem begins_parts {s : Str} {q : Rat} (h : Begins s q) :
    ∃ t rest, (s.dropWhile isspace).map UInt8.toNat = t ++ rest ∧ Literal t q ∧ ∀ c, rest.head? = some c → Stops t c := by
  obtain ⟨w, t, rest, rfl, hw, hl, hr⟩ := h
  refine ⟨t.map UInt8.toNat, rest.map UInt8.toNat, by rw [skip_space hw hl, List.map_append], hl, fun c hc => ?_⟩
  cases rest with
  | nil => cases hc
  | cons d r => cases hc; exact hr d rfl

theorem get_begins (F : Fmt) {s : Str} {q : Rat} (h : Begins s q) : get F s = res F q := by
  obtain ⟨t, rest, e, hl, hr⟩ := begins_parts h
  rw [get_eq, e, getN_literal F hl hr]

theorem begins_val {s : Str} {q : Rat} (h : Begins s q) : valN ((s.dropWhile isspace).map UInt8.toNat) = q := by
  obtain ⟨t, rest, e, hl, hr⟩ := begins_parts h
  rw [e]
  exact (literal_read hl hr).2

theorem get_back {F : Fmt} {s : Str} {y : Rat} (h : get F s = some y) : ∃ q, Begins s q := by
  rw [get_eq] at h
  obtain ⟨t, rest, q, e, hl, hr⟩ := getN_back h
  obtain ⟨t', rest', e1, rfl, rfl⟩ := List.map_eq_append_iff.1 e
  refine ⟨q, s.takeWhile isspace, t', rest', ?_, fun c hc => ?_, hl, fun c hc => ?_⟩
  · rw [List.append_assoc, ← e1, List.takeWhile_append_dropWhile]
  · exact (Lexical.Lemmas.isspace_iff c).1 (List.all_eq_true.1 List.all_takeWhile c hc)
  · cases rest' with
    | nil => cases hc
    | cons d r => cases hc; exact hr _ rfl

/-! ### The formats -/

/-- What is needed of a format. -/
structure Good (F : Fmt) : Prop where
  prec : 24 ≤ F.prec
  emin : F.emin ≤ -100
  emax : (F.prec : Int) + 10 ≤ F.emax
  /-- The middle between the greatest number and the next power of two. -/
  up : rnd F ((2 : Rat) ^ F.emax - (2 : Rat) ^ (F.emax - F.prec - 1)) = (2 : Rat) ^ F.emax
  six : dec 6 (((2 : Rat) ^ F.prec - 1) * (2 : Rat) ^ (F.emax - F.prec)) ≤ ((2 : Rat) ^ F.prec - 1) * (2 : Rat) ^ (F.emax - F.prec)

theorem good64 : Good F64 := ⟨by decide, by decide, by decide, by decide +kernel, by decide +kernel⟩
theorem good32 : Good F32 := ⟨by decide, by decide, by decide, by decide +kernel, by decide +kernel⟩

theorem two_sub (a b : Int) : (2 : Rat) ^ (a - b) = (2 : Rat) ^ a / (2 : Rat) ^ b := zpow_sub₀ (by norm_num) a b

/-- The greatest number. -/
def top (F : Fmt) : Rat := ((2 : Rat) ^ F.prec - 1) * (2 : Rat) ^ (F.emax - F.prec)

theorem top_eq (F : Fmt) : top F = (2 : Rat) ^ F.emax - (2 : Rat) ^ (F.emax - F.prec) := by
  rw [top, two_sub, sub_mul, one_mul, zpow_natCast]
  have : (2 : Rat) ^ F.prec ≠ 0 := by positivity
  field_simp

theorem mid_eq (F : Fmt) : (2 : Rat) ^ (F.emax - F.prec) = 2 * (2 : Rat) ^ (F.emax - F.prec - 1) := by
  rw [two_sub (F.emax - F.prec) 1, zpow_one]
  ring

theorem top_mem {F : Fmt} (hF : Good F) : Mem F (top F) := by
  refine ⟨2 ^ F.prec - 1, F.emax - F.prec, ?_, by have := hF.emin; have := hF.emax; omega, by rw [top]; push_cast; rfl⟩
  have : (1 : Int) ≤ 2 ^ F.prec := one_le_pow₀ (by norm_num)
  rw [abs_of_nonneg (by omega)]
  omega

theorem rnd_in {F : Fmt} (hF : Good F) (q : Rat) : |rnd F q| < (2 : Rat) ^ F.emax ↔ |q| < (2 : Rat) ^ F.emax - (2 : Rat) ^ (F.emax - F.prec - 1) := by
  have hp : 1 ≤ F.prec := by have := hF.prec; omega
  have ht := top_eq F
  have hm := mid_eq F
  have hpos := two_zpow_pos (F.emax - F.prec - 1)
  have pos : ∀ {q : Rat}, rnd F q < (2 : Rat) ^ F.emax ↔ q < (2 : Rat) ^ F.emax - (2 : Rat) ^ (F.emax - F.prec - 1) := by
    intro q
    constructor
    · intro h
      by_contra hc
      have := rnd_mono hp (not_lt.1 hc)
      rw [hF.up] at this
      linarith
    · intro h
      by_cases h2 : q ≤ top F
      · have := rnd_le hp (top_mem hF) h2
        linarith
      · have h2 := not_le.1 h2
        have h3 := rnd_near hp (top_mem hF) q
        rw [abs_sub_comm (top F), abs_of_pos (show 0 < q - top F by linarith)] at h3
        have h4 := (abs_le.1 h3).2
        linarith
  rcases abs_cases q with ⟨e, g⟩ | ⟨e, g⟩ <;> rw [e]
  · rw [abs_of_nonneg (rnd_nonneg hp g)]
    exact pos
  · rw [abs_of_nonpos (rnd_nonpos hp g.le), ← rnd_neg]
    exact pos

theorem num_mem {F : Fmt} {x : Rat} (h : IsNum F x) : Mem F x := by
  obtain ⟨m, e, a, b, _, d⟩ := h
  refine ⟨m, e, ?_, b, d⟩
  rw [Int.abs_eq_natAbs]
  exact_mod_cast a.le

theorem num_top {F : Fmt} {x : Rat} (h : IsNum F x) : |x| ≤ top F := by
  obtain ⟨m, e, a, _, c, rfl⟩ := h
  rw [abs_mul, abs_of_pos (two_zpow_pos e)]
  have hp : (1 : Int) ≤ 2 ^ F.prec := one_le_pow₀ (by norm_num)
  apply mul_le_mul
  · rw [← Int.cast_abs, Int.abs_eq_natAbs]
    have : (m.natAbs : Int) < 2 ^ F.prec := by exact_mod_cast a
    have : (m.natAbs : Int) ≤ 2 ^ F.prec - 1 := by omega
    exact_mod_cast this
  · exact zpow_le_iff.2 c
  · exact (two_zpow_pos _).le
  · have : (0 : Int) ≤ 2 ^ F.prec - 1 := by omega
    exact_mod_cast this

theorem num_lt {F : Fmt} {x : Rat} (h : IsNum F x) : |x| < (2 : Rat) ^ F.emax := by
  have h1 := num_top h
  rw [top_eq] at h1
  have := two_zpow_pos (F.emax - F.prec)
  linarith

theorem res_some {F : Fmt} (hF : Good F) {q : Rat} (h : |q| < (2 : Rat) ^ F.emax - (2 : Rat) ^ (F.emax - F.prec - 1)) :
    res F q = some (rnd F q) ∧ Nearest F q (rnd F q) := by
  have hp : 1 ≤ F.prec := by have := hF.prec; omega
  have hm := (rnd_in hF q).2 h
  refine ⟨by rw [res, mag_eq, if_neg (not_le.2 hm)],
    (Double.Props.round_num hp (ofRat_fin hm) (by have := hF.emin; have := hF.emax; omega)).2, fun z hz => ?_⟩
  rw [dist_eq, dist_eq]
  exact rnd_near hp (num_mem hz) q

theorem res_none {F : Fmt} (hF : Good F) {q : Rat} (h : ¬ |q| < (2 : Rat) ^ F.emax - (2 : Rat) ^ (F.emax - F.prec - 1)) : res F q = none := by
  rw [res, mag_eq, if_pos (not_lt.1 fun g => h ((rnd_in hF q).1 g))]

/-! ### Texts of six digits -/

theorem denotes_literal {t : List Nat} {q : Rat} (h : Denotes t q) : Literal t q ∧ ∀ c ∈ t, c < 128 := by
  obtain ⟨sg, ip, fd, ex, k, rfl, h1, h2, h3, h4, rfl⟩ := h
  have hip : (∀ c ∈ ip, Digit c) ∧ ip ≠ [] := by
    rcases h2 with rfl | ⟨d, ds, rfl, g1, _, g2⟩
    · exact ⟨by simp [Digit], by simp⟩
    · exact ⟨by simpa [g1] using g2, by simp⟩
  have hex : Exponent ex k ∧ ∀ c ∈ ex, c < 128 := by
    rcases h4 with ⟨rfl, rfl⟩ | ⟨s, ds, rfl, g1, g2, ⟨rfl, rfl⟩ | ⟨rfl, rfl⟩⟩
    · exact ⟨.none, by simp⟩
    · refine ⟨.plus 101 ds (.inl rfl) g2 g1, ?_⟩
      intro c hc
      simp only [List.mem_cons] at hc
      rcases hc with rfl | rfl | hc
      · omega
      · omega
      · exact digit_lt (g1 c hc)
    · refine ⟨.minus 101 ds (.inl rfl) g2 g1, ?_⟩
      intro c hc
      simp only [List.mem_cons] at hc
      rcases hc with rfl | rfl | hc
      · omega
      · omega
      · exact digit_lt (g1 c hc)
  have hu : Unsigned (ip ++ (if fd = [] then [] else 46 :: fd) ++ ex) ((decVal (ip ++ fd) : Rat) * (10 : Rat) ^ (k - (fd.length : Int))) := by
    by_cases hf : fd = []
    · subst hf
      simpa using Unsigned.whole ip ex k hip.1 hip.2 hex.1
    · rw [if_neg hf]
      exact Unsigned.point ip fd ex k hip.1 h3 (by simp [hf]) hex.1
  refine ⟨?_, ?_⟩
  · rcases h1 with rfl | rfl
    · rw [if_pos rfl, one_mul]
      exact .plain _ _ (by simpa using hu)
    · rw [if_neg (c := ([45] : List Nat) = []) (by simp), mul_assoc, neg_one_mul]
      exact .minus _ _ (by simpa using hu)
  · intro c hc
    simp only [List.mem_append] at hc
    rcases hc with ((hc | hc) | hc) | hc
    · rcases h1 with rfl | rfl
      · cases hc
      · simp only [List.mem_singleton] at hc; omega
    · exact digit_lt (hip.1 c hc)
    · split at hc
      · cases hc
      · rcases List.mem_cons.1 hc with rfl | hc
        · omega
        · exact digit_lt (h3 c hc)
    · exact hex.2 c hc

theorem map_back {t : List Nat} (h : ∀ c ∈ t, c < 128) : (t.map UInt8.ofNat).map UInt8.toNat = t := by
  rw [List.map_map]
  conv_rhs => rw [← List.map_id t]
  refine List.map_congr_left fun c hc => ?_
  have := h c hc
  show (UInt8.ofNat c).toNat = c
  rw [UInt8.toNat_ofNat']
  omega

theorem text_denotes (x : Rat) : Denotes ((put (.fin x)).map UInt8.toNat) (dec 6 x) := by
  have h := fmtG_denotes (P := 6) (by norm_num) x
  rw [put, map_back (denotes_literal h).2]
  exact h

theorem text_begins (x : Rat) : Begins (put (.fin x)) (dec 6 x) :=
  ⟨[], put (.fin x), [], by simp, by simp, (denotes_literal (text_denotes x)).1, by simp⟩

theorem rounded (x : Rat) : Rounded 6 x (dec 6 x) := by
  refine ⟨dec_dec (by norm_num) x, fun q' hq => ?_⟩
  rw [dist_eq, dist_eq]
  exact dec_near (by norm_num) x hq

theorem dec_close (x : Rat) : |dec 6 x - x| ≤ |x| * (5 / 10 ^ 6) := by
  have pos : ∀ {a : Rat}, 0 < a → |dec 6 a - a| ≤ a * (5 / 10 ^ 6) := by
    intro a ha
    rw [dec_pos 6 ha]
    have h1 := sciVal_err (P := 6) (by norm_num) ha
    have h2 := unit_le (P := 6) (by norm_num) ha
    norm_num at h2 ⊢
    linarith
  rcases lt_trichotomy x 0 with h | h | h
  · have := pos (a := -x) (by linarith)
    rw [dec_neg, show -dec 6 x - -x = -(dec 6 x - x) by ring, abs_neg] at this
    rwa [abs_of_neg h]
  · subst h; simp [dec]
  · rw [abs_of_pos h]; exact pos h

theorem dec_in {F : Fmt} (hF : Good F) {x : Rat} (h : IsNum F x) : |dec 6 x| < (2 : Rat) ^ F.emax - (2 : Rat) ^ (F.emax - F.prec - 1) := by
  have h1 := num_top h
  have h2 : |dec 6 x| ≤ top F := by
    rw [abs_le] at h1 ⊢
    have g1 := dec_mono (P := 6) (by norm_num) h1.1
    have g2 := dec_mono (P := 6) (by norm_num) h1.2
    rw [dec_neg] at g1
    have := hF.six
    change dec 6 (top F) ≤ top F at this
    constructor <;> linarith
  have := top_eq F
  have := mid_eq F
  have := two_zpow_pos (F.emax - F.prec - 1)
  linarith

/-- The relative error of rounding. -/
theorem rnd_rel' {F : Fmt} {q : Rat} (h : (2 : Rat) ^ (F.emin + F.prec - 1) ≤ q) : |rnd F q - q| * 2 ^ F.prec ≤ q := by
  have hq : 0 < q := lt_of_lt_of_le (two_zpow_pos _) h
  have h1 := rnd_err F q
  obtain ⟨h2, h3⟩ := expo_spec hq
  have he : F.emin + F.prec - 1 ≤ expo q := by
    have := zpow_lt_iff.1 (lt_of_le_of_lt h h3)
    omega
  have hu : ulp F q * 2 ^ F.prec = 2 * (2 : Rat) ^ expo q := by
    have hm : max (expo q - ((F.prec : Int) - 1)) F.emin = expo q + 1 - F.prec := by omega
    rw [ulp, mag_eq, abs_of_pos hq, hm, two_sub, zpow_natCast, zpow_add₀ (by norm_num), zpow_one]
    have : (2 : Rat) ^ F.prec ≠ 0 := by positivity
    field_simp
  have h4 : |rnd F q - q| * 2 ^ F.prec ≤ ulp F q / 2 * 2 ^ F.prec := mul_le_mul_of_nonneg_right h1 (by positivity)
  linarith

/-- The nearest number of a decimal of at most 6 digits is written as this decimal. -/
theorem dec_rnd' {F : Fmt} (hF : Good F) {q : Rat} (hq : Dec 6 q) (h : (2 : Rat) ^ (F.emin + F.prec - 1) ≤ |q|) : dec 6 (rnd F q) = q := by
  have hp : 1 ≤ F.prec := by have := hF.prec; omega
  have hlo : Mem F ((2 : Rat) ^ (F.emin + F.prec - 1)) := mem_pow (by have := hF.prec; omega)
  have hlp := two_zpow_pos (F.emin + F.prec - 1)
  have h6 : 10 ^ 6 < 2 ^ (F.prec - 1) := lt_of_lt_of_le (show 10 ^ 6 < 2 ^ 23 by norm_num) (Nat.pow_le_pow_right (by norm_num) (by have := hF.prec; omega))
  have pos : ∀ {q : Rat}, Dec 6 q → (2 : Rat) ^ (F.emin + F.prec - 1) ≤ q → dec 6 (rnd F q) = q := by
    rintro q ⟨m, k, hm, rfl⟩ h1
    have hmpos : 0 < m := by
      have : 0 < (m : Rat) * (10 : Rat) ^ k := lt_of_lt_of_le hlp h1
      have := (pos_iff_pos_of_mul_pos this).2 (ten_pos k)
      exact_mod_cast this
    obtain ⟨n, X, a, b, c⟩ := dec_norm (P := 6) (by norm_num) (k := k) hmpos (by omega)
    rw [c] at h1 ⊢
    have hr : 0 < rnd F ((n : Rat) * (10 : Rat) ^ (X - (((6 : Nat) : Int) - 1))) := lt_of_lt_of_le hlp (le_rnd hp hlo h1)
    have := rnd_rel' h1
    rw [show F.prec = F.prec - 1 + 1 by omega] at this
    rw [dec_pos 6 hr, sciVal, sci_stable (by norm_num) h6 a b this]
  rcases abs_cases q with ⟨e, _⟩ | ⟨e, _⟩ <;> rw [e] at h
  · exact pos hq h
  · obtain ⟨m, k, a, b⟩ := hq
    have := pos (q := -q) ⟨-m, k, by rwa [Int.natAbs_neg], by rw [b]; push_cast; ring⟩ h
    rw [rnd_neg, dec_neg] at this
    linarith

/-! ### The integer in front of the text -/

theorem no_digit (fr ex : List Nat) (hx : ex = [] ∨ ∃ r, ex = 101 :: r) : NoDigit ((if fr = [] then [] else 46 :: fr) ++ ex) := by
  intro c hc
  split at hc
  · rcases hx with rfl | ⟨r, rfl⟩
    · cases hc
    · cases hc; unfold Digit; omega
  · cases hc; unfold Digit; omega

theorem tenths : ((1 : Rat) / 10 ^ 4) = (10 : Rat) ^ (-4 : Int) := by norm_num

/-- The digits in front of the text of a positive number: the whole part of its rounding, or the first digit of it. -/
theorem front_digits {a : Rat} (h : 0 < a) : ∃ ip rest, fmtAbs 6 a = ip ++ rest ∧ ip ≠ [] ∧ (∀ c ∈ ip, Digit c) ∧ NoDigit rest ∧
    ((1 / 10 ^ 4 ≤ sciVal 6 a ∧ sciVal 6 a < 10 ^ 6 ∧ (decVal ip : Rat) ≤ sciVal 6 a ∧ sciVal 6 a < decVal ip + 1) ∨
      ((sciVal 6 a < 1 / 10 ^ 4 ∨ 10 ^ 6 ≤ sciVal 6 a) ∧ 1 ≤ decVal ip ∧ decVal ip ≤ 9 ∧
        ∃ k : Int, (decVal ip : Rat) ≤ sciVal 6 a * (10 : Rat) ^ k ∧ sciVal 6 a * (10 : Rat) ^ k < decVal ip + 1)) := by
  obtain ⟨h1, h2, _, _, _⟩ := sci_spec (P := 6) (by norm_num) h
  unfold fmtAbs sciVal
  rw [if_neg h.ne']
  generalize hs : sci 6 a = s at *
  obtain ⟨m, X⟩ := s
  dsimp only at *
  have hu := ten_pos (X - (((6 : Nat) : Int) - 1))
  have g1 : ((10 ^ (6 - 1) : Nat) : Rat) * (10 : Rat) ^ (X - (((6 : Nat) : Int) - 1)) ≤ m * (10 : Rat) ^ (X - (((6 : Nat) : Int) - 1)) :=
    mul_le_mul_of_nonneg_right (by exact_mod_cast h1) hu.le
  have g2 : (m : Rat) * (10 : Rat) ^ (X - (((6 : Nat) : Int) - 1)) < ((10 ^ 6 : Nat) : Rat) * (10 : Rat) ^ (X - (((6 : Nat) : Int) - 1)) :=
    mul_lt_mul_of_pos_right (by exact_mod_cast h2) hu
  rw [← ten_P (by norm_num)] at g1
  rw [← ten_P' (by norm_num)] at g2
  have hmil : (10 : Rat) ^ (6 : Int) = 10 ^ 6 := by norm_num
  split
  · rename_i hX
    rw [point_eq, take_digits (by norm_num), drop_digits (by norm_num), List.append_assoc]
    obtain ⟨s, ds, e1, _⟩ := exp_digits X
    refine ⟨_, _, rfl, ?_, digitsW_digit _ _, no_digit _ _ (.inr ⟨_, e1⟩), .inr ⟨?_, ?_⟩⟩
    · exact List.ne_nil_of_length_pos (by rw [digitsW_length]; norm_num)
    · rcases hX with hX | hX
      · left
        rw [tenths]
        exact g2.trans_le (ten_le_iff.2 (by omega))
      · right
        rw [← hmil]
        exact (ten_le_iff.2 hX).trans g1
    · rw [decVal_digitsW]
      refine ⟨by omega, by omega, -X, ?_⟩
      have e : (m : Rat) * (10 : Rat) ^ (X - (((6 : Nat) : Int) - 1)) * (10 : Rat) ^ (-X) = m / 10 ^ 5 := by
        rw [mul_assoc, ← ten_add, show X - (((6 : Nat) : Int) - 1) + -X = -5 by omega]
        norm_num
        ring
      rw [e, Nat.mod_eq_of_lt (by omega), show 10 ^ (6 - 1) = 10 ^ 5 from rfl]
      constructor
      · rw [le_div_iff₀ (by norm_num)]
        exact_mod_cast Nat.div_mul_le_self _ _
      · rw [div_lt_iff₀ (by norm_num)]
        have h3 : m < (m / 10 ^ 5 + 1) * 10 ^ 5 := by omega
        exact_mod_cast h3
  · rename_i hr
    split
    · rename_i hX
      have hk : X.toNat + 1 ≤ 6 := by omega
      rw [point_eq, take_digits hk, drop_digits hk]
      refine ⟨_, _, rfl, ?_, digitsW_digit _ _, by simpa using no_digit _ [] (.inl rfl), .inl ⟨?_, ?_, ?_⟩⟩
      · exact List.ne_nil_of_length_pos (by rw [digitsW_length]; omega)
      · rw [tenths]
        exact (ten_le_iff.2 (by omega)).trans g1
      · rw [← hmil]
        exact g2.trans_le (ten_le_iff.2 (by omega))
      · rw [decVal_digitsW]
        obtain ⟨n, rfl⟩ : ∃ n : Nat, X = n := ⟨X.toNat, by omega⟩
        rw [Int.toNat_natCast]
        have hn : n ≤ 5 := by omega
        have e : ((n : Int) - (((6 : Nat) : Int) - 1)) = -((5 - n : Nat) : Int) := by omega
        have hlt : m / 10 ^ (6 - (n + 1)) < 10 ^ (n + 1) := by
          rw [Nat.div_lt_iff_lt_mul (by positivity), ← pow_add, show n + 1 + (6 - (n + 1)) = 6 by omega]
          exact h2
        rw [Nat.mod_eq_of_lt hlt, e, zpow_neg, ten_nat, ← div_eq_mul_inv, show 6 - (n + 1) = 5 - n by omega]
        have hd : 0 < 10 ^ (5 - n) := by positivity
        have hdr : (0 : Rat) < ((10 ^ (5 - n) : Nat) : Rat) := by exact_mod_cast hd
        constructor
        · rw [le_div_iff₀ hdr]
          exact_mod_cast Nat.div_mul_le_self _ _
        · rw [div_lt_iff₀ hdr]
          have := Nat.lt_div_mul_add (a := m) hd
          have h3 : m < (m / 10 ^ (5 - n) + 1) * 10 ^ (5 - n) := by rw [Nat.add_mul, Nat.one_mul]; exact this
          exact_mod_cast h3
    · rename_i hX
      rw [point_eq]
      refine ⟨[48], _, rfl, by simp, by simp [Digit], by simpa using no_digit _ [] (.inl rfl), .inl ⟨?_, ?_, ?_⟩⟩
      · rw [tenths]
        exact (ten_le_iff.2 (by omega)).trans g1
      · rw [← hmil]
        exact g2.trans_le (ten_le_iff.2 (by omega))
      · have hz : decVal [48] = 0 := by decide
        rw [hz]
        have hl := g2.trans_le ((ten_le_iff (b := 0)).2 (by omega))
        rw [zpow_zero] at hl
        push_cast
        rw [zero_add]
        exact ⟨by positivity, hl⟩

theorem digits_of {ip : List Nat} (h : ip ≠ []) (hd : ∀ c ∈ ip, Digit c) : Lexical.Spec.Digits (ip.map UInt8.ofNat) (decVal ip) := by
  have hc : ∀ c, Digit c → (UInt8.ofNat c).toNat = c := fun c hc => by
    unfold Digit at hc
    rw [UInt8.toNat_ofNat']
    omega
  induction ip using List.reverseRecOn with
  | nil => exact absurd rfl h
  | append_singleton l c ih =>
    have hcd := hd c (by simp)
    have e := hc c hcd
    have b1 : (48 : UInt8) ≤ UInt8.ofNat c := by rw [UInt8.le_iff_toNat_le, e]; exact hcd.1
    have b2 : UInt8.ofNat c ≤ (57 : UInt8) := by rw [UInt8.le_iff_toNat_le, e]; exact hcd.2
    rw [Verif.Json.Lemmas.decVal_snoc, List.map_append, List.map_singleton]
    by_cases hl : l = []
    · subst hl
      have := Lexical.Spec.Digits.one (UInt8.ofNat c) b1 b2
      rw [e] at this
      simpa [decVal] using this
    · have := Lexical.Spec.Digits.more (UInt8.ofNat c) (ih hl (fun c hc => hd c (by simp [hc]))) b1 b2
      rw [e] at this
      exact this

/-- An integer's text in a text. -/
theorem int_text {t : IntType} (ht : t.signed = true) (hb : 21 ≤ t.bits) {sg ip rest : List Nat} (hs : sg = [] ∨ sg = [45]) (h : ip ≠ [])
    (hd : ∀ c ∈ ip, Digit c) (hr : NoDigit rest) (hr8 : ∀ c ∈ rest, c < 128) (hv : decVal ip < 10 ^ 6) :
    intOfString t ((sg ++ ip ++ rest).map UInt8.ofNat) = some (if sg = [] then (decVal ip : Int) else -(decVal ip : Int)) := by
  have hD := digits_of h hd
  have hN : Lexical.Spec.Numeral ((sg ++ ip).map UInt8.ofNat) (if sg = [] then (decVal ip : Int) else -(decVal ip : Int)) := by
    rcases hs with rfl | rfl
    · exact .plain hD
    · exact .minus hD
  have hp : 2 ^ 20 ≤ 2 ^ (t.bits - 1) := Nat.pow_le_pow_right (by norm_num) (by omega)
  have hF : Lexical.Spec.Fits t (if sg = [] then (decVal ip : Int) else -(decVal ip : Int)) := by
    unfold Lexical.Spec.Fits
    rw [if_pos ht]
    generalize 2 ^ (t.bits - 1) = B at *
    split <;> omega
  have hB : Lexical.Spec.Begins ((sg ++ ip ++ rest).map UInt8.ofNat) (if sg = [] then (decVal ip : Int) else -(decVal ip : Int)) := by
    refine ⟨[], _, rest.map UInt8.ofNat, by rw [List.map_append (l₂ := rest), List.nil_append], by simp, hN, ?_⟩
    intro c hc
    cases rest with
    | nil => cases hc
    | cons d r =>
      cases hc
      have h1 := hr d rfl
      have h2 := hr8 d (by simp)
      have e : (UInt8.ofNat d).toNat = d := by rw [UInt8.toNat_ofNat']; omega
      rw [UInt8.le_iff_toNat_le, UInt8.le_iff_toNat_le, e]
      exact h1
  have : Decidable (Lexical.Spec.Fits t (if sg = [] then (decVal ip : Int) else -(decVal ip : Int))) := .isTrue hF
  rw [Lexical.Props.signed_cast t ht _ _ hB, if_pos hF]

theorem decVal_map (ds : Str) : decVal (ds.map UInt8.toNat) = Decimal.value ds := by
  rw [decVal, Decimal.value, List.foldl_map]

theorem int_begins (n : Int) : Begins (Lexical.put n) n := by
  obtain ⟨sg, e, hs⟩ := Lexical.Lemmas.put_parts n
  obtain ⟨h1, h2, h3⟩ := Decimal.digits_spec n.natAbs
  have hu : Unsigned ((Decimal.digits n.natAbs).map UInt8.toNat) (n.natAbs : Rat) := by
    have := Unsigned.whole ((Decimal.digits n.natAbs).map UInt8.toNat) [] 0 (fun d hd => by
      obtain ⟨c, hc, rfl⟩ := List.mem_map.1 hd
      exact Decimal.digit_bounds (h2 c hc)) (by simpa using h1) .none
    rw [decVal_map, h3] at this
    simpa using this
  refine ⟨[], Lexical.put n, [], by simp, by simp, ?_, by simp⟩
  rw [e]
  rcases hs with ⟨rfl, h0⟩ | ⟨rfl, h0⟩
  · have : ((n.natAbs : Nat) : Rat) = n := by
      have : (n.natAbs : Int) = n := by omega
      rw [← Int.cast_natCast, this]
    rw [this] at hu
    exact .plain _ _ hu
  · have : (n : Rat) = -((n.natAbs : Nat) : Rat) := by
      have : (n.natAbs : Int) = -n := by omega
      rw [← Int.cast_natCast, this]
      push_cast
      ring
    rw [this]
    exact .minus _ _ hu

theorem good {F : Fmt} (h : F = F64 ∨ F = F32) : Good F := by
  rcases h with rfl | rfl
  · exact good64
  · exact good32

theorem int_sign {x : Rat} (h : x ≠ 0) : ∃ sg a, (sg = [] ∨ sg = [45]) ∧ 0 < a ∧ fmtG 6 x = sg ++ fmtAbs 6 a ∧ dec 6 x = (if sg = [] then 1 else -1) * dec 6 a := by
  rcases lt_trichotomy x 0 with hx | hx | hx
  · refine ⟨[45], -x, .inr rfl, by linarith, ?_, ?_⟩
    · have := fmtG_neg 6 (a := -x) (by linarith)
      rw [neg_neg, fmtG_pos 6 (show 0 < -x by linarith)] at this
      exact this
    · rw [if_neg (by simp), dec_neg]; ring
  · exact absurd hx h
  · exact ⟨[], x, .inl rfl, hx, fmtG_pos 6 hx, by rw [if_pos rfl, one_mul]⟩

theorem cut_sign {sg : List Nat} (hs : sg = [] ∨ sg = [45]) {p : Rat} {m : Nat} (h0 : 0 < p) (h1 : (m : Rat) ≤ p) (h2 : p < m + 1) :
    Cut ((if sg = [] then 1 else -1) * p) (if sg = [] then (m : Int) else -(m : Int)) := by
  unfold Cut
  rcases hs with rfl | rfl
  · rw [if_pos rfl, one_mul, if_pos h0.le, if_pos rfl]
    exact ⟨by exact_mod_cast h1, by exact_mod_cast h2⟩
  · rw [if_neg (c := ([45] : List Nat) = []) (by simp), if_neg (c := ([45] : List Nat) = []) (by simp), if_neg (by linarith)]
    push_cast
    exact ⟨by linarith, by linarith⟩

end Verif.LexFloat.Lemmas
