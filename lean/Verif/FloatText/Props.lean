import Verif.FloatText.LemmasJson
import Verif.Double.Props
/-!
# C88: floating point numbers in texts

A finite `double` is the rational number it stands for. `print` and `parse` are
the JSON printer and parser of `Verif.Json`, with the number conversions of the
C++ library as modelled in `Verif.FloatText`.
-/
namespace Verif.FloatText.Props
open Verif.Double Verif.Double.Lemmas Verif.Double.Spec Verif.FloatText Verif.FloatText.Spec Verif.FloatText.Lemmas
open Verif.Json Verif.Json.Spec

/-! ## Texts of numbers -/

/-- C88: the text of a number written with precision `P` is a number text, and it stands for the number rounded to `P` digits. -/
theorem written_rounded {P : Nat} (hP : 1 ≤ P) (x : Rat) : ∃ q, Denotes (fmtG P x) q ∧ Rounded P x q := by
  refine ⟨dec P x, fmtG_denotes hP x, dec_dec hP x, fun q' hq => ?_⟩
  rw [dist_eq, dist_eq]
  exact dec_near hP x hq

/-- The `double` nearest to 2/3, in JSON's 12 digits and in the 6 digits of a stream. -/
example : showFloat (rnd F64 (2 / 3)) = "0.666666666667".toUTF8.data.toList ∧
    fmtG 6 (rnd F64 (2 / 3)) = "0.666667".toUTF8.data.toList.map UInt8.toNat := by decide +kernel
/-- An exponent below -4 and from 12 on; ties go to the even digit; rounding up can give one more digit. -/
example : showFloat (-5 / 100000) = "-5e-05".toUTF8.data.toList ∧ showFloat (12 * 10 ^ 20) = "1.2e+21".toUTF8.data.toList ∧
    showFloat (2000000000001 / 2) = "1e+12".toUTF8.data.toList ∧ showFloat (200000000001 / 2 * 5) = "500000000002".toUTF8.data.toList ∧
    showFloat (1999999999999 / 2) = "1e+12".toUTF8.data.toList ∧ showFloat 0 = "0".toUTF8.data.toList := by decide +kernel

/-- C88: a text is read as the `double` nearest to the number it stands for, when that is neither too large nor too close to zero. -/
theorem read_nearest {t : List Nat} {q : Rat} (ht : Denotes t q) (h1 : q = 0 ∨ (2 : Rat) ^ (-1022 : Int) ≤ dist 0 q)
    (h2 : dist 0 q < (2 : Rat) ^ (1024 : Int) - (2 : Rat) ^ (970 : Int)) :
    ∃ y, strtod t = some y ∧ IsNum F64 y ∧ ∀ z, IsNum F64 z → dist q y ≤ dist q z := by
  rw [dist_eq, sub_zero] at h1 h2
  have hm := rnd_lt_max h2
  have hn := Double.Props.round_num hp (ofRat_fin (F := F64) (x := q) hm) (by decide)
  refine ⟨rnd F64 q, ?_, hn.2, ?_⟩
  · rw [strtod, textVal_denotes ht]
    unfold toDouble
    dsimp only
    rw [mag_eq, if_neg (not_le.2 hm), if_neg]
    rintro ⟨g1, g2⟩
    rcases h1 with rfl | h1
    · exact g2 (rnd_zero _)
    · apply absurd g1 (not_lt.2 _)
      rcases abs_cases q with ⟨e, g⟩ | ⟨e, g⟩ <;> rw [e] at h1
      · rw [abs_of_nonneg (rnd_nonneg hp g)]
        exact lo_le_rnd h1
      · rw [abs_of_nonpos (rnd_nonpos hp g.le), ← rnd_neg]
        exact lo_le_rnd h1
  · intro z hz
    rw [dist_eq, dist_eq]
    exact rnd_near hp (isNum_mem hz) q

/-- `-12.50e-1` -/
example : Denotes [45, 49, 50, 46, 53, 48, 101, 45, 49] (-5 / 4) :=
  ⟨[45], [49, 50], [53, 48], [101, 45, 49], -1, rfl, .inr rfl, .inr ⟨49, [50], rfl, by simp [Digit], by decide, by simp [Digit]⟩, by simp [Digit],
    .inr ⟨45, [49], rfl, by simp [Digit], by simp, .inr ⟨rfl, by decide⟩⟩, by decide +kernel⟩

/-- C88: a text of a number outside the range of `double` is an error, not an infinity. -/
theorem too_large_refused {t : List Nat} {q : Rat} (ht : Denotes t q) (h : (2 : Rat) ^ (1024 : Int) ≤ dist 0 q) : strtod t = none := by
  rw [dist_eq, sub_zero] at h
  rw [strtod, textVal_denotes ht]
  unfold toDouble
  dsimp only
  rw [mag_eq, if_pos]
  have hm : Mem F64 ((2 : Rat) ^ (1024 : Int)) := mem_pow (by decide)
  rcases abs_cases q with ⟨e, g⟩ | ⟨e, g⟩ <;> rw [e] at h
  · rw [abs_of_nonneg (rnd_nonneg hp g)]
    exact le_rnd hp hm h
  · rw [abs_of_nonpos (rnd_nonpos hp g.le), ← rnd_neg]
    exact le_rnd hp hm h

/-- `1e309` -/
example : Denotes [49, 101, 43, 51, 48, 57] (10 ^ 309) ∧ (2 : Rat) ^ (1024 : Int) ≤ dist 0 (10 ^ 309) :=
  ⟨⟨[], [49], [], [101, 43, 51, 48, 57], 309, rfl, .inl rfl, .inr ⟨49, [], rfl, by simp [Digit], by decide, by simp⟩, by simp,
    .inr ⟨43, [51, 48, 57], rfl, by simp [Digit], by simp, .inl ⟨rfl, by decide⟩⟩, by decide +kernel⟩, by decide +kernel⟩

/-! ## Documents -/

/-- C88 (and C40): a document whose floating point numbers are finite and not subnormal comes back from its compact text, escaped or
not, with each number within one part in 10^11; nothing else changes, but that a floating point number may come back as an integer. The
document that came back has the same text, so that it does not change any more. -/
theorem document_back (bad : List UInt8 → Nat) (escape : Bool) (v : Value Rat) (h : Holds Normal v) :
    ∃ w, parse strtod bad (print showFloat escape v) = .value w ⟨none, []⟩ ∧ Near v w ∧
      print showFloat escape w = print showFloat escape v ∧ parse strtod bad (print showFloat escape w) = .value w ⟨none, []⟩ := by
  obtain ⟨a, _, c, d⟩ := trip_spec escape v h
  have := Json.Props.parse_print strtod showFloat bad escape (trip v) c
  exact ⟨trip v, by rw [← a]; exact this, d, a, this⟩

/-- C88: the same for the indented text. -/
theorem pretty_document_back (bad : List UInt8 → Nat) (escape : Bool) (v : Value Rat) (h : Holds Normal v) :
    ∃ w s, parse strtod bad (pretty showFloat escape v) = .value w s ∧ Near v w ∧ pretty showFloat escape w = pretty showFloat escape v ∧
      parse strtod bad (print showFloat escape v) = .value w ⟨none, []⟩ := by
  obtain ⟨a, b, c, d⟩ := trip_spec escape v h
  obtain ⟨s, h1, _⟩ := Json.Props.parse_pretty strtod showFloat bad escape (trip v) c
  have e : pretty showFloat escape (trip v) = pretty showFloat escape v := by rw [pretty, pretty, b]
  exact ⟨trip v, s, by rw [← e]; exact h1, d, e, by rw [← a]; exact Json.Props.parse_print strtod showFloat bad escape (trip v) c⟩

theorem normal_third : Normal (rnd F64 (1 / 3)) :=
  ⟨⟨6004799503160661, -54, by decide, by decide, by decide, by decide +kernel⟩, .inr (by decide +kernel)⟩
theorem normal_tenth : Normal (rnd F64 (1 / 10)) :=
  ⟨⟨7205759403792794, -56, by decide, by decide, by decide, by decide +kernel⟩, .inr (by decide +kernel)⟩
theorem normal_one : Normal 1 := ⟨⟨1, 0, by decide, by decide, by decide, by decide +kernel⟩, .inr (by decide +kernel)⟩

/-- `[0.333..., {"a": 0.1}]` -/
example : Holds Normal (.arr [.flt (rnd F64 (1 / 3)), .obj [([97], .flt (rnd F64 (1 / 10)))]]) := by
  have g : GoodStr [97] := (Json.Lemmas.goodStr_iff _).mpr ⟨[97], by simp [Verif.Ustring.Spec.Scalar], by decide⟩
  simp only [Holds, HoldsL, HoldsM, and_true]
  exact ⟨normal_third, by decide, g, normal_tenth⟩

/-- C88: a document whose floating point numbers are decimals of at most 12 digits, but not whole numbers of at most 12 digits, comes
back as it was. -/
theorem document_same (bad : List UInt8 → Nat) (escape : Bool) (v : Value Rat)
    (h : Holds (fun x => Normal x ∧ ∃ q, Dec 12 q ∧ (2 : Rat) ^ (-1022 : Int) ≤ dist 0 q ∧ x = rnd F64 q ∧
      ¬ ∃ n : Int, q = n ∧ n.natAbs < 10 ^ 12) v) :
    parse strtod bad (print showFloat escape v) = .value v ⟨none, []⟩ := by
  have hs : trip v = v := by
    refine trip_same _ ?_ v h
    rintro x ⟨h1, q, h2, h3, h4, h5⟩
    rw [dist_eq, sub_zero] at h3
    have hd : dec 12 x = q := by rw [h4]; exact dec_rnd h2 h3
    rcases tripF_spec h1 with ⟨n, e1, e2, _, e4⟩ | ⟨y, e1, e2, _⟩
    · exact absurd ⟨n, by rw [e2, hd], e4⟩ h5
    · rw [e1, e2, hd, h4]
  have hn := holds_imp (q := Normal) (fun x h => h.1) v h
  obtain ⟨_, _, c, _⟩ := trip_spec escape v hn
  rw [hs] at c
  exact Json.Props.parse_print strtod showFloat bad escape v c

/-- 0.1 and 2.5e-300 are such numbers. -/
example : Holds (fun x => Normal x ∧ ∃ q, Dec 12 q ∧ (2 : Rat) ^ (-1022 : Int) ≤ dist 0 q ∧ x = rnd F64 q ∧
      ¬ ∃ n : Int, q = n ∧ n.natAbs < 10 ^ 12) (.arr [.flt (rnd F64 (1 / 10))]) := by
  simp only [Holds, HoldsL, and_true]
  refine ⟨normal_tenth, 1 / 10, ⟨1, -1, by decide, by decide +kernel⟩, by decide +kernel, rfl, ?_⟩
  rintro ⟨n, h, _⟩
  have : ((10 * n : Int) : Rat) = ((1 : Int) : Rat) := by push_cast; rw [← h]; norm_num
  have : 10 * n = 1 := by exact_mod_cast this
  omega

/-- C88: a floating point number that is rounded to a whole number of at most 12 digits comes back as an integer: `json(1.0)` prints as
`1`. -/
theorem whole_becomes_integer (bad : List UInt8 → Nat) (escape : Bool) (x : Rat) (h : Normal x) (n : Int) (hn : n.natAbs < 10 ^ 12)
    (hr : x = n ∨ dist x n < 1 / 2 ∧ 10 ^ 11 ≤ dist 0 x) :
    parse strtod bad (print showFloat escape (.flt x)) = .value (.int n) ⟨none, []⟩ := by
  have hd : dec 12 x = n := by
    rcases hr with rfl | ⟨h1, h2⟩
    · exact dec_whole hn
    · rw [dist_eq] at h1
      rw [dist_eq, sub_zero] at h2
      exact dec_round hn h1 h2
  rw [parse_flt h]
  rcases tripF_spec h with ⟨m, e1, e2, _⟩ | ⟨y, e1, _, e3, _⟩
  · rw [hd] at e2
    have : m = n := by exact_mod_cast e2
    rw [e1, this]
  · exact absurd ⟨n, hd, hn⟩ e3

/-- 1.0 becomes 1, and 123456789012.25 becomes 123456789012. -/
example : (Normal 1 ∧ (1 : Rat) = ((1 : Int) : Rat)) ∧ Normal (493827156049 / 4) ∧ dist (493827156049 / 4) ((123456789012 : Int) : Rat) < 1 / 2 ∧
    10 ^ 11 ≤ dist 0 (493827156049 / 4) :=
  ⟨⟨normal_one, by norm_num⟩, ⟨⟨493827156049, -2, by decide, by decide, by decide, by decide +kernel⟩, .inr (by decide +kernel)⟩,
    by decide +kernel, by decide +kernel⟩

/-- C88, C40: not every document comes back: 1/3 loses digits. -/
theorem digits_lost : ∃ x, Normal x ∧ ∀ bad escape, ∃ y, parse strtod bad (print showFloat escape (.flt x)) = .value (.flt y) ⟨none, []⟩ ∧ y ≠ x := by
  refine ⟨_, normal_third, fun bad escape => ?_⟩
  rw [parse_flt normal_third]
  have hd : dec 12 (rnd F64 (1 / 3)) = 333333333333 / 10 ^ 12 := by decide +kernel
  rcases tripF_spec normal_third with ⟨n, _, e2, _⟩ | ⟨y, e1, e2, _⟩
  · exfalso
    rw [hd] at e2
    have : ((n * 10 ^ 12 : Int) : Rat) = ((333333333333 : Int) : Rat) := by push_cast; rw [e2]; norm_num
    have : n * 10 ^ 12 = 333333333333 := by exact_mod_cast this
    omega
  · refine ⟨y, by rw [e1], ?_⟩
    rw [e2]
    decide +kernel

/-- C88: a subnormal number is printed, but the text is refused. -/
theorem subnormal_refused : ∃ x, IsNum F64 x ∧ ∀ bad escape, parse strtod bad (print showFloat escape (.flt x)) = .exc .parse := by
  refine ⟨(2 : Rat) ^ (-1074 : Int), ⟨1, -1074, by decide, by decide, by decide, by decide +kernel⟩, fun bad escape => ?_⟩
  have ht : print showFloat escape (.flt ((2 : Rat) ^ (-1074 : Int))) = bytes [52, 46, 57, 52, 48, 54, 53, 54, 52, 53, 56, 52, 49, 101, 45, 51, 50, 52] := by
    rw [print]; decide +kernel
  rw [ht, parse, Json.Lemmas.decodeAll_bytes bad _ (by
    intro c hc
    apply Json.Lemmas.scalar_ascii
    simp only [List.mem_cons, List.not_mem_nil, or_false] at hc
    omega)]
  decide +kernel

end Verif.FloatText.Props
