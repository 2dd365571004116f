import Verif.PgFloat.Spec
import Verif.Postgres.Lemmas
import Verif.LexFloat.LemmasGet
/-! Auxiliary lemmas (no claims). -/
namespace Verif.PgFloat.Lemmas
open Verif.Double Verif.Double.Lemmas Verif.Double.Spec Verif.Postgres Verif.Postgres.Spec Verif.PgFloat Verif.PgFloat.Spec
open Verif.LexFloat.Lemmas
open Verif.LexFloat.Spec (Begins Literal Unsigned Exponent)
open Verif.Json.Spec (Digit decVal)

theorem low_spec {y : Rat} (h : IsNum F64 y) (h0 : y ≠ 0) :
    ∃ (x fr m : Nat) (e : Int), low y = x * 2 ^ 52 + fr ∧ x < 2047 ∧ fr < 2 ^ 52 ∧
      (x = 0 ∧ m = fr ∧ e = -1074 ∨ 0 < x ∧ m = 2 ^ 52 + fr ∧ e = (x : Int) - 1075) ∧ |y| = m * (2 : Rat) ^ e := by
  have hp : 1 ≤ F64.prec := by decide
  have hy : 0 < |y| := abs_pos.2 h0
  have hr := rnd_of_mem hp (num_mem h)
  rw [rnd_ne h0, ulp, mag_eq] at hr
  have hE : max (expo |y| - ((F64.prec : Int) - 1)) F64.emin = max (expo |y| - 52) (-1074) := by
    rw [show F64.prec = 53 from rfl, show F64.emin = -1074 from rfl]
    norm_num
  rw [hE] at hr
  rw [low, if_neg h0, mag_eq]
  dsimp only
  obtain ⟨s1, s2⟩ := expo_spec hy
  have htop : expo |y| < 1024 := by
    have := num_lt h
    rw [show F64.emax = 1024 from rfl] at this
    exact zpow_lt_iff.1 (s1.trans_lt this)
  generalize hx : expo |y| = x at *
  generalize hn : halfEven (y / (2 : Rat) ^ max (x - 52) (-1074)) = n at hr
  have hEb : max (x - 52) (-1074) = x - 52 ∧ -1022 ≤ x ∨ max (x - 52) (-1074) = -1074 ∧ x < -1022 := by omega
  generalize max (x - 52) (-1074) = E at *
  have hpos := two_zpow_pos E
  have hyn : |y| = (n.natAbs : Rat) * (2 : Rat) ^ E := by
    rw [← hr, abs_mul, abs_of_pos hpos, ← Int.cast_abs, Int.abs_eq_natAbs, Int.cast_natCast]
  have hfl : (|y| / (2 : Rat) ^ E).floor.toNat = n.natAbs := by
    rw [hyn, mul_div_assoc, div_self hpos.ne', mul_one, ← Int.cast_natCast, Rat.floor_intCast, Int.toNat_natCast]
  rw [hfl]
  have hub : n.natAbs < 2 ^ 53 := by
    have : (n.natAbs : Rat) * (2 : Rat) ^ E < (2 : Rat) ^ (53 : Int) * (2 : Rat) ^ E := by
      rw [← hyn, ← zpow_add₀ (by norm_num)]
      exact s2.trans_le (zpow_le_iff.2 (by omega))
    have := lt_of_mul_lt_mul_right this hpos.le
    exact_mod_cast this
  rcases hEb with ⟨e1, e2⟩ | ⟨e1, e2⟩
  · have hlb : 2 ^ 52 ≤ n.natAbs := by
      have : (2 : Rat) ^ (52 : Int) * (2 : Rat) ^ E ≤ (n.natAbs : Rat) * (2 : Rat) ^ E := by
        rw [← hyn, ← zpow_add₀ (by norm_num)]
        exact (zpow_le_iff.2 (by omega)).trans s1
      have := le_of_mul_le_mul_right this hpos
      exact_mod_cast this
    refine ⟨(E + 1075).toNat, n.natAbs - 2 ^ 52, n.natAbs, E, by omega, by omega, by omega, .inr ⟨by omega, by omega, by omega⟩, hyn⟩
  · have hlt : n.natAbs < 2 ^ 52 := by
      have : (n.natAbs : Rat) * (2 : Rat) ^ E < (2 : Rat) ^ (52 : Int) * (2 : Rat) ^ E := by
        rw [← hyn, ← zpow_add₀ (by norm_num)]
        exact s2.trans_le (zpow_le_iff.2 (by omega))
      have := lt_of_mul_lt_mul_right this hpos.le
      exact_mod_cast this
    exact ⟨0, n.natAbs, n.natAbs, E, by omega, by omega, hlt, .inl ⟨rfl, rfl, e1⟩, hyn⟩

theorem bits_spec {y : Rat} (h : IsNum F64 y) {neg : Bool} (hs : 0 < y → neg = false) (hs' : y < 0 → neg = true) : IsDouble (bits neg y) neg y := by
  have key : ∃ (x fr m : Nat) (e : Int), low y = x * 2 ^ 52 + fr ∧ x < 2047 ∧ fr < 2 ^ 52 ∧
      (x = 0 ∧ m = fr ∧ e = -1074 ∨ 0 < x ∧ m = 2 ^ 52 + fr ∧ e = (x : Int) - 1075) ∧ |y| = m * (2 : Rat) ^ e := by
    by_cases h0 : y = 0
    · exact ⟨0, 0, 0, -1074, by rw [low, if_pos h0]; rfl, by decide, by decide, .inl ⟨rfl, rfl, rfl⟩, by rw [h0]; simp⟩
    · exact low_spec h h0
  obtain ⟨x, fr, m, e, g1, g2, g3, g4, g5⟩ := key
  refine ⟨m, e, ⟨if neg then 1 else 0, x, fr, ?_, by split <;> decide, g2, g3, by cases neg <;> rfl, g4⟩, ?_⟩
  · rw [bits, g1, UInt64.toNat_ofNat']
    cases neg
    · simp only [Bool.false_eq_true, if_false]; omega
    · simp only [if_true]; omega
  · rw [mul_assoc, ← g5]
    cases neg
    · have : 0 ≤ y := not_lt.1 fun hy => by cases hs' hy
      simp [abs_of_nonneg this]
    · have : y ≤ 0 := not_lt.1 fun hy => by cases hs hy
      simp [abs_of_nonpos this]

/-- The bits determine the number and the number determines the bits. -/
theorem double_unique {d : UInt64} {n n' : Bool} {x x' : Rat} (h : IsDouble d n x) (h' : IsDouble d n' x') : n = n' ∧ x = x' := by
  obtain ⟨m, e, ⟨s, b, f, h1, h2, h3, h4, h5, h6⟩, h7⟩ := h
  obtain ⟨m', e', ⟨s', b', f', h1', h2', h3', h4', h5', h6'⟩, h7'⟩ := h'
  have hf : f = f' := by omega
  have hb : b = b' := by omega
  have hs : s = s' := by omega
  subst hf hb hs
  have hm : m = m' ∧ e = e' := by omega
  rw [hm.1, hm.2] at h7
  have hn : n = n' := by rw [h5, h5']
  exact ⟨hn, by rw [h7, h7', hn]⟩

theorem isNum {d : UInt64} {n : Bool} {x : Rat} (h : IsDouble d n x) : IsNum F64 x := by
  obtain ⟨m, e, ⟨s, b, f, h1, h2, h3, h4, h5, h6⟩, rfl⟩ := h
  have hm : m < 2 ^ 53 := by omega
  have he : -1074 ≤ e ∧ e ≤ 971 := by omega
  refine ⟨if n then -m else m, e, ?_, he.1, he.2, ?_⟩
  · rw [show F64.prec = 53 from rfl]
    split <;> omega
  · cases n <;> simp

theorem sign_le {d : UInt64} {n : Bool} {x : Rat} (h : IsDouble d n x) : (n = true → x ≤ 0) ∧ (n = false → 0 ≤ x) := by
  obtain ⟨m, e, _, rfl⟩ := h
  have : 0 ≤ (m : Rat) * (2 : Rat) ^ e := mul_nonneg (Nat.cast_nonneg _) (two_zpow_pos e).le
  constructor
  · rintro rfl
    rw [if_pos rfl]
    linarith
  · rintro rfl
    rw [if_neg (by simp)]
    linarith

/-- The same sign and number: the same bits. -/
theorem bits_unique {d d' : UInt64} {n : Bool} {x : Rat} (h : IsDouble d n x) (h' : IsDouble d' n x) : d = d' := by
  obtain ⟨m, e, ⟨s, b, f, h1, h2, h3, h4, h5, h6⟩, h7⟩ := h
  obtain ⟨m', e', ⟨s', b', f', h1', h2', h3', h4', h5', h6'⟩, h7'⟩ := h'
  have hv : (m : Rat) * (2 : Rat) ^ e = m' * (2 : Rat) ^ e' := by
    have : (if n = true then (-1 : Rat) else 1) * ((m : Rat) * (2 : Rat) ^ e) = (if n = true then (-1 : Rat) else 1) * ((m' : Rat) * (2 : Rat) ^ e') := by
      rw [← mul_assoc, ← mul_assoc, ← h7, ← h7']
    have hne : (if n = true then (-1 : Rat) else 1) ≠ 0 := by split <;> norm_num
    exact mul_left_cancel₀ hne this
  have hs : s = s' := by
    have := h5.symm.trans h5'
    rw [decide_eq_decide] at this
    omega
  -- of two different exponents, the larger one belongs to a number that is too large
  have lt : ∀ {a a' : Nat} {k k' : Int}, k < k' → a < 2 ^ 53 → 2 ^ 52 ≤ a' → (a : Rat) * (2 : Rat) ^ k = a' * (2 : Rat) ^ k' → 2 * a' ≤ a := by
    intro a a' k k' hk _ _ hh
    have e1 : (2 : Rat) ^ k' = (2 : Rat) ^ ((k' - k).toNat) * (2 : Rat) ^ k := by
      rw [← zpow_natCast, ← zpow_add₀ (by norm_num)]; congr 1; omega
    rw [e1, ← mul_assoc] at hh
    have := mul_right_cancel₀ (two_zpow_pos k).ne' hh
    have hN : a = a' * 2 ^ ((k' - k).toNat) := by exact_mod_cast this
    have : 2 ^ 1 ≤ 2 ^ ((k' - k).toNat) := Nat.pow_le_pow_right (by decide) (by omega)
    rw [hN]
    nlinarith
  have hee : e = e' := by
    rcases lt_trichotomy e e' with hl | hl | hl
    · have := lt hl (by omega) (by omega) hv
      omega
    · exact hl
    · have := lt hl (by omega) (by omega) hv.symm
      omega
  subst hee
  have hm : m = m' := by
    have := mul_right_cancel₀ (two_zpow_pos e).ne' hv
    exact_mod_cast this
  apply UInt64.toNat_inj.1
  rw [h1, h1', hs]
  omega

/-! ### The text with ten digits -/

theorem digits_of {s : Sql.Str} {a : Nat} (h : Lexical.Spec.Digits s a) :
    s ≠ [] ∧ (∀ c ∈ s.map UInt8.toNat, Digit c) ∧ decVal (s.map UInt8.toNat) = a := by
  obtain ⟨h1, h2, h3⟩ := Lexical.Lemmas.digits_value h
  refine ⟨h1, fun c hc => ?_, by rw [decVal_map, h3]⟩
  obtain ⟨c', hc', rfl⟩ := List.mem_map.1 hc
  exact Decimal.digit_bounds (h2 c' hc')

/-- The number of the text that is sent: a whole number of ten-milliardths, at most a half from the number itself. -/
theorem sent {d : UInt64} {n : Bool} {x : Rat} (h : IsDouble d n x) :
    ∃ k : Nat, Begins (fixed d) ((if n then -1 else 1) * ((k : Rat) / 10 ^ 10)) ∧ |(k : Rat) - |x| * 10 ^ 10| ≤ 1 / 2 ∧ 0 ∉ fixed d ∧
      minus (fixed d) = n := by
  obtain ⟨m, e, hd, hx⟩ := h
  obtain ⟨⟨w, fr, a, b, hs, hw, hf, hl, hnear⟩, h0⟩ := Postgres.Lemmas.fixed_spec hd
  obtain ⟨w1, w2, w3⟩ := digits_of hw
  obtain ⟨f1, f2, f3⟩ := digits_of hf
  refine ⟨a * 10 ^ 10 + b, ?_, ?_, h0, ?_⟩
  · have hU : Unsigned ((w ++ [46] ++ fr).map UInt8.toNat) (((a * 10 ^ 10 + b : Nat) : Rat) / 10 ^ 10) := by
      have := Unsigned.point (w.map UInt8.toNat) (fr.map UInt8.toNat) [] 0 w2 f2 (by simp [w1]) .none
      rw [List.append_nil] at this
      have e1 : w.map UInt8.toNat ++ 46 :: fr.map UInt8.toNat = (w ++ [46] ++ fr).map UInt8.toNat := by simp
      have e2 : decVal (w.map UInt8.toNat ++ fr.map UInt8.toNat) = a * 10 ^ 10 + b := by
        rw [FloatText.Lemmas.decVal_append, w3, f3, List.length_map, hl]
      rw [e1, e2, List.length_map, hl] at this
      have e3 : (10 : Rat) ^ ((0 : Int) - ((10 : Nat) : Int)) = 1 / 10 ^ 10 := by norm_num
      rw [e3, mul_one_div] at this
      exact this
    refine ⟨[], fixed d, [], by simp, by simp, ?_, by simp⟩
    rw [hs]
    cases n
    · simpa using Literal.plain _ _ hU
    · simpa using Literal.minus _ _ hU
  · have hxa : |x| = m * (2 : Rat) ^ e := by
      have : 0 ≤ (m : Rat) * (2 : Rat) ^ e := mul_nonneg (Nat.cast_nonneg _) (two_zpow_pos e).le
      rw [hx, mul_assoc, abs_mul, abs_of_nonneg this]
      cases n <;> simp
    obtain ⟨f, g, hfg⟩ : ∃ f g : Nat, (g : Int) - f = e := by
      rcases le_total 0 e with h | h
      · exact ⟨0, e.toNat, by omega⟩
      · exact ⟨(-e).toNat, 0, by omega⟩
    obtain ⟨n1, n2⟩ := hnear f g hfg
    have e1 : (2 : Rat) ^ e = 2 ^ g / 2 ^ f := by
      rw [← hfg, zpow_sub₀ (by norm_num), zpow_natCast, zpow_natCast]
    rw [hxa, e1]
    generalize a * 10 ^ 10 + b = k at *
    have hfp : (0 : Rat) < 2 ^ f := by positivity
    have n1' : 2 * ((k : Rat) * 2 ^ f) ≤ 2 * (m * 10 ^ 10 * 2 ^ g) + 2 ^ f := by exact_mod_cast n1
    have n2' : 2 * ((m : Rat) * 10 ^ 10 * 2 ^ g) ≤ 2 * (k * 2 ^ f) + 2 ^ f := by exact_mod_cast n2
    rw [abs_le]
    have e2 : (m : Rat) * (2 ^ g / 2 ^ f) * 10 ^ 10 = (m * 10 ^ 10 * 2 ^ g) / 2 ^ f := by ring
    rw [e2]
    constructor
    · rw [neg_le_sub_iff_le_add, div_le_iff₀ hfp]
      linarith
    · rw [sub_le_iff_le_add, ← sub_le_iff_le_add', le_div_iff₀ hfp]
      linarith
  · obtain ⟨c, w', rfl⟩ := List.exists_cons_of_ne_nil w1
    have hc := w2 c.toNat (by simp)
    unfold minus
    rw [hs]
    cases n
    · have : Lexical.isspace c = false := by
        cases hsp : Lexical.isspace c with
        | false => rfl
        | true =>
          have := (Lexical.Lemmas.isspace_iff c).1 hsp
          unfold Lexical.Spec.Space at this
          unfold Digit at hc
          rcases this with rfl | ⟨_, h⟩
          · exact absurd hc.1 (by decide)
          · rw [UInt8.le_iff_toNat_le] at h
            have : (13 : UInt8).toNat = 13 := rfl
            omega
      simp only [Bool.false_eq_true, if_false, List.nil_append, List.cons_append]
      rw [List.dropWhile_cons_of_neg (by rw [this]; decide)]
      simp only [List.head?_cons, Option.some.injEq, decide_eq_false_iff_not]
      rintro rfl
      exact absurd hc.1 (by decide)
    · rfl

theorem begins_minus {s : Sql.Str} {q : Rat} (h : Begins s q) : (0 < q → minus s = false) ∧ (q < 0 → minus s = true) := by
  obtain ⟨w, t, rest, rfl, hw, ht, _⟩ := h
  have hsk : (w ++ t ++ rest).dropWhile Lexical.isspace = t ++ rest := skip_space hw ht
  have hnn : ∀ {u : List Nat} {p : Rat}, Unsigned u p → 0 ≤ p := by
    intro u p hu
    rcases hu with ⟨_, _, k, _, _, _⟩ | ⟨_, _, _, k, _, _, _, _⟩ <;> positivity
  unfold minus
  rw [hsk]
  obtain ⟨c, r, hcr⟩ : ∃ c r, t = c :: r := by
    obtain ⟨c, r, h, _⟩ := literal_head ht
    cases t with
    | nil => simp at h
    | cons c r => exact ⟨c, r, rfl⟩
  subst hcr
  rw [List.cons_append, List.head?_cons]
  have h45 : c = 45 ↔ c.toNat = 45 := by rw [← UInt8.toNat_inj]; rfl
  generalize htt : (c :: r).map UInt8.toNat = tt at ht
  rcases ht with ⟨_, _, hu⟩ | ⟨_, _, hu⟩ | ⟨_, q, hu⟩
  · obtain ⟨c', r', rfl, hc⟩ := unsigned_head hu
    simp only [List.map_cons, List.cons.injEq] at htt
    have hne : ¬ c = 45 := by
      rw [h45, htt.1]
      unfold Digit at hc
      omega
    have := hnn hu
    exact ⟨fun _ => by simp [hne], fun g => absurd g (by linarith)⟩
  · simp only [List.map_cons, List.cons.injEq] at htt
    have hne : ¬ c = 45 := by
      rw [h45, htt.1]
      decide
    have := hnn hu
    exact ⟨fun _ => by simp [hne], fun g => absurd g (by linarith)⟩
  · simp only [List.map_cons, List.cons.injEq] at htt
    have he : c = 45 := h45.2 htt.1
    have := hnn hu
    exact ⟨fun g => absurd g (by linarith), fun _ => by simp [he]⟩

/-- What the cast gives. -/
theorem double_begins {s : Sql.Str} {q : Rat} (h : Begins s q) :
    if |q| < (2 : Rat) ^ F64.emax - (2 : Rat) ^ (F64.emax - F64.prec - 1) then
      ∃ d, double s = some d ∧ IsDouble d (minus s) (rnd F64 q) ∧ LexFloat.Spec.Nearest F64 q (rnd F64 q)
    else double s = none := by
  have hp : 1 ≤ F64.prec := by decide
  unfold double LexFloat.floatOfString
  rw [get_begins F64 h]
  split
  · obtain ⟨h1, h2⟩ := res_some good64 ‹_›
    refine ⟨_, by rw [h1]; rfl, bits_spec h2.num ?_ ?_, h2⟩
    · intro g
      apply (begins_minus h).1
      by_contra hq
      have := rnd_nonpos hp (not_lt.1 hq)
      linarith
    · intro g
      apply (begins_minus h).2
      by_contra hq
      have := rnd_nonneg hp (not_lt.1 hq)
      linarith
  · rw [res_none good64 ‹_›]
    rfl

theorem column (memory : Option Bool) (zone : Calendar.Zone) (mktime : Calendar.Tm → Int) {t : Nat} (ht : t = 700 ∨ t = 701) {s : Sql.Str} (h0 : 0 ∉ s) :
    strToSql (env memory zone mktime) t (some s) = match double s with | some d => .ok (some (.float d)) | none => .error .badCast := by
  have hk : kindOf t = .float := by rcases ht with rfl | rfl <;> rfl
  rw [strToSql, hk]
  simp only [makeValue, Postgres.Lemmas.cstr_id h0, env]
  cases double s <;> rfl

/-- Large numbers read back as they were. -/
theorem large_kept {x : Rat} (hx : IsNum F64 x) (hb : 2 ^ 19 ≤ x) {k : Nat} (hk : |(k : Rat) - x * 10 ^ 10| ≤ 1 / 2) : rnd F64 ((k : Rat) / 10 ^ 10) = x := by
  have hp : 1 ≤ F64.prec := by decide
  have hm := num_mem hx
  have h0 : 0 ≤ x := le_trans (by norm_num) hb
  have h2 := abs_le.1 hk
  -- the sent number is not below either
  have hkb : 2 ^ 19 * 10 ^ 10 ≤ k := by
    have : ((2 ^ 19 * 10 ^ 10 : Nat) : Rat) < ((k + 1 : Nat) : Rat) := by
      push_cast
      norm_num at h2 hb ⊢
      linarith
    have : 2 ^ 19 * 10 ^ 10 < k + 1 := by exact_mod_cast this
    omega
  have hkq : (2 : Rat) ^ (19 : Int) ≤ (k : Rat) / 10 ^ 10 := by
    rw [le_div_iff₀ (by norm_num)]
    exact_mod_cast hkb
  have hz := le_rnd hp (mem_pow (F := F64) (E := 19) (by decide)) hkq
  have hnear := rnd_near hp hm ((k : Rat) / 10 ^ 10)
  obtain ⟨a, ha⟩ := mem_grid hp (rnd_mem (F := F64) ((k : Rat) / 10 ^ 10)) (hz.trans (le_abs_self _))
  obtain ⟨b, hb'⟩ := mem_grid hp hm (E := 19) (by rw [abs_of_nonneg h0]; exact_mod_cast hb)
  have e1 : max ((19 : Int) - ((F64.prec : Int) - 1)) F64.emin = -33 := by decide
  rw [e1] at ha hb'
  have hd : |x - (k : Rat) / 10 ^ 10| ≤ 1 / 2 / 10 ^ 10 := by
    rw [abs_le]
    have : (k : Rat) = (k : Rat) / 10 ^ 10 * 10 ^ 10 := by field_simp
    rw [this] at h2
    norm_num at h2 ⊢
    constructor <;> linarith
  have hdd := hnear.trans hd
  have hxz : |rnd F64 ((k : Rat) / 10 ^ 10) - x| ≤ 1 / 10 ^ 10 := by
    have := abs_sub_le (rnd F64 ((k : Rat) / 10 ^ 10)) ((k : Rat) / 10 ^ 10) x
    rw [abs_sub_comm ((k : Rat) / 10 ^ 10) x] at this
    norm_num at this hdd hd ⊢
    linarith
  rw [ha, hb', ← sub_mul, abs_mul, abs_of_pos (two_zpow_pos _)] at hxz
  have h1 : |((a - b : Int) : Rat)| < 1 := by
    push_cast
    norm_num at hxz ⊢
    linarith
  have : |a - b| < 1 := by exact_mod_cast h1
  have : a = b := by rw [abs_lt] at this; omega
  rw [ha, hb', this]

/-- The sent number reads back as the number itself exactly if the latter is the rounding of some number with ten digits behind the point. -/
theorem kept_abs {x : Rat} (hx : IsNum F64 x) (h0 : 0 ≤ x) {k : Nat} (hk : |(k : Rat) - x * 10 ^ 10| ≤ 1 / 2) {j : Int} (hj : x = rnd F64 ((j : Rat) / 10 ^ 10)) :
    rnd F64 ((k : Rat) / 10 ^ 10) = x := by
  have hp : 1 ≤ F64.prec := by decide
  by_cases hb : x < 2 ^ 19
  · -- both decimals are near the number, so they are the same
    have hjb : |(j : Rat) / 10 ^ 10| < (2 : Rat) ^ (19 : Int) ∨ (j : Rat) / 10 ^ 10 ≤ -(2 : Rat) ^ (19 : Int) := by
      by_contra hc
      rw [not_or, not_lt, not_le] at hc
      rcases le_abs.1 hc.1 with h | h
      · have := le_rnd hp (mem_pow (F := F64) (E := 19) (by decide)) h
        rw [← hj] at this
        norm_num at this hb
        linarith
      · linarith [hc.2]
    rcases hjb with hjb | hjb
    · have he := rnd_err_le (F := F64) hjb (by decide)
      rw [← hj] at he
      have e1 : (2 : Rat) ^ ((19 : Int) - (F64.prec : Int)) / 2 < 1 / 2 / 10 ^ 10 := by decide +kernel
      have h1 := abs_lt.1 (he.trans_lt e1)
      have h2 := abs_le.1 hk
      have h3 : (j : Rat) - x * 10 ^ 10 < 1 / 2 ∧ -(1 / 2) < (j : Rat) - x * 10 ^ 10 := by
        have : (j : Rat) = (j : Rat) / 10 ^ 10 * 10 ^ 10 := by field_simp
        constructor <;> · rw [this]; norm_num at h1 ⊢; linarith
      have hkj : (k : Int) = j := by
        have a1 : ((k : Int) : Rat) < ((j + 1 : Int) : Rat) := by push_cast; linarith
        have a2 : (j : Rat) < (((k : Int) + 1 : Int) : Rat) := by push_cast; linarith
        have a1 : (k : Int) < j + 1 := by exact_mod_cast a1
        have a2 : j < (k : Int) + 1 := by exact_mod_cast a2
        omega
      rw [hj, ← hkj, Int.cast_natCast]
    · have := rnd_le hp (mem_neg (mem_pow (F := F64) (E := 19) (by decide))) hjb
      rw [← hj] at this
      norm_num at this
      linarith
  · exact large_kept hx (not_lt.1 hb) hk

/-- The bound for finite numbers. -/
theorem bound : (2 : Rat) ^ F64.emax - (2 : Rat) ^ (F64.emax - F64.prec - 1) = (2 : Rat) ^ 1024 - (2 : Rat) ^ 970 := by decide +kernel

/-- What is sent is in range. -/
theorem sent_in {x : Rat} (hx : IsNum F64 x) {k : Nat} (hk : |(k : Rat) - |x| * 10 ^ 10| ≤ 1 / 2) :
    |(k : Rat) / 10 ^ 10| < (2 : Rat) ^ F64.emax - (2 : Rat) ^ (F64.emax - F64.prec - 1) := by
  have h1 := num_top hx
  have e : top F64 + 1 < (2 : Rat) ^ F64.emax - (2 : Rat) ^ (F64.emax - F64.prec - 1) := by decide +kernel
  rw [abs_of_nonneg (by positivity)]
  have h2 := (abs_le.1 hk).2
  have : (k : Rat) / 10 ^ 10 ≤ |x| + 1 := by
    rw [div_le_iff₀ (by norm_num)]
    norm_num at h2 ⊢
    linarith
  linarith

/-- What comes back of an argument. -/
theorem back {d : UInt64} {n : Bool} {x : Rat} (h : IsDouble d n x) {s : Sql.Str} {q q' : Rat} (hq : Begins (fixed d) q) (hs : Begins s q')
    (he : rnd F64 q' = rnd F64 q) : ∃ d' n', double s = some d' ∧ IsDouble d' n' (rnd F64 q) ∧ LexFloat.Spec.Nearest F64 q (rnd F64 q) := by
  obtain ⟨k, h1, h2, _, _⟩ := sent h
  have hqq : q = _ := (begins_val hq).symm.trans (begins_val h1)
  have hin := sent_in (isNum h) h2
  have hin' : |q| < (2 : Rat) ^ F64.emax - (2 : Rat) ^ (F64.emax - F64.prec - 1) := by
    rw [hqq, abs_mul]
    cases n <;> simpa using hin
  have h3 := (res_some good64 hin').2
  have h4 : |q'| < (2 : Rat) ^ F64.emax - (2 : Rat) ^ (F64.emax - F64.prec - 1) := by
    rw [← rnd_in good64, he, rnd_in good64]
    exact hin'
  have hd := double_begins hs
  rw [if_pos h4] at hd
  obtain ⟨d', g1, g2, _⟩ := hd
  rw [he] at g2
  exact ⟨d', _, g1, g2, h3⟩

theorem kept_iff {d : UInt64} {n : Bool} {x : Rat} (h : IsDouble d n x) {q : Rat} (hq : Begins (fixed d) q) :
    rnd F64 q = x ↔ ∃ j : Int, x = rnd F64 ((j : Rat) / 10 ^ 10) := by
  obtain ⟨k, h1, h2, _, _⟩ := sent h
  have hqq : q = _ := (begins_val hq).symm.trans (begins_val h1)
  have hsg := sign_le h
  have hnum := isNum h
  constructor
  · intro e
    refine ⟨if n then -k else k, ?_⟩
    rw [← e, hqq]
    congr 1
    cases n
    · simp
    · simp [neg_div]
  · rintro ⟨j, hj⟩
    rw [hqq]
    cases n
    · have h0 := hsg.2 rfl
      rw [abs_of_nonneg h0] at h2
      simpa using kept_abs hnum h0 h2 hj
    · have h0 := hsg.1 rfl
      rw [abs_of_nonpos h0] at h2
      have hnum' : IsNum F64 (-x) := by
        obtain ⟨m, e, a, b, c, rfl⟩ := hnum
        exact ⟨-m, e, by simpa using a, b, c, by push_cast; ring⟩
      have hj' : -x = rnd F64 (((-j : Int) : Rat) / 10 ^ 10) := by
        rw [hj, ← rnd_neg]
        congr 1
        push_cast
        ring
      have := kept_abs hnum' (by linarith) h2 hj'
      rw [if_pos rfl, neg_one_mul, rnd_neg, this, neg_neg]

theorem kept_large {d : UInt64} {n : Bool} {x : Rat} (h : IsDouble d n x) (hb : 2 ^ 19 ≤ |x|) {q : Rat} (hq : Begins (fixed d) q) : rnd F64 q = x := by
  obtain ⟨k, h1, h2, _, _⟩ := sent h
  have hqq : q = _ := (begins_val hq).symm.trans (begins_val h1)
  have hsg := sign_le h
  have hnum := isNum h
  rw [hqq]
  cases n
  · have h0 := hsg.2 rfl
    rw [abs_of_nonneg h0] at h2 hb
    simpa using large_kept hnum hb h2
  · have h0 := hsg.1 rfl
    rw [abs_of_nonpos h0] at h2 hb
    have hnum' : IsNum F64 (-x) := by
      obtain ⟨m, e, a, b, c, rfl⟩ := hnum
      exact ⟨-m, e, by simpa using a, b, c, by push_cast; ring⟩
    have := large_kept hnum' hb h2
    rw [if_pos rfl, neg_one_mul, rnd_neg, this, neg_neg]

end Verif.PgFloat.Lemmas
