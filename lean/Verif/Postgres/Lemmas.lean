import Verif.Lexical.Props
import Verif.Calendar.Props
import Verif.Postgres.Spec
/-! Helper lemmas on PostgreSQL. -/

namespace Verif.Postgres.Lemmas
open Verif Verif.Sql Verif.Lexical.Spec Verif.Postgres Verif.Postgres.Spec

theorem convertFrom_plain (cnt : Nat) (p q : Str) (h : 63 ∉ p) : convertFrom cnt (p ++ q) = p ++ convertFrom cnt q := by
  induction p with
  | nil => rfl
  | cons c p ih =>
    rw [List.mem_cons, not_or] at h
    rw [List.cons_append, convertFrom, if_neg (fun e => h.1 e.symm), ih h.2, List.cons_append]

theorem digits_head {i : Nat} (h : 1 ≤ i) : (Decimal.digits i).head? ≠ some 48 := by
  have := (Lexical.Props.text_canonical (i : Int)).2.2
  intro e
  cases hd : Decimal.digits i with
  | nil => rw [hd] at e; cases e
  | cons d ds =>
    rw [hd] at e
    have : Lexical.stringOfInt (i : Int) = d :: ds := by
      unfold Lexical.stringOfInt Lexical.put
      rw [if_neg (by omega), Int.natAbs_natCast, hd]
    have h2 := (Lexical.Props.text_canonical (i : Int)).2.2 d ds (.inl this) (by simpa using e)
    omega

theorem digits_Digits (n : Nat) : Digits (Decimal.digits n) n := by
  obtain ⟨h1, h2, h3⟩ := Decimal.digits_spec n
  have := Lexical.Lemmas.value_digits' h1 h2
  rwa [h3] at this

theorem digits_length (w n : Nat) (h : n < 10 ^ w) (hw : 1 ≤ w) : (Decimal.digits n).length ≤ w := by
  induction w generalizing n with
  | zero => omega
  | succ w ih =>
    rw [Decimal.digits]
    split
    · simp
    · rename_i hn
      have : 1 ≤ w := by
        cases w with
        | zero => simp at h; omega
        | succ w => omega
      have := ih (n / 10) (by rw [Nat.pow_succ] at h; omega) this
      simp
      omega

theorem zeros_length (w n : Nat) (h : n < 10 ^ w) (hw : 1 ≤ w) : (zeros w n).length = w := by
  have := digits_length w n h hw
  simp [zeros]
  omega

theorem value_zeros (k : Nat) (s : Str) : Decimal.value (List.replicate k 48 ++ s) = Decimal.value s := by
  unfold Decimal.value
  rw [List.foldl_append]
  congr 1
  induction k with
  | zero => rfl
  | succ k ih => rw [List.replicate_succ, List.foldl_cons]; exact ih

theorem zeros_Digits (w n : Nat) : Digits (zeros w n) n := by
  obtain ⟨h1, h2, h3⟩ := Decimal.digits_spec n
  have := Lexical.Lemmas.value_digits' (s := zeros w n) (by simp [zeros, h1]) (by
    intro c hc
    rw [zeros, List.mem_append] at hc
    rcases hc with hc | hc
    · rw [(List.mem_replicate.mp hc).2]; decide
    · exact h2 c hc)
  rwa [zeros, value_zeros, h3] at this

theorem cstr_id {s : Str} (h : 0 ∉ s) : cstr s = s := by
  have : ∀ c ∈ s, decide (c ≠ 0) = true := fun c hc => by
    have : c ≠ 0 := fun e => h (e ▸ hc)
    simpa using this
  have := List.takeWhile_append_of_pos (l₂ := []) this
  simpa [cstr] using this

theorem digits_no_zero {s : Str} {n : Nat} (h : Digits s n) : 0 ∉ s := by
  intro h0
  have := (Lexical.Lemmas.digits_value h).2.1 0 h0
  revert this; decide

theorem numeral_no_zero {s : Str} {n : Int} (h : Numeral s n) : 0 ∉ s := by
  cases h with
  | plain h => exact digits_no_zero h
  | plus h => simp [digits_no_zero h]
  | minus h => simp [digits_no_zero h]

theorem stamp_spec (k : Calendar.Cal) (hy : 1000 ≤ k.year ∧ k.year ≤ 9999) (hm : 1 ≤ k.mon ∧ k.mon ≤ 12) (hd : 1 ≤ k.mday ∧ k.mday ≤ 31)
    (hh : 0 ≤ k.hour ∧ k.hour < 24) (hi : 0 ≤ k.min ∧ k.min < 60) (hs : 0 ≤ k.sec ∧ k.sec < 60) (hu : 0 ≤ k.usec ∧ k.usec < 1000000) : Stamp k (stamp k) := by
  have hp : ∀ (w : Nat) (n : Int), 0 ≤ n → pad w n = zeros w n.natAbs := fun w n h => by unfold pad; rw [if_neg (by omega)]
  refine ⟨⟨Decimal.digits k.year.natAbs, zeros 2 k.mon.natAbs, zeros 2 k.mday.natAbs, zeros 2 k.hour.natAbs, zeros 2 k.min.natAbs, zeros 2 k.sec.natAbs,
    zeros 6 k.usec.natAbs, ?_, ?_, ?_, ?_, ?_, ?_, ?_, ?_, _, _, _, _, _, _, _, digits_Digits _, zeros_Digits _ _, zeros_Digits _ _, zeros_Digits _ _, zeros_Digits _ _,
    zeros_Digits _ _, zeros_Digits _ _, ?_, ?_, ?_, ?_, ?_, ?_, ?_⟩⟩
  · unfold stamp Lexical.put
    rw [if_neg (by omega), hp _ _ (by omega), hp _ _ (by omega), hp _ _ (by omega), hp _ _ (by omega), hp _ _ (by omega), hp _ _ (by omega)]
  · have h1 : 1000 ≤ k.year.natAbs := by omega
    have h2 : k.year.natAbs < 10 ^ 4 := by omega
    generalize k.year.natAbs = n at h1 h2
    have h3 := digits_length 4 n h2 (by omega)
    rw [Decimal.digits, if_neg (by omega), Decimal.digits, if_neg (by omega), Decimal.digits, if_neg (by omega), Decimal.digits, if_pos (by omega)]
    rfl
  all_goals first | exact zeros_length _ _ (by omega) (by omega) | omega

theorem more_spec (D : Str) (n hi v : Nat) (rest : Str) (hd : ∀ c ∈ D, Decimal.isDigit c = true)
    (hv : D.foldl (fun n c => 10 * n + (c.toNat - 48)) v ≤ hi) (hn : D.length = n) :
    more n hi v (D ++ rest) = (D.foldl (fun n c => 10 * n + (c.toNat - 48)) v, rest) := by
  induction D generalizing n v with
  | nil => subst hn; rfl
  | cons c D ih =>
    subst hn
    have mono : ∀ (D : Str) (v : Nat), v ≤ D.foldl (fun n c => 10 * n + (c.toNat - 48)) v := by
      intro D
      induction D with
      | nil => intro v; exact Nat.le_refl v
      | cons c D ih => intro v; rw [List.foldl_cons]; exact Nat.le_trans (by omega) (ih _)
    rw [List.foldl_cons] at hv ⊢
    have hm := mono D (10 * v + (c.toNat - 48))
    rw [List.cons_append, List.length_cons, more, if_pos ⟨by omega, hd c (by simp)⟩, Nat.mul_comm v 10]
    exact ih _ _ (fun x hx => hd x (by simp [hx])) hv rfl

theorem getNumber_spec {D : Str} {v : Nat} (h : Digits D v) (lo hi n : Nat) (rest : Str) (hn : D.length = n) (h1 : lo ≤ v) (h2 : v ≤ hi) :
    getNumber lo hi n (D ++ rest) = some (v, rest) := by
  obtain ⟨hne, hd, hv⟩ := Lexical.Lemmas.digits_value h
  cases D with
  | nil => exact absurd rfl hne
  | cons c D =>
    have hc := hd c (by simp)
    have hsp : c ≠ 32 := fun e => by rw [e] at hc; revert hc; decide
    have hv' : D.foldl (fun n c => 10 * n + (c.toNat - 48)) (c.toNat - 48) = v := by
      rw [← hv]; simp [Decimal.value]
    unfold getNumber
    rw [List.cons_append, List.dropWhile_cons_of_neg (by simpa using hsp)]
    dsimp only
    rw [if_pos hc, more_spec D (n - 1) hi _ rest (fun x hx => hd x (by simp [hx])) (by rw [hv']; exact h2) (by simp at hn; omega), hv']
    dsimp only
    rw [if_pos ⟨h1, h2⟩]

theorem atoi_spec {D : Str} {v : Nat} (h : Digits D v) (hv : v < 2147483648) : atoi D = some v := by
  obtain ⟨hne, hd, hval⟩ := Lexical.Lemmas.digits_value h
  have htw : D.takeWhile Decimal.isDigit = D := by
    have := List.takeWhile_append_of_pos (l₂ := []) hd
    simpa using this
  cases D with
  | nil => exact absurd rfl hne
  | cons c D =>
    obtain ⟨p1, p2, p3⟩ := Lexical.Lemmas.digit_plain c (hd c (by simp))
    unfold atoi
    rw [List.dropWhile_cons_of_neg (by simp [p1])]
    simp only [List.head?_cons, Option.some.injEq, p2, p3, or_self, if_false, htw, hval]
    unfold Clock.chk
    rw [if_pos]
    · rfl
    · have : Clock.int32 (v : Int) := by unfold Clock.int32; omega
      simpa using this

theorem strptime_spec {k : Calendar.Cal} {s : Str} (h : Stamp k s) (hm : 1 ≤ k.mon ∧ k.mon ≤ 12) (hd : 1 ≤ k.mday ∧ k.mday ≤ 31)
    (hh : k.hour < 24) (hi : k.min < 60) (hs : k.sec < 60) :
    ∃ y m d h i c u, ∃ q : Str, strptime s = some ((y, m, d, h, i, c), q) ∧ atoi q = some k.usec ∧
      k.year = (y : Nat) ∧ k.mon = (m : Nat) ∧ k.mday = (d : Nat) ∧ k.hour = (h : Nat) ∧ k.min = (i : Nat) ∧ k.sec = (c : Nat) ∧ k.usec = (u : Nat) := by
  obtain ⟨y, m, d, h, i, c, u, e, l1, l2, l3, l4, l5, l6, l7, y', m', d', h', i', c', u', d1, d2, d3, d4, d5, d6, d7, e1, e2, e3, e4, e5, e6, e7⟩ := h.parts
  refine ⟨y', m', d', h', i', c', u', u, ?_, ?_, e1, e2, e3, e4, e5, e6, e7⟩
  · have bound : ∀ (D : Str) (v : Nat), Digits D v → v < 10 ^ D.length := by
      intro D v h
      induction h with
      | one d h1 h2 =>
        have : d.toNat ≤ 57 := by simpa [UInt8.le_iff_toNat_le] using h2
        simp; omega
      | more d h h1 h2 ih =>
        have : d.toNat ≤ 57 := by simpa [UInt8.le_iff_toNat_le] using h2
        simp [Nat.pow_succ]; omega
    have by_ := bound y y' d1
    rw [l1] at by_
    unfold strptime
    simp only [e, List.append_assoc]
    rw [getNumber_spec d1 0 9999 4 _ l1 (by omega) (by omega)]
    simp only [Option.bind_eq_bind, Option.bind_some, List.cons_append, List.nil_append, expect, if_true]
    rw [getNumber_spec d2 1 12 2 _ l2 (by omega) (by omega)]
    simp only [Option.bind_some, if_true]
    rw [getNumber_spec d3 1 31 2 _ l3 (by omega) (by omega)]
    obtain ⟨hne, hdh, _⟩ := Lexical.Lemmas.digits_value d4
    have hdrop : ∀ r : Str, (32 :: (h ++ r)).dropWhile Lexical.isspace = h ++ r := by
      intro r
      rw [List.dropWhile_cons_of_pos (by decide)]
      cases h with
      | nil => exact absurd rfl hne
      | cons a h =>
        have := (Lexical.Lemmas.digit_plain a (hdh a (by simp))).1
        rw [List.cons_append, List.dropWhile_cons_of_neg (by simp [this])]
    simp only [Option.bind_some, hdrop]
    rw [getNumber_spec d4 0 23 2 _ l4 (by omega) (by omega)]
    simp only [Option.bind_some, if_true]
    rw [getNumber_spec d5 0 59 2 _ l5 (by omega) (by omega)]
    simp only [Option.bind_some, if_true]
    rw [getNumber_spec d6 0 61 2 _ l6 (by omega) (by omega)]
    simp only [Option.bind_some, if_true]
    rfl
  · have bound : u' < 2147483648 := by
      have : ∀ (D : Str) (v : Nat), Digits D v → v < 10 ^ D.length := by
        intro D v h
        induction h with
        | one d h1 h2 =>
          have : d.toNat ≤ 57 := by simpa [UInt8.le_iff_toNat_le] using h2
          simp; omega
        | more d h h1 h2 ih =>
          have : d.toNat ≤ 57 := by simpa [UInt8.le_iff_toNat_le] using h2
          simp [Nat.pow_succ]; omega
      have := this u u' d7
      rw [l7] at this
      omega
    rw [e7]
    exact atoi_spec d7 bound

theorem roundDiv_spec (n d : Nat) (hd : 0 < d) : 2 * (roundDiv n d * d) ≤ 2 * n + d ∧ 2 * n ≤ 2 * (roundDiv n d * d) + d := by
  have h := Nat.div_add_mod n d
  have hr := Nat.mod_lt n hd
  have e : d * (n / d) = n / d * d := Nat.mul_comm _ _
  have e2 : (n / d + 1) * d = n / d * d + d := by rw [Nat.add_mul, Nat.one_mul]
  unfold roundDiv
  dsimp only
  repeat' split
  all_goals omega

/-- The value as the model has it is that of the standard. -/
theorem magnitude_spec {d : UInt64} {neg : Bool} {m : Nat} {e : Int} (h : Decodes d neg m e) :
    negative d = neg ∧ ∃ g f : Nat, magnitude d = some (m, g, f) ∧ (g : Int) - f = e := by
  obtain ⟨sign, expo, frac, h1, h2, h3, h4, h5, h6⟩ := h
  have hx : d.toNat % 2 ^ 63 / 2 ^ 52 = expo := by omega
  have hm : d.toNat % 2 ^ 63 % 2 ^ 52 = frac := by omega
  refine ⟨?_, ?_⟩
  · rw [h5]
    unfold negative
    by_cases hs : sign = 1
    · rw [decide_eq_true hs, decide_eq_true]; omega
    · rw [decide_eq_false hs, decide_eq_false]; omega
  · unfold magnitude
    simp only [hx, hm]
    rw [if_neg (by omega)]
    rcases h6 with ⟨a, b, c⟩ | ⟨a, b, c⟩
    · rw [if_pos a]
      exact ⟨0, 1074, by rw [b], by rw [c]; rfl⟩
    · rw [if_neg (by omega)]
      split
      · exact ⟨0, 1075 - expo, by rw [b, Nat.add_comm], by rw [c]; omega⟩
      · exact ⟨expo - 1075, 0, by rw [b, Nat.add_comm], by rw [c]; omega⟩

theorem fixed_spec {d : UInt64} {neg : Bool} {m : Nat} {e : Int} (h : Decodes d neg m e) : Nearest neg m e (fixed d) ∧ 0 ∉ fixed d := by
  obtain ⟨hn, g, f, hm, he⟩ := magnitude_spec h
  unfold fixed
  rw [hm, hn]
  dsimp only
  have hr := roundDiv_spec (m * 2 ^ g * 10 ^ 10) (2 ^ f) (Nat.pow_pos (by decide))
  generalize roundDiv (m * 2 ^ g * 10 ^ 10) (2 ^ f) = n at hr
  refine ⟨⟨_, _, n / 10 ^ 10, n % 10 ^ 10, rfl, digits_Digits _, zeros_Digits _ _, zeros_length _ _ (by omega) (by omega), ?_⟩, ?_⟩
  · intro f' g' he'
    have hsum : n / 10 ^ 10 * 10 ^ 10 + n % 10 ^ 10 = n := by omega
    rw [hsum]
    -- both sides of the inequalities scale with a power of two
    have key : ∃ a b : Nat, f' + a = f + b ∧ g' + a = g + b := ⟨f, f', by omega, by omega⟩
    obtain ⟨a, b, k1, k2⟩ := key
    have P : ∀ x y : Nat, 2 ^ (x + y) = 2 ^ x * 2 ^ y := fun x y => Nat.pow_add 2 x y
    have pa : 0 < 2 ^ a := Nat.pow_pos (by decide)
    have e1 : 2 ^ f' * 2 ^ a = 2 ^ f * 2 ^ b := by rw [← P, ← P, k1]
    have e2 : 2 ^ g' * 2 ^ a = 2 ^ g * 2 ^ b := by rw [← P, ← P, k2]
    have lhs : 2 * (n * 2 ^ f') * 2 ^ a = 2 * (n * 2 ^ f) * 2 ^ b := by
      rw [Nat.mul_assoc, Nat.mul_assoc, e1, Nat.mul_assoc 2, Nat.mul_assoc n]
    have mid : 2 * (m * 10 ^ 10 * 2 ^ g') * 2 ^ a = 2 * (m * 2 ^ g * 10 ^ 10) * 2 ^ b := by
      rw [Nat.mul_assoc, Nat.mul_assoc, e2, Nat.mul_assoc 2, ← Nat.mul_assoc (m * 10 ^ 10), Nat.mul_right_comm m (10 ^ 10)]
    constructor
    · refine Nat.le_of_mul_le_mul_right ?_ pa
      rw [Nat.add_mul, lhs, mid, e1, ← Nat.add_mul]
      exact Nat.mul_le_mul_right _ hr.1
    · refine Nat.le_of_mul_le_mul_right ?_ pa
      rw [Nat.add_mul, lhs, mid, e1, ← Nat.add_mul]
      exact Nat.mul_le_mul_right _ hr.2
  · have h1 := digits_no_zero (digits_Digits (n / 10 ^ 10))
    have h2 := digits_no_zero (zeros_Digits 10 (n % 10 ^ 10))
    simp only [List.mem_append, not_or]
    refine ⟨⟨⟨?_, h1⟩, by decide⟩, h2⟩
    cases neg <;> decide

theorem stamp_no_zero {k : Calendar.Cal} {s : Str} (h : Stamp k s) : 0 ∉ s := by
  obtain ⟨y, m, d, h, i, c, u, e, _, _, _, _, _, _, _, y', m', d', h', i', c', u', d1, d2, d3, d4, d5, d6, d7, _⟩ := h.parts
  simp [e, digits_no_zero d1, digits_no_zero d2, digits_no_zero d3, digits_no_zero d4, digits_no_zero d5, digits_no_zero d6, digits_no_zero d7]

theorem lastDay_le (y : Int) (m : Nat) : Calendar.Spec.lastDay y m ≤ 31 := by
  unfold Calendar.Spec.lastDay
  repeat' split
  all_goals omega

theorem shows_ranges {z : Calendar.Zone} {t : Int} {k : Calendar.Cal} (h : Calendar.Spec.Shows z t k) :
    (1 ≤ k.mon ∧ k.mon ≤ 12) ∧ (1 ≤ k.mday ∧ k.mday ≤ 31) := by
  obtain ⟨n, h1, _⟩ := h.time
  obtain ⟨v1, v2, v3, v4⟩ := (Calendar.Lemmas.dayIs_unique h1).1
  have := h.mon
  have := h.mday
  have := lastDay_le k.year k.mon.toNat
  dsimp only at v1 v2 v3 v4
  omega

theorem yearFits_of {z : Calendar.Zone} {t : Clock.T} {k : Calendar.Cal} (hk : Calendar.ofClock z t = some k) :
    Calendar.Spec.YearFits z (Calendar.toTime t.sec) := by
  unfold Calendar.ofClock at hk
  unfold Calendar.Spec.YearFits
  dsimp only at hk
  by_cases a : Clock.int32 (Calendar.localtime z (Calendar.toTime t.sec)).year
  · by_cases b : Clock.int32 ((Calendar.localtime z (Calendar.toTime t.sec)).year + 1900)
    · unfold Clock.int32 at a b; omega
    · simp [Clock.chk, b] at hk
  · simp [Clock.chk, a] at hk

theorem forall₂_length {α β : Type} {R : α → β → Prop} {l : List α} {l' : List β} (h : List.Forall₂ R l l') : l.length = l'.length := by
  induction h with
  | nil => rfl
  | cons _ _ ih => simp [ih]

end Verif.Postgres.Lemmas
