import Verif.Lexical.Lemmas
/-! Property C64: `lexical_cast`. -/

namespace Verif.Lexical.Props
open Verif.Lexical Verif.Lexical.Spec Verif.Lexical.Lemmas

/-- What reading an integer does with a text that begins with a numeral: a signed type gets the number exactly if it has it, and the cast is
refused if not. -/
theorem signed_cast (t : IntType) (ht : t.signed = true) (s : Str) (n : Int) (h : Begins s n) [Decidable (Fits t n)] :
    intOfString t s = if Fits t n then some n else none := by
  obtain ⟨w, u, rest, rfl, hw, hn, hr⟩ := h
  have hw' : ∀ c ∈ w, isspace c = true := fun c hc => (isspace_iff c).2 (hw c hc)
  have hr' : ∀ c ∈ rest.head?, Decimal.isDigit c = false := fun c hc => by
    cases hx : Decimal.isDigit c with
    | false => rfl
    | true => exact absurd ((isDigit_iff c).1 hx) (hr c hc)
  have key : ∀ (sg ds : Str) (m : Nat), Digits ds m → u = sg ++ ds → (sg = [] ∨ sg = [43] ∨ sg = [45]) →
      n = (if sg = [45] then -(m : Int) else m) → intOfString t (w ++ u ++ rest) = if Fits t n then some n else none := by
    intro sg ds m hd hu hs hv
    obtain ⟨h1, h2, h3⟩ := digits_value hd
    subst hu
    unfold intOfString
    rw [get_sign t w sg ds rest hw' hs h1 h2 hr', h3]
    unfold clamp
    simp only [ht, if_true, decide_eq_true_eq, ← hv, fits_iff]
    split
    · rw [if_neg (by simp), if_neg (by omega)]
    · split
      · rw [if_neg (by simp), if_neg (by omega)]
      · rw [if_pos rfl, if_pos (by omega)]
  cases hn with
  | plain hd => exact key [] _ _ hd rfl (.inl rfl) (by simp)
  | plus hd => exact key [43] _ _ hd rfl (.inr (.inl rfl)) (by simp)
  | minus hd => exact key [45] _ _ hd rfl (.inr (.inr rfl)) (by simp)

/-- A text that does not begin with a numeral is refused, by every type. -/
theorem refused (t : IntType) (s : Str) (h : ∀ n, ¬ Begins s n) : intOfString t s = none := by
  rcases get_cases t s with ⟨w, sg, ds, rest, rfl, hw, hs, hne, hd, hr⟩ | hk
  · exfalso
    have hw' : ∀ c ∈ w, Space c := fun c hc => (isspace_iff c).1 (hw c hc)
    have hr' : ∀ c ∈ rest.head?, ¬ (48 ≤ c ∧ c ≤ 57) := fun c hc h' => by
      have := hr c hc
      rw [(isDigit_iff c).2 h'] at this
      simp at this
    have hv := value_digits' hne hd
    rcases hs with rfl | rfl | rfl
    · exact h _ ⟨w, _, rest, rfl, hw', .plain hv, hr'⟩
    · exact h _ ⟨w, _, rest, rfl, hw', .plus hv, hr'⟩
    · exact h _ ⟨w, _, rest, rfl, hw', .minus hv, hr'⟩
  · unfold intOfString
    rw [hk]
    simp

/-- An unsigned type gets the number exactly if the text has no minus and the type has the number. With a minus it gets the number modulo the size
of the type, as long as the digits fit. -/
theorem unsigned_cast (t : IntType) (ht : t.signed = false) (w u rest : Str) (m : Nat) (hw : ∀ c ∈ w, Space c) (hu : Digits u m)
    (hr : ∀ c ∈ rest.head?, ¬ (48 ≤ c ∧ c ≤ 57)) :
    intOfString t (w ++ u ++ rest) = (if m < 2 ^ t.bits then some (m : Int) else none)
      ∧ intOfString t (w ++ 43 :: u ++ rest) = (if m < 2 ^ t.bits then some (m : Int) else none)
      ∧ intOfString t (w ++ 45 :: u ++ rest) = (if m < 2 ^ t.bits then some ((-(m : Int)) % (2 ^ t.bits : Nat)) else none) := by
  have hw' : ∀ c ∈ w, isspace c = true := fun c hc => (isspace_iff c).2 (hw c hc)
  have hr' : ∀ c ∈ rest.head?, Decimal.isDigit c = false := fun c hc => by
    cases hx : Decimal.isDigit c with
    | false => rfl
    | true => exact absurd ((isDigit_iff c).1 hx) (hr c hc)
  obtain ⟨h1, h2, h3⟩ := digits_value hu
  have hh : t.hi = (2 ^ t.bits : Nat) - 1 := by unfold IntType.hi; simp [ht]
  have hb : t.hi < (m : Int) ↔ ¬ m < 2 ^ t.bits := by rw [hh]; omega
  have key : ∀ sg, (sg = [] ∨ sg = [43] ∨ sg = [45]) → intOfString t (w ++ (sg ++ u) ++ rest)
      = if m < 2 ^ t.bits then some (if sg = [45] then (-(m : Int)) % (2 ^ t.bits : Nat) else m) else none := by
    intro sg hs
    unfold intOfString
    rw [get_sign t w sg u rest hw' hs h1 h2 hr', h3]
    unfold clamp
    simp only [ht, Bool.false_eq_true, if_false, hb, decide_eq_true_eq]
    by_cases hm : m < 2 ^ t.bits
    · simp [hm]
    · simp [hm]
  exact ⟨by simpa using key [] (.inl rfl), by simpa using key [43] (.inr (.inl rfl)), by simpa using key [45] (.inr (.inr rfl))⟩

/-- From an integer to text and back. -/
theorem int_roundtrip (t : IntType) (n : Int) (h : Fits t n) : intOfString t (stringOfInt n) = some n := by
  obtain ⟨sg, h1, h2⟩ := put_parts n
  obtain ⟨g1, g2, g3⟩ := Decimal.digits_spec n.natAbs
  have hg := get_sign t [] sg (Decimal.digits n.natAbs) [] (by simp) (by rcases h2 with h2 | h2 <;> simp [h2]) g1 g2 (by simp)
  simp only [List.nil_append, List.append_nil] at hg
  unfold intOfString stringOfInt
  rw [h1, hg, g3]
  rw [fits_iff] at h
  have hc : clamp t (sg = [45]) n.natAbs = (n, true) := by
    rcases h2 with ⟨rfl, h2⟩ | ⟨rfl, h2⟩
    · exact clamp_fits t _ _ n (by simp; omega) (by simp) h.1 h.2
    · exact clamp_fits t _ _ n (by simp; omega) (fun _ => h2) h.1 h.2
  rw [hc]
  simp

/-- The text is the one numeral without a plus and without leading zeros. -/
theorem text_canonical (n : Int) : Numeral (stringOfInt n) n ∧ (stringOfInt n).head? ≠ some 43
    ∧ ∀ d ds, (stringOfInt n = d :: ds ∨ stringOfInt n = 45 :: d :: ds) → d = 48 → ds = [] ∧ n = 0 := by
  have hz : ∀ (m : Nat) (ds : Str), Decimal.digits m = 48 :: ds → ds = [] ∧ m = 0 := by
    intro m
    induction m using Nat.strongRecOn with
    | ind m ih =>
      intro ds hd
      rw [Decimal.digits] at hd
      split at hd
      · rename_i hm
        obtain ⟨h1, h2⟩ := List.cons.inj hd
        have := (Decimal.digit_nat m hm).1
        rw [h1] at this
        exact ⟨h2.symm, by simpa using this.symm⟩
      · rename_i hm
        obtain ⟨e, es, he⟩ := List.exists_cons_of_ne_nil (Decimal.digits_spec (m / 10)).1
        rw [he, List.cons_append] at hd
        obtain ⟨rfl, _⟩ := List.cons.inj hd
        have := (ih (m / 10) (by omega) es he).2
        omega
  obtain ⟨g1, g2, g3⟩ := Decimal.digits_spec n.natAbs
  have hd := value_digits' g1 g2
  rw [g3] at hd
  obtain ⟨d, ds, e⟩ := List.exists_cons_of_ne_nil g1
  have hp := digit_plain d (g2 d (by simp [e]))
  unfold stringOfInt put
  split
  · rename_i hn
    refine ⟨?_, by simp, ?_⟩
    · have := Numeral.minus hd
      rwa [Int.ofNat_natAbs_of_nonpos (Int.le_of_lt hn), Int.neg_neg] at this
    · rintro d' ds' (h | h) rfl
      · simp at h
      · have := (hz _ _ (List.cons.inj h).2).2
        omega
  · rename_i hn
    refine ⟨?_, by simp [e, hp.2.2], ?_⟩
    · have := Numeral.plain hd
      rwa [Int.natAbs_of_nonneg (by omega)] at this
    · rintro d' ds' (h | h) rfl
      · have := hz _ _ h
        exact ⟨this.1, by omega⟩
      · rw [e] at h
        exact absurd (List.cons.inj h).1 hp.2.1

/-- Between integer types: the number itself if the target has it; else, for a signed target, the cast is refused. -/
theorem int_int (t s : IntType) (n : Int) (hs : Fits s n) :
    (Fits t n → intOfInt t s n = some n) ∧ (t.signed = true → ¬ Fits t n → intOfInt t s n = none) := by
  constructor
  · intro ht
    unfold intOfInt
    split
    · rfl
    · exact int_roundtrip t n ht
  · intro h1 h2
    have : t ≠ s := by rintro rfl; exact h2 hs
    unfold intOfInt
    rw [if_neg this]
    have hb : Begins (put n) n := ⟨[], put n, [], by simp, by simp, (text_canonical n).1, by simp⟩
    haveI : Decidable (Fits t n) := .isFalse h2
    rw [signed_cast t h1 (put n) n hb, if_neg h2]

example : Begins [32, 45, 48, 55, 120] (-7) :=
  ⟨[32], [45, 48, 55], [120], rfl, by simp [Space], .minus (.more 55 (.one 48 (by decide) (by decide)) (by decide) (by decide)), by decide⟩

example : intOfString int32 [50, 49, 52, 55, 52, 56, 51, 54, 52, 56] = none ∧ intOfString int64 [50, 49, 52, 55, 52, 56, 51, 54, 52, 56] = some 2147483648 := by
  decide +kernel

/-- Not refused, though not numerals of that type: `"12ab"`, `"1 2"`, and `"-1"` for `unsigned`. -/
theorem accepts_junk :
    intOfString int32 [49, 50, 97, 98] = some 12 ∧ intOfString int32 [49, 32, 50] = some 1
      ∧ intOfString ⟨false, 32⟩ [45, 49] = some 4294967295 := by decide +kernel

end Verif.Lexical.Props
