import Verif.Lexical.Spec
/-! Auxiliary lemmas on `lexical_cast` (no claims). -/

namespace Verif.Lexical.Lemmas
open Verif.Lexical Verif.Lexical.Spec

theorem isspace_iff (c : UInt8) : isspace c = true ↔ Space c := by simp [isspace, Space]

theorem isDigit_iff (c : UInt8) : Decimal.isDigit c = true ↔ 48 ≤ c ∧ c ≤ 57 := by simp [Decimal.isDigit]

theorem digits_value {s : Str} {n : Nat} (h : Digits s n) : s ≠ [] ∧ (∀ c ∈ s, Decimal.isDigit c = true) ∧ Decimal.value s = n := by
  induction h with
  | one d h1 h2 => exact ⟨by simp, by simpa [Decimal.isDigit] using ⟨h1, h2⟩, by simp [Decimal.value]⟩
  | @more s n d _ h1 h2 ih =>
    refine ⟨by simp, ?_, by rw [Decimal.value_snoc, ih.2.2]⟩
    intro c hc
    rw [List.mem_append, List.mem_singleton] at hc
    rcases hc with hc | rfl
    · exact ih.2.1 c hc
    · exact (isDigit_iff c).2 ⟨h1, h2⟩

theorem value_digits : ∀ (k : Nat) (s : Str), s.length = k + 1 → (∀ c ∈ s, Decimal.isDigit c = true) → Digits s (Decimal.value s) := by
  intro k
  induction k with
  | zero =>
    intro s hs hd
    match s, hs with
    | [d], _ =>
      have := (isDigit_iff d).1 (hd d (by simp))
      simpa [Decimal.value] using Digits.one d this.1 this.2
  | succ k ih =>
    intro s hs hd
    have hne : s ≠ [] := by rintro rfl; simp at hs
    rw [← List.dropLast_concat_getLast hne]
    have hl := (isDigit_iff _).1 (hd _ (List.getLast_mem hne))
    rw [Decimal.value_snoc]
    refine .more _ (ih _ (by simp [hs]) fun c hc => hd c ((List.dropLast_subset s) hc)) hl.1 hl.2

theorem value_digits' {s : Str} (hne : s ≠ []) (hd : ∀ c ∈ s, Decimal.isDigit c = true) : Digits s (Decimal.value s) := by
  cases h : s.length with
  | zero => exact absurd (List.length_eq_zero_iff.1 h) hne
  | succ k => exact value_digits k s h hd

theorem takeWhile_split {p : UInt8 → Bool} (a rest : Str) (ha : ∀ c ∈ a, p c = true) (hr : ∀ c ∈ rest.head?, p c = false) :
    (a ++ rest).takeWhile p = a ∧ (a ++ rest).dropWhile p = rest := by
  rw [List.takeWhile_append_of_pos ha, List.dropWhile_append_of_pos ha]
  cases rest with
  | nil => simp
  | cons c r => simp [hr c (by simp)]

theorem digit_plain (c : UInt8) (h : Decimal.isDigit c = true) : isspace c = false ∧ c ≠ 45 ∧ c ≠ 43 := by
  have : ∀ i : Fin 256, Decimal.isDigit (UInt8.ofNat i) = true → isspace (UInt8.ofNat i) = false ∧ UInt8.ofNat i ≠ 45 ∧ UInt8.ofNat i ≠ 43 := by
    decide +kernel
  have h2 := this ⟨c.toNat, c.toNat_lt⟩
  rw [show UInt8.ofNat c.toNat = c from UInt8.ofNat_toNat] at h2
  exact h2 h

/-- The part of `get` behind the white space. -/
theorem get_sign (t : IntType) (w sg ds rest : Str) (hw : ∀ c ∈ w, isspace c = true) (hs : sg = [] ∨ sg = [43] ∨ sg = [45]) (hne : ds ≠ [])
    (hd : ∀ c ∈ ds, Decimal.isDigit c = true) (hr : ∀ c ∈ rest.head?, Decimal.isDigit c = false) :
    get t (w ++ (sg ++ ds) ++ rest) = ⟨some (clamp t (sg = [45]) (Decimal.value ds)).1, (clamp t (sg = [45]) (Decimal.value ds)).2, rest⟩ := by
  obtain ⟨d, ds', rfl⟩ := List.exists_cons_of_ne_nil hne
  have hd0 := digit_plain d (hd d (by simp))
  obtain ⟨h1, h2⟩ := takeWhile_split (d :: ds') rest hd hr
  have h3 : (w ++ (sg ++ (d :: ds')) ++ rest).dropWhile isspace = sg ++ (d :: ds') ++ rest := by
    rw [List.append_assoc, List.dropWhile_append_of_pos hw]
    rcases hs with rfl | rfl | rfl
    · simp [hd0.1]
    · simp [show isspace 43 = false by decide]
    · simp [show isspace 45 = false by decide]
  unfold get
  rw [h3]
  rcases hs with rfl | rfl | rfl
  · simp only [List.nil_append, List.cons_append, List.head?_cons, Option.some.injEq, hd0.2.1, hd0.2.2, or_self, if_false,
      List.cons_ne_nil] at h1 h2 ⊢
    rw [h1, h2]
    simp
  · simp only [List.cons_append, List.nil_append, List.head?_cons, List.tail_cons, Option.some.injEq, List.cons_ne_nil] at h1 h2 ⊢
    simp [h1, h2]
  · simp only [List.cons_append, List.nil_append, List.head?_cons, List.tail_cons, Option.some.injEq, List.cons_ne_nil] at h1 h2 ⊢
    simp [h1, h2]

/-- Every text is of that form, or has no numeral. -/
theorem get_cases (t : IntType) (s : Str) :
    (∃ w sg ds rest, s = w ++ (sg ++ ds) ++ rest ∧ (∀ c ∈ w, isspace c = true) ∧ (sg = [] ∨ sg = [43] ∨ sg = [45]) ∧ ds ≠ []
        ∧ (∀ c ∈ ds, Decimal.isDigit c = true) ∧ (∀ c ∈ rest.head?, Decimal.isDigit c = false))
      ∨ (get t s).ok = false := by
  have hhead : ∀ (u : Str), ∀ c ∈ (u.dropWhile Decimal.isDigit).head?, Decimal.isDigit c = false := by
    intro u c hc
    have := List.head?_dropWhile_not Decimal.isDigit u
    rw [Option.mem_def] at hc
    rw [hc] at this
    simpa using this
  have hall : ∀ (p : UInt8 → Bool) (u : Str), ∀ c ∈ u.takeWhile p, p c = true := fun p u => List.all_eq_true.1 (List.all_takeWhile)
  have hsplit : s = s.takeWhile isspace ++ s.dropWhile isspace := List.takeWhile_append_dropWhile.symm
  by_cases h0 : s.dropWhile isspace = []
  · right; unfold get; simp [h0]
  · by_cases hsg : (s.dropWhile isspace).head? = some 45 ∨ (s.dropWhile isspace).head? = some 43
    · by_cases hds : (s.dropWhile isspace).tail.takeWhile Decimal.isDigit = []
      · right; unfold get; simp [h0, hsg, hds]
      · left
        obtain ⟨c, u, hu⟩ := List.exists_cons_of_ne_nil h0
        rw [hu] at hsg hds
        refine ⟨s.takeWhile isspace, [c], u.takeWhile Decimal.isDigit, u.dropWhile Decimal.isDigit, ?_, hall _ _, ?_, hds, hall _ _, hhead _⟩
        · rw [hu] at hsplit
          simp only [List.append_assoc, List.takeWhile_append_dropWhile, List.cons_append, List.nil_append]
          exact hsplit
        · simp only [List.head?_cons, Option.some.injEq] at hsg
          rcases hsg with rfl | rfl
          · exact .inr (.inr rfl)
          · exact .inr (.inl rfl)
    · by_cases hds : (s.dropWhile isspace).takeWhile Decimal.isDigit = []
      · right; unfold get; simp [h0, hsg, hds]
      · left
        refine ⟨s.takeWhile isspace, [], _, (s.dropWhile isspace).dropWhile Decimal.isDigit, ?_, hall _ _, .inl rfl, hds, hall _ _, hhead _⟩
        simp only [List.append_assoc, List.nil_append, List.takeWhile_append_dropWhile]

theorem fits_iff (t : IntType) (n : Int) : Fits t n ↔ t.lo ≤ n ∧ n ≤ t.hi := by
  unfold Fits IntType.lo IntType.hi
  cases t.signed <;> simp <;> omega

theorem put_parts (n : Int) : ∃ sg, put n = sg ++ Decimal.digits n.natAbs ∧ (sg = [] ∧ 0 ≤ n ∨ sg = [45] ∧ n < 0) := by
  unfold put
  split
  · exact ⟨[45], rfl, .inr ⟨rfl, by omega⟩⟩
  · exact ⟨[], rfl, .inl ⟨rfl, by omega⟩⟩

theorem clamp_fits (t : IntType) (neg : Bool) (m : Nat) (n : Int) (hv : n = if neg then -(m : Int) else m) (hn : neg = true → n < 0)
    (h1 : t.lo ≤ n) (h2 : n ≤ t.hi) : clamp t neg m = (n, true) := by
  unfold clamp
  dsimp only
  rw [← hv]
  split
  · rw [if_neg (by omega), if_neg (by omega)]
  · rename_i ht
    have h0 : t.lo = 0 := by unfold IntType.lo; simp [ht]
    cases neg with
    | true => have := hn rfl; omega
    | false =>
      have hv' : n = m := by simpa using hv
      rw [if_neg (by omega), if_neg (by simp), hv']

end Verif.Lexical.Lemmas
