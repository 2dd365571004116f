import Verif.StrUtil.Lemmas
/-! Properties C11 and C12. -/

namespace Verif.StrUtil.Props
open Verif.StrUtil

variable {α : Type} [DecidableEq α]

/-- C11. Joining the pieces of `split(s, c)` with `c` gives back `s`; there is at least one piece; no piece contains `c`. -/
theorem split_join (c : α) (s : List α) :
    join (splitChar c s) [c] = s ∧ splitChar c s ≠ [] ∧ ∀ p ∈ splitChar c s, c ∉ p :=
  ⟨(splitChar_spec c s).1, splitChar_ne_nil c s, (splitChar_spec c s).2⟩

/-- C11. Conversely, splitting a join of at least one separator-free piece gives back the pieces. -/
theorem join_split (c : α) (ps : List (List α)) (h0 : ps ≠ []) (h : ∀ p ∈ ps, c ∉ p) : splitChar c (join ps [c]) = ps := by
  cases ps with
  | nil => exact absurd rfl h0
  | cons p ps => exact splitChar_join c p ps h

example : splitChar 0 [0, 1, 2, 0, 0, 3] = [[], [1, 2], [], [3]] := by decide +kernel
example : ([[], [1, 2], [], [3]] : List (List Nat)) ≠ [] ∧ ∀ p ∈ ([[], [1, 2], [], [3]] : List (List Nat)), 0 ∉ p := by decide

/-- C11. `split(s, sep)` with a non-empty string cuts `s` at the non-overlapping occurrences of `sep`, left to right; the
pieces are determined by that. -/
theorem splitStr_pieces (sep s : List α) (h : sep ≠ []) :
    Spec.Pieces sep s (splitStr sep s) ∧ ∀ ps, Spec.Pieces sep s ps → ps = splitStr sep s := by
  cases sep with
  | nil => exact absurd rfl h
  | cons c sep' =>
    have := splitLoop_pieces c sep' s
    exact ⟨this, fun ps hps => pieces_unique hps this⟩

/-- C11. Joining those pieces gives back the string. -/
theorem splitStr_join (sep s : List α) (h : sep ≠ []) : join (splitStr sep s) sep = s :=
  pieces_join (splitStr_pieces sep s h).1

example : splitStr [0, 0] [0, 0, 0, 1, 0, 0] = [[], [0, 1], []] := by decide +kernel

/-- C11. `join` concatenates with the separator in between. -/
theorem join_intercalate (ps : List (List α)) (sep : List α) : join ps sep = sep.intercalate ps := join_eq_intercalate ps sep

/-- C11. `replace` puts `dst` in place of exactly the non-overlapping occurrences of `from`, left to right. -/
theorem replace_correct (s frm dst : List α) (h : frm ≠ []) :
    ∃ ps, Spec.Pieces frm s ps ∧ replace s frm dst = dst.intercalate ps := by
  cases frm with
  | nil => exact absurd rfl h
  | cons c from' =>
    refine ⟨splitLoop c from' s, splitLoop_pieces c from' s, ?_⟩
    rw [← join_eq_intercalate]
    exact replaceLoop_eq c from' dst s

/-- C11. With an empty `from` the string is unchanged; and replacing by the same string changes nothing. -/
theorem replace_trivial (s frm : List α) : (∀ dst, replace s [] dst = s) ∧ replace s frm frm = s := by
  refine ⟨fun dst => rfl, ?_⟩
  cases frm with
  | nil => rfl
  | cons c from' =>
    show replaceLoop c from' (c :: from') s = s
    rw [replaceLoop_eq]
    exact pieces_join (splitLoop_pieces c from' s)

example : replace [0, 0, 0, 1, 0, 0] [0, 0] [7] = [7, 0, 1, 7] := by decide +kernel

/-- C12. `lstrip`, `rstrip` and `strip` remove exactly the white space at the respective ends, for all characters `isspace` is
defined on (all `char` values). -/
theorem strip_correct (s : List Int) (hr : ∀ c ∈ s, -128 ≤ c ∧ c ≤ 255) :
    (∃ r, lstrip s = some r ∧ Spec.IsLstrip s r) ∧ (∃ r, rstrip s = some r ∧ Spec.IsRstrip s r) ∧
    (∃ r, strip s = some r ∧ Spec.IsStrip s r) := by
  refine ⟨skipSpaces_spec s hr, rstrip_spec s hr, ?_⟩
  obtain ⟨r, h1, l, h2, h3, h4⟩ := skipSpaces_spec s hr
  obtain ⟨r', h5, t, h6, h7, h8⟩ := rstrip_spec r (fun c hc => hr c (by rw [h2]; simp [hc]))
  refine ⟨r', by unfold strip; rw [h1]; exact h5, l, t, by rw [h2, h6, List.append_assoc], h3, h7, ?_, h8⟩
  intro c hc
  apply h4 c
  rw [h6]
  cases r' with
  | nil => simp at hc
  | cons x xs => simpa using hc

example : strip [32, 9, 65, 32, 66, 10] = some [65, 32, 66] ∧ strip [32, 32] = some [] := by decide

/-- C12. The stripped string is determined by its specification. -/
theorem isStrip_unique (s r r' : List Int) (h : Spec.IsStrip s r) (h' : Spec.IsStrip s r') : r = r' := by
  obtain ⟨l, t, e, hl, ht, hh, hla⟩ := h
  obtain ⟨l', t', e', hl', ht', hh', hla'⟩ := h'
  have key : ∀ (l r t l' r' t' : List Int), l ++ r ++ t = l' ++ r' ++ t' → (∀ c ∈ l, Spec.Space c) → (∀ c ∈ t, Spec.Space c) →
      (∀ c ∈ l', Spec.Space c) → (∀ c ∈ t', Spec.Space c) → (∀ c, r.head? = some c → ¬ Spec.Space c) →
      (∀ c, r'.head? = some c → ¬ Spec.Space c) → r ≠ [] → l.length ≤ l'.length → l = l' ∧ r ++ t = r' ++ t' := by
    intro l r t l' r' t' e hl ht hl' ht' hh hh' hr hle
    rw [List.append_assoc, List.append_assoc] at e
    obtain ⟨m, hm⟩ := List.prefix_of_prefix_length_le ⟨r ++ t, rfl⟩ ⟨r' ++ t', e.symm⟩ hle
    cases m with
    | nil =>
      rw [List.append_nil] at hm
      subst hm
      exact ⟨rfl, (List.append_cancel_left_eq _ _ _).mp e⟩
    | cons x m =>
      rw [← hm, List.append_assoc, List.append_cancel_left_eq] at e
      cases r with
      | nil => exact absurd rfl hr
      | cons y r =>
        simp only [List.cons_append, List.cons.injEq] at e
        have : Spec.Space y := by
          rw [e.1]
          apply hl'
          rw [← hm]; simp
        exact absurd this (hh y rfl)
  -- if one is empty, all characters are spaces
  have hempty : ∀ (l t l' r' t' : List Int), s = l ++ [] ++ t → s = l' ++ r' ++ t' → (∀ c ∈ l, Spec.Space c) → (∀ c ∈ t, Spec.Space c) →
      (∀ c, r'.head? = some c → ¬ Spec.Space c) → r' = [] := by
    intro l t l' r' t' e e' hl ht hh'
    cases r' with
    | nil => rfl
    | cons x xs =>
      exfalso
      apply hh' x rfl
      have : x ∈ s := by rw [e']; simp
      rw [e] at this
      simp only [List.append_nil, List.mem_append] at this
      rcases this with h | h
      · exact hl x h
      · exact ht x h
  by_cases hr : r = []
  · subst hr
    exact (hempty l t l' r' t' e e' hl ht hh').symm
  · by_cases hr' : r' = []
    · subst hr'
      exact hempty l' t' l r t e' e hl' ht' hh
    · have h1 : r ++ t = r' ++ t' := by
        rcases Nat.le_total l.length l'.length with hle | hle
        · exact (key l r t l' r' t' (by rw [← e, ← e']) hl ht hl' ht' hh hh' hr hle).2
        · exact (key l' r' t' l r t (by rw [← e, ← e']) hl' ht' hl ht hh' hh hr' hle).2.symm
      have hrev : ∀ (a : List Int) (c : Int), a.reverse.head? = some c → a.getLast? = some c := by
        intro a c h; rw [List.head?_reverse] at h; exact h
      have h2 := congrArg List.reverse h1
      simp only [List.reverse_append] at h2
      have hrr : r.reverse ≠ [] := by simpa using hr
      have hrr' : r'.reverse ≠ [] := by simpa using hr'
      have ht2 : ∀ c ∈ t.reverse, Spec.Space c := fun c hc => ht c (by simpa using hc)
      have ht2' : ∀ c ∈ t'.reverse, Spec.Space c := fun c hc => ht' c (by simpa using hc)
      have hla2 : ∀ c, r.reverse.head? = some c → ¬ Spec.Space c := fun c hc => hla c (hrev _ _ hc)
      have hla2' : ∀ c, r'.reverse.head? = some c → ¬ Spec.Space c := fun c hc => hla' c (hrev _ _ hc)
      have h3 : r.reverse = r'.reverse := by
        rcases Nat.le_total t.reverse.length t'.reverse.length with hle | hle
        · have := key t.reverse r.reverse [] t'.reverse r'.reverse [] (by simpa using h2) ht2 (by simp) ht2' (by simp) hla2 hla2' hrr hle
          simpa using this.2
        · have := key t'.reverse r'.reverse [] t.reverse r.reverse [] (by simpa using h2.symm) ht2' (by simp) ht2 (by simp) hla2' hla2 hrr' hle
          simpa using this.2.symm
      simpa using h3

/-- Finding: stripping a `ustring` calls `isspace` with values it is not defined for. -/
theorem strip_ustring_ub : strip [0x3042, 32] = none := by decide

/-- C12. `starts_with` holds exactly for prefixes. -/
theorem startsWith_iff (s p : List α) : startsWith s p = true ↔ p <+: s := by
  unfold startsWith
  induction p generalizing s with
  | nil => simp
  | cons x p ih =>
    cases s with
    | nil => simp
    | cons y s =>
      have := ih s
      simp only [List.length_cons, Nat.add_lt_add_iff_right, List.zip_cons_cons, List.all_cons, List.cons_prefix_cons]
      rw [← this]
      by_cases hl : s.length < p.length <;> simp [hl]

/-- C12. `ends_with` holds exactly for suffixes. -/
theorem endsWith_iff (s p : List α) : endsWith s p = true ↔ p <:+ s := by
  have h : endsWith s p = startsWith s.reverse p.reverse := by simp [endsWith, startsWith]
  rw [h, startsWith_iff, List.reverse_prefix]

example : startsWith [1, 2, 3] [1, 2] = true ∧ startsWith [1, 2, 3] [2] = false ∧ endsWith [1, 2, 3] [2, 3] = true := by decide

end Verif.StrUtil.Props
