import Verif.StrUtil.Model
import Verif.StrUtil.Spec
import Mathlib.Data.List.Basic
import Mathlib.Data.List.TakeWhile
/-! Helper lemmas for the string utilities. -/

namespace Verif.StrUtil
open Verif.Kmp.Spec (OccursAt)

variable {α : Type} [DecidableEq α]

omit [DecidableEq α] in
theorem joinLoop_false (sep ret : List α) (ps : List (List α)) :
    joinLoop sep false ret ps = ret ++ (ps.map (sep ++ ·)).flatten := by
  induction ps generalizing ret with
  | nil => simp [joinLoop]
  | cons p ps ih => simp [joinLoop, ih]

omit [DecidableEq α] in
theorem join_cons (sep p : List α) (ps : List (List α)) : join (p :: ps) sep = p ++ (ps.map (sep ++ ·)).flatten := by
  simp [join, joinLoop, joinLoop_false]

omit [DecidableEq α] in
theorem join_cons_cons (sep p q : List α) (ps : List (List α)) : join (p :: q :: ps) sep = p ++ sep ++ join (q :: ps) sep := by
  simp [join_cons]

omit [DecidableEq α] in
theorem join_eq_intercalate (ps : List (List α)) (sep : List α) : join ps sep = sep.intercalate ps := by
  cases ps with
  | nil => rfl
  | cons p ps =>
    induction ps generalizing p with
    | nil => simp [join_cons, List.intercalate]
    | cons q ps ih => rw [join_cons_cons, ih]; simp [List.intercalate]

theorem splitChar_ne_nil (c : α) (s : List α) : splitChar c s ≠ [] := by
  rw [splitChar]; split <;> simp

theorem splitChar_spec (c : α) (s : List α) : join (splitChar c s) [c] = s ∧ ∀ p ∈ splitChar c s, c ∉ p := by
  have htw : ∀ s : List α, c ∉ s.takeWhile (· ≠ c) := by
    intro s h
    have := List.mem_takeWhile_imp h
    simp at this
  induction hn : s.length using Nat.strongRecOn generalizing s with
  | _ n ih =>
    rw [splitChar]
    split
    · rename_i h
      have hs := List.takeWhile_append_dropWhile (p := fun x => decide (x ≠ c)) (l := s)
      rw [h, List.append_nil] at hs
      refine ⟨by rw [join_cons]; simpa using hs, ?_⟩
      intro p hp
      simp only [List.mem_singleton] at hp
      subst hp
      exact htw s
    · rename_i y rest h
      have hs := List.takeWhile_append_dropWhile (p := fun x => decide (x ≠ c)) (l := s)
      rw [h] at hs
      have hy : y = c := by
        have : (s.dropWhile (fun x => decide (x ≠ c))).head? = some y := by rw [h]; rfl
        have h3 := List.head?_dropWhile_not (fun x => decide (x ≠ c)) s
        rw [this] at h3
        simpa using h3
      subst hy
      have hlt : rest.length < n := by
        have := congrArg List.length hs
        simp only [List.length_append, List.length_cons] at this
        omega
      obtain ⟨h1, h2⟩ := ih rest.length hlt rest rfl
      refine ⟨?_, ?_⟩
      · cases hsp : splitChar y rest with
        | nil => exact absurd hsp (splitChar_ne_nil y rest)
        | cons q qs =>
          rw [join_cons_cons, ← hsp, h1]
          simpa using hs
      · intro p hp
        rw [List.mem_cons] at hp
        rcases hp with rfl | hp
        · exact htw s
        · exact h2 p hp

theorem splitChar_single (c : α) (p : List α) (h : c ∉ p) : splitChar c p = [p] := by
  have hall : ∀ x ∈ p, decide (x ≠ c) = true := by
    intro x hx
    simp only [ne_eq, decide_not, Bool.not_eq_eq_eq_not, Bool.not_true, decide_eq_false_iff_not]
    rintro rfl
    exact h hx
  have h1 : p.dropWhile (fun x => decide (x ≠ c)) = [] := List.dropWhile_eq_nil_iff.mpr hall
  have h2 : p.takeWhile (fun x => decide (x ≠ c)) = p := List.takeWhile_eq_self_iff.mpr hall
  rw [splitChar]
  split
  · rw [h2]
  · rename_i h'; rw [h1] at h'; cases h'

theorem splitChar_append (c : α) (p rest : List α) (h : c ∉ p) : splitChar c (p ++ c :: rest) = p :: splitChar c rest := by
  have hall : ∀ x ∈ p, decide (x ≠ c) = true := by
    intro x hx
    simp only [ne_eq, decide_not, Bool.not_eq_eq_eq_not, Bool.not_true, decide_eq_false_iff_not]
    rintro rfl
    exact h hx
  have h1 : (p ++ c :: rest).dropWhile (fun x => decide (x ≠ c)) = c :: rest := by
    rw [List.dropWhile_append_of_pos hall, List.dropWhile_cons_of_neg (by simp)]
  have h2 : (p ++ c :: rest).takeWhile (fun x => decide (x ≠ c)) = p := by
    rw [List.takeWhile_append_of_pos hall, List.takeWhile_cons_of_neg (by simp)]; simp
  conv_lhs => rw [splitChar]
  split
  · rename_i h'; rw [h1] at h'; cases h'
  · rename_i y r h'; rw [h1] at h'; cases h'; rw [h2]

theorem splitChar_join (c : α) (p : List α) (ps : List (List α)) (h : ∀ q ∈ p :: ps, c ∉ q) :
    splitChar c (join (p :: ps) [c]) = p :: ps := by
  induction ps generalizing p with
  | nil => rw [join_cons]; simpa using splitChar_single c p (h p (by simp))
  | cons q ps ih =>
    rw [join_cons_cons, List.append_assoc, List.singleton_append, splitChar_append c p _ (h p (by simp)),
      ih q (fun r hr => h r (by simp [List.mem_cons] at hr ⊢; exact .inr hr))]

/-! ### search -/

theorem search_append (pat s : List α) : (search pat s).1 ++ (search pat s).2 = s := by
  induction s with
  | nil => simp [search]
  | cons x xs ih =>
    rw [search]
    split
    · simp
    · simp only [List.cons_append, ih]

omit [DecidableEq α] in
theorem occursAt_zero (pat s : List α) : OccursAt pat s 0 ↔ pat <+: s := by
  constructor
  · rintro ⟨pre, post, h, hl⟩
    have := List.length_eq_zero_iff.mp hl
    subst this
    exact ⟨post, by simpa using h.symm⟩
  · rintro ⟨post, h⟩
    exact ⟨[], post, by simpa using h.symm, rfl⟩

omit [DecidableEq α] in
theorem occursAt_succ (pat xs : List α) (x : α) (i : Nat) : OccursAt pat (x :: xs) (i + 1) ↔ OccursAt pat xs i := by
  constructor
  · rintro ⟨pre, post, h, hl⟩
    cases pre with
    | nil => simp at hl
    | cons y pre =>
      simp only [List.cons_append, List.cons.injEq] at h
      exact ⟨pre, post, h.2, by simpa using hl⟩
  · rintro ⟨pre, post, rfl, rfl⟩
    exact ⟨x :: pre, post, by simp, by simp⟩

omit [DecidableEq α] in
theorem not_occursAt_nil (c : α) (pat : List α) (i : Nat) : ¬ OccursAt (c :: pat) [] i := by
  rintro ⟨pre, post, h, _⟩
  have := congrArg List.length h
  simp at this

/-- `search` stops at the first occurrence, and at the end if there is none. -/
theorem search_spec (c : α) (pat s : List α) :
    ((search (c :: pat) s).2 = [] → ∀ i, ¬ OccursAt (c :: pat) s i) ∧
    ((search (c :: pat) s).2 ≠ [] → (c :: pat) <+: (search (c :: pat) s).2) ∧
    (∀ i, OccursAt (c :: pat) s i → (search (c :: pat) s).1.length ≤ i) := by
  induction s with
  | nil => refine ⟨fun _ i => not_occursAt_nil c pat i, by simp [search], by simp [search]⟩
  | cons x xs ih =>
    rw [search]
    split
    · rename_i h
      rw [List.isPrefixOf_iff_prefix] at h
      exact ⟨by simp, fun _ => h, by simp⟩
    · rename_i h
      rw [List.isPrefixOf_iff_prefix] at h
      obtain ⟨h1, h2, h3⟩ := ih
      refine ⟨?_, h2, ?_⟩
      · intro hr i hocc
        cases i with
        | zero => exact h ((occursAt_zero _ _).mp hocc)
        | succ i => exact h1 hr i ((occursAt_succ _ _ _ _).mp hocc)
      · intro i hocc
        cases i with
        | zero => exact absurd ((occursAt_zero _ _).mp hocc) h
        | succ i =>
          have := h3 i ((occursAt_succ _ _ _ _).mp hocc)
          simp only [List.length_cons]; omega

theorem splitLoop_pieces (c : α) (sep' s : List α) : Spec.Pieces (c :: sep') s (splitLoop c sep' s) := by
  induction hn : s.length using Nat.strongRecOn generalizing s with
  | _ n ih =>
    have happ := search_append (c :: sep') s
    obtain ⟨h1, h2, h3⟩ := search_spec c sep' s
    rw [splitLoop]
    split
    · rename_i h
      rw [h, List.append_nil] at happ
      rw [happ]
      exact .last s (h1 h)
    · rename_i y ys h
      obtain ⟨rest, hr⟩ := h2 (by rw [h]; simp)
      have hdrop : (y :: ys).drop (c :: sep').length = rest := by
        rw [← h, ← hr, List.drop_left' rfl]
      rw [hdrop]
      have hs : s = (search (c :: sep') s).1 ++ (c :: sep') ++ rest := by
        rw [List.append_assoc, hr, happ]
      have hlt : rest.length < n := by
        have := congrArg List.length hs
        simp only [List.length_append, List.length_cons] at this
        omega
      have ihr := ih rest.length hlt rest rfl
      have hc := Spec.Pieces.cut (sep := c :: sep') (search (c :: sep') s).1 rest (splitLoop c sep' rest) (by rw [← hs]; exact h3) ihr
      rw [← hs] at hc
      exact hc

omit [DecidableEq α] in
theorem pieces_ne_nil {sep s : List α} {ps : List (List α)} (h : Spec.Pieces sep s ps) : ps ≠ [] := by
  cases h <;> simp

omit [DecidableEq α] in
theorem pieces_join {sep s : List α} {ps : List (List α)} (h : Spec.Pieces sep s ps) : join ps sep = s := by
  induction h with
  | last s _ => simp [join_cons]
  | cut p rest ps _ h ih =>
    cases ps with
    | nil => exact absurd rfl (pieces_ne_nil h)
    | cons q qs => rw [join_cons_cons, ih]

omit [DecidableEq α] in
theorem pieces_unique {sep s : List α} {ps qs : List (List α)} (h : Spec.Pieces sep s ps) (h' : Spec.Pieces sep s qs) : ps = qs := by
  induction h generalizing qs with
  | last s hno =>
    cases h' with
    | last => rfl
    | cut p rest ps _ _ => exact absurd ⟨p, rest, rfl, rfl⟩ (hno p.length)
  | cut p rest ps hp _ ih =>
    generalize hs : p ++ sep ++ rest = s at h'
    cases h' with
    | last _ hno => subst hs; exact absurd ⟨p, rest, rfl, rfl⟩ (hno p.length)
    | cut p' rest' ps' hp' h2 =>
      have e1 : p.length ≤ p'.length := hp p'.length (by rw [hs]; exact ⟨p', rest', rfl, rfl⟩)
      have e2 : p'.length ≤ p.length := hp' p.length (by rw [← hs]; exact ⟨p, rest, rfl, rfl⟩)
      rw [List.append_assoc, List.append_assoc] at hs
      obtain ⟨rfl, h3⟩ := List.append_inj hs (by omega)
      have h3 := (List.append_cancel_left_eq _ _ _).mp h3
      subst h3
      rw [ih h2]

theorem replaceLoop_eq (c : α) (from' dst s : List α) : replaceLoop c from' dst s = join (splitLoop c from' s) dst := by
  induction hn : s.length using Nat.strongRecOn generalizing s with
  | _ n ih =>
    have happ := search_append (c :: from') s
    rw [replaceLoop, splitLoop]
    split
    · simp [join_cons]
    · rename_i y ys h
      have hlt : ((y :: ys).drop (c :: from').length).length < n := by
        have := search_length (c :: from') s
        rw [h] at this
        simp only [List.length_drop, List.length_cons] at *
        omega
      rw [ih _ hlt _ rfl]
      cases hsp : splitLoop c from' ((y :: ys).drop (c :: from').length) with
      | nil =>
        have := pieces_ne_nil (splitLoop_pieces c from' ((y :: ys).drop (c :: from').length))
        exact absurd hsp this
      | cons q qs => rw [join_cons_cons, List.append_assoc]

/-! ### strip -/

theorem skipSpaces_spec (s : List Int) (hr : ∀ c ∈ s, -128 ≤ c ∧ c ≤ 255) :
    ∃ r, skipSpaces s = some r ∧ Spec.IsLstrip s r := by
  induction s with
  | nil => exact ⟨[], rfl, [], rfl, by simp, by simp⟩
  | cons x xs ih =>
    have hx := hr x (by simp)
    rw [skipSpaces]
    have hi : isspace x = some (decide (x = 32 ∨ (9 ≤ x ∧ x ≤ 13))) := by unfold isspace; rw [if_pos hx]
    rw [hi]
    by_cases hsp : x = 32 ∨ (9 ≤ x ∧ x ≤ 13)
    · rw [decide_eq_true hsp]
      obtain ⟨r, h1, l, h2, h3, h4⟩ := ih (fun c hc => hr c (by simp [hc]))
      refine ⟨r, h1, x :: l, by rw [h2]; rfl, ?_, h4⟩
      intro c hc
      rw [List.mem_cons] at hc
      rcases hc with rfl | hc
      · exact hsp
      · exact h3 c hc
    · rw [decide_eq_false hsp]
      refine ⟨x :: xs, rfl, [], rfl, by simp, ?_⟩
      intro c hc
      simp only [List.head?_cons, Option.some.injEq] at hc
      subst hc
      exact hsp

theorem rstrip_spec (s : List Int) (hr : ∀ c ∈ s, -128 ≤ c ∧ c ≤ 255) :
    ∃ r, rstrip s = some r ∧ Spec.IsRstrip s r := by
  obtain ⟨r, h1, l, h2, h3, h4⟩ := skipSpaces_spec s.reverse (fun c hc => hr c (by simpa using hc))
  refine ⟨r.reverse, by unfold rstrip; rw [h1]; rfl, l.reverse, ?_, ?_, ?_⟩
  · have := congrArg List.reverse h2
    simpa using this
  · intro c hc; exact h3 c (by simpa using hc)
  · intro c hc
    rw [List.getLast?_reverse] at hc
    exact h4 c hc

end Verif.StrUtil
