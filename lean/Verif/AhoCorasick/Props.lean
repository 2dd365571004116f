import Verif.AhoCorasick.Lemmas
import Mathlib.Data.List.Nodup
/-!
# C10: `aho_corasick` reports exactly the occurrences
-/
namespace Verif.AhoCorasick.Props
open Verif.AhoCorasick Verif.AhoCorasick.Spec Verif.AhoCorasick.Lemmas

/-- For every dictionary and every text, the automaton is built and the search ends, without access outside of the array, and what is reported is the
list of all occurrences: in the order of their ends, long words before short ones, each word by its first index. Words that are empty or contain the
character 0 are not reported. -/
theorem search_eq (words : List Str) (s : Str) : (new words).bind (search · s) = some (occurrences words s) := by
  rw [new]
  by_cases hw : words = []
  · subst hw
    have : occurrences [] s = [] := by simp [occurrences, report]
    have hnil : ixwords [] = [] := List.Perm.eq_nil (perm_ixwords [])
    rw [this, hnil]
    rfl
  · have hne : ixwords words ≠ [] := by
      intro h
      have := (perm_ixwords words).length_eq
      rw [h] at this
      rw [List.length_zipIdx] at this
      exact hw (List.length_eq_zero_iff.1 this.symm)
    obtain ⟨nodes, f, h1, h2, h3⟩ := construct_spec (sorted_ixwords words) hne
    rw [h1, Option.bind_some, search]
    have hnn : nodes ≠ [] := by
      rintro rfl
      have := (h2.bound _ _ .root).1
      simp at this
    have := scan_spec h2 h3 s [] .root (List.suffix_refl _) (by simp)
    rw [if_neg hnn]
    rw [List.length_nil] at this
    rw [this, occurrences]
    congr 1
    rw [List.flatMap_def, List.flatMap_def]
    congr 1
    refine List.map_congr_left ?_
    intro i hi
    rw [List.mem_range] at hi
    rw [occ_eq_range, List.nil_append, List.length_take, Nat.min_eq_left (by omega), Nat.zero_add]

/-- "hoge", "moge", "hoga", "gamo", "hogamoge" and once more "moge", in "hogamoge". -/
example : occurrences [[104, 111, 103, 101], [109, 111, 103, 101], [104, 111, 103, 97], [103, 97, 109, 111],
    [104, 111, 103, 97, 109, 111, 103, 101], [109, 111, 103, 101]] [104, 111, 103, 97, 109, 111, 103, 101] =
    [(2, 4), (3, 6), (4, 8), (1, 8)] := by decide +kernel

theorem mem_report {words : List Str} {e : Nat} {w : Str} {x : Int × Nat} :
    x ∈ report words e w ↔ ∃ k : Nat, x = ((k : Int), e) ∧ w ≠ [] ∧ 0 ∉ w ∧ words[k]? = some w ∧ ∀ j, j < k → words[j]? ≠ some w := by
  rw [report]
  split
  case isTrue h =>
    constructor
    · intro h; simp at h
    · rintro ⟨k, _, h1, h2, _⟩
      rcases h with h | h
      · exact absurd h h1
      · exact absurd h h2
  case isFalse h =>
    have h1 : w ≠ [] := fun e => h (Or.inl e)
    have h2 : 0 ∉ w := fun e => h (Or.inr e)
    have key : ∀ k, words.idxOf? w = some k ↔ words[k]? = some w ∧ ∀ j, j < k → words[j]? ≠ some w := by
      intro k
      rw [List.idxOf?, List.findIdx?_eq_some_iff_getElem]
      constructor
      · rintro ⟨hl, g1, g2⟩
        refine ⟨by rw [List.getElem?_eq_getElem hl]; simpa using g1, ?_⟩
        intro j hj he
        have := g2 j hj
        rw [List.getElem?_eq_getElem (by omega)] at he
        simp only [beq_iff_eq] at this
        exact this (Option.some.inj he)
      · rintro ⟨g1, g2⟩
        obtain ⟨hl, hg⟩ := List.getElem?_eq_some_iff.1 g1
        refine ⟨hl, by simp [hg], ?_⟩
        intro j hj
        simp only [beq_iff_eq]
        intro he
        exact g2 j hj (by rw [List.getElem?_eq_getElem (by omega), he])
    cases hi : words.idxOf? w with
    | none =>
      simp only [List.not_mem_nil, false_iff]
      rintro ⟨k, _, _, _, h3⟩
      rw [(key k).2 h3] at hi
      cases hi
    | some k =>
      simp only [List.mem_singleton]
      constructor
      · rintro rfl
        exact ⟨k, rfl, h1, h2, (key k).1 hi⟩
      · rintro ⟨k', rfl, _, _, h3⟩
        rw [(key k').2 h3] at hi
        cases hi
        rfl

/-- What is reported, word by word: index `k` with end `e` means that `k` is the first index of a word, not empty and without the character 0, that
ends at `e`. -/
theorem search_iff (words : List Str) (s : Str) : ∃ r, (new words).bind (search · s) = some r ∧ ∀ x, x ∈ r ↔ ∃ (k e : Nat) (w : Str),
    x = ((k : Int), e) ∧ words[k]? = some w ∧ (∀ j, j < k → words[j]? ≠ some w) ∧ w ≠ [] ∧ 0 ∉ w ∧ e ≤ s.length ∧ w <:+ s.take e := by
  refine ⟨_, search_eq words s, ?_⟩
  intro x
  rw [occurrences]
  simp only [List.mem_flatMap, List.mem_range, mem_report]
  constructor
  · rintro ⟨i, hi, b, hb, k, rfl, h1, h2, h3, h4⟩
    exact ⟨k, i + 1, _, rfl, h3, h4, h1, h2, by omega, List.drop_suffix _ _⟩
  · rintro ⟨k, e, w, rfl, h1, h2, h3, h4, h5, h6⟩
    have hl := h6.length_le
    have hw0 : 0 < w.length := List.length_pos_iff.2 h3
    rw [List.length_take] at hl
    refine ⟨e - 1, by omega, e - w.length, by omega, k, ?_, ?_⟩
    · rw [show e - 1 + 1 = e by omega]
    · have hd : (s.take (e - 1 + 1)).drop (e - w.length) = w := by
        rw [show e - 1 + 1 = e by omega]
        have := List.suffix_iff_eq_drop.1 h6
        rw [List.length_take, Nat.min_eq_left h5] at this
        exact this.symm
      rw [hd]
      exact ⟨h3, h4, h1, h2⟩

/-- Nothing is reported twice. -/
theorem search_nodup (words : List Str) (s : Str) : ∃ r, (new words).bind (search · s) = some r ∧ r.Nodup := by
  refine ⟨_, search_eq words s, ?_⟩
  rw [occurrences, List.nodup_flatMap]
  constructor
  · intro i hi
    rw [List.mem_range] at hi
    rw [List.nodup_flatMap]
    constructor
    · intro b _
      rw [report]
      split
      · exact List.nodup_nil
      · split
        · exact List.nodup_singleton _
        · exact List.nodup_nil
    · refine List.Pairwise.imp_of_mem ?_ List.pairwise_lt_range
      intro a b ha hb hab
      rw [List.mem_range] at ha hb
      intro x hx hy
      obtain ⟨k, rfl, _, _, h1, _⟩ := mem_report.1 hx
      obtain ⟨k', he, _, _, h2, _⟩ := mem_report.1 hy
      have hk : k = k' := by
        have := congrArg Prod.fst he
        exact Int.ofNat.inj this
      subst hk
      rw [h1] at h2
      have := congrArg List.length (Option.some.inj h2)
      simp only [List.length_drop, List.length_take] at this
      omega
  · refine List.Pairwise.imp ?_ List.pairwise_lt_range
    intro i j hij x hx hy
    simp only [List.mem_flatMap, mem_report] at hx hy
    obtain ⟨_, _, k, rfl, _⟩ := hx
    obtain ⟨_, _, k', he, _⟩ := hy
    have := congrArg Prod.snd he
    simp only at this
    omega

/-- C10, partial: with distinct words that contain no character 0, exactly the occurrences are reported. Missing: the character 0 (`nul_not_found`),
and words that are listed twice (`second_not_found`). -/
theorem search_exact_partial (words : List Str) (hd : words.Nodup) (hne : ∀ w ∈ words, w ≠ []) (h0 : ∀ w ∈ words, 0 ∉ w) (s : Str) :
    ∃ r, (new words).bind (search · s) = some r ∧ r.Nodup ∧ ∀ x, x ∈ r ↔ ∃ (k e : Nat) (w : Str),
      x = ((k : Int), e) ∧ words[k]? = some w ∧ e ≤ s.length ∧ w <:+ s.take e := by
  obtain ⟨r, h1, h2⟩ := search_iff words s
  obtain ⟨r', h3, h4⟩ := search_nodup words s
  rw [h1] at h3
  cases h3
  refine ⟨r, h1, h4, ?_⟩
  intro x
  rw [h2 x]
  constructor
  · rintro ⟨k, e, w, rfl, g1, _, _, _, g2, g3⟩
    exact ⟨k, e, w, rfl, g1, g2, g3⟩
  · rintro ⟨k, e, w, rfl, g1, g2, g3⟩
    have hm := List.mem_of_getElem? g1
    refine ⟨k, e, w, rfl, g1, ?_, hne w hm, h0 w hm, g2, g3⟩
    intro j hj he
    obtain ⟨l1, e1⟩ := List.getElem?_eq_some_iff.1 g1
    obtain ⟨l2, e2⟩ := List.getElem?_eq_some_iff.1 he
    have := (List.Nodup.getElem_inj_iff hd (hi := l2) (hj := l1)).1 (by rw [e1, e2])
    omega

example : ([[97, 98], [98], [97, 98, 97]] : List Str).Nodup ∧ occurrences [[97, 98], [98], [97, 98, 97]] [97, 98, 97, 98] =
    [(0, 2), (1, 2), (2, 3), (0, 4), (1, 4)] := by decide +kernel

/-- The negation of C10 for words with the character 0: such a word is never found, not even in itself. -/
theorem nul_not_found (words : List Str) (s : Str) (k e : Nat) (w : Str) (hk : words[k]? = some w) (h0 : 0 ∈ w) :
    ∃ r, (new words).bind (search · s) = some r ∧ ((k : Int), e) ∉ r := by
  obtain ⟨r, h1, h2⟩ := search_iff words s
  refine ⟨r, h1, ?_⟩
  rw [h2]
  rintro ⟨k', e', w', he, g1, _, _, g2, _⟩
  have : k = k' := by
    have := congrArg Prod.fst he
    exact Int.ofNat.inj this
  subst this
  rw [hk] at g1
  cases g1
  exact g2 h0

example : (new [[97, 0, 98]]).bind (search · [97, 0, 98]) = some [] := by rw [search_eq]; decide +kernel

/-- A word that is listed twice is reported by its first index only. -/
theorem second_not_found (words : List Str) (s : Str) (j k e : Nat) (w : Str) (hjk : j < k) (hj : words[j]? = some w) (hk : words[k]? = some w) :
    ∃ r, (new words).bind (search · s) = some r ∧ ((k : Int), e) ∉ r := by
  obtain ⟨r, h1, h2⟩ := search_iff words s
  refine ⟨r, h1, ?_⟩
  rw [h2]
  rintro ⟨k', e', w', he, g1, g2, _⟩
  have : k = k' := by
    have := congrArg Prod.fst he
    exact Int.ofNat.inj this
  subst this
  rw [hk] at g1
  cases g1
  exact g2 j hjk hj

example : (new [[97], [98], [97]]).bind (search · [98, 97]) = some [(1, 1), (0, 2)] := by rw [search_eq]; decide +kernel

end Verif.AhoCorasick.Props
