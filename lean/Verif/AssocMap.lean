import Mathlib.Data.List.Perm.Basic
import Mathlib.Data.List.Nodup
/-! `std::map`/`unordered_map` as association lists with unique keys (helper definitions and lemmas, no claims).
The enumeration order of the list carries no meaning for the models that use it. -/

namespace Verif.AssocMap

variable {K X : Type}

/-- `find(key)`: the mapped value, if any. -/
def find [DecidableEq K] (m : List (K × X)) (k : K) : Option X := (m.find? (fun e => e.1 = k)).map (·.2)

/-- `erase(key)`. -/
def erase [DecidableEq K] (m : List (K × X)) (k : K) : List (K × X) := m.filter (fun e => e.1 ≠ k)

/-- `m[key] = x`. -/
def upsert [DecidableEq K] (m : List (K × X)) (k : K) (x : X) : List (K × X) := (k, x) :: erase m k

/-- `insert(make_pair(key, x))`: does nothing if the key is present. -/
def insertNew [DecidableEq K] (m : List (K × X)) (k : K) (x : X) : List (K × X) :=
  if (find m k).isSome then m else upsert m k x

variable [DecidableEq K]

theorem find_eq_some_iff {m : List (K × X)} (hn : (m.map (·.1)).Nodup) {k : K} {x : X} :
    find m k = some x ↔ (k, x) ∈ m := by
  induction m with
  | nil => simp [find]
  | cons e m ih =>
    obtain ⟨k', x'⟩ := e
    simp only [List.map_cons, List.nodup_cons] at hn
    have ih := ih hn.2
    unfold find at ih ⊢
    by_cases h : k' = k
    · subst h
      simp only [List.find?_cons, decide_true, Option.map_some, Option.some.injEq, List.mem_cons, Prod.mk.injEq, true_and]
      constructor
      · intro h; exact .inl h.symm
      · rintro (h | h)
        · exact h.symm
        · exact absurd (List.mem_map_of_mem (f := (·.1)) h) hn.1
    · simp only [List.find?_cons, h, decide_false, List.mem_cons, Prod.mk.injEq]
      rw [ih]
      constructor
      · exact .inr
      · rintro (⟨h', _⟩ | h')
        · exact absurd h'.symm h
        · exact h'

theorem find_eq_none_iff {m : List (K × X)} {k : K} : find m k = none ↔ k ∉ m.map (·.1) := by
  simp only [find, Option.map_eq_none_iff, List.find?_eq_none, decide_eq_true_eq, List.mem_map, not_exists, not_and]

theorem find_isSome_iff {m : List (K × X)} {k : K} : (find m k).isSome ↔ k ∈ m.map (·.1) := by
  rw [← not_iff_not, ← find_eq_none_iff]; simp

theorem find_perm {m m' : List (K × X)} (hp : m.Perm m') (hn : (m.map (·.1)).Nodup) (k : K) : find m k = find m' k := by
  have hn' : (m'.map (·.1)).Nodup := (hp.map _).nodup_iff.mp hn
  ext x
  rw [find_eq_some_iff hn, find_eq_some_iff hn']
  exact hp.mem_iff

theorem erase_of_not_mem {m : List (K × X)} {k : K} (h : k ∉ m.map (·.1)) : erase m k = m := by
  unfold erase
  rw [List.filter_eq_self]
  rintro ⟨a, b⟩ hab
  simp only [ne_eq, decide_not, Bool.not_eq_eq_eq_not, Bool.not_true, decide_eq_false_iff_not]
  rintro rfl
  exact h (List.mem_map_of_mem (f := (·.1)) hab)

theorem keys_erase (m : List (K × X)) (k : K) : (erase m k).map (·.1) = (m.map (·.1)).filter (· ≠ k) := by
  unfold erase
  rw [List.filter_map]
  rfl

theorem erase_perm {m m' : List (K × X)} (hp : m.Perm m') (k : K) : (erase m k).Perm (erase m' k) := hp.filter _

theorem nodup_erase {m : List (K × X)} (hn : (m.map (·.1)).Nodup) (k : K) : ((erase m k).map (·.1)).Nodup := by
  rw [keys_erase]; exact hn.filter _

theorem nodup_upsert {m : List (K × X)} (hn : (m.map (·.1)).Nodup) (k : K) (x : X) : ((upsert m k x).map (·.1)).Nodup := by
  unfold upsert
  simp only [List.map_cons, List.nodup_cons]
  refine ⟨?_, nodup_erase hn k⟩
  rw [keys_erase]; simp

theorem find_erase (m : List (K × X)) (k k' : K) : find (erase m k) k' = if k' = k then none else find m k' := by
  split
  · rename_i h; subst h
    rw [find_eq_none_iff, keys_erase]; simp
  · rename_i h
    unfold find erase
    induction m with
    | nil => simp
    | cons e m ih =>
      by_cases h1 : e.1 = k
      · rw [List.filter_cons_of_neg (by simp [h1]), List.find?_cons_of_neg (by simp [h1]; exact fun h' => h h'.symm)]
        exact ih
      · rw [List.filter_cons_of_pos (by simp [h1])]
        by_cases h2 : e.1 = k'
        · simp [h2]
        · simp only [List.find?_cons, h2, decide_false]
          exact ih

theorem find_upsert (m : List (K × X)) (k k' : K) (x : X) :
    find (upsert m k x) k' = if k' = k then some x else find m k' := by
  unfold upsert
  split
  · rename_i h; subst h; simp [find]
  · rename_i h
    have := find_erase m k k'
    rw [if_neg h] at this
    rw [← this]
    have h' : ¬ k = k' := fun h' => h h'.symm
    unfold find
    rw [List.find?_cons_of_neg (by simp [h'])]

theorem length_upsert_new {m : List (K × X)} {k : K} (h : k ∉ m.map (·.1)) (x : X) :
    (upsert m k x).length = m.length + 1 := by
  simp [upsert, erase_of_not_mem h]

end Verif.AssocMap
