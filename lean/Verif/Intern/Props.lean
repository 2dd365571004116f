import Verif.Intern.Lemmas
/-! Property C05. -/

namespace Verif.Intern.Props
open Verif.Intern

variable {K : Type} [DecidableEq K]

/-- C05. Every history of calls has exactly the results it has on the abstract list of distinct keys. -/
theorem intern_refines (ops : List (Op K)) : run (new : State K) ops = Spec.run [] ops := run_rel ops new_rel

example : run (new : State Nat) [.key2id 7 true, .key2id 9 true, .key2id 7 true, .key2idNogen 5, .size, .id2key 1, .existId 2]
    = [.id 0, .id 1, .id 0, .id (-1), .size 2, .key 9, .bool false] := by decide

/-- C05. Ids are stable: once `key2id(k)` has returned `i`, it returns `i` after any further calls other than `clear`. -/
theorem intern_stable (ops1 ops2 : List (Op K)) (k : K) (g : Bool) (hc : ∀ op ∈ ops2, op ≠ .clear) :
    let p := key2id (exec new ops1) k true
    (key2id (exec p.1 ops2) k g).2 = p.2 ∧ key2idNogen (exec p.1 ops2) k = p.2 := by
  obtain ⟨l, r⟩ := exec_rel ops1 (new_rel (K := K))
  simp only
  obtain ⟨h1, h2⟩ := step_rel r (.key2id k true)
  simp only [step, Out.id.injEq] at h1 h2
  have hmem : ∃ l', (Spec.step l (.key2id k true)).1 = l' ∧ k ∈ l' ∧
      (Spec.step l (.key2id k true)).2 = .id (l'.idxOf k : Int) := by
    simp only [Spec.step]
    by_cases h : k ∈ l
    · exact ⟨l, by simp [h], h, by simp [h, Spec.idOf]⟩
    · refine ⟨l ++ [k], by simp [h], by simp, ?_⟩
      rw [List.idxOf_append_of_notMem h]; simp [h]
  obtain ⟨l', e1, hk, e2⟩ := hmem
  rw [e1] at h1
  rw [e2, Out.id.injEq] at h2
  obtain ⟨l'', r''⟩ := exec_prefix ops2 hc h1
  have hf := r''.find k
  rw [if_pos (by simp [hk]), List.idxOf_append_of_mem hk] at hf
  rw [h2]
  generalize exec (key2id (exec new ops1) k true).1 ops2 = s at hf
  simp only [key2id, key2idNogen, hf, and_self]

/-- C05. Distinct keys have distinct ids, and equal ids mean equal keys. -/
theorem intern_injective (ops : List (Op K)) (k k' : K) (i : Int) (h0 : 0 ≤ i)
    (h : key2idNogen (exec new ops) k = i) (h' : key2idNogen (exec new ops) k' = i) : k = k' := by
  obtain ⟨l, r⟩ := exec_rel ops (new_rel (K := K))
  simp only [key2idNogen, r.find] at h h'
  by_cases hk : k ∈ l <;> by_cases hk' : k' ∈ l <;> simp only [hk, hk', if_true, if_false] at h h' <;> try omega
  have : l.idxOf k = l.idxOf k' := by omega
  exact (List.idxOf_inj hk).mp this

/-- C05. `id2key` inverts `key2id`: `key2id(k)` is `i ≥ 0` exactly if `id2key(i)` is `k`. -/
theorem intern_inverse (ops : List (Op K)) (k : K) (i : Int) (h0 : 0 ≤ i) :
    key2idNogen (exec new ops) k = i ↔ id2key (exec new ops) i = some k := by
  obtain ⟨l, r⟩ := exec_rel ops (new_rel (K := K))
  simp only [key2idNogen, r.find, id2key, r.lbt, h0, if_true]
  constructor
  · intro h
    by_cases hk : k ∈ l
    · simp only [hk, if_true] at h
      subst h
      have hlt := List.idxOf_lt_length_of_mem hk
      rw [Int.toNat_natCast, List.getElem?_eq_getElem hlt, List.getElem_idxOf hlt]
    · simp only [hk, if_false] at h; omega
  · intro h
    rw [List.getElem?_eq_some_iff] at h
    obtain ⟨hlt, rfl⟩ := h
    simp only [List.getElem_mem, if_true]
    rw [List.Nodup.idxOf_getElem r.nodup]; omega

/-- C05. The ids in use are exactly `0, …, size-1`. -/
theorem intern_consecutive (ops : List (Op K)) (i : Int) :
    (∃ k, existKey (exec new ops) k = true ∧ key2idNogen (exec (new : State K) ops) k = i) ↔ 0 ≤ i ∧ i < size (exec (new : State K) ops) := by
  obtain ⟨l, r⟩ := exec_rel ops (new_rel (K := K))
  simp only [key2idNogen, existKey, r.find, size, r.len]
  constructor
  · rintro ⟨k, h1, h2⟩
    by_cases hk : k ∈ l
    · simp only [hk, if_true] at h2
      have hlt := List.idxOf_lt_length_of_mem hk
      omega
    · simp [hk] at h1
  · rintro ⟨h1, h2⟩
    have hlt : i.toNat < l.length := by omega
    refine ⟨l[i.toNat], by simp, ?_⟩
    simp only [List.getElem_mem, if_true]
    rw [List.Nodup.idxOf_getElem r.nodup]; omega

-- a history whose state meets the hypotheses above: two keys, ids 0 and 1, found again after more calls
example : key2idNogen (exec new [.key2id "a" true, .key2id "b" true, .key2id "a" false, .key2id "c" true]) "b" = 1 ∧
    id2key (exec new [.key2id "a" true, .key2id "b" true]) 1 = some "b" ∧
    existKey (exec new [.key2id "a" true, .key2id "b" true]) "b" = true := by decide

/-- C05. Lookups with `gen = false` never change the table. -/
theorem intern_nogen_pure (s : State K) (k : K) : (key2id s k false).1 = s ∧ (key2id s k false).2 = key2idNogen s k := by
  unfold key2id key2idNogen
  split <;> simp_all

/-- C05/C20. Writing a table and reading it back, whatever order the hash table enumerates its elements in, gives a table on
which every further history has the same results. -/
theorem intern_serialize_roundtrip (ops : List (Op K)) (dflt : K) (tbl' : List (K × Int))
    (hp : tbl'.Perm (exec new ops).tbl) :
    ∃ s', load dflt tbl' = some s' ∧ ∀ later, run s' later = run (exec new ops) later := by
  obtain ⟨l, r⟩ := exec_rel ops (new_rel (K := K))
  obtain ⟨h1, h2⟩ := load_rel r dflt tbl' hp
  exact ⟨_, h1, fun later => by rw [run_rel later h2, run_rel later r]⟩

example : load 0 (exec new [.key2id 7 true, .key2id 9 true] : State Nat).tbl.reverse = some ⟨[(7, 0), (9, 1)], [7, 9]⟩ := rfl

/-- Finding: a stream whose ids are not `0, …, n-1` makes the reader write outside the vector. -/
theorem intern_load_hostile_ub : load 0 [((7 : Nat), (5 : Int))] = none := rfl

/-- C05. Reading stays inside the vector exactly if every id in the stream is at least 0 and less than the number of elements. -/
theorem intern_load_defined (dflt : K) (tbl : List (K × Int)) : (load dflt tbl).isSome ↔ ∀ p ∈ tbl, 0 ≤ p.2 ∧ p.2 < tbl.length := by
  unfold load
  rw [Option.isSome_map]
  have : ∀ (rest : List (K × Int)) (lbt : List K), (fill lbt rest).isSome ↔ ∀ p ∈ rest, 0 ≤ p.2 ∧ p.2 < lbt.length := by
    intro rest
    induction rest with
    | nil => simp [fill]
    | cons q rest ih =>
      intro lbt
      obtain ⟨k, i⟩ := q
      rw [fill]
      split
      · rename_i h
        simp [ih, h]
      · rename_i h
        simp [h]
  rw [this, List.length_replicate]

/-- Finding: no other check is made: if an id occurs twice in the stream, the table is inconsistent: 7 and 9 both have the id 0, which is that of 9,
and the id 1 is that of a key that is not in the table. -/
theorem intern_load_unchecked : (load 0 [((7 : Nat), (0 : Int)), (9, 0)]).map (fun s => run s [.key2idNogen 7, .key2idNogen 9, .id2key 0, .id2key 1, .existKey 0])
    = some [.id 0, .id 0, .key 9, .key 0, .bool false] := rfl

end Verif.Intern.Props
