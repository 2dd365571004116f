import Verif.Intern.Spec
import Mathlib.Data.List.Basic
/-! Helper lemmas for `intern`. -/

namespace Verif.Intern
open Verif.AssocMap

variable {K : Type} [DecidableEq K]

/-- Simulation relation with the list of keys. -/
structure Rel (s : State K) (l : List K) : Prop where
  lbt : s.lbt = l
  nodup : l.Nodup
  len : s.tbl.length = l.length
  find : ∀ k, AssocMap.find s.tbl k = if k ∈ l then some (l.idxOf k : Int) else none
  keys : (s.tbl.map (·.1)).Nodup

theorem new_rel : Rel (new : State K) [] := ⟨rfl, List.nodup_nil, rfl, fun k => by simp [new, AssocMap.find], List.nodup_nil⟩

theorem step_rel {s : State K} {l : List K} (r : Rel s l) (op : Op K) :
    Rel (step s op).1 (Spec.step l op).1 ∧ (step s op).2 = (Spec.step l op).2 := by
  cases op with
  | key2id k gen =>
    simp only [step, Spec.step, key2id, r.find k]
    by_cases h : k ∈ l
    · simp only [h, if_true]
      exact ⟨r, by simp [Spec.idOf, h]⟩
    · simp only [h, if_false]
      cases gen with
      | false => exact ⟨r, rfl⟩
      | true =>
        simp only [Bool.not_true, Bool.false_eq_true, if_false, if_true]
        have hf : AssocMap.find s.tbl k = none := by rw [r.find k, if_neg h]
        have hnk := find_eq_none_iff.mp hf
        have hins : insertNew s.tbl k (s.tbl.length : Int) = upsert s.tbl k (s.tbl.length : Int) := by
          simp [insertNew, hf]
        refine ⟨⟨by rw [r.lbt], ?_, ?_, ?_, ?_⟩, by rw [r.len]⟩
        · rw [List.nodup_append]
          exact ⟨r.nodup, by simp, by rintro a ha b hb rfl; simp at hb; subst hb; exact h ha⟩
        · simp only; rw [hins, length_upsert_new hnk, r.len]; simp
        · intro k'
          simp only; rw [hins, find_upsert, r.find k']
          by_cases hk : k' = k
          · subst hk
            rw [if_pos rfl, if_pos (by simp), List.idxOf_append_of_notMem h]
            simp [r.len]
          · rw [if_neg hk]
            by_cases hl : k' ∈ l
            · rw [if_pos hl, if_pos (by simp [hl]), List.idxOf_append_of_mem hl]
            · rw [if_neg hl, if_neg (by simp [hl, hk])]
        · simp only; rw [hins]; exact nodup_upsert r.keys k _
  | key2idNogen k =>
    refine ⟨r, ?_⟩
    simp only [step, Spec.step, key2idNogen, r.find k, Spec.idOf]
    split <;> simp_all
  | id2key i =>
    refine ⟨r, ?_⟩
    simp only [step, Spec.step, id2key, r.lbt]
    by_cases h : 0 ≤ i <;> simp only [h, if_true, if_false]
    cases l[i.toNat]? <;> rfl
  | existKey k =>
    refine ⟨r, ?_⟩
    simp only [step, Spec.step, existKey, r.find k]
    by_cases h : k ∈ l <;> simp [h]
  | existId i =>
    refine ⟨r, ?_⟩
    simp only [step, Spec.step, existId, r.lbt, Bool.decide_and]
  | size => exact ⟨r, by simp only [step, Spec.step, size, r.len]⟩
  | empty =>
    refine ⟨r, ?_⟩
    simp only [step, Spec.step, empty]
    have := r.len
    cases h1 : s.tbl <;> cases h2 : l <;> simp_all
  | clear => exact ⟨new_rel, rfl⟩

theorem run_rel (ops : List (Op K)) : ∀ {s : State K} {l : List K}, Rel s l → run s ops = Spec.run l ops := by
  induction ops with
  | nil => intros; rfl
  | cons op ops ih =>
    intro s l r
    obtain ⟨h1, h2⟩ := step_rel r op
    rw [run, Spec.run, h2, ih h1]

theorem exec_rel (ops : List (Op K)) : ∀ {s : State K} {l : List K}, Rel s l → ∃ l', Rel (exec s ops) l' := by
  induction ops with
  | nil => intro s l r; exact ⟨l, r⟩
  | cons op ops ih => intro s l r; exact ih (step_rel r op).1

/-- Without `clear` the key list only grows at the end. -/
theorem exec_prefix (ops : List (Op K)) (hc : ∀ op ∈ ops, op ≠ .clear) :
    ∀ {s : State K} {l : List K}, Rel s l → ∃ l', Rel (exec s ops) (l ++ l') := by
  induction ops with
  | nil => intro s l r; exact ⟨[], by rw [List.append_nil]; exact r⟩
  | cons op ops ih =>
    intro s l r
    have h1 := (step_rel r op).1
    have hex : ∃ m, (Spec.step l op).1 = l ++ m := by
      cases op with
      | key2id k gen =>
        simp only [Spec.step]
        split
        · exact ⟨[], by simp⟩
        · split
          · exact ⟨[k], rfl⟩
          · exact ⟨[], by simp⟩
      | clear => exact absurd rfl (hc _ (by simp))
      | _ => exact ⟨[], by simp [Spec.step]⟩
    obtain ⟨m, hm⟩ := hex
    rw [hm] at h1
    obtain ⟨l', hl'⟩ := ih (fun o ho => hc o (by simp [ho])) h1
    exact ⟨m ++ l', by rw [← List.append_assoc]; exact hl'⟩

omit [DecidableEq K] in
theorem fill_spec (tbl : List (K × Int)) (l : List K) : ∀ (acc : List K), acc.length = l.length →
    (∀ e ∈ tbl, 0 ≤ e.2 ∧ e.2 < l.length ∧ l[e.2.toNat]? = some e.1) →
    ∃ r, fill acc tbl = some r ∧ r.length = l.length ∧
      ∀ i : Nat, i < l.length → ((∃ k, (k, (i : Int)) ∈ tbl) → r[i]? = l[i]?) ∧ ((¬ ∃ k, (k, (i : Int)) ∈ tbl) → r[i]? = acc[i]?) := by
  induction tbl with
  | nil => intro acc ha _; exact ⟨acc, rfl, ha, by simp⟩
  | cons e tbl ih =>
    obtain ⟨k, i⟩ := e
    intro acc ha hall
    obtain ⟨h0, h1, h2⟩ := hall (k, i) (by simp)
    simp only at h0 h1 h2
    obtain ⟨r, hr, hl, hi⟩ := ih (acc.set i.toNat k) (by simpa using ha) (fun e he => hall e (by simp [he]))
    refine ⟨r, ?_, hl, ?_⟩
    · rw [fill, if_pos ⟨h0, by omega⟩]; exact hr
    · intro j hj
      obtain ⟨ha1, ha2⟩ := hi j hj
      constructor
      · rintro ⟨k', hk'⟩
        by_cases hex : ∃ k, (k, (j : Int)) ∈ tbl
        · exact ha1 hex
        · rw [ha2 hex]
          rw [List.mem_cons] at hk'
          rcases hk' with hk' | hk'
          · simp only [Prod.mk.injEq] at hk'
            obtain ⟨rfl, hji⟩ := hk'
            have : i.toNat = j := by omega
            rw [this] at h2 ⊢
            rw [List.getElem?_set_self (by omega), h2]
          · exact absurd ⟨k', hk'⟩ hex
      · intro hno
        rw [ha2 (fun ⟨k', hk'⟩ => hno ⟨k', by simp [hk']⟩)]
        have : i.toNat ≠ j := by
          rintro h
          apply hno
          refine ⟨k, ?_⟩
          have : i = (j : Int) := by omega
          rw [this]; simp
        rw [List.getElem?_set_ne this]

/-- Reading back any enumeration of the table restores the vector. -/
theorem load_rel {s : State K} {l : List K} (r : Rel s l) (dflt : K) (tbl' : List (K × Int)) (hp : tbl'.Perm s.tbl) :
    load dflt tbl' = some ⟨tbl', l⟩ ∧ Rel ⟨tbl', l⟩ l := by
  have hk' : (tbl'.map (·.1)).Nodup := (hp.map _).nodup_iff.mpr r.keys
  have hf : ∀ k, AssocMap.find tbl' k = if k ∈ l then some (l.idxOf k : Int) else none := fun k => by
    rw [find_perm hp hk', r.find k]
  have hlen : tbl'.length = l.length := by rw [hp.length_eq, r.len]
  refine ⟨?_, ⟨rfl, r.nodup, hlen, hf, hk'⟩⟩
  have hall : ∀ e ∈ tbl', 0 ≤ e.2 ∧ e.2 < l.length ∧ l[e.2.toNat]? = some e.1 := by
    rintro ⟨k, i⟩ he
    have := (find_eq_some_iff hk').mpr he
    rw [hf k] at this
    by_cases h : k ∈ l
    · rw [if_pos h] at this
      simp only [Option.some.injEq] at this
      subst this
      have hlt := List.idxOf_lt_length_of_mem h
      refine ⟨by simp, by simpa using hlt, ?_⟩
      simp only [Int.toNat_natCast]
      rw [List.getElem?_eq_getElem hlt, List.getElem_idxOf hlt]
    · rw [if_neg h] at this; simp at this
  obtain ⟨v, h1, h2, h3⟩ := fill_spec tbl' l (List.replicate tbl'.length dflt) (by simpa using hlen) hall
  unfold load
  rw [h1]
  simp only [Option.map_some, Option.some.injEq, State.mk.injEq, true_and]
  apply List.ext_getElem? 
  intro i
  by_cases hi : i < l.length
  · apply (h3 i hi).1
    refine ⟨l[i], ?_⟩
    rw [← find_eq_some_iff hk', hf, if_pos (List.getElem_mem hi), List.Nodup.idxOf_getElem r.nodup]
  · rw [List.getElem?_eq_none (by omega), List.getElem?_eq_none (by omega)]

end Verif.Intern
