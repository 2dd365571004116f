import Verif.Lru.Lemmas
/-! Property C03. -/

namespace Verif.Lru.Props
open Verif.Lru

variable {K V : Type} [DecidableEq K]

/-- C03. Every history of calls on a cache of capacity `cap ≥ 1` has exactly the results it has on the abstract
least-recently-used list. In particular it never meets undefined behaviour, whatever the key order `klt` is. -/
theorem lru_refines (klt : K → K → Bool) (dflt : V) (cap : Nat) (hcap : 1 ≤ cap) (ops : List (Op K V)) :
    run klt dflt (new (cap : Int)) ops = Spec.run cap dflt [] ops :=
  run_rel klt dflt ops (new_rel cap hcap)

-- capacity 2: 1 is used again, so 2 is evicted by 3
example : run (fun a b => decide (a < b)) 0 (new 2) [Op.set 1 10, .set 2 20, .get 1, .set 3 30, .has 1, .has 2, .get 2, .get 3]
    = [.unit, .unit, .val (10 : Nat), .unit, .bool true, .bool false, .throw, .val 30] := by decide

/-- The abstract cache never exceeds its capacity and never holds a key twice. -/
theorem spec_bounded (cap : Nat) (hcap : 1 ≤ cap) (dflt : V) (ops : List (Op K V)) (l : List (K × V))
    (hl : l.length ≤ cap) : (Spec.contents cap dflt l ops).length ≤ cap := by
  induction ops generalizing l with
  | nil => exact hl
  | cons op ops ih =>
    apply ih
    have hw : ∀ k v, Spec.lookup l k = some v → (Spec.without l k).length + 1 ≤ l.length := by
      intro k v h
      unfold Spec.lookup at h
      unfold Spec.without
      simp only [Option.map_eq_some_iff] at h
      obtain ⟨x, hx, _⟩ := h
      have := List.length_filter_lt_length_iff_exists (p := fun e : K × V => decide (e.1 ≠ k)) (l := l)
      have h3 := this.mpr ⟨x, List.mem_of_find?_eq_some hx, by
        have := List.find?_some hx; simpa using this⟩
      omega
    have hadd : ∀ k v, (Spec.add cap l k v).length ≤ cap := by
      intro k v
      unfold Spec.add
      split
      · simp only [List.length_append, List.length_singleton]; omega
      · simp only [List.length_append, List.length_singleton, List.length_tail]; omega
    have huse : ∀ k, (Spec.use l k).length ≤ cap := by
      intro k
      unfold Spec.use
      split
      · rename_i v h
        have := hw k v h
        simp only [List.length_append, List.length_singleton]; omega
      · exact hl
    cases op with
    | set k v => simp only [Spec.step]; split; exact hl; exact hadd k v
    | get k => simp only [Spec.step]; split; exact huse k; exact hl
    | touch k => exact huse k
    | remove k => exact Nat.le_trans (List.length_filter_le _ _) hl
    | clear => simp [Spec.step]
    | has k => exact hl
    | index k f =>
      simp only [Spec.step]
      split
      · rename_i v h
        have := hw k v h
        simp only [List.length_append, List.length_singleton]; omega
      · exact hadd k _

/-- A state reached from the empty cache by a history of calls. -/
inductive Reachable (klt : K → K → Bool) (dflt : V) (cap : Nat) : State K V → Prop where
  | init : Reachable klt dflt cap (new (cap : Int))
  | step {s} (op : Op K V) : Reachable klt dflt cap s → Reachable klt dflt cap (Verif.Lru.step klt dflt s op).1

theorem reachable_rel {klt : K → K → Bool} {dflt : V} {cap : Nat} (hcap : 1 ≤ cap) {s : State K V}
    (h : Reachable klt dflt cap s) : ∃ e, Rel cap s e := by
  induction h with
  | init => exact ⟨[], new_rel cap hcap⟩
  | step op _ ih =>
    obtain ⟨e, r⟩ := ih
    obtain ⟨e', r', _⟩ := step_rel r klt dflt op
    exact ⟨e', r'⟩

/-- C03. In every reachable state the table holds at most `cap` entries, and the recency index has as many entries as the
table (the `assert` of line 75 holds). -/
theorem lru_capacity (klt : K → K → Bool) (dflt : V) (cap : Nat) (hcap : 1 ≤ cap) (s : State K V)
    (h : Reachable klt dflt cap s) : s.cache.length ≤ cap ∧ s.accessTime.length = s.cache.length := by
  obtain ⟨e, r⟩ := reachable_rel hcap h
  rw [r.times, r.perm.length_eq, List.length_map]
  exact ⟨r.len, rfl⟩

example : Reachable (fun a b : Nat => decide (a < b)) (0 : Nat) 2 (step (fun a b => decide (a < b)) 0 (new 2) (.set 1 10)).1 :=
  .step _ .init

/-- C60 as stated: in every reachable state, `get(k)` right after `set(k,v)` returns `v`. -/
def SetStores (K V : Type) [DecidableEq K] : Prop :=
  ∀ (klt : K → K → Bool) (dflt : V) (cap : Nat), 1 ≤ cap → ∀ s, Reachable klt dflt cap s → ∀ k v,
    run klt dflt s [.set k v, .get k] = [.unit, .val v]

/-- C60 fails: storing a new value under a key that is present is silently ignored. -/
theorem lru_setStores_fails : ¬ SetStores Nat Nat := by
  intro h
  have := h (fun a b => decide (a < b)) 0 2 (by decide) _ (.step (.set 1 10) .init) 1 11
  revert this
  decide

/-- C60, what holds: if the key is absent the stored value is returned; if it is present the old value is.
Missing from the full statement: the present key. -/
theorem lru_setStores_partial (klt : K → K → Bool) (dflt : V) (cap : Nat) (hcap : 1 ≤ cap) (s : State K V)
    (h : Reachable klt dflt cap s) (k : K) (v : V) :
    (run klt dflt s [.has k] = [.bool false] → run klt dflt s [.set k v, .get k] = [.unit, .val v]) ∧
    (run klt dflt s [.has k] = [.bool true] → run klt dflt s [.set k v, .get k] = .unit :: run klt dflt s [.get k]) := by
  obtain ⟨e, r⟩ := reachable_rel hcap h
  simp only [run_rel klt dflt _ r]
  simp only [Spec.run, Spec.step, List.cons.injEq, Out.bool.injEq, and_true]
  constructor
  · intro hk
    cases hl : Spec.lookup (abs e) k with
    | some v' => rw [hl] at hk; simp at hk
    | none =>
      simp only [true_and]
      have hno : ∀ l : List (K × V), l.find? (fun e => e.1 = k) = none → Spec.lookup (l ++ [(k, v)]) k = some v := by
        intro l hl; simp [Spec.lookup, List.find?_append, hl]
      have hl' : (abs e).find? (fun e => e.1 = k) = none := by simpa [Spec.lookup] using hl
      have : Spec.lookup (Spec.add cap (abs e) k v) k = some v := by
        unfold Spec.add
        apply hno
        split
        · exact hl'
        · rw [List.find?_eq_none] at hl' ⊢
          exact fun x hx => hl' x (List.mem_of_mem_tail hx)
      rw [this]
  · intro hk
    cases hl : Spec.lookup (abs e) k with
    | none => rw [hl] at hk; simp at hk
    | some v' => simp [hl]

example : Reachable (fun a b : Nat => decide (a < b)) (0 : Nat) 1 (step (fun a b => decide (a < b)) 0 (new 1) (.set 1 10)).1 ∧
    run (fun a b : Nat => decide (a < b)) (0 : Nat) (step (fun a b => decide (a < b)) 0 (new 1) (.set 1 10)).1 [.has 2] = [.bool false] :=
  ⟨.step _ .init, by decide⟩

/-- Finding: with capacity 0 the first `set` is undefined behaviour. -/
theorem lru_capacity_zero_ub :
    run (fun a b : Nat => decide (a < b)) (0 : Nat) (new 0) [Op.set 1 10] = [.ub] := by
  decide

end Verif.Lru.Props
