import Verif.Lru.Spec
/-! Helper lemmas for the LRU cache: the simulation relation and its preservation. -/

namespace Verif.Lru
open Verif.AssocMap

variable {K V : Type} [DecidableEq K]

/-- The simulation relation: `e` lists the entries with their times, least recently used first. -/
structure Rel (cap : Nat) (s : State K V) (e : List (K × (V × Nat))) : Prop where
  max : s.maxSize = cap
  capPos : 1 ≤ cap
  len : e.length ≤ cap
  nodup : (e.map (·.1)).Nodup
  sorted : (e.map (·.2.2)).Pairwise (· < ·)
  fresh : ∀ x ∈ e, x.2.2 < s.cur
  times : s.accessTime = e.map (fun x => (x.2.2, x.1))
  perm : s.cache.Perm e

/-- The abstract contents of a list of entries. -/
def abs (e : List (K × (V × Nat))) : List (K × V) := e.map (fun x => (x.1, x.2.1))

theorem lookup_abs (e : List (K × (V × Nat))) (k : K) : Spec.lookup (abs e) k = (find e k).map (·.1) := by
  unfold Spec.lookup abs find
  rw [List.find?_map]
  simp [Function.comp_def]

theorem without_abs (e : List (K × (V × Nat))) (k : K) : Spec.without (abs e) k = abs (erase e k) := by
  unfold Spec.without abs erase
  rw [List.filter_map]
  rfl

theorem msInsert_last (klt : K → K → Bool) (t : Nat) (k : K) (l : List (Nat × K)) (h : ∀ y ∈ l, y.1 < t) :
    msInsert klt (t, k) l = l ++ [(t, k)] := by
  induction l with
  | nil => rfl
  | cons y ys ih =>
    have hy := h y (by simp)
    rw [msInsert, if_neg, ih (fun z hz => h z (by simp [hz]))]
    · rfl
    · simp only [pairLt, Bool.or_eq_true, decide_eq_true_eq, Bool.and_eq_true, beq_iff_eq, not_or, not_and]
      omega

theorem msErase_times (e : List (K × (V × Nat))) (hn : (e.map (·.1)).Nodup) (k : K) (v : V) (t : Nat)
    (h : (k, (v, t)) ∈ e) :
    msErase (t, k) (e.map (fun x => (x.2.2, x.1))) = (erase e k).map (fun x => (x.2.2, x.1)) := by
  unfold msErase erase
  rw [List.filter_map]
  congr 1
  apply List.filter_congr
  rintro ⟨k', v', t'⟩ hx
  simp only [Function.comp, ne_eq, Prod.mk.injEq, decide_not, Bool.not_eq_eq_eq_not, Bool.not_not, decide_eq_decide]
  constructor
  · exact fun h => h.2
  · rintro rfl
    have h1 := (find_eq_some_iff hn).mpr hx
    have h2 := (find_eq_some_iff hn).mpr h
    rw [h1] at h2
    simp only [Option.some.injEq, Prod.mk.injEq] at h2
    exact ⟨h2.2, rfl⟩

theorem mem_erase {X : Type} {e : List (K × X)} {k : K} {x : K × X} (h : x ∈ erase e k) : x ∈ e ∧ x.1 ≠ k := by
  unfold erase at h
  rw [List.mem_filter] at h
  exact ⟨h.1, by simpa using h.2⟩

theorem sorted_erase {e : List (K × (V × Nat))} (h : (e.map (·.2.2)).Pairwise (· < ·)) (k : K) :
    ((erase e k).map (·.2.2)).Pairwise (· < ·) := by
  rw [List.pairwise_map] at h ⊢
  exact h.filter _

theorem find_rel {cap : Nat} {s : State K V} {e : List (K × (V × Nat))} (r : Rel cap s e) (k : K) : find s.cache k = find e k :=
  find_perm r.perm ((r.perm.map _).nodup_iff.mpr r.nodup) k

theorem length_erase_le {X : Type} (e : List (K × X)) (k : K) : (erase e k).length ≤ e.length := List.length_filter_le _ _

theorem length_erase_lt {X : Type} {e : List (K × X)} {k : K} (h : k ∈ e.map (·.1)) : (erase e k).length < e.length := by
  unfold erase
  rw [List.length_filter_lt_length_iff_exists]
  obtain ⟨x, hx, rfl⟩ := List.mem_map.mp h
  exact ⟨x, hx, by simp⟩

/-- Putting a renewed entry at the end keeps the relation. -/
theorem rel_renew {cap : Nat} {s : State K V} {e : List (K × (V × Nat))} (r : Rel cap s e) (k : K) (v v' : V) (t : Nat)
    (h : (k, (v, t)) ∈ e) (klt : K → K → Bool) :
    Rel cap { s with accessTime := msInsert klt (s.cur, k) (msErase (t, k) s.accessTime), cur := s.cur + 1,
                     cache := upsert s.cache k (v', s.cur) } (erase e k ++ [(k, (v', s.cur))]) := by
  have hlen := length_erase_lt (List.mem_map_of_mem (f := (·.1)) h)
  refine ⟨r.max, r.capPos, ?_, ?_, ?_, ?_, ?_, ?_⟩
  · have := r.len
    simp only [List.length_append, List.length_singleton] at *; omega
  · rw [List.map_append, List.nodup_append]
    refine ⟨nodup_erase r.nodup k, by simp, ?_⟩
    intro a ha b hb
    simp only [List.map_cons, List.map_nil, List.mem_singleton] at hb
    subst hb
    rw [keys_erase] at ha
    simp only [ne_eq, decide_not, List.mem_filter, Bool.not_eq_eq_eq_not, Bool.not_true, decide_eq_false_iff_not] at ha
    exact ha.2
  · rw [List.map_append, List.pairwise_append]
    refine ⟨sorted_erase r.sorted k, by simp, ?_⟩
    intro a ha b hb
    simp only [List.map_cons, List.map_nil, List.mem_singleton] at hb
    subst hb
    obtain ⟨x, hx, rfl⟩ := List.mem_map.mp ha
    exact r.fresh x (mem_erase hx).1
  · intro x hx
    simp only [List.mem_append, List.mem_singleton] at hx
    rcases hx with hx | rfl
    · have := r.fresh x (mem_erase hx).1
      simp only; omega
    · simp
  · simp only
    rw [r.times, msErase_times e r.nodup k v t h, msInsert_last]
    · simp
    · intro y hy
      obtain ⟨x, hx, rfl⟩ := List.mem_map.mp hy
      exact r.fresh x (mem_erase hx).1
  · simp only [upsert]
    exact (List.Perm.cons _ (erase_perm r.perm k)).trans (List.perm_append_singleton _ _).symm

theorem use_abs (e : List (K × (V × Nat))) (k : K) (v : V) (t c : Nat) (h : find e k = some (v, t)) :
    Spec.use (abs e) k = abs (erase e k ++ [(k, (v, c))]) := by
  unfold Spec.use
  rw [lookup_abs, h, Option.map_some]
  simp only [without_abs]
  simp [abs]

theorem touch_rel {cap : Nat} {s : State K V} {e : List (K × (V × Nat))} (r : Rel cap s e) (k : K) (klt : K → K → Bool) :
    ∃ e', Rel cap (touch klt s k) e' ∧ abs e' = Spec.use (abs e) k := by
  unfold touch
  rw [find_rel r]
  cases h : find e k with
  | none =>
    refine ⟨e, r, ?_⟩
    unfold Spec.use
    rw [lookup_abs, h]; rfl
  | some vt =>
    obtain ⟨v, t⟩ := vt
    have hm := (find_eq_some_iff r.nodup).mp h
    exact ⟨_, rel_renew r k v v t hm klt, (use_abs e k v t _ h).symm⟩

theorem evict_rel {cap : Nat} {s : State K V} {e : List (K × (V × Nat))} (r : Rel cap s e) :
    ∃ cache at' e', evict s.maxSize s.cache s.accessTime = .ok (cache, at') ∧ cache.Perm e' ∧
      at' = e'.map (fun x => (x.2.2, x.1)) ∧ e'.length < cap ∧ e' = if e.length < cap then e else e.tail := by
  have hlen : s.cache.length = e.length := r.perm.length_eq
  by_cases h : e.length < cap
  · refine ⟨s.cache, s.accessTime, e, ?_, r.perm, r.times, h, by rw [if_pos h]⟩
    have hneg : ¬ ((s.cache.length : Int) ≥ s.maxSize) := by rw [r.max, hlen]; omega
    cases ha : s.accessTime with
    | nil => rw [evict, if_neg hneg]
    | cons x xs => obtain ⟨t, k⟩ := x; rw [evict, if_neg hneg]
  · rw [if_neg h]
    cases he : e with
    | nil => subst he; have := r.capPos; simp at h; omega
    | cons x xs =>
      obtain ⟨k, v, t⟩ := x
      subst he
      have hnd := r.nodup
      simp only [List.map_cons, List.nodup_cons] at hnd
      have her : erase ((k, (v, t)) :: xs) k = xs := by
        unfold erase
        rw [List.filter_cons_of_neg (by simp)]
        exact erase_of_not_mem hnd.1
      have hp : (erase s.cache k).Perm xs := by
        have := erase_perm r.perm k
        rwa [her] at this
      have hlen2 := r.len
      simp only [List.length_cons] at hlen2 hlen h
      have hpos : (s.cache.length : Int) ≥ s.maxSize := by rw [r.max, hlen]; omega
      have hneg : ¬ (((erase s.cache k).length : Int) ≥ s.maxSize) := by rw [r.max, hp.length_eq]; omega
      refine ⟨erase s.cache k, xs.map (fun x => (x.2.2, x.1)), xs, ?_, hp, rfl, by omega, rfl⟩
      rw [r.times, List.map_cons, evict, if_pos hpos]
      cases hx : xs.map (fun x => (x.2.2, x.1)) with
      | nil => rw [evict, if_neg hneg]
      | cons y ys => obtain ⟨t', k'⟩ := y; rw [evict, if_neg hneg]

theorem set_rel {cap : Nat} {s : State K V} {e : List (K × (V × Nat))} (r : Rel cap s e) (k : K) (v : V) (klt : K → K → Bool)
    (h : find e k = none) :
    ∃ s' e', set klt s k v = .ok s' ∧ Rel cap s' e' ∧ abs e' = Spec.add cap (abs e) k v ∧
      find e' k = some (v, s.cur) ∧ s'.accessTime = e'.map (fun x => (x.2.2, x.1)) := by
  obtain ⟨cache, at', e', he, hp, hat, hl, heq⟩ := evict_rel r
  have hsub : e'.Sublist e := by rw [heq]; split; exact List.Sublist.refl _; exact List.tail_sublist e
  have hk : k ∉ e'.map (·.1) := fun hm => (find_eq_none_iff.mp h) ((hsub.map _).subset hm)
  have hnd : (e'.map (·.1)).Nodup := (hsub.map _).nodup r.nodup
  have hrel : Rel cap { s with cur := s.cur + 1, accessTime := msInsert klt (s.cur, k) at', cache := upsert cache k (v, s.cur) }
      (e' ++ [(k, (v, s.cur))]) := by
    refine ⟨r.max, r.capPos, ?_, ?_, ?_, ?_, ?_, ?_⟩
    · simp only [List.length_append, List.length_singleton]; omega
    · rw [List.map_append, List.nodup_append]
      refine ⟨hnd, by simp, ?_⟩
      intro a ha b hb
      simp only [List.map_cons, List.map_nil, List.mem_singleton] at hb
      subst hb
      rintro rfl
      exact hk ha
    · rw [List.map_append, List.pairwise_append]
      refine ⟨r.sorted.sublist (hsub.map _), by simp, ?_⟩
      intro a ha b hb
      simp only [List.map_cons, List.map_nil, List.mem_singleton] at hb
      subst hb
      obtain ⟨x, hx, rfl⟩ := List.mem_map.mp ha
      exact r.fresh x (hsub.subset hx)
    · intro x hx
      simp only [List.mem_append, List.mem_singleton] at hx
      rcases hx with hx | rfl
      · have := r.fresh x (hsub.subset hx)
        simp only; omega
      · simp
    · simp only
      rw [hat, msInsert_last]
      · simp
      · intro y hy
        obtain ⟨x, hx, rfl⟩ := List.mem_map.mp hy
        exact r.fresh x (hsub.subset hx)
    · simp only [upsert]
      have hk' : k ∉ cache.map (·.1) := fun hm => hk ((hp.map _).mem_iff.mp hm)
      rw [erase_of_not_mem hk']
      exact (List.Perm.cons _ hp).trans (List.perm_append_singleton _ _).symm
  refine ⟨_, _, ?_, hrel, ?_, ?_, hrel.times⟩
  · unfold set
    rw [find_rel r, h, he]
    rfl
  · unfold Spec.add abs
    rw [List.map_append, heq, List.length_map]
    split
    · rfl
    · rw [List.map_tail]; rfl
  · rw [find_eq_some_iff hrel.nodup]; simp

theorem remove_rel {cap : Nat} {s : State K V} {e : List (K × (V × Nat))} (r : Rel cap s e) (k : K) :
    Rel cap (remove s k) (erase e k) := by
  refine ⟨r.max, r.capPos, Nat.le_trans (length_erase_le e k) r.len, nodup_erase r.nodup k, sorted_erase r.sorted k,
    fun x hx => r.fresh x (mem_erase hx).1, ?_, erase_perm r.perm k⟩
  unfold remove
  simp only [find_rel r]
  cases h : find e k with
  | some vt =>
    obtain ⟨v, t⟩ := vt
    simp only
    rw [r.times]
    exact msErase_times e r.nodup k v t ((find_eq_some_iff r.nodup).mp h)
  | none =>
    simp only
    have hk := find_eq_none_iff.mp h
    rw [erase_of_not_mem hk, r.times]
    unfold msErase
    rw [List.filter_eq_self]
    rintro ⟨a, b⟩ hab
    obtain ⟨x, hx, hxe⟩ := List.mem_map.mp hab
    simp only [Prod.mk.injEq] at hxe
    rw [decide_eq_true_eq]
    intro hc
    simp only [Prod.mk.injEq] at hc
    apply hk
    rw [← hc.2, ← hxe.2]
    exact List.mem_map_of_mem (f := (·.1)) hx

/-- Overwriting the value of the most recently used entry. -/
theorem rel_assign {cap : Nat} {s : State K V} {e : List (K × (V × Nat))} {k : K} {v : V} {t : Nat}
    (r : Rel cap s (e ++ [(k, (v, t))])) (v' : V) :
    Rel cap { s with cache := upsert s.cache k (v', t) } (e ++ [(k, (v', t))]) := by
  have hnd := r.nodup
  have hk : k ∉ e.map (·.1) := by
    rw [List.map_append, List.nodup_append] at hnd
    intro hm
    exact hnd.2.2 k hm k (by simp) rfl
  refine ⟨r.max, r.capPos, by have := r.len; simp at this ⊢; exact this, ?_, ?_, ?_, ?_, ?_⟩
  · have := r.nodup; simp only [List.map_append, List.map_cons, List.map_nil] at this ⊢; exact this
  · have := r.sorted; simp only [List.map_append, List.map_cons, List.map_nil] at this ⊢; exact this
  · intro x hx
    simp only [List.mem_append, List.mem_singleton] at hx
    rcases hx with hx | rfl
    · exact r.fresh x (by simp [hx])
    · exact r.fresh (k, (v, t)) (by simp)
  · simp only; rw [r.times]; simp
  · simp only [upsert]
    have := erase_perm r.perm k
    have h2 : erase (e ++ [(k, (v, t))]) k = e := by
      unfold erase
      rw [List.filter_append]
      simp only [List.filter_cons, ne_eq, not_true_eq_false, decide_false, Bool.false_eq_true, if_false, List.filter_nil, List.append_nil]
      exact erase_of_not_mem hk
    rw [h2] at this
    exact (List.Perm.cons _ this).trans (List.perm_append_singleton _ _).symm

theorem step_rel {cap : Nat} {s : State K V} {e : List (K × (V × Nat))} (r : Rel cap s e) (klt : K → K → Bool) (dflt : V)
    (op : Op K V) :
    ∃ e', Rel cap (step klt dflt s op).1 e' ∧ abs e' = (Spec.step cap dflt (abs e) op).1 ∧
      (step klt dflt s op).2 = (Spec.step cap dflt (abs e) op).2 := by
  cases op with
  | set k v =>
    simp only [step, Spec.step, lookup_abs]
    cases h : find e k with
    | some vt =>
      have : set klt s k v = .ok s := by unfold set; rw [find_rel r, h]; rfl
      rw [this]
      exact ⟨e, r, rfl, rfl⟩
    | none =>
      obtain ⟨s', e', h1, h2, h3, _⟩ := set_rel r k v klt h
      rw [h1]
      exact ⟨e', h2, h3, rfl⟩
  | get k =>
    simp only [step, Spec.step, lookup_abs]
    cases h : find e k with
    | some vt =>
      obtain ⟨v, t⟩ := vt
      obtain ⟨e', hr, ha⟩ := touch_rel r k klt
      have hf : find (touch klt s k).cache k = some (v, s.cur) := by
        unfold touch
        rw [find_rel r, h]
        simp only
        rw [find_upsert, if_pos rfl]
      have : get klt s k = .ok (v, touch klt s k) := by
        unfold get
        rw [find_rel r, h]
        simp only [Option.isSome_some, if_true, hf]
      rw [this]
      exact ⟨e', hr, ha, rfl⟩
    | none =>
      have : get klt s k = .throw := by unfold get; rw [find_rel r, h]; rfl
      rw [this]
      exact ⟨e, r, rfl, rfl⟩
  | touch k =>
    obtain ⟨e', hr, ha⟩ := touch_rel r k klt
    exact ⟨e', hr, ha, rfl⟩
  | remove k => exact ⟨erase e k, remove_rel r k, (without_abs e k).symm, rfl⟩
  | clear =>
    refine ⟨[], ⟨r.max, r.capPos, by simp, by simp, by simp, by simp, rfl, List.Perm.refl _⟩, rfl, rfl⟩
  | has k =>
    refine ⟨e, r, rfl, ?_⟩
    simp only [step, Spec.step, lookup_abs, has, find_rel r, Option.isSome_map]
  | index k f =>
    simp only [step, Spec.step, lookup_abs]
    cases h : find e k with
    | some vt =>
      obtain ⟨v, t⟩ := vt
      have hm := (find_eq_some_iff r.nodup).mp h
      have htouch : touch klt s k = 
          { s with accessTime := msInsert klt (s.cur, k) (msErase (t, k) s.accessTime), cur := s.cur + 1, cache := upsert s.cache k (v, s.cur) } := by
        unfold touch; rw [find_rel r, h]
      have hr := rel_renew r k v v t hm klt
      rw [← htouch] at hr
      have hf : find (touch klt s k).cache k = some (v, s.cur) := by
        rw [htouch]; simp only; rw [find_upsert, if_pos rfl]
      have : index klt dflt s k f = .ok (v, { touch klt s k with cache := upsert (touch klt s k).cache k (f v, s.cur) }) := by
        unfold index
        rw [find_rel r, h]
        simp only [Option.isSome_some, if_true, hf]
      rw [this]
      refine ⟨_, rel_assign hr (f v), ?_, rfl⟩
      simp only [Option.map_some, without_abs]
      simp [abs]
    | none =>
      obtain ⟨cache, at', e1, he, hp, hat, hl, heq⟩ := evict_rel r
      obtain ⟨s', e', h1, h2, h3, h4, h5⟩ := set_rel r k dflt klt h
      have hf : find s'.cache k = some (dflt, s.cur) := by rw [find_rel h2, h4]
      have : index klt dflt s k f = .ok (dflt, { s' with cache := upsert s'.cache k (f dflt, s.cur) }) := by
        unfold index
        rw [find_rel r, h]
        simp only [Option.isSome_none, Bool.false_eq_true, if_false, h1, hf]
      rw [this]
      -- the new entry is the last one
      have habs : abs e' = (if (abs e).length < cap then abs e else (abs e).tail) ++ [(k, dflt)] := h3
      obtain ⟨e2, x, rfl⟩ : ∃ e2 x, e' = e2 ++ [x] := by
        rcases List.eq_nil_or_concat e' with hh | ⟨l, a, hh⟩
        · rw [hh] at habs; simp [abs] at habs
        · exact ⟨l, a, by simpa using hh⟩
      obtain ⟨k', v', t'⟩ := x
      have h6 : abs e2 = (if (abs e).length < cap then abs e else (abs e).tail) ∧ k' = k ∧ v' = dflt := by
        rw [show abs (e2 ++ [(k', (v', t'))]) = abs e2 ++ [(k', v')] by simp [abs]] at habs
        have := List.append_inj' habs rfl
        simp only [List.cons.injEq, Prod.mk.injEq, and_true] at this
        exact this
      obtain ⟨h6, rfl, rfl⟩ := h6
      have ht : t' = s.cur := by
        have : find (e2 ++ [(k', (v', t'))]) k' = some (v', t') := (find_eq_some_iff h2.nodup).mpr (by simp)
        rw [this] at h4
        simpa using h4
      subst ht
      refine ⟨_, rel_assign h2 (f v'), ?_, rfl⟩
      simp only [Option.map_none, Spec.add]
      rw [show abs (e2 ++ [(k', (f v', s.cur))]) = abs e2 ++ [(k', f v')] by simp [abs], h6]

omit [DecidableEq K] in
theorem new_rel (cap : Nat) (h : 1 ≤ cap) : Rel cap (new (cap : Int) : State K V) [] :=
  ⟨rfl, h, by simp, by simp, by simp, by simp, rfl, List.Perm.refl _⟩

theorem run_rel {cap : Nat} (klt : K → K → Bool) (dflt : V) (ops : List (Op K V)) :
    ∀ {s : State K V} {e : List (K × (V × Nat))}, Rel cap s e → run klt dflt s ops = Spec.run cap dflt (abs e) ops := by
  induction ops with
  | nil => intros; rfl
  | cons op ops ih =>
    intro s e r
    obtain ⟨e', hr, ha, ho⟩ := step_rel r klt dflt op
    rw [run, Spec.run, ho, ih hr, ha]

end Verif.Lru
