import Verif.MpServer.Spec
/-!
# Lemmas on the life of an RPC server
-/
namespace Verif.MpServer.Lemmas
open Verif.MpServer Verif.MpServer.Spec

/-! ### Steps of workers -/

theorem acceptStep_shape {s s' : State} {w : Nat} {fd : Option Nat} {r : Acc} (h : acceptStep s w fd r = some s') :
    ∃ p f, s' = { goto s w p with foreign := f } := by
  unfold acceptStep at h
  cases r with
  | conn => simp only at h; split at h <;> cases h; exact ⟨.setup, s.foreign, rfl⟩
  | closed => simp only at h; split at h <;> cases h; exact ⟨.head, s.foreign, rfl⟩
  | error => simp only at h; cases h; exact ⟨.head, s.foreign, rfl⟩
  | foreign => simp only at h; split at h <;> cases h; exact ⟨.setup, true, rfl⟩

/-- A worker only moves itself, and only if it has not ended. -/
theorem workerStep_shape {s s' : State} {w : Nat} {e : Ev} (h : workerStep s w e = some s') :
    Alive s w ∧ ∃ p f, s' = { goto s w p with foreign := f } := by
  unfold workerStep at h
  cases e with
  | test v =>
    simp only at h
    split at h <;> cases h
    · rename_i hw; exact ⟨⟨_, hw, by simp⟩, _, s.foreign, rfl⟩
    · rename_i hw; exact ⟨⟨_, hw, by simp⟩, _, s.foreign, rfl⟩
  | fetch v =>
    simp only at h
    split at h <;> cases h
    rename_i hw; exact ⟨⟨_, hw, by simp⟩, _, s.foreign, rfl⟩
  | accept v r =>
    simp only at h
    split at h
    · rename_i hw; exact ⟨⟨_, hw, by simp⟩, acceptStep_shape h⟩
    · cases h
  | setup v ok =>
    simp only at h
    split at h
    · rename_i hw
      split at h <;> cases h
      exact ⟨⟨_, hw, by simp⟩, _, s.foreign, rfl⟩
    · cases h
  | receive v r =>
    simp only at h
    split at h
    · rename_i hw
      cases r with
      | msg => simp only at h; cases h; exact ⟨⟨_, hw, by simp⟩, _, s.foreign, rfl⟩
      | eof => simp only at h; cases h; exact ⟨⟨_, hw, by simp⟩, _, s.foreign, rfl⟩
      | timeout => simp only at h; split at h <;> cases h; exact ⟨⟨_, hw, by simp⟩, _, s.foreign, rfl⟩
    · cases h
  | _ => simp at h

theorem alive_set {s s' : State} {w v : Nat} {p : Phase} (hw : Alive s w) (hs : s'.workers = s.workers.set w p)
    (h : Alive s' v) : Alive s v := by
  obtain ⟨q, hq, hd⟩ := h
  rw [hs] at hq
  by_cases e : w = v
  · exact e ▸ hw
  · rw [List.getElem?_set_ne e] at hq; exact ⟨q, hq, hd⟩

/-! ### The invariant -/

/-- What is true of `serv_threads` while the owner is busy. -/
def OwnerOk (s : State) : Prop :=
  match s.owner with
  | .idle => True
  | .starting i n _ => s.threads.length = n ∧ i ≤ n ∧ (∀ k < i, ∃ w, s.threads[k]? = some (.run w)) ∧
      ∀ k x, i ≤ k → s.threads[k]? = some x → ¬ Open x
  | .failing j i => i < s.threads.length ∧ j ≤ i ∧ (∀ k, j ≤ k → k < i → ∃ w, s.threads[k]? = some (.run w)) ∧
      ∀ k x, (k < j ∨ i ≤ k) → s.threads[k]? = some x → ¬ Open x
  | .joining i => Slot.null ∉ s.threads ∧ i ≤ s.threads.length ∧ ∀ k x, k < i → s.threads[k]? = some x → ¬ Open x

/-- Whether the owner is starting threads. -/
def Starting (s : State) : Prop := ∃ i n b, s.owner = .starting i n b

/-- The worker of a thread object. -/
def idOf : Slot → Option Nat
  | .run w => some w
  | _ => none

structure Inv (s : State) : Prop where
  ub : s.ub = false
  dest : s.destroyed = true → s.owner = .idle ∧ s.threads = [] ∧ s.closing = 0
  alive : ∀ w, Alive s w → Slot.run w ∈ s.threads
  range : ∀ w, Slot.run w ∈ s.threads → w < s.workers.length
  nodup : (s.threads.filterMap idOf).Nodup
  flag : (Starting s ∨ ∃ w, Alive s w) → s.listening ≠ none → s.running = true ∨ 0 < s.closing
  runs : s.running = true → s.closing = 0 ∧ (s.destroyed = false → s.listening ≠ none)
  owner : OwnerOk s

theorem inv_new (b : Bool) : Inv (new b) := by
  constructor <;> simp [new, Alive, OwnerOk, Starting]

theorem settled_dead {s : State} (i : Inv s) (h : Settled s) (w : Nat) : ¬ Alive s w :=
  fun ha => h _ (i.alive w ha) trivial

theorem inv_worker {s s' : State} {w : Nat} {e : Ev} (i : Inv s) (h : workerStep s w e = some s') :
    Inv s' ∧ s.destroyed = false := by
  obtain ⟨hw, p, f, rfl⟩ := workerStep_shape h
  have ha : ∀ v, Alive { goto s w p with foreign := f } v → Alive s v := fun v => alive_set hw rfl
  have hd : s.destroyed = false := by
    cases hd : s.destroyed with
    | false => rfl
    | true => have := i.alive w hw; rw [(i.dest hd).2.1] at this; cases this
  refine ⟨⟨i.ub, i.dest, fun v h => i.alive v (ha v h), ?_, i.nodup, ?_, i.runs, i.owner⟩, hd⟩
  · intro v hv; simp only [goto, List.length_set]; exact i.range v hv
  · rintro (h | ⟨v, hv⟩)
    · exact i.flag (.inl h)
    · exact i.flag (.inr ⟨v, ha v hv⟩)

theorem mem_set_ne {l : List Slot} {k : Nat} {x y : Slot} (h : x ∈ l) (hk : ∀ z, l[k]? = some z → z ≠ x) :
    x ∈ l.set k y := by
  obtain ⟨j, hj⟩ := List.mem_iff_getElem?.1 h
  refine List.mem_iff_getElem?.2 ⟨j, ?_⟩
  rw [List.getElem?_set_ne]
  · exact hj
  · rintro rfl; exact hk x hj rfl

theorem mem_of_mem_set {l : List Slot} {k : Nat} {x y : Slot} (h : x ∈ l.set k y) : x = y ∨ x ∈ l := by
  rcases List.mem_or_eq_of_mem_set h with h | h
  · exact .inr h
  · exact .inl h

theorem ids_mem {l : List Slot} {w : Nat} : w ∈ l.filterMap idOf ↔ Slot.run w ∈ l := by
  simp only [List.mem_filterMap]
  constructor
  · rintro ⟨x, hx, he⟩
    cases x <;> simp [idOf] at he
    subst he; exact hx
  · intro h; exact ⟨_, h, rfl⟩

/-- Putting something without a worker into a slot. -/
theorem nodup_set_closed {l : List Slot} (h : (l.filterMap idOf).Nodup) (k : Nat) {y : Slot} (hy : idOf y = none) :
    ((l.set k y).filterMap idOf).Nodup := by
  induction l generalizing k with
  | nil => simp
  | cons x l ih =>
    cases k with
    | zero =>
      rw [List.set_cons_zero, List.filterMap_cons_none hy]
      cases hx : idOf x with
      | none => rwa [List.filterMap_cons_none hx] at h
      | some w => rw [List.filterMap_cons_some hx] at h; exact (List.nodup_cons.1 h).2
    | succ k =>
      rw [List.set_cons_succ]
      cases hx : idOf x with
      | none => rw [List.filterMap_cons_none hx] at h ⊢; exact ih h k
      | some w =>
        rw [List.filterMap_cons_some hx] at h ⊢
        rw [List.nodup_cons] at h ⊢
        refine ⟨fun hm => ?_, ih h.2 k⟩
        rcases mem_of_mem_set (ids_mem.1 hm) with e | e
        · rw [← e] at hy; cases hy
        · exact h.1 (ids_mem.2 e)

/-- Putting a new worker into a slot. -/
theorem nodup_set_new {l : List Slot} (h : (l.filterMap idOf).Nodup) (k w : Nat) (hw : Slot.run w ∉ l) :
    ((l.set k (.run w)).filterMap idOf).Nodup := by
  induction l generalizing k with
  | nil => simp
  | cons x l ih =>
    have hw' : Slot.run w ∉ l := fun m => hw (List.mem_cons_of_mem _ m)
    cases k with
    | zero =>
      rw [List.set_cons_zero, List.filterMap_cons_some (f := idOf) (a := .run w) (b := w) rfl, List.nodup_cons]
      refine ⟨fun hm => hw' (ids_mem.1 hm), ?_⟩
      cases hx : idOf x with
      | none => rwa [List.filterMap_cons_none hx] at h
      | some v => rw [List.filterMap_cons_some hx] at h; exact (List.nodup_cons.1 h).2
    | succ k =>
      rw [List.set_cons_succ]
      cases hx : idOf x with
      | none => rw [List.filterMap_cons_none hx] at h ⊢; exact ih h k hw'
      | some v =>
        rw [List.filterMap_cons_some hx] at h ⊢
        rw [List.nodup_cons] at h ⊢
        refine ⟨fun hm => ?_, ih h.2 k hw'⟩
        rcases mem_of_mem_set (ids_mem.1 hm) with e | e
        · cases e
          cases x <;> simp [idOf] at hx
          subst hx; exact hw List.mem_cons_self
        · exact h.1 (ids_mem.2 e)

/-- Joining a slot that is not null. -/
theorem joinSlot_inv {s s' : State} {k : Nat} (i : Inv s) (hk : ∃ x, s.threads[k]? = some x ∧ x ≠ .null)
    (h : joinSlot s k = some s') : ∃ l, s' = { s with threads := l } ∧ l.length = s.threads.length ∧
      (∀ w, Alive s w → Slot.run w ∈ l) ∧ (∀ w, Slot.run w ∈ l → w < s.workers.length) ∧ (l.filterMap idOf).Nodup ∧
      (∀ j, j ≠ k → l[j]? = s.threads[j]?) ∧ ∃ y, l[k]? = some y ∧ ¬ Open y ∧ y ≠ .null := by
  obtain ⟨x, hx, hn⟩ := hk
  unfold joinSlot at h
  rw [hx] at h
  cases x with
  | null => exact absurd rfl hn
  | fresh =>
    simp only at h; cases h
    exact ⟨s.threads, rfl, rfl, i.alive, i.range, i.nodup, fun _ _ => rfl, _, hx, by simp [Open], hn⟩
  | joined =>
    simp only at h; cases h
    exact ⟨s.threads, rfl, rfl, i.alive, i.range, i.nodup, fun _ _ => rfl, _, hx, by simp [Open], hn⟩
  | run w =>
    simp only at h
    split at h
    · rename_i hd
      cases h
      refine ⟨_, rfl, by simp, ?_, ?_, nodup_set_closed i.nodup k rfl, ?_, .joined, ?_, by simp [Open], by simp⟩
      · intro v hv
        refine mem_set_ne (i.alive v hv) ?_
        rintro z hz rfl
        rw [hx] at hz
        cases hz
        obtain ⟨q, hq, hne⟩ := hv
        rw [hd] at hq
        exact hne (Option.some.inj hq).symm
      · intro v hv
        rcases mem_of_mem_set hv with e | e
        · cases e
        · exact i.range v e
      · intro j hj; exact List.getElem?_set_ne (Ne.symm hj)
      · rw [List.getElem?_set_self]
        exact (List.getElem?_eq_some_iff.1 hx).1
    · cases h

theorem mem_resize {l : List Slot} {n : Nat} {x : Slot} (h : x ∈ resize l n) : x ∈ l ∨ x = .null := by
  unfold resize at h
  rcases List.mem_append.1 h with h | h
  · exact .inl (List.mem_of_mem_take h)
  · exact .inr (List.eq_of_mem_replicate h)

theorem length_resize (l : List Slot) (n : Nat) : (resize l n).length = n := by
  simp [resize]; omega

theorem settled_resize {s : State} (h : Settled s) (n : Nat) : ∀ x ∈ resize s.threads n, ¬ Open x := by
  intro x hx
  rcases mem_resize hx with h' | rfl
  · exact h x h'
  · simp [Open]

theorem closed_ids {l : List Slot} (h : ∀ x ∈ l, ¬ Open x) : l.filterMap idOf = [] := by
  rw [List.filterMap_eq_nil_iff]
  intro x hx
  cases x with
  | run w => exact absurd trivial (h _ hx)
  | _ => rfl

theorem inv_owner {s s' : State} {e : Ev} (i : Inv s) (hp : Proper s e) (h : ownerStep s e = some s') :
    Inv s' ∧ s.destroyed = false := by
  unfold ownerStep at h
  cases e with
  | create ok =>
    simp only at h
    split at h <;> cases h
    rename_i ho
    obtain ⟨hs, hc, hr, hd⟩ := hp
    refine ⟨?_, hd⟩
    have hno : ∀ t : State, t.workers = s.workers → t.owner = s.owner → ¬ (Starting t ∨ ∃ w, Alive t w) := by
      rintro t h1 h2 (⟨a, b, c, h⟩ | ⟨w, p, hw⟩)
      · rw [h2, ho] at h; cases h
      · rw [h1] at hw; exact settled_dead i hs w ⟨p, hw⟩
    unfold create
    split
    · exact ⟨i.ub, fun h => (by rw [hd] at h; cases h), i.alive, i.range, i.nodup, fun h => absurd h (hno _ rfl rfl),
        fun h => (by rw [hr] at h; cases h), i.owner⟩
    · exact ⟨i.ub, fun h => (by rw [hd] at h; cases h), i.alive, i.range, i.nodup, fun h => absurd h (hno _ rfl rfl),
        fun h => (by rw [hr] at h; cases h), i.owner⟩
  | run n sync =>
    simp only at h
    split at h <;> cases h
    rename_i ho
    obtain ⟨hs, hc, hd⟩ := hp
    refine ⟨?_, hd⟩
    unfold runCall
    split
    · exact i
    · rename_i hl
      simp only [Bool.or_eq_true, decide_eq_true_eq, not_or] at hl
      refine ⟨i.ub, fun h => (by rw [hd] at h; cases h), ?_, ?_, ?_, fun _ _ => .inl rfl,
        fun _ => ⟨hc, fun _ => hl.1⟩, ?_⟩
      · intro w hw; exact absurd hw (settled_dead i hs w)
      · intro w hw; exact absurd trivial (settled_resize hs n _ hw)
      · simp only [closed_ids (settled_resize hs n)]; exact List.nodup_nil
      · refine ⟨length_resize _ _, Nat.zero_le _, fun k hk => absurd hk (Nat.not_lt_zero k), ?_⟩
        intro k x _ hx
        exact settled_resize hs n x (List.mem_iff_getElem?.2 ⟨k, hx⟩)
  | start ok =>
    simp only at h
    split at h
    · rename_i a n sync ho
      cases h
      have hd : s.destroyed = false := by
        cases hd : s.destroyed with
        | false => rfl
        | true => have := (i.dest hd).1; rw [ho] at this; cases this
      refine ⟨?_, hd⟩
      have hown := i.owner
      rw [OwnerOk, ho] at hown
      obtain ⟨hlen, hle, hrun, hclosed⟩ := hown
      have hst : Starting s := ⟨_, _, _, ho⟩
      unfold startNext
      split
      · rename_i hlt
        split
        · -- started
          have hnot : Slot.run s.workers.length ∉ s.threads := fun m => absurd (i.range _ m) (Nat.lt_irrefl _)
          have hslot : ∀ z, s.threads[a]? = some z → ¬ Open z := fun z hz => hclosed a z (Nat.le_refl _) hz
          refine ⟨i.ub, fun h => (by rw [hd] at h; cases h), ?_, ?_, nodup_set_new i.nodup _ _ hnot,
            fun _ => i.flag (.inl hst), i.runs, ?_⟩
          · rintro w ⟨q, hq, hne⟩
            rw [List.getElem?_append] at hq
            split at hq
            · refine mem_set_ne (i.alive w ⟨q, hq, hne⟩) ?_
              rintro z hz rfl
              exact hslot _ hz trivial
            · rename_i hge
              rcases Nat.eq_or_lt_of_le (Nat.le_of_not_lt hge) with e | e
              · subst e
                exact List.mem_iff_getElem?.2 ⟨a, List.getElem?_set_self (by omega)⟩
              · rw [List.getElem?_eq_none (by simp; omega)] at hq; cases hq
          · intro w hw
            rw [List.length_append, List.length_singleton]
            rcases mem_of_mem_set hw with e | e
            · cases e; omega
            · have := i.range w e; omega
          · refine ⟨by simp [hlen], hlt, ?_, ?_⟩
            · intro k hk
              by_cases e : k = a
              · subst e; exact ⟨_, List.getElem?_set_self (by omega)⟩
              · obtain ⟨w, hw⟩ := hrun k (by omega)
                exact ⟨w, by rw [List.getElem?_set_ne (Ne.symm e)]; exact hw⟩
            · intro k x hk hx
              simp only at hx
              rw [List.getElem?_set_ne (by omega)] at hx
              exact hclosed k x (by omega) hx
        · -- not started
          refine ⟨i.ub, fun h => (by rw [hd] at h; cases h), ?_, ?_, nodup_set_closed i.nodup _ rfl,
            fun _ h => absurd rfl h, fun h => (by cases h), ?_⟩
          · intro w hw
            refine mem_set_ne (i.alive w hw) ?_
            rintro z hz rfl
            exact hclosed a _ (Nat.le_refl _) hz trivial
          · intro w hw
            rcases mem_of_mem_set hw with e | e
            · cases e
            · exact i.range w e
          · refine ⟨by simp [hlen]; exact hlt, Nat.zero_le _, ?_, ?_⟩
            · intro k _ hk
              obtain ⟨w, hw⟩ := hrun k hk
              exact ⟨w, by simp only; rw [List.getElem?_set_ne (by omega)]; exact hw⟩
            · rintro k x (hk | hk) hx
              · omega
              · simp only at hx
                by_cases e : k = a
                · subst e
                  rw [List.getElem?_set_self (by omega)] at hx
                  cases hx; simp [Open]
                · rw [List.getElem?_set_ne (Ne.symm e)] at hx
                  exact hclosed k x hk hx
      · rename_i hge
        have hnull : Slot.null ∉ s.threads := by
          intro hm
          obtain ⟨k, hk⟩ := List.mem_iff_getElem?.1 hm
          obtain ⟨w, hw⟩ := hrun k (by have := (List.getElem?_eq_some_iff.1 hk).1; omega)
          rw [hk] at hw; cases hw
        unfold runEnd
        refine ⟨i.ub, fun h => (by rw [hd] at h; cases h), i.alive, i.range, i.nodup, ?_, i.runs, ?_⟩
        · rintro _ h; exact i.flag (.inl hst) h
        · cases sync
          · trivial
          · exact ⟨hnull, Nat.zero_le _, fun k x hk => absurd hk (Nat.not_lt_zero k)⟩
    · cases h
  | join =>
    simp only at h
    split at h <;> cases h
    rename_i ho
    obtain ⟨hn, hd⟩ := hp
    refine ⟨⟨i.ub, fun h => (by rw [hd] at h; cases h), i.alive, i.range, i.nodup, ?_, i.runs,
      hn, Nat.zero_le _, fun k x hk => absurd hk (Nat.not_lt_zero k)⟩, hd⟩
    rintro (⟨a, b, c, h⟩ | h)
    · cases h
    · exact i.flag (.inr h)
  | joinNext =>
    simp only at h
    have hd : s.owner ≠ .idle → s.destroyed = false := fun ho => by
      cases hd : s.destroyed with
      | false => rfl
      | true => exact absurd (i.dest hd).1 ho
    split at h
    · rename_i a ho
      have hd := hd (by rw [ho]; simp)
      refine ⟨?_, hd⟩
      have hown := i.owner
      rw [OwnerOk, ho] at hown
      obtain ⟨hnull, hle, hclosed⟩ := hown
      unfold joinNext at h
      split at h
      · rename_i hlt
        rw [Option.map_eq_some_iff] at h
        obtain ⟨s1, h1, rfl⟩ := h
        obtain ⟨x, hx0⟩ : ∃ x, s.threads[a]? = some x := ⟨_, List.getElem?_eq_getElem hlt⟩
        obtain ⟨l, rfl, hll, hal, hra, hnd, hoth, y, hy, hyo, hyn⟩ :=
          joinSlot_inv i ⟨x, hx0, by rintro rfl; exact hnull (List.mem_iff_getElem?.2 ⟨a, hx0⟩)⟩ h1
        refine ⟨i.ub, fun h => (by rw [hd] at h; cases h), hal, hra, hnd, ?_, i.runs, ?_, ?_, ?_⟩
        · rintro (⟨a, b, c, h⟩ | h)
          · cases h
          · exact i.flag (.inr h)
        · intro hm
          obtain ⟨k, hk⟩ := List.mem_iff_getElem?.1 hm
          by_cases e : k = a
          · subst e; simp only at hk; rw [hy] at hk; exact hyn (Option.some.inj hk)
          · simp only at hk; rw [hoth k e] at hk; exact hnull (List.mem_iff_getElem?.2 ⟨k, hk⟩)
        · simp only; omega
        · intro k x hk hx
          simp only at hx
          by_cases e : k = a
          · subst e; rw [hy] at hx; cases hx; exact hyo
          · rw [hoth k e] at hx; exact hclosed k x (by omega) hx
      · rename_i hge
        cases h
        have hdead : ∀ w, ¬ Alive s w := fun w hw => by
          obtain ⟨k, hk⟩ := List.mem_iff_getElem?.1 (i.alive w hw)
          exact hclosed k _ (by have := (List.getElem?_eq_some_iff.1 hk).1; omega) hk trivial
        refine ⟨i.ub, fun h => (by rw [hd] at h; cases h), fun w hw => absurd hw (hdead w), fun w hw => (by cases hw),
          List.nodup_nil, ?_, i.runs, trivial⟩
        rintro (⟨a, b, c, h⟩ | ⟨w, h⟩)
        · cases h
        · exact absurd h (hdead w)
    · rename_i a b ho
      have hd := hd (by rw [ho]; simp)
      refine ⟨?_, hd⟩
      have hown := i.owner
      rw [OwnerOk, ho] at hown
      obtain ⟨hlen, hle, hrun, hclosed⟩ := hown
      unfold failNext at h
      split at h
      · rename_i hlt
        rw [Option.map_eq_some_iff] at h
        obtain ⟨s1, h1, rfl⟩ := h
        obtain ⟨w, hw⟩ := hrun a (Nat.le_refl _) hlt
        obtain ⟨l, rfl, hll, hal, hra, hnd, hoth, y, hy, hyo, hyn⟩ := joinSlot_inv i ⟨_, hw, by simp⟩ h1
        refine ⟨i.ub, fun h => (by rw [hd] at h; cases h), hal, hra, hnd, ?_, i.runs, ?_, hlt, ?_, ?_⟩
        · rintro (⟨a, b, c, h⟩ | h)
          · cases h
          · exact i.flag (.inr h)
        · simp only; omega
        · intro k h1 h2
          simp only
          rw [hoth k (by omega)]
          exact hrun k (by omega) h2
        · intro k x hk hx
          simp only at hx
          by_cases e : k = a
          · subst e; rw [hy] at hx; cases hx; exact hyo
          · rw [hoth k e] at hx; exact hclosed k x (by omega) hx
      · cases h
        refine ⟨i.ub, fun h => (by rw [hd] at h; cases h), i.alive, i.range, i.nodup, ?_, i.runs, trivial⟩
        rintro (⟨a, b, c, h⟩ | h)
        · cases h
        · exact i.flag (.inr h)
    · cases h
  | stopFlag =>
    simp only at h
    cases h
    have hd : s.destroyed = false := hp
    refine ⟨⟨i.ub, fun h => (by rw [hd] at h; cases h), i.alive, i.range, i.nodup, fun _ _ => .inr (Nat.succ_pos _),
      fun h => (by cases h), i.owner⟩, hd⟩
  | stopClose =>
    simp only at h
    split at h <;> cases h
    rename_i hc
    have hd : s.destroyed = false := by
      cases hd : s.destroyed with
      | false => rfl
      | true => have := (i.dest hd).2.2; omega
    refine ⟨⟨i.ub, fun h => (by rw [hd] at h; cases h), i.alive, i.range, i.nodup, fun _ h => absurd rfl h, ?_, i.owner⟩, hd⟩
    intro h
    have := (i.runs h).1
    omega
  | destroy =>
    simp only at h
    split at h <;> cases h
    rename_i ho
    obtain ⟨hs, hc, hd⟩ := hp
    have hdead := settled_dead i hs
    refine ⟨⟨i.ub, fun _ => ⟨ho, rfl, hc⟩, fun w hw => absurd hw (hdead w), fun w hw => (by cases hw), List.nodup_nil,
      fun _ h => absurd rfl h, fun h => ⟨hc, fun h => (by cases h)⟩, ?_⟩, hd⟩
    simp only [OwnerOk, ho]
  | _ => simp at h

theorem step_cases {s s' : State} {e : Ev} (h : step s e = some s') : s.ub = false ∧ ∃ s1,
    s' = (if s.destroyed then { s1 with ub := true } else s1) ∧
      ((∃ w, e.worker = some w ∧ workerStep s w e = some s1) ∨ (e.worker = none ∧ ownerStep s e = some s1)) := by
  unfold step at h
  split at h
  · cases h
  · rename_i hu
    rw [Option.map_eq_some_iff] at h
    obtain ⟨s1, h1, rfl⟩ := h
    refine ⟨by simpa using hu, s1, rfl, ?_⟩
    cases hw : e.worker with
    | some w => rw [hw] at h1; exact .inl ⟨w, rfl, h1⟩
    | none => rw [hw] at h1; exact .inr ⟨rfl, h1⟩

theorem inv_step {s s' : State} {e : Ev} (i : Inv s) (hp : Proper s e) (h : step s e = some s') :
    Inv s' ∧ s.destroyed = false := by
  obtain ⟨_, s1, rfl, (⟨w, _, h1⟩ | ⟨_, h1⟩)⟩ := step_cases h
  · obtain ⟨a, b⟩ := inv_worker i h1
    rw [b]; exact ⟨a, rfl⟩
  · obtain ⟨a, b⟩ := inv_owner i hp h1
    rw [b]; exact ⟨a, rfl⟩

theorem inv_reach {timed : Bool} {s : State} (h : Reach timed s) : Inv s := by
  induction h with
  | new => exact inv_new timed
  | step _ hp hs ih => exact (inv_step ih hp hs).1

/-! ### Coming to rest -/

/-- How many steps a worker can still make after the server was stopped. -/
def weight : Phase → Nat
  | .done => 0
  | .head => 1
  | .inner => 2
  | .recv => 3
  | .setup => 4
  | .acc _ => 5
  | .fetch => 6

/-- And the owner, with the workers it will still start. -/
def ownerWeight (s : State) : Nat :=
  match s.owner with
  | .idle => 0
  | .starting i n _ => 3 * (n - i) + s.threads.length + n + 3
  | .failing j i => i - j + 1
  | .joining i => s.threads.length - i + 1

/-- All together. -/
def total (s : State) : Nat := (s.workers.map weight).sum + ownerWeight s + s.closing

theorem sum_set {l : List Phase} {w : Nat} {p q : Phase} (h : l[w]? = some p) :
    ((l.set w q).map weight).sum + weight p = (l.map weight).sum + weight q := by
  induction l generalizing w with
  | nil => simp at h
  | cons x l ih =>
    cases w with
    | zero => simp at h; subst h; simp; omega
    | succ w =>
      simp only [List.getElem?_cons_succ] at h
      have := ih h
      simp only [List.set_cons_succ, List.map_cons, List.sum_cons]
      omega

theorem goto_total {s : State} {w : Nat} {p q : Phase} (f : Bool) (h : s.workers[w]? = some p) (hq : weight q < weight p) :
    total { goto s w q with foreign := f } < total s := by
  have := sum_set (q := q) h
  have h1 : ownerWeight { goto s w q with foreign := f } = ownerWeight s := rfl
  unfold total
  rw [h1]
  simp only [goto]
  omega

theorem worker_total {s s' : State} {w : Nat} {e : Ev} (hr : s.running = false) (h : workerStep s w e = some s') :
    total s' < total s ∧ s'.running = false := by
  unfold workerStep at h
  cases e with
  | test v =>
    simp only [hr] at h
    split at h <;> cases h
    · rename_i hw; exact ⟨goto_total s.foreign hw (by simp [weight]), hr⟩
    · rename_i hw; exact ⟨goto_total s.foreign hw (by simp [weight]), hr⟩
  | fetch v =>
    simp only at h
    split at h <;> cases h
    rename_i hw; exact ⟨goto_total s.foreign hw (by simp [weight]), hr⟩
  | accept v r =>
    simp only at h
    split at h
    · rename_i hw
      unfold acceptStep at h
      cases r with
      | conn => simp only at h; split at h <;> cases h; exact ⟨goto_total s.foreign hw (by simp [weight]), hr⟩
      | closed => simp only at h; split at h <;> cases h; exact ⟨goto_total s.foreign hw (by simp [weight]), hr⟩
      | error => simp only at h; cases h; exact ⟨goto_total s.foreign hw (by simp [weight]), hr⟩
      | foreign => simp only at h; split at h <;> cases h; exact ⟨goto_total true hw (by simp [weight]), hr⟩
    · cases h
  | setup v ok =>
    simp only at h
    split at h
    · rename_i hw
      split at h <;> cases h
      exact ⟨goto_total s.foreign hw (by cases ok <;> simp [weight]), hr⟩
    · cases h
  | receive v r =>
    simp only at h
    split at h
    · rename_i hw
      cases r with
      | msg => simp only at h; cases h; exact ⟨goto_total s.foreign hw (by simp [weight]), hr⟩
      | eof => simp only at h; cases h; exact ⟨goto_total s.foreign hw (by simp [weight]), hr⟩
      | timeout => simp only at h; split at h <;> cases h; exact ⟨goto_total s.foreign hw (by simp [weight]), hr⟩
    · cases h
  | _ => simp at h

theorem joinSlot_shape {s s' : State} {k : Nat} (h : joinSlot s k = some s') : s'.threads.length = s.threads.length ∧
    s'.workers = s.workers ∧ s'.closing = s.closing ∧ s'.running = s.running := by
  unfold joinSlot at h
  split at h
  · split at h <;> cases h; simp
  · cases h; simp
  · cases h; simp
  · cases h; simp

theorem owner_total {s s' : State} {e : Ev} (hc : ¬ Call e) (hr : s.running = false) (h : ownerStep s e = some s') :
    total s' < total s ∧ s'.running = false := by
  unfold ownerStep at h
  cases e with
  | start ok =>
    simp only at h
    split at h
    · rename_i a n sync ho
      cases h
      unfold startNext
      split
      · rename_i hlt
        split
        · refine ⟨?_, hr⟩
          simp only [total, ownerWeight, ho, List.map_append, List.sum_append, List.length_set, List.map_cons,
            List.map_nil, List.sum_cons, List.sum_nil, weight]
          omega
        · refine ⟨?_, rfl⟩
          simp only [total, ownerWeight, ho]
          omega
      · refine ⟨?_, hr⟩
        unfold runEnd
        cases sync <;> simp only [total, ownerWeight, ho, if_true, Bool.false_eq_true, if_false] <;> omega
    · cases h
  | joinNext =>
    simp only at h
    split at h
    · rename_i a ho
      unfold joinNext at h
      split at h
      · rename_i hlt
        rw [Option.map_eq_some_iff] at h
        obtain ⟨s1, h1, rfl⟩ := h
        obtain ⟨e1, e2, e3, e4⟩ := joinSlot_shape h1
        refine ⟨?_, e4.trans hr⟩
        simp only [total, ownerWeight, ho, e1, e2, e3]
        omega
      · cases h
        refine ⟨?_, hr⟩
        simp only [total, ownerWeight, ho]
        omega
    · rename_i a b ho
      unfold failNext at h
      split at h
      · rename_i hlt
        rw [Option.map_eq_some_iff] at h
        obtain ⟨s1, h1, rfl⟩ := h
        obtain ⟨e1, e2, e3, e4⟩ := joinSlot_shape h1
        refine ⟨?_, e4.trans hr⟩
        simp only [total, ownerWeight, ho, e2, e3]
        omega
      · cases h
        refine ⟨?_, hr⟩
        simp only [total, ownerWeight, ho]
        omega
    · cases h
  | stopClose =>
    simp only at h
    split at h <;> cases h
    refine ⟨?_, hr⟩
    simp only [total, ownerWeight]
    omega
  | create _ => exact absurd trivial hc
  | run _ _ => exact absurd trivial hc
  | join => exact absurd trivial hc
  | stopFlag => exact absurd trivial hc
  | destroy => exact absurd trivial hc
  | _ => simp at h

theorem step_total {s s' : State} {e : Ev} (hc : ¬ Call e) (hr : s.running = false) (h : step s e = some s') :
    total s' < total s ∧ s'.running = false := by
  obtain ⟨_, s1, rfl, h1⟩ := step_cases h
  have : total s1 < total s ∧ s1.running = false := by
    rcases h1 with ⟨w, _, h1⟩ | ⟨_, h1⟩
    · exact worker_total hr h1
    · exact owner_total hc hr h1
  cases s.destroyed
  · exact this
  · exact this

theorem goes_bound {n : Nat} {s s' : State} (h : Goes n s s') (hr : s.running = false) :
    n + total s' ≤ total s ∧ s'.running = false := by
  induction h with
  | zero s => exact ⟨by omega, hr⟩
  | more hc hs _ ih =>
    obtain ⟨h1, h2⟩ := step_total hc hr hs
    obtain ⟨h3, h4⟩ := ih h2
    exact ⟨by omega, h4⟩

theorem proper_of_not_call {s : State} {e : Ev} (h : ¬ Call e) : Proper s e := by
  cases e <;> first | trivial | exact absurd trivial h

theorem goes_reach {timed : Bool} {n : Nat} {s s' : State} (h : Goes n s s') (hr : Reach timed s) : Reach timed s' := by
  induction h with
  | zero => exact hr
  | more hc hs _ ih => exact ih (.step hr (proper_of_not_call hc) hs)

theorem reach_timed {timed : Bool} {s : State} (h : Reach timed s) : s.timed = timed := by
  induction h with
  | new => rfl
  | @step s s' e h hp hs ih =>
    obtain ⟨_, s1, rfl, h1⟩ := step_cases hs
    have : s1.timed = s.timed := by
      rcases h1 with ⟨w, _, h1⟩ | ⟨_, h1⟩
      · obtain ⟨_, p, f, rfl⟩ := workerStep_shape h1; rfl
      · have hj : ∀ k s', joinSlot s k = some s' → s'.timed = s.timed := by
          intro k s' h
          unfold joinSlot at h
          split at h
          · split at h <;> cases h; rfl
          all_goals cases h; rfl
        unfold ownerStep at h1
        cases e with
        | create ok => simp only at h1; split at h1 <;> cases h1; unfold create; split <;> rfl
        | run n b => simp only at h1; split at h1 <;> cases h1; unfold runCall; split <;> rfl
        | start ok =>
          simp only at h1
          split at h1 <;> cases h1
          unfold startNext
          split
          · split <;> rfl
          · rfl
        | joinNext =>
          simp only at h1
          split at h1
          · unfold joinNext at h1
            split at h1
            · rw [Option.map_eq_some_iff] at h1
              obtain ⟨s2, h2, rfl⟩ := h1
              exact hj _ s2 h2
            · cases h1; rfl
          · unfold failNext at h1
            split at h1
            · rw [Option.map_eq_some_iff] at h1
              obtain ⟨s2, h2, rfl⟩ := h1
              exact hj _ s2 h2
            · cases h1; rfl
          · cases h1
        | join => simp only at h1; split at h1 <;> cases h1; rfl
        | stopFlag => simp only at h1; cases h1; rfl
        | stopClose => simp only at h1; split at h1 <;> cases h1; rfl
        | destroy => simp only at h1; split at h1 <;> cases h1; rfl
        | _ => simp at h1
    rw [← ih, ← this]
    cases s.destroyed <;> rfl

theorem step_worker_some {s : State} {e : Ev} {w : Nat} (hu : s.ub = false) (he : e.worker = some w)
    (h : workerStep s w e ≠ none) : step s e ≠ none := by
  unfold step
  rw [hu, he]
  simpa using h

theorem step_owner_some {s : State} {e : Ev} (hu : s.ub = false) (he : e.worker = none)
    (h : ownerStep s e ≠ none) : step s e ≠ none := by
  unfold step
  rw [hu, he]
  simpa using h

/-- At rest after a stop, only clients that say nothing are waited for. -/
theorem rest_alive {s : State} (i : Inv s) (hr : s.running = false) (h : Rest s) (w : Nat) (ha : Alive s w) :
    s.workers[w]? = some .recv ∧ s.timed = false := by
  have hc : s.closing = 0 := by
    apply Classical.byContradiction
    intro hc
    refine step_owner_some i.ub (e := .stopClose) rfl ?_ (h _ trivial)
    simp only [ownerStep]
    rw [if_pos (by omega)]
    simp
  have hl : s.listening = none := by
    apply Classical.byContradiction
    intro hl
    rcases i.flag (.inr ⟨w, ha⟩) hl with e | e
    · rw [hr] at e; cases e
    · omega
  obtain ⟨p, hp, hne⟩ := ha
  cases p with
  | done => exact absurd rfl hne
  | head => exact absurd (h (.test w) trivial) (step_worker_some i.ub rfl (by simp [workerStep, hp]))
  | inner => exact absurd (h (.test w) trivial) (step_worker_some i.ub rfl (by simp [workerStep, hp]))
  | fetch => exact absurd (h (.fetch w) trivial) (step_worker_some i.ub rfl (by simp [workerStep, hp]))
  | acc fd =>
    refine absurd (h (.accept w .closed) trivial) (step_worker_some i.ub rfl ?_)
    simp only [workerStep, hp, acceptStep]
    rw [if_pos]
    · simp
    · cases fd with
      | none => exact .inl rfl
      | some e => rw [hl]; exact .inr (by simp)
  | setup => exact absurd (h (.setup w true) trivial) (step_worker_some i.ub rfl (by simp [workerStep, hp]))
  | recv =>
    refine ⟨hp, ?_⟩
    apply Classical.byContradiction
    intro ht
    exact step_worker_some i.ub (e := .receive w .timeout) rfl (by simp [workerStep, hp, ht]) (h _ trivial)

theorem joinSlot_some {s : State} (i : Inv s) (hd : ∀ w, ¬ Alive s w) (k : Nat) : joinSlot s k ≠ none := by
  unfold joinSlot
  split
  · rename_i w hw
    have hlt := i.range w (List.mem_iff_getElem?.2 ⟨k, hw⟩)
    rw [if_pos]
    · simp
    · apply Classical.byContradiction
      intro hn
      refine hd w ⟨s.workers[w], List.getElem?_eq_getElem hlt, ?_⟩
      intro e
      rw [List.getElem?_eq_getElem hlt, e] at hn
      exact hn rfl
  all_goals simp

theorem rest_idle {s : State} (i : Inv s) (h : Rest s) (hd : ∀ w, ¬ Alive s w) : s.owner = .idle := by
  cases ho : s.owner with
  | idle => rfl
  | starting a n b => exact absurd (h (.start true) trivial) (step_owner_some i.ub rfl (by simp [ownerStep, ho]))
  | failing a b =>
    refine absurd (h .joinNext trivial) (step_owner_some i.ub rfl ?_)
    simp only [ownerStep, ho, failNext]
    split
    · simpa using joinSlot_some i hd a
    · simp
  | joining a =>
    refine absurd (h .joinNext trivial) (step_owner_some i.ub rfl ?_)
    simp only [ownerStep, ho, joinNext]
    split
    · simpa using joinSlot_some i hd a
    · simp

/-! ### Given schedules -/

/-- The state after the given steps. -/
def play : List Ev → State → Option State
  | [], s => some s
  | e :: es, s => (step s e).bind (play es)

theorem play_any {timed : Bool} {es : List Ev} {s s' : State} (h : Any timed s) (hp : play es s = some s') : Any timed s' := by
  induction es generalizing s with
  | nil => cases hp; exact h
  | cons e es ih =>
    simp only [play, Option.bind_eq_some_iff] at hp
    obtain ⟨s1, h1, h2⟩ := hp
    exact ih (.step h h1) h2

/-- Test for `Proper`. -/
def properTest (s : State) : Ev → Bool
  | .create _ => s.threads.all (fun x => (idOf x).isNone) && s.closing == 0 && !s.running && !s.destroyed
  | .run _ _ => s.threads.all (fun x => (idOf x).isNone) && s.closing == 0 && !s.destroyed
  | .join => s.threads.all (fun x => x != .null) && !s.destroyed
  | .stopFlag => !s.destroyed
  | .destroy => s.threads.all (fun x => (idOf x).isNone) && s.closing == 0 && !s.destroyed
  | _ => true

theorem settled_of {s : State} (h : s.threads.all (fun x => (idOf x).isNone) = true) : Settled s := by
  intro x hx
  have := List.all_eq_true.1 h x hx
  cases x <;> simp [idOf] at this <;> simp [Open]

theorem proper_of {s : State} {e : Ev} (h : properTest s e = true) : Proper s e := by
  cases e with
  | create ok =>
    simp only [properTest, Bool.and_eq_true, beq_iff_eq, Bool.not_eq_true'] at h
    exact ⟨settled_of h.1.1.1, h.1.1.2, h.1.2, h.2⟩
  | run n b =>
    simp only [properTest, Bool.and_eq_true, beq_iff_eq, Bool.not_eq_true'] at h
    exact ⟨settled_of h.1.1, h.1.2, h.2⟩
  | join =>
    simp only [properTest, Bool.and_eq_true, Bool.not_eq_true'] at h
    refine ⟨fun hm => ?_, h.2⟩
    have := List.all_eq_true.1 h.1 _ hm
    simp at this
  | stopFlag => simpa [properTest, Proper] using h
  | destroy =>
    simp only [properTest, Bool.and_eq_true, beq_iff_eq, Bool.not_eq_true'] at h
    exact ⟨settled_of h.1.1, h.1.2, h.2⟩
  | _ => trivial

/-- The state after the given steps, if all are proper. -/
def playProper : List Ev → State → Option State
  | [], s => some s
  | e :: es, s => if properTest s e then (step s e).bind (playProper es) else none

theorem play_reach {timed : Bool} {es : List Ev} {s s' : State} (h : Reach timed s) (hp : playProper es s = some s') :
    Reach timed s' := by
  induction es generalizing s with
  | nil => cases hp; exact h
  | cons e es ih =>
    simp only [playProper] at hp
    split at hp
    · rename_i ht
      simp only [Option.bind_eq_some_iff] at hp
      obtain ⟨s1, h1, h2⟩ := hp
      exact ih (.step h (proper_of ht) h1) h2
    · cases hp

end Verif.MpServer.Lemmas
