import Verif.LruRef.Spec
import Verif.Lru.Lemmas

namespace Verif.LruRef.Lemmas
open Verif.AssocMap Verif.LruRef Verif.LruRef.Spec
open Verif.Lru.Spec (lookup without use)

variable {K V : Type} [DecidableEq K]

theorem lookup_find {X : Type} (l : List (K × X)) (k : K) : lookup l k = find l k := rfl

/-- The key of the entry at an address. -/
def keyOf (la : List (K × Nat)) (a : Nat) : Option K := (la.find? fun p => p.2 = a).map (·.1)

omit [DecidableEq K] in
theorem keyOf_iff {la : List (K × Nat)} (hn : (la.map (·.2)).Nodup) {a : Nat} {k : K} : keyOf la a = some k ↔ (k, a) ∈ la := by
  induction la with
  | nil => simp [keyOf]
  | cons p la ih =>
    obtain ⟨k', a'⟩ := p
    simp only [List.map_cons, List.nodup_cons] at hn
    have ih := ih hn.2
    unfold keyOf at ih ⊢
    by_cases h : a' = a
    · subst h
      simp only [List.find?_cons, decide_true, Option.map_some, Option.some.injEq, List.mem_cons, Prod.mk.injEq, and_true]
      constructor
      · intro h; exact .inl h.symm
      · rintro (h | h)
        · exact h.symm
        · exact absurd (List.mem_map_of_mem (f := (·.2)) h) hn.1
    · simp only [List.find?_cons, h, decide_false, List.mem_cons, Prod.mk.injEq, ih]
      constructor
      · exact .inr
      · rintro (⟨_, h'⟩ | h')
        · exact absurd h'.symm h
        · exact h'

/-- The relation between the program's memory and the abstract cache. -/
structure Mem (la : List (K × Nat)) (heap : Nat → Option V) (next : Nat) (refs : Nat → Option Nat) (t : Spec.St K V) : Prop where
  items : List.Forall₂ (fun p q => p.1 = q.1 ∧ heap p.2 = some q.2) la t.items
  keys : (la.map (·.1)).Nodup
  addrs : (la.map (·.2)).Nodup
  fresh : ∀ p ∈ la, p.2 < next
  dead : ∀ a, (∀ p ∈ la, p.2 ≠ a) → heap a = none
  names : ∀ x, t.names x = (refs x).bind (keyOf la)
  bound : ∀ x a, refs x = some a → a < next

variable {la : List (K × Nat)} {heap : Nat → Option V} {next : Nat} {refs : Nat → Option Nat} {t : Spec.St K V}

theorem lookup_forall {la : List (K × Nat)} {l : List (K × V)} (h : List.Forall₂ (fun p q => p.1 = q.1 ∧ heap p.2 = some q.2) la l) (k : K) :
    lookup l k = (lookup la k).bind heap ∧ (lookup l k).isSome = (lookup la k).isSome := by
  induction h with
  | nil => exact ⟨rfl, rfl⟩
  | @cons p q la l hpq _ ih =>
    obtain ⟨h1, h2⟩ := hpq
    simp only [lookup] at ih ⊢
    by_cases hk : p.1 = k
    · have hq : q.1 = k := by rw [← h1, hk]
      simp only [List.find?_cons, hk, hq, decide_true, Option.map_some, Option.bind_some, h2, Option.isSome_some, and_self]
    · have hq : ¬ q.1 = k := by rw [← h1]; exact hk
      simp only [List.find?_cons, hk, hq, decide_false]
      exact ih

theorem without_forall {la : List (K × Nat)} {l : List (K × V)} (h : List.Forall₂ (fun p q => p.1 = q.1 ∧ heap p.2 = some q.2) la l) (k : K) :
    List.Forall₂ (fun p q => p.1 = q.1 ∧ heap p.2 = some q.2) (without la k) (without l k) := by
  induction h with
  | nil => exact .nil
  | @cons p q la l hpq _ ih =>
    simp only [without] at ih ⊢
    by_cases hk : p.1 = k
    · have hq : q.1 = k := by rw [← hpq.1, hk]
      simpa [List.filter_cons, hk, hq] using ih
    · have hq : ¬ q.1 = k := by rw [← hpq.1]; exact hk
      simp only [List.filter_cons, ne_eq, hk, hq, not_false_eq_true, decide_true, if_true]
      exact .cons hpq ih

theorem lookup_mem {X : Type} {l : List (K × X)} (hn : (l.map (·.1)).Nodup) {k : K} {x : X} : lookup l k = some x ↔ (k, x) ∈ l := find_eq_some_iff hn

/-- Using an entry reorders the list. -/
theorem use_mem (m : Mem la heap next refs t) (k : K) : Mem (use la k) heap next refs ⟨use t.items k, t.names⟩ := by
  have hl := lookup_forall m.items k
  unfold use
  cases h : lookup la k with
  | none =>
    rw [h] at hl
    have : lookup t.items k = none := by simpa using hl.1
    rw [this]
    exact m
  | some a =>
    rw [h] at hl
    have hm : (k, a) ∈ la := (lookup_mem m.keys).1 h
    obtain ⟨v, hv⟩ : ∃ v, lookup t.items k = some v := Option.isSome_iff_exists.mp (by simpa using hl.2)
    have hav : heap a = some v := by rw [← hv, hl.1]; rfl
    rw [hv]
    have hp : (without la k ++ [(k, a)]).Perm la := by
      have h1 : (erase la k).Perm (la.erase (k, a)) := by
        refine (List.perm_ext_iff_of_nodup ?_ ?_).2 ?_
        · exact (List.Nodup.of_map _ m.keys).filter _
        · exact (List.Nodup.of_map _ m.keys).erase _
        · intro p
          rw [(List.Nodup.of_map _ m.keys).mem_erase_iff]
          unfold erase
          simp only [List.mem_filter, ne_eq, decide_not, Bool.not_eq_eq_eq_not, Bool.not_true, decide_eq_false_iff_not]
          constructor
          · rintro ⟨h1, h2⟩; exact ⟨by rintro rfl; exact h2 rfl, h1⟩
          · rintro ⟨h1, h2⟩
            refine ⟨h2, fun hk => h1 ?_⟩
            obtain ⟨k', a'⟩ := p
            simp only at hk
            subst hk
            have e1 := (lookup_mem m.keys).2 h2
            rw [h] at e1
            simpa using e1.symm
      exact ((List.Perm.append_right _ h1).trans (List.perm_append_singleton _ _)).trans (List.perm_cons_erase hm).symm
    have hn : ((without la k ++ [(k, a)]).map (·.2)).Nodup := (hp.map _).nodup_iff.mpr m.addrs
    refine ⟨?_, (hp.map _).nodup_iff.mpr m.keys, hn, fun p hp' => m.fresh p (hp.mem_iff.1 hp'), fun a' h' => m.dead a' fun p hp' => h' p (hp.mem_iff.2 hp'), ?_, m.bound⟩
    · refine List.rel_append (without_forall m.items k) (.cons ⟨rfl, hav⟩ .nil)
    · intro x
      rw [m.names x]
      cases refs x with
      | none => rfl
      | some b =>
        simp only [Option.bind_some]
        ext k'
        rw [keyOf_iff m.addrs, keyOf_iff hn, hp.mem_iff]

/-- Binding a reference to an entry. -/
theorem bind_mem (m : Mem la heap next refs t) (x : Nat) {k : K} {a : Nat} (h : lookup la k = some a) : Mem la heap next (upd refs x (some a)) ⟨t.items, named t.names x k⟩ := by
  have hm : (k, a) ∈ la := (lookup_mem m.keys).1 h
  refine ⟨m.items, m.keys, m.addrs, m.fresh, m.dead, ?_, ?_⟩
  · intro y
    by_cases hy : y = x
    · simp only [named, upd, hy, if_true, Option.bind_some, (keyOf_iff m.addrs).2 hm]
    · simp only [named, upd, hy, if_false, m.names y]
  · intro y b hb
    by_cases hy : y = x
    · simp only [upd, hy, if_true, Option.some.injEq] at hb
      rw [← hb]; exact m.fresh _ hm
    · simp only [upd, hy, if_false] at hb
      exact m.bound y b hb

/-- The memory that is kept. -/
def only (la : List (K × Nat)) (h : Nat → Option V) : Nat → Option V := fun a => if la.any (fun p => p.2 = a) then h a else none

omit [DecidableEq K] in
theorem only_mem {la : List (K × Nat)} {p : K × Nat} (h : p ∈ la) : only la heap p.2 = heap p.2 := by
  unfold only
  rw [if_pos (List.any_eq_true.2 ⟨p, h, by simp⟩)]

omit [DecidableEq K] in
theorem only_dead {la : List (K × Nat)} {a : Nat} (h : ∀ p ∈ la, p.2 ≠ a) : only la heap a = none := by
  unfold only
  rw [if_neg]
  intro h'
  obtain ⟨p, hp, e⟩ := List.any_eq_true.1 h'
  exact h p hp (by simpa using e)

/-- Entries leave. -/
theorem drop_mem (m : Mem la heap next refs t) {la' : List (K × Nat)} {l' : List (K × V)} (hs : la'.Sublist la)
    (hf : List.Forall₂ (fun p q => p.1 = q.1 ∧ heap p.2 = some q.2) la' l') : Mem la' (only la' heap) next refs ⟨l', still l' t.names⟩ := by
  have hk : (la'.map (·.1)).Nodup := (hs.map _).nodup m.keys
  have ha : (la'.map (·.2)).Nodup := (hs.map _).nodup m.addrs
  have hf' : List.Forall₂ (fun p q => p.1 = q.1 ∧ only la' heap p.2 = some q.2) la' l' := by
    have aux : ∀ (lb : List (K × Nat)) (l : List (K × V)), lb ⊆ la' → List.Forall₂ (fun p q => p.1 = q.1 ∧ heap p.2 = some q.2) lb l →
        List.Forall₂ (fun p q => p.1 = q.1 ∧ only la' heap p.2 = some q.2) lb l := by
      intro lb l hsub h
      induction h with
      | nil => exact .nil
      | cons hpq _ ih =>
        refine .cons ⟨hpq.1, ?_⟩ (ih fun p hp => hsub (List.mem_cons_of_mem _ hp))
        rw [only_mem (hsub List.mem_cons_self)]; exact hpq.2
    exact aux la' l' (List.Subset.refl _) hf
  refine ⟨hf', hk, ha, fun p hp => m.fresh p (hs.subset hp), fun a h => only_dead h, ?_, m.bound⟩
  intro x
  simp only [still, m.names x]
  cases refs x with
  | none => rfl
  | some a =>
    simp only [Option.bind_some]
    ext k
    simp only [Option.filter_eq_some_iff, keyOf_iff m.addrs, keyOf_iff ha]
    rw [(lookup_forall hf k).2]
    constructor
    · rintro ⟨h1, h2⟩
      obtain ⟨a', h3⟩ := Option.isSome_iff_exists.mp h2
      have h4 := (lookup_mem hk).1 h3
      have h5 := (lookup_mem m.keys).2 (hs.subset h4)
      rw [(lookup_mem m.keys).2 h1] at h5
      simp only [Option.some.injEq] at h5
      rw [h5]; exact h4
    · intro h1
      exact ⟨hs.subset h1, by rw [(lookup_mem hk).2 h1]; rfl⟩

/-- A new entry comes. -/
theorem add_mem (m : Mem la heap next refs t) {k : K} (h : lookup la k = none) (v : V) :
    Mem (la ++ [(k, next)]) (upd heap next (some v)) (next + 1) refs ⟨t.items ++ [(k, v)], t.names⟩ := by
  have hk : k ∉ la.map (·.1) := find_eq_none_iff.1 h
  have hne : ∀ p ∈ la, p.2 ≠ next := fun p hp => Nat.ne_of_lt (m.fresh p hp)
  have ha : ((la ++ [(k, next)]).map (·.2)).Nodup := by
    rw [List.map_append, List.nodup_append]
    refine ⟨m.addrs, by simp, ?_⟩
    intro a ha b hb
    simp only [List.map_cons, List.map_nil, List.mem_singleton] at hb
    obtain ⟨p, hp, rfl⟩ := List.mem_map.1 ha
    rw [hb]; exact hne p hp
  refine ⟨?_, ?_, ha, ?_, ?_, ?_, ?_⟩
  · refine List.rel_append ?_ (.cons ⟨rfl, by simp [upd]⟩ .nil)
    have aux : ∀ (lb : List (K × Nat)) (l : List (K × V)), lb ⊆ la → List.Forall₂ (fun p q => p.1 = q.1 ∧ heap p.2 = some q.2) lb l →
        List.Forall₂ (fun p q => p.1 = q.1 ∧ upd heap next (some v) p.2 = some q.2) lb l := by
      intro lb l hsub h
      induction h with
      | nil => exact .nil
      | cons hpq _ ih =>
        refine .cons ⟨hpq.1, ?_⟩ (ih fun p hp => hsub (List.mem_cons_of_mem _ hp))
        rw [upd, if_neg (hne _ (hsub List.mem_cons_self))]; exact hpq.2
    exact aux la t.items (List.Subset.refl _) m.items
  · rw [List.map_append, List.nodup_append]
    refine ⟨m.keys, by simp, ?_⟩
    intro a hak b hb
    simp only [List.map_cons, List.map_nil, List.mem_singleton] at hb
    subst hb
    rintro rfl
    exact hk (by assumption)
  · intro p hp
    simp only [List.mem_append, List.mem_singleton] at hp
    rcases hp with hp | rfl
    · have := m.fresh p hp; omega
    · simp
  · intro a hh
    have h1 := hh (k, next) (by simp)
    rw [upd, if_neg (fun e => h1 e.symm)]
    exact m.dead a fun p hp => hh p (by simp [hp])
  · intro x
    rw [m.names x]
    cases hr : refs x with
    | none => rfl
    | some a =>
      simp only [Option.bind_some]
      ext k'
      rw [keyOf_iff m.addrs, keyOf_iff ha]
      simp only [List.mem_append, List.mem_singleton, Prod.mk.injEq]
      constructor
      · exact .inl
      · rintro (h | ⟨_, h⟩)
        · exact h
        · exact absurd h (Nat.ne_of_lt (m.bound x a hr))
  · intro x a hr
    have := m.bound x a hr; omega

/-- A value is changed. -/
theorem write_mem (m : Mem la heap next refs t) {k : K} {a : Nat} (h : (k, a) ∈ la) (v : V) :
    Mem la (upd heap a (some v)) next refs ⟨assign t.items k v, t.names⟩ := by
  refine ⟨?_, m.keys, m.addrs, m.fresh, ?_, m.names, m.bound⟩
  · have aux : ∀ (lb : List (K × Nat)) (l : List (K × V)), lb ⊆ la → List.Forall₂ (fun p q => p.1 = q.1 ∧ heap p.2 = some q.2) lb l →
        List.Forall₂ (fun p q => p.1 = q.1 ∧ upd heap a (some v) p.2 = some q.2) lb (assign l k v) := by
      intro lb l hsub hh
      induction hh with
      | nil => exact .nil
      | @cons p q lb l hpq _ ih =>
        refine .cons ?_ (ih fun p hp => hsub (List.mem_cons_of_mem _ hp))
        have hp := hsub (List.mem_cons_self (a := p) (l := lb))
        by_cases hk : q.1 = k
        · simp only [if_pos hk]
          refine ⟨by rw [hpq.1, hk], ?_⟩
          obtain ⟨k', a'⟩ := p
          have : k' = k := by rw [← hk]; exact hpq.1
          subst this
          have h1 := (lookup_mem m.keys).2 hp
          rw [(lookup_mem m.keys).2 h] at h1
          simp only [Option.some.injEq] at h1
          simp [upd, h1]
        · simp only [if_neg hk]
          refine ⟨hpq.1, ?_⟩
          rw [upd, if_neg]
          · exact hpq.2
          · intro e
            obtain ⟨k', a'⟩ := p
            simp only at e
            subst e
            have h1 := (keyOf_iff m.addrs).2 hp
            rw [(keyOf_iff m.addrs).2 h] at h1
            simp only [Option.some.injEq] at h1
            exact hk (by rw [← hpq.1, h1])
    exact aux la t.items (List.Subset.refl _) m.items
  · intro b hb
    have : b ≠ a := fun e => hb _ h e.symm
    rw [upd, if_neg this]
    exact m.dead b hb

/-- What is read through a reference. -/
theorem ref_read (m : Mem la heap next refs t) (x : Nat) : (refs x).bind heap = (t.names x).bind (lookup t.items) := by
  rw [m.names x]
  cases refs x with
  | none => rfl
  | some a =>
    simp only [Option.bind_some]
    cases h : keyOf la a with
    | none =>
      refine m.dead a fun p hp e => ?_
      obtain ⟨k, a'⟩ := p
      simp only at e
      subst e
      rw [(keyOf_iff m.addrs).2 hp] at h
      exact absurd h (by simp)
    | some k =>
      have hm := (keyOf_iff m.addrs).1 h
      simp only [Option.bind_some, (lookup_forall m.items k).1, (lookup_mem m.keys).2 hm]

/-- The whole relation. -/
def R (cap : Nat) (s : LruRef.St K V) (t : Spec.St K V) : Prop := ∃ e, Lru.Rel cap s.lru e ∧ Mem (Lru.abs e) s.heap s.next s.refs t

omit [DecidableEq K] in
theorem keep_only {c e : List (K × (Nat × Nat))} (hp : c.Perm e) (h : Nat → Option V) : keep c h = only (Lru.abs e) h := by
  funext a
  have : c.any (fun x => x.2.1 = a) = (Lru.abs e).any (fun p => p.2 = a) := by
    rw [Bool.eq_iff_iff, List.any_eq_true, List.any_eq_true]
    constructor
    · rintro ⟨x, hx, hh⟩
      exact ⟨(x.1, x.2.1), List.mem_map.2 ⟨x, hp.mem_iff.1 hx, rfl⟩, hh⟩
    · rintro ⟨p, hp', hh⟩
      obtain ⟨x, hx, rfl⟩ := List.mem_map.1 hp'
      exact ⟨x, hp.mem_iff.2 hx, hh⟩
  simp only [keep, only, this]

theorem has_eq {cap : Nat} {s : LruRef.St K V} {e : List (K × (Nat × Nat))} (r : Lru.Rel cap s.lru e) (m : Mem (Lru.abs e) s.heap s.next s.refs t) (k : K) :
    Lru.has s.lru k = (lookup t.items k).isSome ∧ (lookup (Lru.abs e) k).isSome = (lookup t.items k).isSome := by
  have h := (lookup_forall m.items k).2
  refine ⟨?_, h.symm⟩
  rw [h, Lru.has, Lru.find_rel r, Lru.lookup_abs, Option.isSome_map]

omit [DecidableEq K] in
theorem room_forall {cap : Nat} {la : List (K × Nat)} {l : List (K × V)} (h : List.Forall₂ (fun p q => p.1 = q.1 ∧ heap p.2 = some q.2) la l) :
    List.Forall₂ (fun p q => p.1 = q.1 ∧ heap p.2 = some q.2) (room cap la) (room cap l) := by
  unfold room
  rw [h.length_eq]
  split
  · exact h
  · cases h with
    | nil => exact .nil
    | cons _ ht => exact ht

omit [DecidableEq K] in
theorem room_sublist {X : Type} (cap : Nat) (l : List (K × X)) : (room cap l).Sublist l := by
  unfold room; split
  · exact List.Sublist.refl _
  · exact List.tail_sublist l

/-- `set` of a key that is not there. -/
theorem set_new {cap : Nat} {s : LruRef.St K V} (r : R cap s t) (klt : K → K → Bool) (k : K) (v : Src V) (hk : lookup t.items k = none) :
    match argument (room cap t.items) t.names v with
    | some w => (set klt s k v).2 = .unit ∧ R cap (set klt s k v).1 ⟨room cap t.items ++ [(k, w)], still (room cap t.items) t.names⟩ ∧
        (set klt s k v).1.refs = s.refs
    | none => set klt s k v = (s, .ub) := by
  obtain ⟨e, hr, m⟩ := r
  have hh := has_eq hr m k
  rw [hk] at hh
  have hf : find e k = none := by
    have := hh.2
    rw [Lru.lookup_abs] at this
    simpa using this
  obtain ⟨l, e', h1, h2, h3, -, -⟩ := Lru.set_rel hr k s.next klt hf
  have h3' : Lru.abs e' = room cap (Lru.abs e) ++ [(k, s.next)] := h3
  have m' := drop_mem m (room_sublist cap _) (room_forall m.items)
  have hkeep : keep l.cache s.heap = only (room cap (Lru.abs e)) s.heap := by
    rw [keep_only h2.perm, h3']
    funext a
    simp only [only, List.any_append, List.any_cons, List.any_nil, Bool.or_false]
    by_cases ha : a = s.next
    · have : s.heap s.next = none := m.dead _ fun p hp => Nat.ne_of_lt (m.fresh p hp)
      subst ha
      simp [this]
    · have : decide (s.next = a) = false := by simpa using fun e => ha e.symm
      rw [this, Bool.or_false]
  have hread : v.read s.refs (only (room cap (Lru.abs e)) s.heap) = argument (room cap t.items) t.names v := by
    cases v with
    | lit w => rfl
    | ref x =>
      simp only [Src.read, argument]
      rw [ref_read m' x]
      simp only [still]
      cases t.names x with
      | none => rfl
      | some j =>
        simp only [Option.filter_some, Option.bind_some]
        cases hj : lookup (room cap t.items) j <;> simp [hj]
  unfold set
  simp only [hh.1, Option.isSome_none, Bool.false_eq_true, if_false, h1, hkeep, hread]
  have hk' : lookup (room cap (Lru.abs e)) k = none := by
    rw [lookup_find, find_eq_none_iff]
    intro hm
    have := ((room_sublist cap (Lru.abs e)).map (·.1)).subset hm
    rw [← find_isSome_iff, ← lookup_find, hh.2] at this
    simp at this
  cases argument (room cap t.items) t.names v with
  | none => rfl
  | some w =>
    refine ⟨rfl, ⟨e', h2, ?_⟩, rfl⟩
    rw [h3']
    exact add_mem m' hk' w

/-- `touch` of a key that is there. -/
theorem touch_R {cap : Nat} {s : LruRef.St K V} (r : R cap s t) (klt : K → K → Bool) (k : K) :
    R cap { s with lru := Lru.touch klt s.lru k } ⟨use t.items k, t.names⟩ := by
  obtain ⟨e, hr, m⟩ := r
  obtain ⟨e', h1, h2⟩ := Lru.touch_rel hr k klt
  exact ⟨e', h1, by rw [h2]; exact use_mem m k⟩

theorem bind_R {cap : Nat} {s : LruRef.St K V} (r : R cap s t) (x : Nat) (k : K) {a n : Nat} (h : find s.lru.cache k = some (a, n)) :
    R cap { s with refs := upd s.refs x (some a) } ⟨t.items, named t.names x k⟩ := by
  obtain ⟨e, hr, m⟩ := r
  rw [Lru.find_rel hr] at h
  exact ⟨e, hr, bind_mem m x (by rw [Lru.lookup_abs, h]; rfl)⟩

theorem find_R {cap : Nat} {s : LruRef.St K V} (r : R cap s t) {k : K} (h : (lookup t.items k).isSome) : ∃ a n, find s.lru.cache k = some (a, n) := by
  obtain ⟨e, hr, m⟩ := r
  have := (has_eq hr m k).1
  rw [h, Lru.has] at this
  obtain ⟨⟨a, n⟩, hx⟩ := Option.isSome_iff_exists.1 this
  exact ⟨a, n, hx⟩

theorem lookup_use {X : Type} (l : List (K × X)) (k : K) : lookup (use l k) k = lookup l k := by
  unfold use
  cases h : lookup l k with
  | none => exact h
  | some a =>
    have : lookup (without l k) k = none := by
      rw [lookup_find, find_eq_none_iff]
      intro hm
      obtain ⟨p, hp, e⟩ := List.mem_map.1 hm
      unfold without at hp
      rw [List.mem_filter] at hp
      simp [e] at hp
    unfold lookup at this ⊢
    simp only [Option.map_eq_none_iff] at this
    rw [List.find?_append, this]
    simp

/-- The names mean entries that are there. -/
theorem names_good {cap : Nat} {s : LruRef.St K V} (r : R cap s t) {x : Nat} {k : K} (h : t.names x = some k) : (lookup t.items k).isSome := by
  obtain ⟨e, hr, m⟩ := r
  rw [m.names x] at h
  obtain ⟨a, -, h2⟩ := Option.bind_eq_some_iff.1 h
  have := (keyOf_iff m.addrs).1 h2
  rw [(lookup_forall m.items k).2, (lookup_mem m.keys).2 this]; rfl

omit [DecidableEq K] in
theorem length_R {cap : Nat} {s : LruRef.St K V} (r : R cap s t) : t.items.length ≤ cap := by
  obtain ⟨e, hr, m⟩ := r
  rw [← m.items.length_eq, Lru.abs, List.length_map]
  exact hr.len

theorem step_R {cap : Nat} {s : LruRef.St K V} (r : R cap s t) (klt : K → K → Bool) (dflt : V) (op : Op K V) :
    (step klt dflt s op).2 = (Spec.step cap dflt t op).2 ∧ R cap (step klt dflt s op).1 (Spec.step cap dflt t op).1 := by
  obtain ⟨e, hr, m⟩ := id r
  cases op with
  | set k v =>
    simp only [step, Spec.step]
    cases h : lookup t.items k with
    | some w =>
      have := (has_eq hr m k).1
      rw [h] at this
      unfold set
      rw [this]
      exact ⟨rfl, r⟩
    | none =>
      have := set_new r klt k v h
      cases ha : argument (room cap t.items) t.names v with
      | none => rw [ha] at this; simp only at this; rw [this]; exact ⟨rfl, r⟩
      | some w => rw [ha] at this; exact ⟨this.1, this.2.1⟩
  | get x k =>
    simp only [step, Spec.step]
    cases h : lookup t.items k with
    | some w =>
      obtain ⟨a, n, hf⟩ := find_R r (k := k) (by rw [h]; rfl)
      have hr' := touch_R r klt k
      obtain ⟨a', n', hf'⟩ := find_R hr' (k := k) (by rw [lookup_use, h]; rfl)
      have : Lru.get klt s.lru k = .ok (a', Lru.touch klt s.lru k) := by
        unfold Lru.get
        simp only at hf'
        rw [hf]
        simp only [Option.isSome_some, if_true, hf']
      rw [this]
      exact ⟨rfl, bind_R hr' x k hf'⟩
    | none =>
      have h' := (has_eq hr m k).1
      rw [h, Lru.has] at h'
      have : Lru.get klt s.lru k = .throw := by
        unfold Lru.get
        rw [h']; rfl
      rw [this]
      exact ⟨rfl, r⟩
  | index x k =>
    simp only [step, Spec.step]
    have hh := (has_eq hr m k).1
    cases h : lookup t.items k with
    | some w =>
      rw [h] at hh
      have hr' := touch_R r klt k
      obtain ⟨a', n', hf'⟩ := find_R hr' (k := k) (by rw [lookup_use, h]; rfl)
      simp only at hf'
      simp only [hh, Option.isSome_some, if_true, hf']
      exact ⟨trivial, bind_R hr' x k hf'⟩
    | none =>
      rw [h] at hh
      obtain ⟨h1, h2, h3⟩ := set_new r klt k (.lit dflt) h
      have hl : (lookup (room cap t.items ++ [(k, dflt)]) k).isSome := by
        rw [lookup_find, find_isSome_iff]; simp
      obtain ⟨a', n', hf'⟩ := find_R h2 hl
      simp only [hh, Option.isSome_none, Bool.false_eq_true, if_false, h1, hf']
      rw [← h3]
      exact ⟨trivial, bind_R h2 x k hf'⟩
  | read x =>
    simp only [step, Spec.step, ref_read m x]
    cases (t.names x).bind (lookup t.items) <;> exact ⟨rfl, r⟩
  | write x v =>
    simp only [step, Spec.step]
    have hn := m.names x
    cases hx : s.refs x with
    | none => rw [hx] at hn; rw [show t.names x = none from hn]; exact ⟨rfl, r⟩
    | some a =>
      rw [hx] at hn
      simp only [Option.bind_some] at hn
      cases hk : keyOf (Lru.abs e) a with
      | none =>
        have hd : s.heap a = none := by
          refine m.dead a fun p hp e' => ?_
          obtain ⟨k, a'⟩ := p
          simp only at e'
          subst e'
          rw [(keyOf_iff m.addrs).2 hp] at hk
          exact absurd hk (by simp)
        rw [hn, hk]
        simp only [hd, Option.isSome_none, Bool.false_eq_true, if_false]
        exact ⟨trivial, r⟩
      | some k =>
        have hm := (keyOf_iff m.addrs).1 hk
        have hs : (s.heap a).isSome = true := by
          have h1 := (lookup_forall m.items k).1
          have h2 := (lookup_forall m.items k).2
          rw [(lookup_mem m.keys).2 hm] at h1 h2
          simp only [Option.bind_some] at h1
          rw [← h1, h2]; rfl
        rw [hn, hk]
        simp only [hs, if_true]
        exact ⟨trivial, e, hr, write_mem m hm v⟩
  | touch k => exact ⟨rfl, touch_R r klt k⟩
  | remove k =>
    have h1 := Lru.remove_rel hr k
    refine ⟨rfl, _, h1, ?_⟩
    simp only [step, Spec.step]
    rw [keep_only h1.perm, ← Lru.without_abs]
    exact drop_mem m List.filter_sublist (without_forall m.items k)
  | clear =>
    have h1 : Lru.Rel cap (Lru.clear s.lru) [] := ⟨hr.max, hr.capPos, by simp, by simp, by simp, by simp, rfl, List.Perm.refl _⟩
    refine ⟨rfl, _, h1, ?_⟩
    simp only [step, Spec.step]
    rw [keep_only h1.perm]
    have := drop_mem m (la' := []) (l' := []) (List.nil_sublist _) .nil
    have e' : still ([] : List (K × V)) t.names = fun _ => none := by
      funext x
      simp only [still]
      cases t.names x <;> rfl
    rw [e'] at this
    exact this
  | has k =>
    refine ⟨?_, r⟩
    simp only [step, Spec.step, (has_eq hr m k).1]

omit [DecidableEq K] in
theorem new_R (cap : Nat) (h : 1 ≤ cap) : R cap (new (cap : Int) : LruRef.St K V) Spec.empty :=
  ⟨[], Lru.new_rel cap h, ⟨.nil, by simp [Lru.abs], by simp [Lru.abs], by simp [Lru.abs], fun _ _ => rfl, fun _ => rfl, fun _ _ h => by simp [new] at h⟩⟩

theorem run_R {cap : Nat} (klt : K → K → Bool) (dflt : V) (ops : List (Op K V)) :
    ∀ {s : LruRef.St K V} {t : Spec.St K V}, R cap s t → run klt dflt s ops = Spec.run cap dflt t ops := by
  induction ops with
  | nil => intros; rfl
  | cons op ops ih =>
    intro s t r
    obtain ⟨h1, h2⟩ := step_R r klt dflt op
    simp only [run, Spec.run]
    rcases hs : step klt dflt s op with ⟨s', o⟩
    rcases ht : Spec.step cap dflt t op with ⟨t', o'⟩
    rw [hs, ht] at h1 h2
    simp only at h1 h2
    subst h1
    cases o <;> simp only [ih h2]

/-- The state after a program of the specification. -/
def after (cap : Nat) (dflt : V) : Spec.St K V → List (Op K V) → Spec.St K V
  | t, [] => t
  | t, op :: ops => after cap dflt (Spec.step cap dflt t op).1 ops

theorem run_append {cap : Nat} (dflt : V) (ops ops' : List (Op K V)) (t : Spec.St K V) (h : Lru.Out.ub ∉ Spec.run cap dflt t ops) :
    Spec.run cap dflt t (ops ++ ops') = Spec.run cap dflt t ops ++ Spec.run cap dflt (after cap dflt t ops) ops' := by
  induction ops generalizing t with
  | nil => rfl
  | cons op ops ih =>
    simp only [List.cons_append, Spec.run, after] at h ⊢
    rcases hs : Spec.step cap dflt t op with ⟨t', o⟩
    rw [hs] at h
    cases o <;> simp only [List.mem_cons, reduceCtorEq, false_or, List.not_mem_nil, or_false, not_true_eq_false] at h ⊢ <;> rw [ih _ h] <;> rfl

theorem after_R {cap : Nat} (klt : K → K → Bool) (dflt : V) (ops : List (Op K V)) :
    ∀ {s : LruRef.St K V} {t : Spec.St K V}, R cap s t → ∃ s', R cap s' (after cap dflt t ops) := by
  induction ops with
  | nil => intro s t r; exact ⟨s, r⟩
  | cons op ops ih =>
    intro s t r
    exact ih (step_R r klt dflt op).2

theorem lookup_add {l : List (K × V)} {j k : K} (v : V) (h : j ≠ k) : lookup (l ++ [(j, v)]) k = lookup l k := by
  simp only [lookup, List.find?_append, List.find?_cons, h, decide_false, List.find?_nil, Option.or_none]

theorem lookup_add_self {l : List (K × V)} {k : K} (v : V) (h : lookup l k = none) : lookup (l ++ [(k, v)]) k = some v := by
  simp only [lookup, Option.map_eq_none_iff] at h
  simp only [lookup, List.find?_append, h, List.find?_cons, decide_true, Option.none_or, Option.map_some]

theorem lookup_assign (l : List (K × V)) (j : K) (v : V) (k : K) : (lookup (assign l j v) k).isSome = (lookup l k).isSome := by
  induction l with
  | nil => rfl
  | cons p l ih =>
    simp only [lookup, assign, List.map_cons, List.find?_cons] at ih ⊢
    by_cases h : p.1 = j
    · subst h
      by_cases h' : p.1 = k
      · simp [h']
      · simp only [if_true, h', decide_false]; exact ih
    · by_cases h' : p.1 = k
      · have : ¬ k = j := by rw [← h']; exact h
        simp only [h', this, if_false, decide_true, Option.map_some, Option.isSome_some]
      · simp only [h, if_false, h', decide_false]; exact ih

theorem lookup_use_isSome (l : List (K × V)) (j k : K) : (lookup (use l j) k).isSome = (lookup l k).isSome := by
  by_cases h : j = k
  · subst h; rw [lookup_use]
  · unfold use
    cases lookup l j with
    | none => rfl
    | some v =>
      simp only
      rw [lookup_add v h]
      unfold lookup without
      rw [List.find?_filter]
      congr 2
      congr 1
      funext e
      by_cases he : e.1 = k
      · have : e.1 ≠ j := fun h' => h (h'.symm.trans he)
        simp [he, Ne.symm h]
      · simp [he]

/-- A name in the state that follows. -/
theorem names_step {cap : Nat} {s : LruRef.St K V} (r : R cap s t) (dflt : V) {x : Nat} {k : K} (h : t.names x = some k) {op : Op K V} (hb : binds x op = false) :
    (Spec.step cap dflt t op).1.names x = cond (lookup (Spec.step cap dflt t op).1.items k).isSome (some k) none := by
  have hg := names_good r h
  cases op with
  | set j v =>
    simp only [Spec.step]
    cases hj : lookup t.items j with
    | some w => simp only [hg, cond_true, h]
    | none =>
      have hne : j ≠ k := by rintro rfl; rw [hj] at hg; simp at hg
      cases argument (room cap t.items) t.names v with
      | none => simp only [hg, cond_true, h]
      | some w =>
        simp only [lookup_add w hne, still, h]
        cases hq : lookup (room cap t.items) k <;> simp [Option.filter, hq]
  | get y j =>
    simp only [binds, decide_eq_false_iff_not] at hb
    simp only [Spec.step]
    cases hj : lookup t.items j with
    | some w => simp only [lookup_use_isSome, hg, cond_true, named, Ne.symm hb, if_false, h]
    | none => simp only [hg, cond_true, h]
  | index y j =>
    simp only [binds, decide_eq_false_iff_not] at hb
    simp only [Spec.step]
    cases hj : lookup t.items j with
    | some w => simp only [lookup_use_isSome, hg, cond_true, named, Ne.symm hb, if_false, h]
    | none =>
      have hne : j ≠ k := by rintro rfl; rw [hj] at hg; simp at hg
      simp only [lookup_add dflt hne, named, Ne.symm hb, if_false, still, h]
      cases hq : lookup (room cap t.items) k <;> simp [Option.filter, hq]
  | read y =>
    simp only [Spec.step]
    cases (t.names y).bind (lookup t.items) <;> simp only [hg, cond_true, h]
  | write y v =>
    simp only [Spec.step]
    cases t.names y with
    | none => simp only [hg, cond_true, h]
    | some j => simp only [lookup_assign, hg, cond_true, h]
  | touch j => simp only [Spec.step, lookup_use_isSome, hg, cond_true, h]
  | remove j =>
    simp only [Spec.step, still, h]
    cases hq : lookup (without t.items j) k <;> simp [Option.filter, hq]
  | clear => simp [Spec.step, lookup]
  | has j => simp only [Spec.step, hg, cond_true, h]

theorem names_none {cap : Nat} (dflt : V) {x : Nat} (h : t.names x = none) {op : Op K V} (hb : binds x op = false) : (Spec.step cap dflt t op).1.names x = none := by
  have hst : ∀ l : List (K × V), still l t.names x = none := fun l => by simp [still, h]
  cases op with
  | set j v =>
    simp only [Spec.step]
    cases lookup t.items j with
    | some w => exact h
    | none => cases argument (room cap t.items) t.names v <;> first | exact h | exact hst _
  | get y j =>
    simp only [binds, decide_eq_false_iff_not] at hb
    simp only [Spec.step]
    cases lookup t.items j <;> simp only [named, Ne.symm hb, if_false, h]
  | index y j =>
    simp only [binds, decide_eq_false_iff_not] at hb
    simp only [Spec.step]
    cases lookup t.items j <;> simp only [named, Ne.symm hb, if_false, h, hst]
  | read y => simp only [Spec.step]; cases (t.names y).bind (lookup t.items) <;> exact h
  | write y v => simp only [Spec.step]; cases t.names y <;> exact h
  | touch j => exact h
  | remove j => exact hst _
  | clear => rfl
  | has j => exact h

/-- What follows a program. -/
theorem follow {cap : Nat} (hc : 1 ≤ cap) (klt : K → K → Bool) (dflt : V) (ops : List (Op K V)) (h : Lru.Out.ub ∉ run klt dflt (new (cap : Int)) ops) :
    ∃ s t, R cap s t ∧ t = after cap dflt Spec.empty ops ∧ ∀ ops', run klt dflt (new (cap : Int)) (ops ++ ops') = run klt dflt (new (cap : Int)) ops ++ Spec.run cap dflt t ops' := by
  obtain ⟨s, hs⟩ := after_R klt dflt ops (new_R (K := K) (V := V) cap hc)
  refine ⟨s, _, hs, rfl, fun ops' => ?_⟩
  rw [run_R klt dflt _ (new_R cap hc)] at h
  rw [run_R klt dflt _ (new_R cap hc), run_R klt dflt _ (new_R cap hc), run_append dflt ops ops' _ h]

theorem after_append {cap : Nat} (dflt : V) (ops ops' : List (Op K V)) (t : Spec.St K V) : after cap dflt t (ops ++ ops') = after cap dflt (after cap dflt t ops) ops' := by
  induction ops generalizing t with
  | nil => rfl
  | cons op ops ih => exact ih _

/-- A name while its entry stays. -/
theorem names_after {cap : Nat} {s : LruRef.St K V} (r : R cap s t) (klt : K → K → Bool) (dflt : V) {x : Nat} {k : K} (h : t.names x = some k) (ops : List (Op K V))
    (hb : ∀ op ∈ ops, binds x op = false) (hs : ∀ p, p <+: ops → (lookup (after cap dflt t p).items k).isSome) : (after cap dflt t ops).names x = some k := by
  induction ops generalizing s t with
  | nil => exact h
  | cons op ops ih =>
    have h1 := hs [op] (by simp)
    have h2 := names_step r dflt h (hb op (by simp))
    simp only [after] at h1
    rw [h1, cond_true] at h2
    exact ih (step_R r klt dflt op).2 h2 (fun o ho => hb o (by simp [ho])) (fun p hp => hs (op :: p) (by simpa using hp))

theorem none_after {cap : Nat} (dflt : V) {x : Nat} (h : t.names x = none) (ops : List (Op K V)) (hb : ∀ op ∈ ops, binds x op = false) :
    (after cap dflt t ops).names x = none := by
  induction ops generalizing t with
  | nil => exact h
  | cons op ops ih => exact ih (names_none dflt h (hb op (by simp))) (fun o ho => hb o (by simp [ho]))

/-- A name whose entry has left. -/
theorem lost_after {cap : Nat} {s : LruRef.St K V} (r : R cap s t) (klt : K → K → Bool) (dflt : V) {x : Nat} {k : K} (h : t.names x = some k) (ops : List (Op K V))
    (hb : ∀ op ∈ ops, binds x op = false) {p : List (Op K V)} (hp : p <+: ops) (hs : lookup (after cap dflt t p).items k = none) : (after cap dflt t ops).names x = none := by
  induction ops generalizing s t p with
  | nil =>
    have := names_good r h
    simp only [List.prefix_nil] at hp
    subst hp
    simp only [after] at hs
    rw [hs] at this; simp at this
  | cons op ops ih =>
    have hb' : ∀ o ∈ ops, binds x o = false := fun o ho => hb o (by simp [ho])
    cases p with
    | nil => have := names_good r h; simp only [after] at hs; rw [hs] at this; simp at this
    | cons o p =>
      obtain ⟨rfl, hp'⟩ := List.cons_prefix_cons.1 hp
      have h2 := names_step r dflt h (hb o (by simp))
      cases hl : lookup (Spec.step cap dflt t o).1.items k with
      | none => rw [hl] at h2; exact none_after dflt h2 ops hb'
      | some v => rw [hl] at h2; exact ih (step_R r klt dflt o).2 h2 hb' hp' hs

theorem run_ub (klt : K → K → Bool) (dflt : V) (ops ops' : List (Op K V)) (s : LruRef.St K V) (h : Lru.Out.ub ∈ run klt dflt s ops) :
    Lru.Out.ub ∈ run klt dflt s (ops ++ ops') := by
  induction ops generalizing s with
  | nil => simp [run] at h
  | cons op ops ih =>
    simp only [List.cons_append, run] at h ⊢
    rcases hs : step klt dflt s op with ⟨s', o⟩
    rw [hs] at h
    cases o <;> simp only [List.mem_cons, reduceCtorEq, false_or, true_or] at h ⊢ <;> exact ih _ h

/-- What `has` says after a program. -/
theorem has_after {cap : Nat} (hc : 1 ≤ cap) (klt : K → K → Bool) (dflt : V) (ops : List (Op K V)) (h : Lru.Out.ub ∉ run klt dflt (new (cap : Int)) ops) {k : K} {b : Bool}
    (hs : run klt dflt (new (cap : Int)) (ops ++ [.has k]) = run klt dflt (new (cap : Int)) ops ++ [.bool b]) : (lookup (after cap dflt Spec.empty ops).items k).isSome = b := by
  obtain ⟨s, t, r, ht, hf⟩ := follow hc klt dflt ops h
  rw [hf, List.append_cancel_left_eq] at hs
  simp only [Spec.run, Spec.step, List.cons.injEq, Lru.Out.bool.injEq, and_true] at hs
  rw [← ht, hs]

/-- The state after `get` of a key that is there. -/
theorem after_get {cap : Nat} (dflt : V) (x : Nat) (k : K) (h : (lookup t.items k).isSome) : after cap dflt t [.get x k] = ⟨Lru.Spec.use t.items k, named t.names x k⟩ := by
  obtain ⟨v, hv⟩ := Option.isSome_iff_exists.1 h
  simp only [after, Spec.step, hv]

theorem after_get_none {cap : Nat} (dflt : V) (x : Nat) (k : K) (h : lookup t.items k = none) : after cap dflt t [.get x k] = t := by
  simp only [after, Spec.step, h]

/-- The last entry stays when room is made, if there is room for two. -/
theorem room_use {cap : Nat} (hc : 2 ≤ cap) {l : List (K × V)} {j : K} {v : V} (h : lookup l j = some v) : lookup (room cap (use l j)) j = some v := by
  have hw : lookup (Lru.Spec.without l j) j = none := by
    rw [lookup_find, find_eq_none_iff]
    intro hm
    obtain ⟨p, hp, e⟩ := List.mem_map.1 hm
    unfold Lru.Spec.without at hp
    rw [List.mem_filter] at hp
    simp [e] at hp
  have hu : use l j = Lru.Spec.without l j ++ [(j, v)] := by unfold use; rw [h]
  unfold room
  rw [hu]
  split
  · exact lookup_add_self v hw
  · rename_i hl
    cases hq : Lru.Spec.without l j with
    | nil => rw [hq] at hl; simp at hl; omega
    | cons p q =>
      rw [hq] at hw
      rw [List.cons_append, List.tail_cons]
      refine lookup_add_self v ?_
      rw [lookup_find, find_eq_none_iff] at hw ⊢
      intro hm
      exact hw (by simp only [List.map_cons, List.mem_cons]; exact .inr hm)

omit [DecidableEq K] in
/-- With room for one there is nothing else, and it goes. -/
theorem room_one {l : List (K × V)} (h : l.length ≤ 1) : room 1 l = [] := by
  unfold room
  match l, h with
  | [], _ => rfl
  | [p], _ => rfl

theorem use_length {l : List (K × V)} (j : K) (h : l.length ≤ 1) : (use l j).length ≤ 1 := by
  match l, h with
  | [], _ => simp [use, lookup]
  | [p], _ =>
    by_cases hp : p.1 = j <;> simp [use, lookup, Lru.Spec.without, hp]

theorem lookup_use_ne {l : List (K × V)} {j k : K} (h : lookup l k = none) : lookup (use l j) k = none := by
  have := lookup_use_isSome l j k
  rw [h] at this
  simpa using this

end Verif.LruRef.Lemmas
