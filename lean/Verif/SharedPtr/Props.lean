import Verif.SharedPtr.Steps

/-
The properties of the smart pointers, for programs of any number of threads.
-/
namespace Verif.SharedPtr.Props
open Verif.SharedPtr Spec Lemmas

/-- Classes for the examples: 1 derives from `enable_shared_from_this`, and 2 from 0. -/
def some_classes : Classes := ⟨fun t => t == 1, fun u t => u == t || (u == 2 && t == 0)⟩

/-- Giving back never destroys an object or a handle that was destroyed before, nor
gives back more than was taken, whatever the other threads do. -/
theorem never_fails {c : Classes} {m : Machine} (h : Reach c m) {t : Nat} {it : Item} {rest : List Item}
    (ht : m.stacks[t]? = some (it :: rest)) : ∃ m', work m t = some m' := by
  obtain ⟨s', new, _, h2, _⟩ := work_inv (reach_inv h) ht
  exact ⟨_, h2⟩

/-- While a shared handle points to an object, it lives and was not destroyed. -/
theorem owned_alive {c : Classes} {m : Machine} (h : Reach c m) {i p : Nat} (ho : Owns m.st i p) :
    m.st.aliveAt p = true ∧ ¬ Destroyed m.st p := by
  have hv := reach_inv h
  obtain ⟨sl, h1, h2, h3, h4⟩ := ho
  obtain ⟨sl', b, k, g1, g2, g3, g4⟩ := get_some h4
  rw [h1] at g1
  cases g1
  have hal := (hv.alive_iff g3 g4).2 ((expired_some _ _).2 ⟨k, g3, hv.owner_count h1 h2 h3 g2 g3⟩)
  refine ⟨hal, ?_⟩
  rintro ⟨d, hd⟩
  obtain ⟨o, e1, e2⟩ := (hv.logged p).1 (List.mem_map_of_mem hd)
  obtain ⟨o', f1, f2⟩ := aliveAt_iff.1 hal
  rw [e1] at f1
  cases f1
  rw [e2] at f2
  cases f2

/-- Two threads that share an object: the first lets go of it while the second
takes another handle, and the object is there still. -/
example : ∃ m, play some_classes (start 2)
    [(0, some (.new 0)), (0, some (.own none (some 0) none)), (0, some (.copy none 0)), (0, some (.drop 0)),
      (1, some (.copy none 1)), (0, none), (1, some (.drop 1)), (1, none)] = some m ∧
    playFair some_classes (start 2)
    [(0, some (.new 0)), (0, some (.own none (some 0) none)), (0, some (.copy none 0)), (0, some (.drop 0)),
      (1, some (.copy none 1)), (0, none), (1, some (.drop 1)), (1, none)] = true ∧
    m.st.aliveAt 0 = true ∧ useCount m.st 2 = 1 := ⟨_, rfl, by decide +kernel, by decide +kernel, by decide +kernel⟩

/-- What can be come by from a variable can be used: the handles in objects that are
held are there. -/
theorem held_usable {c : Classes} {m : Machine} (h : Reach c m) {q i : Nat} {sl : Slot} (hq : Held m.st q)
    (hi : m.st.slots[i]? = some sl) (hl : sl.live = true) (hh : sl.home = some q) : m.st.handle i = some sl := by
  have hal : m.st.aliveAt q = true := by
    cases hq with
    | var _ _ ho => exact (owned_alive h ho).1
    | member _ _ _ ho => exact (owned_alive h ho).1
  simp [St.handle, hi, hl, hh, St.place, hal]

/-- No object is destroyed twice; those destroyed are those that live no more; and the
deleter called is the one that was given with the pointer. -/
theorem once {c : Classes} {m : Machine} (h : Reach c m) :
    (m.st.log.map Prod.fst).Nodup ∧
    (∀ p, p < m.st.objs.length → (Destroyed m.st p ↔ m.st.aliveAt p = false)) ∧
    (∀ p d d', (p, d) ∈ m.st.log → Taken m.st p d' → d = d') := by
  have hv := reach_inv h
  refine ⟨hv.nodup, fun p hp => ?_, ?_⟩
  · have e : Destroyed m.st p ↔ p ∈ m.st.log.map Prod.fst := by
      simp only [Destroyed, List.mem_map, Prod.exists, exists_and_right, exists_eq_right]
    rw [e, hv.logged p]
    simp only [St.aliveAt, List.getElem?_eq_getElem hp, Option.some.injEq]
    exact ⟨fun ⟨o, e1, e2⟩ => e1 ▸ e2, fun e => ⟨_, rfl, e⟩⟩
  · rintro p d d' hm ⟨k, hk, h1, h2⟩
    rw [← h2]
    exact (hv.deleter p d hm k hk h1).symm

/-- An object that was taken over and that no shared handle points to has been destroyed,
by its deleter, when the threads have given back what they had to. -/
theorem last_destroys {c : Classes} {m : Machine} (h : Reach c m) (hq : Quiet m) {p : Nat} {d : Option Nat}
    (ht : Taken m.st p d) (hn : ∀ i, ¬ Owns m.st i p) : (p, d) ∈ m.st.log := by
  have hv := reach_inv h
  rw [quiet_flatten hq] at hv
  obtain ⟨k, hk, h1, h2⟩ := ht
  obtain ⟨b, hb⟩ := List.getElem?_of_mem hk
  obtain ⟨o, g1, g2⟩ := hv.obj b k p hb h1
  have hz : m.st.slots.countP (isOwner b) = 0 := by
    rw [List.countP_eq_zero]
    intro sl hsl hc
    obtain ⟨i, hi⟩ := List.getElem?_of_mem hsl
    simp only [isOwner, Bool.and_eq_true, decide_eq_true_eq] at hc
    exact hn i ⟨sl, hi, hc.1.1, hc.1.2, get_of hi hc.2 hb h1⟩
  have hs := hv.strong b k hb
  rw [hz] at hs
  have hdead : o.alive = false := by
    cases e : o.alive with
    | false => rfl
    | true =>
      have := g2.1 e
      simp at hs
      omega
  have := (hv.logged p).2 ⟨o, g1, hdead⟩
  obtain ⟨⟨p', d'⟩, e1, e2⟩ := List.mem_map.1 this
  dsimp only at e2
  subst e2
  rw [← h2, hv.deleter p' d' e1 k hk h1]
  exact e1

/-- A list of two objects: when its head goes, both go, each by its deleter. -/
example : (play some_classes (start 1)
    [(0, some (.new 0)), (0, some (.own none (some 0) (some 7))), (0, some (.new 1)),
      (0, some (.own (some 0) (some 1) none)), (0, some (.weaken none 2)), (0, some (.drop 0)),
      (0, none), (0, none), (0, none), (0, none), (0, none), (0, none), (0, none)]).map
        (fun m => (m.st.log, m.stacks, useCount m.st 3, m.st.blocks.map Block.freed)) =
    some ([(0, some 7), (1, none)], [[]], 0, [true, false]) := by decide +kernel

/-- `use_count` is the number of the handles that share, when the threads have given back
what they had to. -/
theorem count_exact {c : Classes} {m : Machine} (h : Reach c m) (hq : Quiet m) {i b : Nat} {sl : Slot}
    (hi : m.st.slots[i]? = some sl) (hl : sl.live = true) (hr : sl.ref = some b) :
    useCount m.st i = sharers m.st (some b) := by
  have hv := reach_inv h
  rw [quiet_flatten hq] at hv
  have hlt := hv.refs sl (List.mem_of_getElem? hi) hl b hr
  have := hv.strong b _ (List.getElem?_eq_getElem hlt)
  simp only [useCount, hi, Option.bind_some, hr, St.count, List.getElem?_eq_getElem hlt]
  rw [this, sharers, List.countP_eq_length_filter]
  simp
  rfl

/-- A control block is freed when there are no handles of it, neither shared nor weak, and
not before. -/
theorem freed_iff {c : Classes} {m : Machine} (h : Reach c m) (hq : Quiet m) {b : Nat} {k : Block}
    (hb : m.st.blocks[b]? = some k) :
    k.freed = true ↔ ∀ sl ∈ m.st.slots, sl.live = true → sl.ref ≠ some b := by
  have hv := reach_inv h
  rw [quiet_flatten hq] at hv
  have h1 := hv.strong b k hb
  have h2 := hv.weak b k hb
  rw [hv.freed b k hb, decide_eq_true_eq]
  simp only [List.count_nil, Nat.add_zero] at h1 h2
  constructor
  · intro hz sl hsl hl hr
    have e1 : m.st.slots.countP (isOwner b) = 0 := by
      cases e : m.st.slots.countP (isOwner b) with
      | zero => rfl
      | succ n => rw [if_pos (by omega)] at h2; omega
    have e2 : m.st.slots.countP (isWatcher b) = 0 := by omega
    rw [List.countP_eq_zero] at e1 e2
    by_cases e : sl.kind = .strong
    · exact e1 sl hsl (by simp [isOwner, hl, e, hr])
    · exact e2 sl hsl (by simp [isWatcher, hl, e, hr])
  · intro hn
    have e1 : m.st.slots.countP (isOwner b) = 0 := by
      rw [List.countP_eq_zero]
      intro sl hsl hc
      simp only [isOwner, Bool.and_eq_true, decide_eq_true_eq] at hc
      exact hn sl hsl hc.1.1 hc.2
    have e2 : m.st.slots.countP (isWatcher b) = 0 := by
      rw [List.countP_eq_zero]
      intro sl hsl hc
      simp only [isWatcher, Bool.and_eq_true, decide_eq_true_eq] at hc
      exact hn sl hsl hc.1.1 hc.2
    rw [h1, e1] at h2
    simpa [e2] using h2

/-- Giving back ends, however the threads are interleaved. -/
theorem drains {c : Classes} {m : Machine} (h : Reach c m) :
    (∃ n m', Works m n m' ∧ Quiet m' ∧ Reach c m') ∧ ∃ N, ∀ n m', Works m n m' → n ≤ N :=
  ⟨drains_of _ h (Nat.le_refl _), ⟨cost m.st m.stacks.flatten, fun n m' hw => by have := works_bound hw; omega⟩⟩

/-- A weak handle becomes a shared one while its object lives; `lock` gives an empty one
after that. -/
theorem lock_works {c : Classes} {m : Machine} (h : Reach c m) {home : Option Nat} {i p : Nat} {sl : Slot}
    (hi : m.st.handle i = some sl) (hk : sl.kind = .weak) (hp : m.st.place home = true) (hg : get m.st i = some p) :
    ∃ s', apply c m.st (.lock home i) = .ok s' [] ∧
      (m.st.aliveAt p = true → Owns s' m.st.slots.length p ∧ useCount s' m.st.slots.length = useCount m.st i + 1) ∧
      (m.st.aliveAt p = false → get s' m.st.slots.length = none ∧ useCount s' m.st.slots.length = 0) := by
  have hv := reach_inv h
  obtain ⟨sl', b, k, g1, g2, g3, g4⟩ := get_some hg
  obtain ⟨h1, h2, h3⟩ := handle_some hi
  rw [h1] at g1
  cases g1
  have ha := hv.alive_iff g3 g4
  obtain ⟨hm, kd, rf, lv⟩ := sl
  dsimp only at hk g2
  subst hk g2
  simp only [apply, hi, hp, if_true, upgrade]
  cases he : m.st.expired (some b) with
  | true =>
    simp only [if_true]
    refine ⟨_, rfl, fun hal => ?_, fun _ => ⟨?_, ?_⟩⟩
    · rw [ha, he] at hal
      cases hal
    · rw [get_mk]; rfl
    · rw [useCount_mk _ _ _ (fun b e => by cases e)]
  | false =>
    simp only [Bool.false_eq_true, if_false]
    refine ⟨_, rfl, fun _ => ⟨⟨_, mk_slot .., rfl, rfl, ?_⟩, ?_⟩, fun hal => ?_⟩
    · rw [get_mk]
      simp [g3, g4]
    · rw [useCount_mk _ _ _ (fun b' e => by cases e; exact (List.getElem?_eq_some_iff.1 g3).1)]
      simp [useCount, h1]
    · rw [ha.2 he] at hal
      cases hal

/-- The constructor from a weak handle does the same, but throws if the object is gone. -/
theorem fromWeak_works {c : Classes} {m : Machine} (h : Reach c m) {home : Option Nat} {i p : Nat} {sl : Slot}
    (hi : m.st.handle i = some sl) (hk : sl.kind = .weak) (hp : m.st.place home = true) (hg : get m.st i = some p) :
    (m.st.aliveAt p = true → ∃ s', apply c m.st (.fromWeak home i) = .ok s' [] ∧ Owns s' m.st.slots.length p ∧
      useCount s' m.st.slots.length = useCount m.st i + 1) ∧
    (m.st.aliveAt p = false → apply c m.st (.fromWeak home i) = .throws) := by
  have hv := reach_inv h
  obtain ⟨sl', b, k, g1, g2, g3, g4⟩ := get_some hg
  obtain ⟨h1, h2, h3⟩ := handle_some hi
  rw [h1] at g1
  cases g1
  have ha := hv.alive_iff g3 g4
  obtain ⟨hm, kd, rf, lv⟩ := sl
  dsimp only at hk g2
  subst hk g2
  simp only [apply, hi, hp, if_true, upgrade]
  constructor
  · intro hal
    rw [ha.1 hal]
    simp only [Bool.false_eq_true, if_false]
    refine ⟨_, rfl, ⟨_, mk_slot .., rfl, rfl, ?_⟩, ?_⟩
    · rw [get_mk]
      simp [g3, g4]
    · rw [useCount_mk _ _ _ (fun b' e => by cases e; exact (List.getElem?_eq_some_iff.1 g3).1)]
      simp [useCount, h1]
  · intro hal
    cases he : m.st.expired (some b) with
    | true => simp
    | false =>
      rw [ha.2 he] at hal
      cases hal

/-- An empty weak handle gives an empty shared one, or an exception. -/
theorem empty_weak (c : Classes) (s : St) {home hm : Option Nat} {i : Nat} {lv : Bool}
    (hi : s.handle i = some ⟨hm, .weak, none, lv⟩) (hp : s.place home = true) :
    apply c s (.lock home i) = .ok (mk s home .strong none) [] ∧ apply c s (.fromWeak home i) = .throws := by
  simp [apply, hi, hp, upgrade, St.expired]

/-- `shared_from_this` gives a handle that shares with the others, if the object was taken
over, and throws if not. -/
theorem fromThis_works {c : Classes} {m : Machine} (h : Reach c m) {home : Option Nat} {p : Nat} {o : Obj}
    (ho : m.st.objs[p]? = some o) (ha : o.alive = true) (hs : c.shares o.typ = true) (hp : m.st.place home = true) :
    (∀ d, Taken m.st p d → ∃ s', apply c m.st (.fromThis home p) = .ok s' [] ∧ Owns s' m.st.slots.length p ∧
      ∀ j, get m.st j = some p → useCount s' m.st.slots.length = useCount m.st j + 1) ∧
    ((∀ d, ¬ Taken m.st p d) → apply c m.st (.fromThis home p) = .throws) := by
  have hv := reach_inv h
  have hsh := reach_shape h o (List.mem_of_getElem? ho)
  rw [hs] at hsh
  obtain ⟨i, hi⟩ := Option.isSome_iff_exists.1 hsh
  obtain ⟨sl, g1, g2, g3, g4, g5⟩ := hv.self p o i ho hi ha
  simp only [apply, ho, ha, hp, and_self, if_true, hi, g1, upgrade]
  constructor
  · rintro d ⟨k, hk, h1, _⟩
    obtain ⟨b, hb⟩ := List.getElem?_of_mem hk
    have hr := (g5 b).2 ⟨k, hb, h1⟩
    have hal := (hv.alive_iff hb h1).1 (aliveAt_iff.2 ⟨o, ho, ha⟩)
    rw [hr, hal]
    simp only [Bool.false_eq_true, if_false]
    refine ⟨_, rfl, ⟨_, mk_slot .., rfl, rfl, ?_⟩, ?_⟩
    · rw [get_mk]
      simp [hb, h1]
    · intro j hj
      obtain ⟨x, b', k', f1, f2, f3, f4⟩ := get_some hj
      have := hv.uniq _ _ _ _ _ f3 hb f4 h1
      subst this
      rw [useCount_mk _ _ _ (fun b' e => by cases e; exact (List.getElem?_eq_some_iff.1 hb).1)]
      simp [useCount, f1, f2]
  · intro hn
    have hr : sl.ref = none := by
      cases hr : sl.ref with
      | none => rfl
      | some b =>
        obtain ⟨k, hk, hkp⟩ := (g5 b).1 hr
        exact absurd ⟨k, List.mem_of_getElem? hk, hkp, rfl⟩ (hn k.del)
    rw [hr]
    simp [St.expired]

example : (play some_classes (start 1) [(0, some (.new 1)), (0, some (.own none (some 0) none)),
      (0, some (.fromThis none 0))]).map (fun m => (get m.st 2, useCount m.st 2)) = some (some 0, 2) ∧
    (play some_classes (start 1) [(0, some (.new 1))]).map (fun m => apply some_classes m.st (.fromThis none 0)) =
      some .throws := by decide +kernel

/-- A copy points where its original does, and the count goes up by one; and so do the
casts to a class that the object is of.  A dynamic cast to another class gives an empty
handle. -/
theorem copies {c : Classes} {m : Machine} {home : Option Nat} {i p t u : Nat} {sl : Slot}
    (hi : m.st.handle i = some sl) (hk : sl.kind = .strong) (hp : m.st.place home = true) (hg : get m.st i = some p)
    (ht : m.st.objs[p]?.map Obj.typ = some u) :
    (∃ s', apply c m.st (.copy home i) = .ok s' [] ∧ Owns s' m.st.slots.length p ∧
      useCount s' m.st.slots.length = useCount m.st i + 1 ∧
      (c.isA u t = true → apply c m.st (.staticCast home i t) = .ok s' [] ∧
        apply c m.st (.dynamicCast home i t) = .ok s' [])) ∧
    (c.isA u t = false → ∃ s', apply c m.st (.dynamicCast home i t) = .ok s' [] ∧
      get s' m.st.slots.length = none ∧ useCount s' m.st.slots.length = 0) := by
  obtain ⟨sl', b, k, g1, g2, g3, g4⟩ := get_some hg
  obtain ⟨h1, h2, h3⟩ := handle_some hi
  rw [h1] at g1
  cases g1
  obtain ⟨hm, kd, rf, lv⟩ := sl
  dsimp only at hk g2
  subst hk g2
  have hty : m.st.typOf (some b) = some u := by
    simp only [St.typOf, Option.bind_some, g3, g4]
    exact ht
  simp only [apply, hi, hp, if_true, hty]
  refine ⟨⟨_, rfl, ⟨_, mk_slot .., rfl, rfl, ?_⟩, ?_, fun ha => ?_⟩, fun ha => ?_⟩
  · rw [get_mk]
    simp [g3, g4]
  · rw [useCount_mk _ _ _ (fun b' e => by cases e; exact (List.getElem?_eq_some_iff.1 g3).1)]
    simp [useCount, h1]
  · simp [ha]
  · rw [ha]
    refine ⟨_, rfl, ?_, ?_⟩
    · rw [get_mk]; rfl
    · rw [useCount_mk _ _ _ (fun b e => by cases e)]

/-- After an assignment the handle points where the other does; after `reset` nowhere; a
handle that was moved from is empty, and the new one points where it did; a weak handle
points where what it was made of does, and counts for nothing. -/
theorem assigns {c : Classes} {s : St} {home : Option Nat} {i j : Nat} {a b : Slot} (hi : s.handle i = some a)
    (hj : s.handle j = some b) (hk : a.kind = b.kind ∧ a.kind ≠ .self ∨ a.kind = .weak ∧ b.kind = .strong)
    (hp : s.place home = true) :
    (∃ s' todo, apply c s (.assign i j) = .ok s' todo ∧ get s' i = get s j) ∧
    (∃ s' todo, apply c s (.reset i) = .ok s' todo ∧ get s' i = none) ∧
    (∃ s', apply c s (.move home i) = .ok s' [] ∧ get s' s.slots.length = get s i ∧ get s' i = none ∧
      s'.blocks = s.blocks) ∧
    (∃ s', apply c s (.weaken home i) = .ok s' [] ∧ get s' s.slots.length = get s i ∧
      ∀ n, s'.count n = s.count n) := by
  obtain ⟨hi1, hi2, hi3⟩ := handle_some hi
  obtain ⟨hj1, hj2, hj3⟩ := handle_some hj
  have hs : a.kind ≠ .self := by
    rcases hk with hk | hk
    · exact hk.2
    · rw [hk.1]; decide
  have hlt := (List.getElem?_eq_some_iff.1 hi1).1
  refine ⟨⟨_, _, by simp only [apply, hi, hj]; rw [if_pos hk]; rfl, ?_⟩, ⟨_, _, by simp only [apply, hi]; rw [if_pos hs]; rfl, ?_⟩,
    ⟨_, by simp only [apply, hi]; rw [if_pos ⟨hp, hs⟩], ?_, ?_, ?_⟩, ⟨_, by simp only [apply, hi]; rw [if_pos ⟨hp, hs⟩], ?_, ?_⟩⟩
  · rw [get_assigned hi1, get_eq hj1]
  · rw [get_assigned hi1]; rfl
  · rw [get_eq hi1]
    simp [get]
  · simp only [get]
    rw [List.getElem?_append_left (by simpa using hlt), List.getElem?_set_self hlt]
    rfl
  · rfl
  · rw [get_mk, get_eq hi1]
  · intro n
    simp only [St.count, mk, get_acquire]
    cases s.blocks[n]? with
    | none => rfl
    | some k => by_cases e : a.ref = some n <;> simp [e]

/-- `get_deleter` gives the deleter that came with the pointer, from every handle that
shares. -/
theorem deleter_kept {c : Classes} {m : Machine} (h : Reach c m) {i p : Nat} {d : Option Nat} (f : Nat → Bool)
    (hg : get m.st i = some p) (ht : Taken m.st p d) : getDeleter m.st i f = d.filter f := by
  have hv := reach_inv h
  obtain ⟨sl, b, k, g1, g2, g3, g4⟩ := get_some hg
  obtain ⟨k', hk', h1, h2⟩ := ht
  obtain ⟨b', hb'⟩ := List.getElem?_of_mem hk'
  have := hv.uniq _ _ _ _ _ g3 hb' g4 h1
  subst this
  rw [g3] at hb'
  cases hb'
  simp [getDeleter, g1, g2, g3, h2]

/-- If the handles inside objects never lead round in a circle, then nothing is left when
there are no shared handles in variables any more: all the objects that were not deleted
by hand are destroyed. -/
theorem no_leak {c : Classes} {m : Machine} (h : Reach c m) (hq : Quiet m) (rank : Nat → Nat)
    (hacyc : ∀ i sl q p, m.st.slots[i]? = some sl → sl.home = some q → Owns m.st i p → rank p < rank q)
    (hvars : ∀ i sl p, m.st.slots[i]? = some sl → Owns m.st i p → sl.home ≠ none)
    (htaken : ∀ p, m.st.aliveAt p = true → ∃ d, Taken m.st p d) :
    ∀ p, p < m.st.objs.length → Destroyed m.st p := by
  have hv := reach_inv h
  rw [quiet_flatten hq] at hv
  -- an object that lives is owned from another that does, and so on
  have up : ∀ p, m.st.aliveAt p = true → ∃ q, m.st.aliveAt q = true ∧ rank p < rank q := by
    intro p hp
    obtain ⟨d, hd⟩ := htaken p hp
    have hex : ∃ i, Owns m.st i p := by
      refine Classical.byContradiction fun hn => ?_
      have := last_destroys h hq hd (fun i hi => hn ⟨i, hi⟩)
      obtain ⟨o, e1, e2⟩ := (hv.logged p).1 (List.mem_map_of_mem this)
      obtain ⟨o', f1, f2⟩ := aliveAt_iff.1 hp
      rw [e1] at f1
      cases f1
      rw [e2] at f2
      cases f2
    obtain ⟨i, hi⟩ := hex
    obtain ⟨sl, s1, s2, s3, s4⟩ := hi
    have hhome := hvars i sl p s1 ⟨sl, s1, s2, s3, s4⟩
    cases hh : sl.home with
    | none => exact absurd hh hhome
    | some q =>
      refine ⟨q, ?_, hacyc i sl q p s1 hh ⟨sl, s1, s2, s3, s4⟩⟩
      have hdr := hv.drops i
      cases ha : m.st.aliveAt q with
      | true => rfl
      | false =>
        have : orphan m.st i = true := by simp [orphan, s1, s2, hh, St.place, ha]
        rw [this] at hdr
        simp at hdr
  -- but there are only so many objects
  have bound : ∃ B, ∀ p, m.st.aliveAt p = true → rank p ≤ B := by
    refine ⟨((List.range m.st.objs.length).map rank).sum, fun p hp => ?_⟩
    obtain ⟨o, ho, _⟩ := aliveAt_iff.1 hp
    exact le_sum (List.mem_map_of_mem (List.mem_range.2 (List.getElem?_eq_some_iff.1 ho).1))
  obtain ⟨B, hB⟩ := bound
  have none_alive : ∀ n p, B - rank p < n → m.st.aliveAt p = false := by
    intro n
    induction n with
    | zero => intro p hp; omega
    | succ n ih =>
      intro p hp
      cases ha : m.st.aliveAt p with
      | false => rfl
      | true =>
        obtain ⟨q, hq1, hq2⟩ := up p ha
        have h1 := hB q hq1
        have := ih q (by omega)
        rw [this] at hq1
        cases hq1
  intro p hp
  exact ((once h).2.1 p hp).2 (none_alive _ p (Nat.lt_succ_self _))

/-- Two objects that share each other are never destroyed: the pointers are not all that
is needed to get rid of what is not used any more. -/
theorem circles_leak : ¬ ∀ (c : Classes) (m : Machine), Reach c m → Quiet m →
    (∀ i sl p, m.st.slots[i]? = some sl → Owns m.st i p → sl.home ≠ none) →
    (∀ p, m.st.aliveAt p = true → ∃ d, Taken m.st p d) →
    ∀ p, p < m.st.objs.length → Destroyed m.st p := by
  intro hall
  let l : List (Nat × Option Op) := [(0, some (.new 0)), (0, some (.own none (some 0) none)), (0, some (.new 0)),
    (0, some (.own (some 0) (some 1) none)), (0, some (.copy (some 1) 0)), (0, some (.drop 0)), (0, none)]
  let m : Machine := ⟨⟨[⟨0, true, none⟩, ⟨0, true, none⟩], [⟨some 0, 1, 1, none, false⟩, ⟨some 1, 1, 1, none, false⟩],
    [⟨none, .strong, some 0, false⟩, ⟨some 0, .strong, some 1, true⟩, ⟨some 1, .strong, some 0, true⟩], []⟩, [[]]⟩
  have hr : Reach some_classes m := play_reach (l := l) (.start 1) (by decide +kernel) (by decide +kernel)
  have hq : Quiet m := by
    intro st hst
    rw [List.mem_singleton] at hst
    exact hst
  have h1 : ∀ i sl p, m.st.slots[i]? = some sl → Owns m.st i p → sl.home ≠ none := by
    rintro i sl p hi ⟨sl', h1, h2, _⟩
    rw [hi] at h1
    cases h1
    have : ∀ x ∈ m.st.slots, x.live = true → x.home ≠ none := by decide +kernel
    exact this sl (List.mem_of_getElem? hi) h2
  have h2 : ∀ p, m.st.aliveAt p = true → ∃ d, Taken m.st p d := by
    intro p hp
    obtain ⟨o, ho, _⟩ := aliveAt_iff.1 hp
    have hlt := (List.getElem?_eq_some_iff.1 ho).1
    refine ⟨none, ?_⟩
    match p, hlt with
    | 0, _ => exact ⟨_, List.mem_cons_self .., rfl, rfl⟩
    | 1, _ => exact ⟨_, List.mem_cons_of_mem _ (List.mem_cons_self ..), rfl, rfl⟩
    | n + 2, h => exact absurd h (by show ¬ n + 2 < 2; omega)
  obtain ⟨d, hd⟩ := hall some_classes m hr hq h1 h2 0 (by decide)
  cases hd

/-- The rule is needed: an object that two pointers took over, each for itself, is
destroyed twice. -/
theorem taken_twice : ∃ l m, play some_classes (start 1) l = some m ∧ playFair some_classes (start 1) l = false ∧
    (∃ it rest, m.stacks = [it :: rest]) ∧ work m 0 = none ∧ (0, none) ∈ m.st.log :=
  ⟨[(0, some (.new 0)), (0, some (.own none (some 0) none)), (0, some (.own none (some 0) none)),
    (0, some (.drop 0)), (0, none), (0, none), (0, some (.drop 1))], _, rfl, by decide +kernel, ⟨_, _, rfl⟩, by decide +kernel,
    by decide +kernel⟩

end Verif.SharedPtr.Props
