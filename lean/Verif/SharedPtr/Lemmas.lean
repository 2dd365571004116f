import Verif.SharedPtr.Spec

set_option linter.unusedSimpArgs false

namespace Verif.SharedPtr.Lemmas
open Verif.SharedPtr Spec

def isOwner (b : Nat) (sl : Slot) : Bool := sl.live && sl.kind = .strong && sl.ref = some b
def isWatcher (b : Nat) (sl : Slot) : Bool := sl.live && sl.kind ≠ .strong && sl.ref = some b

/-- A handle in an object that was destroyed. -/
def orphan (s : St) (i : Nat) : Bool :=
  match s.slots[i]? with
  | some sl => sl.live && !s.place sl.home
  | none => false

structure Inv (s : St) (P : List Item) : Prop where
  strong : ∀ (b : Nat) (k : Block), s.blocks[b]? = some k →
    k.strong = s.slots.countP (isOwner b) + P.count (.rel true b)
  weak : ∀ (b : Nat) (k : Block), s.blocks[b]? = some k →
    k.weak = s.slots.countP (isWatcher b) + P.count (.rel false b) + (if 0 < k.strong then 1 else 0)
  freed : ∀ (b : Nat) (k : Block), s.blocks[b]? = some k → k.freed = decide (k.weak = 0)
  refs : ∀ sl ∈ s.slots, sl.live = true → ∀ b, sl.ref = some b → b < s.blocks.length
  todo : ∀ x b, Item.rel x b ∈ P → b < s.blocks.length
  obj : ∀ (b : Nat) (k : Block) (p : Nat), s.blocks[b]? = some k → k.obj = some p →
    ∃ o : Obj, s.objs[p]? = some o ∧ (o.alive = true ↔ 0 < k.strong)
  uniq : ∀ (b b' : Nat) (k k' : Block) (p : Nat), s.blocks[b]? = some k → s.blocks[b']? = some k' → k.obj = some p → k'.obj = some p → b = b'
  drops : ∀ i, P.count (.drop i) = if orphan s i then 1 else 0
  home : ∀ sl ∈ s.slots, ∀ p, sl.home = some p → p < s.objs.length
  nodup : (s.log.map Prod.fst).Nodup
  logged : ∀ p, p ∈ s.log.map Prod.fst ↔ ∃ o, s.objs[p]? = some o ∧ o.alive = false
  deleter : ∀ p d, (p, d) ∈ s.log → ∀ k ∈ s.blocks, k.obj = some p → k.del = d
  self : ∀ (p : Nat) (o : Obj) (i : Nat), s.objs[p]? = some o → o.self = some i → o.alive = true →
    ∃ sl, s.slots[i]? = some sl ∧ sl.kind = .self ∧ sl.home = some p ∧ sl.live = true ∧
      ∀ b, sl.ref = some b ↔ ∃ k, s.blocks[b]? = some k ∧ k.obj = some p

theorem Inv.perm {s : St} {P Q : List Item} (h : Inv s P) (hp : P.Perm Q) : Inv s Q where
  strong b k hb := by rw [← hp.count_eq]; exact h.strong b k hb
  weak b k hb := by rw [← hp.count_eq]; exact h.weak b k hb
  freed := h.freed
  refs := h.refs
  todo x b hm := h.todo x b (hp.mem_iff.2 hm)
  obj := h.obj
  uniq := h.uniq
  drops i := by rw [← hp.count_eq]; exact h.drops i
  home := h.home
  nodup := h.nodup
  logged := h.logged
  deleter := h.deleter
  self := h.self

/-! ### Lists -/

theorem countP_set' {α} (p : α → Bool) (l : List α) (i : Nat) (a x : α) (h : l[i]? = some a) :
    (l.set i x).countP p + (if p a then 1 else 0) = l.countP p + (if p x then 1 else 0) := by
  induction l generalizing i with
  | nil => simp at h
  | cons y l ih =>
    cases i with
    | zero =>
      simp only [List.getElem?_cons_zero, Option.some.injEq] at h
      subst h
      simp only [List.set_cons_zero, List.countP_cons]
      omega
    | succ i =>
      simp only [List.getElem?_cons_succ] at h
      have := ih i h
      simp only [List.set_cons_succ, List.countP_cons]
      omega

theorem countP_pos_of {α} (p : α → Bool) (l : List α) (i : Nat) (a : α) (h : l[i]? = some a) (ha : p a = true) :
    0 < l.countP p :=
  List.countP_pos_iff.2 ⟨a, List.mem_of_getElem? h, ha⟩

theorem get_acquire (bs : List Block) (kind : Kind) (ref : Option Nat) (b : Nat) :
    (acquire bs kind ref)[b]? = bs[b]?.map fun k =>
      if ref = some b then
        (if kind = .strong then { k with strong := k.strong + 1 } else { k with weak := k.weak + 1 }) else k := by
  cases ref with
  | none => simp [acquire]
  | some a =>
    simp only [acquire, List.getElem?_modify, Option.some.injEq]
    by_cases e : a = b
    · subst e; simp
    · simp [e]

theorem length_acquire (bs : List Block) (kind : Kind) (ref : Option Nat) :
    (acquire bs kind ref).length = bs.length := by
  cases ref <;> simp [acquire]

/-- The blocks after a handle was made point to what they pointed to. -/
theorem acquire_some {bs : List Block} {kind ref b k'} (h : (acquire bs kind ref)[b]? = some k') :
    ∃ k, bs[b]? = some k ∧ k'.obj = k.obj ∧ k'.del = k.del ∧ k'.freed = k.freed ∧
      k'.strong = k.strong + (if kind = .strong ∧ ref = some b then 1 else 0) ∧
      k'.weak = k.weak + (if kind ≠ .strong ∧ ref = some b then 1 else 0) := by
  rw [get_acquire] at h
  cases hb : bs[b]? with
  | none => rw [hb] at h; cases h
  | some k =>
    rw [hb] at h
    simp only [Option.map_some, Option.some.injEq] at h
    refine ⟨k, rfl, ?_⟩
    subst h
    by_cases e : ref = some b <;> by_cases e' : kind = .strong <;> simp [e, e']

theorem mem_acquire {bs : List Block} {kind ref k'} (h : k' ∈ acquire bs kind ref) :
    ∃ k ∈ bs, k'.obj = k.obj ∧ k'.del = k.del := by
  obtain ⟨b, hb⟩ := List.getElem?_of_mem h
  obtain ⟨k, hk, h1, h2, _⟩ := acquire_some hb
  exact ⟨k, List.mem_of_getElem? hk, h1, h2⟩

/-! ### Changes of the handles -/

/-- What a change of handles and counts has to meet. -/
theorem Inv.change {s : St} {P : List Item} (h : Inv s P) (slots : List Slot) (blocks : List Block) (Q : List Item)
    (hlen : blocks.length = s.blocks.length)
    (hb : ∀ (b : Nat) (k' : Block), blocks[b]? = some k' → ∃ k, s.blocks[b]? = some k ∧ k'.obj = k.obj ∧ k'.del = k.del ∧
      k'.freed = k.freed ∧ (0 < k'.strong ↔ 0 < k.strong) ∧ (k'.weak = 0 ↔ k.weak = 0) ∧
      k'.strong + s.slots.countP (isOwner b) + P.count (.rel true b) =
        k.strong + slots.countP (isOwner b) + Q.count (.rel true b) ∧
      k'.weak + s.slots.countP (isWatcher b) + P.count (.rel false b) =
        k.weak + slots.countP (isWatcher b) + Q.count (.rel false b))
    (hrefs : ∀ sl ∈ slots, sl.live = true → ∀ b, sl.ref = some b → b < s.blocks.length)
    (htodo : ∀ x b, Item.rel x b ∈ Q → b < s.blocks.length)
    (hdrops : ∀ i, Q.count (.drop i) = if orphan { s with slots := slots, blocks := blocks } i then 1 else 0)
    (hhome : ∀ sl ∈ slots, ∀ p, sl.home = some p → p < s.objs.length)
    (hself : ∀ (i : Nat) (sl : Slot) (p : Nat), s.slots[i]? = some sl → sl.kind = .self → sl.home = some p →
      s.aliveAt p = true → slots[i]? = some sl) :
    Inv { s with slots := slots, blocks := blocks } Q where
  strong b k' hk' := by
    obtain ⟨k, hk, _, _, _, _, _, h1, _⟩ := hb b k' hk'
    have := h.strong b k hk
    dsimp only
    omega
  weak b k' hk' := by
    obtain ⟨k, hk, _, _, _, h0, _, _, h2⟩ := hb b k' hk'
    have := h.weak b k hk
    dsimp only
    by_cases e : 0 < k.strong
    · rw [if_pos (h0.2 e)]; rw [if_pos e] at this; omega
    · rw [if_neg (fun x => e (h0.1 x))]; rw [if_neg e] at this; omega
  freed b k' hk' := by
    obtain ⟨k, hk, _, _, h0, _, h1, _⟩ := hb b k' hk'
    rw [h0, h.freed b k hk, decide_eq_decide]
    exact h1.symm
  refs sl hsl hl b hr := by
    dsimp only
    rw [hlen]
    exact hrefs sl hsl hl b hr
  todo x b hm := by
    dsimp only
    rw [hlen]
    exact htodo x b hm
  obj b k' p hk' hp := by
    obtain ⟨k, hk, h1, _, _, h0, _⟩ := hb b k' hk'
    obtain ⟨o, ho, ha⟩ := h.obj b k p hk (h1 ▸ hp)
    exact ⟨o, ho, ha.trans h0.symm⟩
  uniq b b' k k' p hk hk' hp hp' := by
    obtain ⟨j, hj, h1, _⟩ := hb b k hk
    obtain ⟨j', hj', h1', _⟩ := hb b' k' hk'
    exact h.uniq b b' j j' p hj hj' (h1 ▸ hp) (h1' ▸ hp')
  drops := hdrops
  home := hhome
  nodup := h.nodup
  logged := h.logged
  deleter p d hm k' hk' hp := by
    obtain ⟨b, hb'⟩ := List.getElem?_of_mem hk'
    obtain ⟨k, hk, h1, h2, _⟩ := hb b k' hb'
    rw [h2]
    exact h.deleter p d hm k (List.mem_of_getElem? hk) (h1 ▸ hp)
  self p o i ho hi ha := by
    obtain ⟨sl, h1, h2, h3, h4, h5⟩ := h.self p o i ho hi ha
    refine ⟨sl, hself i sl p h1 h2 h3 (by simp only [St.aliveAt, ho, ha]), h2, h3, h4, fun b => (h5 b).trans ?_⟩
    constructor
    · rintro ⟨k, hk, hp⟩
      have hlt : b < blocks.length := by
        rw [hlen]
        exact (List.getElem?_eq_some_iff.1 hk).1
      obtain ⟨k1, hk1, e1, _⟩ := hb b _ (List.getElem?_eq_getElem hlt)
      rw [hk] at hk1
      cases hk1
      exact ⟨_, List.getElem?_eq_getElem hlt, e1.trans hp⟩
    · rintro ⟨k', hk', hp⟩
      obtain ⟨k, hk, e1, _⟩ := hb b k' hk'
      exact ⟨k, hk, e1 ▸ hp⟩

/-- A block that a handle of this kind can be made for. -/
def Able (s : St) (kind : Kind) (ref : Option Nat) : Prop :=
  ∀ b, ref = some b → ∃ k, s.blocks[b]? = some k ∧ (kind = .strong → 0 < k.strong) ∧ (kind ≠ .strong → 0 < k.weak)

theorem handle_some {s : St} {i : Nat} {sl : Slot} (h : s.handle i = some sl) :
    s.slots[i]? = some sl ∧ sl.live = true ∧ s.place sl.home = true := by
  unfold St.handle at h
  split at h
  · split at h
    · rename_i hc
      cases h
      simp only [Bool.and_eq_true] at hc
      exact ⟨by assumption, hc⟩
    · cases h
  · cases h

/-- A handle's own block. -/
theorem Inv.able {s : St} {P : List Item} (h : Inv s P) {i : Nat} {sl : Slot} (hi : s.slots[i]? = some sl)
    (hl : sl.live = true) (kind : Kind) (hk : kind = .strong → sl.kind = .strong) : Able s kind sl.ref := by
  intro b hb
  have hlt := h.refs sl (List.mem_of_getElem? hi) hl b hb
  refine ⟨_, List.getElem?_eq_getElem hlt, fun e => ?_, fun _ => ?_⟩
  · rw [h.strong b _ (List.getElem?_eq_getElem hlt)]
    have := countP_pos_of (isOwner b) _ _ _ hi (by simp [isOwner, hl, hk e, hb])
    omega
  · have hw := h.weak b _ (List.getElem?_eq_getElem hlt)
    by_cases e : sl.kind = .strong
    · have h1 := h.strong b _ (List.getElem?_eq_getElem hlt)
      have := countP_pos_of (isOwner b) _ _ _ hi (by simp [isOwner, hl, e, hb])
      rw [if_pos (by omega)] at hw
      omega
    · have := countP_pos_of (isWatcher b) _ _ _ hi (by simp [isWatcher, hl, e, hb])
      omega

theorem able_none (s : St) (kind : Kind) : Able s kind none := by
  intro b hb
  cases hb

theorem place_lt {s : St} {home : Option Nat} {p : Nat} (h : s.place home = true) (e : home = some p) :
    p < s.objs.length := by
  subst e
  simp only [St.place, St.aliveAt] at h
  split at h
  · exact (List.getElem?_eq_some_iff.1 (by assumption)).1
  · cases h

theorem Inv.make {s : St} {P : List Item} (h : Inv s P) {home : Option Nat} {kind : Kind} {ref : Option Nat}
    (hp : s.place home = true) (ha : Able s kind ref) : Inv (SharedPtr.mk s home kind ref) P := by
  refine h.change _ _ P (length_acquire _ _ _) ?_ ?_ h.todo ?_ ?_ ?_
  · intro b k' hk'
    obtain ⟨k, hk, h1, h2, h3, h4, h5⟩ := acquire_some hk'
    refine ⟨k, hk, h1, h2, h3, ?_, ?_, ?_, ?_⟩
    · rw [h4]
      split
      · rename_i e
        obtain ⟨k0, hk0, hs, _⟩ := ha b e.2
        rw [hk] at hk0
        cases hk0
        have := hs e.1
        omega
      · rfl
    · rw [h5]
      split
      · rename_i e
        obtain ⟨k0, hk0, _, hs⟩ := ha b e.2
        rw [hk] at hk0
        cases hk0
        have := hs e.1
        omega
      · rfl
    · rw [h4, List.countP_append]
      simp only [List.countP_cons, List.countP_nil, isOwner, Bool.true_and, Bool.and_eq_true, decide_eq_true_eq]
      omega
    · rw [h5, List.countP_append]
      simp only [List.countP_cons, List.countP_nil, isWatcher, Bool.true_and, Bool.and_eq_true, decide_eq_true_eq]
      omega
  · intro sl hsl hl b hb
    rcases List.mem_append.1 hsl with hm | hm
    · exact h.refs sl hm hl b hb
    · rw [List.mem_singleton] at hm
      subst hm
      obtain ⟨k, hk, _⟩ := ha b hb
      exact (List.getElem?_eq_some_iff.1 hk).1
  · intro i
    rw [h.drops i]
    congr 2
    simp only [orphan]
    by_cases e : i < s.slots.length
    · rw [List.getElem?_append_left e]
      rfl
    · rw [List.getElem?_append_right (by omega), List.getElem?_eq_none (by omega : s.slots.length ≤ i)]
      cases hi : i - s.slots.length with
      | zero =>
        simp only [List.getElem?_cons_zero, Bool.true_and]
        show false = !s.place home
        rw [hp]; rfl
      | succ n => rfl
  · intro sl hsl p hh
    rcases List.mem_append.1 hsl with hm | hm
    · exact h.home sl hm p hh
    · rw [List.mem_singleton] at hm
      subst hm
      exact place_lt hp hh
  · intro i sl p hi _ _ _
    rw [List.getElem?_append_left (List.getElem?_eq_some_iff.1 hi).1]
    exact hi

theorem count_giveBack_drop (kind : Kind) (ref : Option Nat) (i : Nat) : (giveBack kind ref).count (.drop i) = 0 := by
  cases ref <;> simp [giveBack]

theorem count_giveBack (kind : Kind) (ref : Option Nat) (x : Bool) (b : Nat) :
    (giveBack kind ref).count (.rel x b) = if ref = some b ∧ x = decide (kind = .strong) then 1 else 0 := by
  cases ref with
  | none => simp [giveBack]
  | some a =>
    simp only [giveBack, List.count_cons, List.count_nil, Option.some.injEq, beq_iff_eq, Item.rel.injEq]
    by_cases e : a = b <;> by_cases e' : x = decide (kind = .strong)
    · simp [e, e']
    · have : ¬ (decide (kind = .strong) = x) := fun q => e' q.symm
      simp [e, e', this]
    · simp [e, e']
    · simp [e, e']

theorem mem_giveBack {kind : Kind} {ref : Option Nat} {x : Bool} {b : Nat} (h : Item.rel x b ∈ giveBack kind ref) :
    ref = some b := by
  cases ref with
  | none => simp [giveBack] at h
  | some a =>
    simp only [giveBack, List.mem_singleton, Item.rel.injEq] at h
    rw [h.2]

/-- A handle that gets another block, or dies. -/
theorem Inv.set {s : St} {P : List Item} (h : Inv s P) {i : Nat} {sl : Slot} (hi : s.slots[i]? = some sl)
    (hl : sl.live = true) {ref : Option Nat} {live : Bool} (hd : live = false → ref = none)
    (ha : Able s sl.kind ref) (Q : List Item)
    (hQ : ∀ j, Q.count (.drop j) + (if j = i ∧ live = false ∧ s.place sl.home = false then 1 else 0) = P.count (.drop j))
    (hQ' : ∀ x b, Q.count (.rel x b) = P.count (.rel x b) + (giveBack sl.kind sl.ref).count (.rel x b))
    (hself : sl.kind = .self → ∀ p, sl.home = some p → s.aliveAt p = false) (r' : Option Nat)
    (hr : live = true → r' = ref) :
    Inv { s with slots := s.slots.set i { sl with ref := r', live := live },
                 blocks := acquire s.blocks sl.kind ref } Q := by
  have hcount : ∀ (p : Slot → Bool), _ := fun p => countP_set' p s.slots i sl { sl with ref := r', live := live } hi
  refine h.change _ _ Q (length_acquire _ _ _) ?_ ?_ ?_ ?_ ?_ ?_
  · intro b k' hk'
    obtain ⟨k, hk, h1, h2, h3, h4, h5⟩ := acquire_some hk'
    refine ⟨k, hk, h1, h2, h3, ?_, ?_, ?_, ?_⟩
    · rw [h4]
      split
      · rename_i e
        obtain ⟨k0, hk0, hs, _⟩ := ha b e.2
        rw [hk] at hk0
        cases hk0
        have := hs e.1
        omega
      · rfl
    · rw [h5]
      split
      · rename_i e
        obtain ⟨k0, hk0, _, hs⟩ := ha b e.2
        rw [hk] at hk0
        cases hk0
        have := hs e.1
        omega
      · rfl
    · have hc := hcount (isOwner b)
      have e1 : isOwner b sl = decide (sl.ref = some b ∧ true = decide (sl.kind = .strong)) := by
        simp [isOwner, hl, and_comm, eq_comm]
      have e2 : isOwner b { sl with ref := r', live := live } = decide (sl.kind = .strong ∧ ref = some b) := by
        cases live with
        | true => simp [isOwner, hr rfl]
        | false => simp [isOwner, hd rfl]
      rw [e1, e2] at hc
      rw [h4, hQ', count_giveBack]
      simp only [decide_eq_true_eq] at hc
      omega
    · have hc := hcount (isWatcher b)
      have e1 : isWatcher b sl = decide (sl.ref = some b ∧ false = decide (sl.kind = .strong)) := by
        simp [isWatcher, hl, and_comm, eq_comm]
      have e2 : isWatcher b { sl with ref := r', live := live } = decide (sl.kind ≠ .strong ∧ ref = some b) := by
        cases live with
        | true => simp [isWatcher, hr rfl]
        | false => simp [isWatcher, hd rfl]
      rw [e1, e2] at hc
      rw [h5, hQ', count_giveBack]
      simp only [decide_eq_true_eq] at hc
      omega
  · intro x hx hxl b hb
    rcases List.mem_or_eq_of_mem_set hx with hm | hm
    · exact h.refs x hm hxl b hb
    · subst hm
      obtain ⟨k, hk, _⟩ := ha b (hr hxl ▸ hb)
      exact (List.getElem?_eq_some_iff.1 hk).1
  · intro x b hm
    have h0 := List.count_pos_iff.2 hm
    rw [hQ'] at h0
    by_cases e : 0 < P.count (.rel x b)
    · exact h.todo x b (List.count_pos_iff.1 e)
    · have : Item.rel x b ∈ giveBack sl.kind sl.ref := List.count_pos_iff.1 (by omega)
      exact h.refs sl (List.mem_of_getElem? hi) hl b (mem_giveBack this)
  · intro j
    have h0 := hQ j
    rw [h.drops j] at h0
    have horph : orphan { s with slots := s.slots.set i { sl with ref := r', live := live },
                                 blocks := acquire s.blocks sl.kind ref } j =
        (if j = i then live && !s.place sl.home else orphan s j) := by
      simp only [orphan]
      by_cases e : j = i
      · subst e
        rw [List.getElem?_set_self (List.getElem?_eq_some_iff.1 hi).1, if_pos rfl]
        rfl
      · rw [List.getElem?_set_ne (fun q => e q.symm), if_neg e]
        rfl
    rw [horph]
    by_cases e : j = i
    · subst e
      have : orphan s j = !s.place sl.home := by simp [orphan, hi, hl]
      rw [this] at h0
      rw [if_pos rfl]
      cases live <;> cases hh : s.place sl.home <;> simp [hh] at h0 ⊢ <;> omega
    · simpa [e] using h0
  · intro x hx p hp
    rcases List.mem_or_eq_of_mem_set hx with hm | hm
    · exact h.home x hm p hp
    · subst hm
      exact h.home sl (List.mem_of_getElem? hi) p hp
  · intro j x p hj hk hp hal
    by_cases e : j = i
    · subst e
      rw [hi] at hj
      cases hj
      rw [hself hk p hp] at hal
      cases hal
    · rw [List.getElem?_set_ne (fun q => e q.symm)]
      exact hj

theorem Inv.move {s : St} {P : List Item} (h : Inv s P) {i : Nat} {sl : Slot} (hh : s.handle i = some sl)
    (hk : sl.kind ≠ .self) {home : Option Nat} (hp : s.place home = true) :
    Inv { s with slots := s.slots.set i { sl with ref := none } ++ [⟨home, sl.kind, sl.ref, true⟩] } P := by
  obtain ⟨hi, hl, hpl⟩ := handle_some hh
  have hlt := (List.getElem?_eq_some_iff.1 hi).1
  refine h.change _ s.blocks P rfl ?_ ?_ h.todo ?_ ?_ ?_
  · intro b k hk'
    refine ⟨k, hk', rfl, rfl, rfl, Iff.rfl, Iff.rfl, ?_, ?_⟩
    · have hc := countP_set' (isOwner b) s.slots i sl { sl with ref := none } hi
      rw [List.countP_append]
      simp only [List.countP_cons, List.countP_nil, isOwner, hl] at hc ⊢
      simp only [Bool.true_and, reduceCtorEq, decide_false, Bool.and_false, Bool.false_eq_true, if_false] at hc ⊢
      omega
    · have hc := countP_set' (isWatcher b) s.slots i sl { sl with ref := none } hi
      rw [List.countP_append]
      simp only [List.countP_cons, List.countP_nil, isWatcher, hl] at hc ⊢
      simp only [Bool.true_and, reduceCtorEq, decide_false, Bool.and_false, Bool.false_eq_true, if_false] at hc ⊢
      omega
  · intro x hx hxl b hb
    rcases List.mem_append.1 hx with hm | hm
    · rcases List.mem_or_eq_of_mem_set hm with hm | hm
      · exact h.refs x hm hxl b hb
      · subst hm; cases hb
    · rw [List.mem_singleton] at hm
      subst hm
      exact h.refs sl (List.mem_of_getElem? hi) hl b hb
  · intro j
    rw [h.drops j]
    congr 2
    simp only [orphan]
    by_cases e : j < s.slots.length
    · rw [List.getElem?_append_left (by simpa using e)]
      by_cases e' : j = i
      · subst e'
        rw [List.getElem?_set_self hlt, hi]
        rfl
      · rw [List.getElem?_set_ne (fun q => e' q.symm)]
        rfl
    · rw [List.getElem?_append_right (by simpa using e), List.getElem?_eq_none (by omega : s.slots.length ≤ j)]
      cases hj : j - (s.slots.set i { sl with ref := none }).length with
      | zero =>
        simp only [List.getElem?_cons_zero, Bool.true_and]
        show false = !s.place home
        rw [hp]; rfl
      | succ n => rfl
  · intro x hx p hxp
    rcases List.mem_append.1 hx with hm | hm
    · rcases List.mem_or_eq_of_mem_set hm with hm | hm
      · exact h.home x hm p hxp
      · subst hm
        exact h.home sl (List.mem_of_getElem? hi) p hxp
    · rw [List.mem_singleton] at hm
      subst hm
      exact place_lt hp hxp
  · intro j x p hj hxk _ _
    have hjl := (List.getElem?_eq_some_iff.1 hj).1
    rw [List.getElem?_append_left (by simpa using hjl)]
    by_cases e' : j = i
    · subst e'
      rw [hi] at hj
      cases hj
      exact absurd hxk hk
    · rw [List.getElem?_set_ne (fun q => e' q.symm)]
      exact hj

/-- A change of one block that leaves the handles and the objects. -/
theorem Inv.block {s : St} {P : List Item} (h : Inv s P) {b : Nat} {k k' : Block} (hk : s.blocks[b]? = some k)
    (Q : List Item) (ho : k'.obj = k.obj) (hd : k'.del = k.del) (hf : k'.freed = decide (k'.weak = 0))
    (hs : k'.strong + P.count (.rel true b) = k.strong + Q.count (.rel true b))
    (hw : k'.weak = s.slots.countP (isWatcher b) + Q.count (.rel false b) + (if 0 < k'.strong then 1 else 0))
    (ha : k.obj ≠ none → (0 < k'.strong ↔ 0 < k.strong))
    (hc : ∀ x b', b' ≠ b → Q.count (.rel x b') = P.count (.rel x b'))
    (hdr : ∀ i, Q.count (.drop i) = P.count (.drop i)) :
    Inv { s with blocks := s.blocks.set b k' } Q where
  strong b' j hj := by
    dsimp only at hj ⊢
    by_cases e : b' = b
    · subst e
      rw [List.getElem?_set_self (List.getElem?_eq_some_iff.1 hk).1] at hj
      cases hj
      have := h.strong b' k hk
      omega
    · rw [List.getElem?_set_ne (fun q => e q.symm)] at hj
      rw [hc _ _ e]
      exact h.strong b' j hj
  weak b' j hj := by
    dsimp only at hj ⊢
    by_cases e : b' = b
    · subst e
      rw [List.getElem?_set_self (List.getElem?_eq_some_iff.1 hk).1] at hj
      cases hj
      exact hw
    · rw [List.getElem?_set_ne (fun q => e q.symm)] at hj
      rw [hc _ _ e]
      exact h.weak b' j hj
  freed b' j hj := by
    dsimp only at hj
    by_cases e : b' = b
    · subst e
      rw [List.getElem?_set_self (List.getElem?_eq_some_iff.1 hk).1] at hj
      cases hj
      exact hf
    · rw [List.getElem?_set_ne (fun q => e q.symm)] at hj
      exact h.freed b' j hj
  refs := by simpa using h.refs
  todo x b' hm := by
    rw [List.length_set]
    by_cases e : b' = b
    · subst e
      exact (List.getElem?_eq_some_iff.1 hk).1
    · have := List.count_pos_iff.2 hm
      rw [hc _ _ e] at this
      exact h.todo x b' (List.count_pos_iff.1 this)
  obj b' j p hj hp := by
    dsimp only at hj
    by_cases e : b' = b
    · subst e
      rw [List.getElem?_set_self (List.getElem?_eq_some_iff.1 hk).1] at hj
      cases hj
      obtain ⟨o, h1, h2⟩ := h.obj b' k p hk (ho ▸ hp)
      exact ⟨o, h1, h2.trans (ha (by rw [← ho, hp]; simp)).symm⟩
    · rw [List.getElem?_set_ne (fun q => e q.symm)] at hj
      exact h.obj b' j p hj hp
  uniq b1 b2 k1 k2 p h1 h2 hp1 hp2 := by
    have key : ∀ (c : Nat) (j : Block), (s.blocks.set b k')[c]? = some j → ∃ j', s.blocks[c]? = some j' ∧ j'.obj = j.obj := by
      intro c j hj
      by_cases e : c = b
      · subst e
        rw [List.getElem?_set_self (List.getElem?_eq_some_iff.1 hk).1] at hj
        cases hj
        exact ⟨k, hk, ho.symm⟩
      · rw [List.getElem?_set_ne (fun q => e q.symm)] at hj
        exact ⟨j, hj, rfl⟩
    obtain ⟨j1, e1, f1⟩ := key b1 k1 h1
    obtain ⟨j2, e2, f2⟩ := key b2 k2 h2
    exact h.uniq b1 b2 j1 j2 p e1 e2 (f1.trans hp1) (f2.trans hp2)
  drops i := by
    rw [hdr i, h.drops i]
    rfl
  home := h.home
  nodup := h.nodup
  logged := h.logged
  deleter p d hm j hj hp := by
    rcases List.mem_or_eq_of_mem_set hj with hm' | hm'
    · exact h.deleter p d hm j hm' hp
    · subst hm'
      rw [hd]
      exact h.deleter p d hm k (List.mem_of_getElem? hk) (ho ▸ hp)
  self p o i h1 h2 h3 := by
    obtain ⟨sl, g1, g2, g3, g4, g5⟩ := h.self p o i h1 h2 h3
    refine ⟨sl, g1, g2, g3, g4, fun b' => (g5 b').trans ?_⟩
    dsimp only
    by_cases e : b' = b
    · subst e
      rw [List.getElem?_set_self (List.getElem?_eq_some_iff.1 hk).1, hk]
      simp [ho]
    · rw [List.getElem?_set_ne (fun q => e q.symm)]

theorem aliveAt_set (s : St) (p q : Nat) (o : Obj) (ho : s.objs[p]? = some o) (a : Bool) (bs : List Block) (l : List (Nat × Option Nat)) :
    St.aliveAt { s with objs := s.objs.set p { o with alive := a }, blocks := bs, log := l } q =
      if q = p then a else s.aliveAt q := by
  simp only [St.aliveAt]
  by_cases e : q = p
  · subst e
    rw [List.getElem?_set_self (List.getElem?_eq_some_iff.1 ho).1, if_pos rfl]
  · rw [List.getElem?_set_ne (fun x => e x.symm), if_neg e]

def inside (s : St) (p i : Nat) : Bool :=
  match s.slots[i]? with
  | some sl => sl.live && sl.home = some p
  | none => false

theorem mem_members (s : St) (p i : Nat) : i ∈ members s p ↔ inside s p i = true := by
  simp only [members, List.mem_filter, List.mem_range]
  constructor
  · exact fun h => h.2
  · intro h
    refine ⟨?_, h⟩
    unfold inside at h
    split at h
    · exact (List.getElem?_eq_some_iff.1 (by assumption)).1
    · cases h

theorem count_members (s : St) (p i : Nat) : (members s p).count i = if inside s p i then 1 else 0 := by
  have hn : (members s p).Nodup := List.Pairwise.filter _ List.nodup_range
  by_cases e : i ∈ members s p
  · rw [if_pos ((mem_members s p i).1 e)]
    have h1 := List.nodup_iff_count.1 hn i
    have h2 := List.count_pos_iff.2 e
    omega
  · rw [if_neg (fun q => e ((mem_members s p i).2 q))]
    exact List.count_eq_zero.2 e

theorem count_map_drop (l : List Nat) (i : Nat) : (l.map Item.drop).count (.drop i) = l.count i := by
  induction l with
  | nil => rfl
  | cons a l ih => simp [List.count_cons, ih]

theorem count_map_drop_rel (l : List Nat) (x : Bool) (b : Nat) : (l.map Item.drop).count (.rel x b) = 0 := by
  rw [List.count_eq_zero]
  simp

/-- An object is destroyed. -/
theorem Inv.kill {s : St} {P : List Item} (h : Inv s P) {p : Nat} {o : Obj} (ho : s.objs[p]? = some o)
    (ha : o.alive = true) (blocks : List Block) (Q : List Item) (del : Option Nat)
    (hlen : blocks.length = s.blocks.length)
    (hb : ∀ (b : Nat) (k' : Block), blocks[b]? = some k' → ∃ k, s.blocks[b]? = some k ∧ k'.obj = k.obj ∧ k'.del = k.del ∧
      k'.freed = k.freed ∧ k'.weak = k.weak ∧
      k'.strong + P.count (.rel true b) = k.strong + Q.count (.rel true b) ∧
      Q.count (.rel false b) + (if 0 < k'.strong then 1 else 0) = P.count (.rel false b) + (if 0 < k.strong then 1 else 0) ∧
      (k.obj = some p → k'.strong = 0) ∧ (k.obj ≠ some p → k'.strong = k.strong))
    (hdel : ∀ k ∈ s.blocks, k.obj = some p → k.del = del)
    (htodo : ∀ x b, Item.rel x b ∈ Q → b < s.blocks.length)
    (hdrops : ∀ i, Q.count (.drop i) = P.count (.drop i) + (members s p).count i) :
    Inv { s with objs := s.objs.set p { o with alive := false }, blocks := blocks, log := s.log ++ [(p, del)] } Q := by
  have hplt := (List.getElem?_eq_some_iff.1 ho).1
  have hnl : p ∉ s.log.map Prod.fst := by
    intro hm
    obtain ⟨o', h1, h2⟩ := (h.logged p).1 hm
    rw [ho] at h1
    cases h1
    rw [ha] at h2
    cases h2
  constructor
  · intro b k' hk'
    obtain ⟨k, hk, _, _, _, _, h1, _⟩ := hb b k' hk'
    have := h.strong b k hk
    dsimp only
    omega
  · intro b k' hk'
    obtain ⟨k, hk, _, _, _, h0, _, h1, _⟩ := hb b k' hk'
    have := h.weak b k hk
    dsimp only
    omega
  · intro b k' hk'
    obtain ⟨k, hk, _, _, h0, h1, _⟩ := hb b k' hk'
    rw [h0, h1]
    exact h.freed b k hk
  · intro sl hsl hl b hr
    dsimp only
    rw [hlen]
    exact h.refs sl hsl hl b hr
  · intro x b hm
    dsimp only
    rw [hlen]
    exact htodo x b hm
  · intro b k' q hk' hq
    obtain ⟨k, hk, h0, _, _, _, _, _, h1, h2⟩ := hb b k' hk'
    dsimp only
    by_cases e : q = p
    · subst e
      refine ⟨_, List.getElem?_set_self hplt, ?_⟩
      rw [h1 (h0 ▸ hq)]
      simp
    · rw [List.getElem?_set_ne (fun x => e x.symm)]
      obtain ⟨o', g1, g2⟩ := h.obj b k q hk (h0 ▸ hq)
      refine ⟨o', g1, ?_⟩
      rw [h2 (by rw [← h0, hq]; simpa using e)]
      exact g2
  · intro b b' k k' q hk hk' hp hp'
    obtain ⟨j, hj, h1, _⟩ := hb b k hk
    obtain ⟨j', hj', h1', _⟩ := hb b' k' hk'
    exact h.uniq b b' j j' q hj hj' (h1 ▸ hp) (h1' ▸ hp')
  · intro i
    rw [hdrops i, h.drops i, count_members]
    have key : orphan { s with objs := s.objs.set p { o with alive := false }, blocks := blocks, log := s.log ++ [(p, del)] } i =
        (orphan s i || inside s p i) ∧ (orphan s i && inside s p i) = false := by
      simp only [orphan, inside]
      cases hi : s.slots[i]? with
      | none => simp
      | some sl =>
        dsimp only
        cases hh : sl.home with
        | none => simp [St.place]
        | some q =>
          simp only [St.place, aliveAt_set s p q o ho]
          by_cases e : q = p
          · subst e
            have : s.aliveAt q = true := by simp [St.aliveAt, ho, ha]
            cases hl : sl.live <;> simp [this]
          · cases hl : sl.live <;> simp [e]
    rw [key.1]
    have k2 := key.2
    cases e1 : orphan s i <;> cases e2 : inside s p i <;> simp [e1, e2] at k2 ⊢
  · intro sl hsl q hq
    rw [List.length_set]
    exact h.home sl hsl q hq
  · dsimp only
    rw [List.map_append, List.nodup_append]
    refine ⟨h.nodup, by simp, ?_⟩
    intro a ha b hb
    simp only [List.map_cons, List.map_nil, List.mem_singleton] at hb
    subst hb
    exact fun e => hnl (e ▸ ha)
  · intro q
    dsimp only
    rw [List.map_append, List.mem_append, h.logged q]
    by_cases e : q = p
    · subst e
      rw [List.getElem?_set_self hplt]
      simp
    · rw [List.getElem?_set_ne (fun x => e x.symm)]
      simp [e]
  · intro q d hm k' hk' hq
    obtain ⟨b, hb'⟩ := List.getElem?_of_mem hk'
    obtain ⟨k, hk, h1, h2, _⟩ := hb b k' hb'
    rw [h2]
    rcases List.mem_append.1 hm with hm | hm
    · exact h.deleter q d hm k (List.mem_of_getElem? hk) (h1 ▸ hq)
    · simp only [List.mem_singleton, Prod.mk.injEq] at hm
      rw [hm.2]
      exact hdel k (List.mem_of_getElem? hk) (by rw [← h1, hq, hm.1])
  · intro q o' i h1 h2 h3
    dsimp only at h1 ⊢
    by_cases e : q = p
    · subst e
      rw [List.getElem?_set_self hplt] at h1
      cases h1
      cases h3
    · rw [List.getElem?_set_ne (fun x => e x.symm)] at h1
      obtain ⟨sl, g1, g2, g3, g4, g5⟩ := h.self q o' i h1 h2 h3
      refine ⟨sl, g1, g2, g3, g4, fun b => (g5 b).trans ?_⟩
      constructor
      · rintro ⟨k, hk, hp⟩
        have hlt : b < blocks.length := by
          rw [hlen]
          exact (List.getElem?_eq_some_iff.1 hk).1
        obtain ⟨k1, hk1, e1, _⟩ := hb b _ (List.getElem?_eq_getElem hlt)
        rw [hk] at hk1
        cases hk1
        exact ⟨_, List.getElem?_eq_getElem hlt, e1.trans hp⟩
      · rintro ⟨k', hk', hp⟩
        obtain ⟨k, hk, e1, _⟩ := hb b k' hk'
        exact ⟨k, hk, e1 ▸ hp⟩

/-! ### Giving back -/

theorem orphan_true {s : St} {i : Nat} (h : orphan s i = true) :
    ∃ sl, s.slots[i]? = some sl ∧ sl.live = true ∧ s.place sl.home = false := by
  unfold orphan at h
  split at h
  · rename_i sl hi
    simp only [Bool.and_eq_true, Bool.not_eq_true'] at h
    exact ⟨sl, hi, h⟩
  · cases h

theorem exec_drop {s : St} {R : List Item} {i : Nat} (h : Inv s (.drop i :: R)) :
    ∃ s' new, exec s (.drop i) = some (s', new) ∧ Inv s' (new ++ R) := by
  have h0 := h.drops i
  rw [List.count_cons_self] at h0
  have horph : orphan s i = true := by
    cases e : orphan s i with
    | true => rfl
    | false => rw [e] at h0; simp at h0
  obtain ⟨sl, hi, hl, hp⟩ := orphan_true horph
  refine ⟨_, _, by simp only [exec, hi, hl, if_true]; rfl, ?_⟩
  refine h.set hi hl (ref := none) (live := false) (fun _ => rfl) (able_none _ _) _ ?_ ?_ ?_ sl.ref (fun e => by cases e)
  · intro j
    rw [List.count_append, count_giveBack_drop, List.count_cons]
    by_cases e : j = i
    · subst e; simp [hp]
    · have : ¬ i = j := fun q => e q.symm
      simp [e, this]
  · intro x b
    rw [List.count_append, List.count_cons]
    simp
    omega
  · intro _ p hh
    rw [hh] at hp
    exact hp

theorem exec_relweak {s : St} {R : List Item} {b : Nat} (h : Inv s (.rel false b :: R)) :
    ∃ s' new, exec s (.rel false b) = some (s', new) ∧ Inv s' (new ++ R) := by
  have hlt := h.todo false b (List.mem_cons_self ..)
  have hk := List.getElem?_eq_getElem hlt
  generalize s.blocks[b] = k at hk
  have hw := h.weak b k hk
  rw [List.count_cons_self] at hw
  refine ⟨_, _, by simp only [exec, hk]; rw [if_neg (by omega)], ?_⟩
  refine h.block hk _ rfl rfl ?_ ?_ ?_ (fun _ => Iff.rfl) ?_ ?_
  · dsimp only
    rw [decide_eq_decide]
    omega
  · simp [List.count_cons]
  · dsimp only
    simp only [List.nil_append]
    omega
  · intro x b' e
    have : ¬ b = b' := fun q => e q.symm
    simp [List.count_cons, this]
  · intro i
    simp [List.count_cons]

theorem exec_relstrong {s : St} {R : List Item} {b : Nat} (h : Inv s (.rel true b :: R)) :
    ∃ s' new, exec s (.rel true b) = some (s', new) ∧ Inv s' (new ++ R) := by
  have hlt := h.todo true b (List.mem_cons_self ..)
  have hk := List.getElem?_eq_getElem hlt
  generalize s.blocks[b] = k at hk
  have hs := h.strong b k hk
  have hw := h.weak b k hk
  rw [List.count_cons_self] at hs
  rw [if_pos (by omega)] at hw
  by_cases e1 : k.strong = 1
  · cases hobj : k.obj with
    | none =>
      refine ⟨_, _, by simp only [exec, hk]; rw [if_neg (by omega), if_pos e1, hobj], ?_⟩
      refine h.block hk _ hobj.symm rfl ?_ ?_ ?_ (fun e => absurd hobj e) ?_ ?_
      · dsimp only
        exact h.freed b k hk
      · simp [List.count_cons]; omega
      · dsimp only
        rw [if_neg (by omega)]
        simp [List.count_cons] at hw ⊢
        omega
      · intro x b' e
        have : ¬ b = b' := fun q => e q.symm
        simp [List.count_cons, this]
      · intro i
        simp [List.count_cons]
    | some p =>
      obtain ⟨o, ho, hal⟩ := h.obj b k p hk hobj
      have ha : o.alive = true := hal.2 (by omega)
      refine ⟨_, _, by simp only [exec, hk]; rw [if_neg (by omega), if_pos e1, hobj]; simp only [destroy, ho, ha, if_true]; rfl, ?_⟩
      refine h.kill ho ha _ _ k.del (by rw [List.length_set]) ?_ ?_ ?_ ?_
      · intro b' k' hk'
        by_cases e : b' = b
        · subst e
          rw [List.getElem?_set_self hlt] at hk'
          cases hk'
          refine ⟨k, hk, hobj.symm, rfl, rfl, rfl, ?_, ?_, fun _ => by dsimp only; omega, fun e => absurd hobj e⟩
          · simp [List.count_cons, List.count_append, count_map_drop_rel]; omega
          · simp [List.count_cons, List.count_append, count_map_drop_rel, e1]
        · rw [List.getElem?_set_ne (fun q => e q.symm)] at hk'
          have e' : ¬ b = b' := fun q => e q.symm
          refine ⟨k', hk', rfl, rfl, rfl, rfl, ?_, ?_, fun e2 => absurd (h.uniq _ _ _ _ _ hk' hk e2 hobj) e, fun _ => rfl⟩
          · simp [List.count_cons, List.count_append, count_map_drop_rel, e']
          · simp [List.count_cons, List.count_append, count_map_drop_rel, e']
      · intro k' hk' hp
        obtain ⟨b', hb'⟩ := List.getElem?_of_mem hk'
        have := h.uniq _ _ _ _ _ hb' hk hp hobj
        subst this
        rw [hk] at hb'
        cases hb'
        rfl
      · intro x b' hm
        simp only [List.append_assoc, List.mem_append, List.mem_map, List.mem_cons, List.not_mem_nil] at hm
        rcases hm with ⟨_, _, hm⟩ | (hm | hm) | hm
        · cases hm
        · cases hm; exact hlt
        · cases hm
        · exact h.todo x b' (List.mem_cons_of_mem _ hm)
      · intro i
        simp only [List.append_assoc, List.count_append, List.count_cons]
        rw [count_map_drop, List.count_reverse]
        have : ∀ bs, members { s with blocks := bs } p = members s p := fun _ => rfl
        rw [this]
        simp
        omega
  · refine ⟨_, _, by simp only [exec, hk]; rw [if_neg (by omega), if_neg e1], ?_⟩
    refine h.block hk _ rfl rfl (h.freed b k hk) ?_ ?_ (fun _ => by dsimp only; omega) ?_ ?_
    · simp [List.count_cons]; omega
    · dsimp only
      rw [if_pos (by omega)]
      simp [List.count_cons] at hw ⊢
      omega
    · intro x b' e
      have : ¬ b = b' := fun q => e q.symm
      simp [List.count_cons, this]
    · intro i
      simp [List.count_cons]

theorem exec_inv {s : St} {R : List Item} {it : Item} (h : Inv s (it :: R)) :
    ∃ s' new, exec s it = some (s', new) ∧ Inv s' (new ++ R) := by
  cases it with
  | drop i => exact exec_drop h
  | rel x b => cases x with
    | true => exact exec_relstrong h
    | false => exact exec_relweak h

end Verif.SharedPtr.Lemmas
