import Verif.SharedPtr.Lemmas

set_option linter.unusedSimpArgs false

namespace Verif.SharedPtr.Lemmas
open Verif.SharedPtr Spec

/-! ### New objects -/

theorem aliveAt_append (s : St) (o : Obj) (p : Nat) (hp : p < s.objs.length) (sl : List Slot) :
    St.aliveAt { s with objs := s.objs ++ [o], slots := sl } p = s.aliveAt p := by
  simp only [St.aliveAt]
  rw [List.getElem?_append_left hp]

theorem newObj_shape (c : Classes) (s : St) (t : Nat) :
    ∃ extra : List Slot, ∃ self : Option Nat,
      newObj c s t = { s with objs := s.objs ++ [⟨t, true, self⟩], slots := s.slots ++ extra } ∧
      (extra = [] ∧ self = none ∨ extra = [⟨some s.objs.length, .self, none, true⟩] ∧ self = some s.slots.length) := by
  unfold newObj
  split
  · exact ⟨_, _, rfl, .inr ⟨rfl, rfl⟩⟩
  · exact ⟨[], none, by simp, .inl ⟨rfl, rfl⟩⟩

theorem Inv.newObj {s : St} {P : List Item} (h : Inv s P) (c : Classes) (t : Nat) :
    Inv (SharedPtr.newObj c s t) P := by
  obtain ⟨extra, self, he, hx⟩ := newObj_shape c s t
  rw [he]
  have hex : ∀ sl ∈ extra, sl = ⟨some s.objs.length, .self, none, true⟩ := by
    rcases hx with ⟨hx, _⟩ | ⟨hx, _⟩ <;> subst hx <;> simp
  have hcount : ∀ b, extra.countP (isOwner b) = 0 ∧ extra.countP (isWatcher b) = 0 := by
    intro b
    rw [List.countP_eq_zero, List.countP_eq_zero]
    constructor <;> intro sl hsl <;> rw [hex sl hsl] <;> simp [isOwner, isWatcher]
  have hobj : ∀ (p : Nat) (o : Obj), s.objs[p]? = some o → (s.objs ++ [⟨t, true, self⟩])[p]? = some o := by
    intro p o ho
    rw [List.getElem?_append_left (List.getElem?_eq_some_iff.1 ho).1]
    exact ho
  constructor
  · intro b k hk
    dsimp only
    rw [List.countP_append, (hcount b).1]
    exact h.strong b k hk
  · intro b k hk
    dsimp only
    rw [List.countP_append, (hcount b).2]
    exact h.weak b k hk
  · exact h.freed
  · intro sl hsl hl b hb
    rcases List.mem_append.1 hsl with hm | hm
    · exact h.refs sl hm hl b hb
    · rw [hex sl hm] at hb
      cases hb
  · exact h.todo
  · intro b k p hk hp
    obtain ⟨o, h1, h2⟩ := h.obj b k p hk hp
    exact ⟨o, hobj p o h1, h2⟩
  · exact h.uniq
  · intro i
    rw [h.drops i]
    have key : orphan { s with objs := s.objs ++ [⟨t, true, self⟩], slots := s.slots ++ extra } i = orphan s i := by
      simp only [orphan]
      by_cases e : i < s.slots.length
      · rw [List.getElem?_append_left e, List.getElem?_eq_getElem e]
        dsimp only
        congr 2
        cases hh : s.slots[i].home with
        | none => rfl
        | some q =>
          simp only [St.place]
          exact aliveAt_append s _ q (h.home _ (List.getElem_mem e) q hh) _
      · rw [List.getElem?_append_right (by omega), List.getElem?_eq_none (by omega : s.slots.length ≤ i)]
        cases hj : extra[i - s.slots.length]? with
        | none => rfl
        | some sl =>
          rw [hex sl (List.mem_of_getElem? hj)]
          simp [St.place, St.aliveAt]
    rw [key]
  · intro sl hsl p hp
    rw [List.length_append]
    rcases List.mem_append.1 hsl with hm | hm
    · have := h.home sl hm p hp
      omega
    · rw [hex sl hm] at hp
      cases hp
      simp
  · exact h.nodup
  · intro p
    rw [h.logged p]
    dsimp only
    constructor
    · rintro ⟨o, h1, h2⟩
      exact ⟨o, hobj p o h1, h2⟩
    · rintro ⟨o, h1, h2⟩
      by_cases e : p < s.objs.length
      · rw [List.getElem?_append_left e] at h1
        exact ⟨o, h1, h2⟩
      · rw [List.getElem?_append_right (by omega)] at h1
        have := List.mem_of_getElem? h1
        rw [List.mem_singleton] at this
        subst this
        cases h2
  · exact h.deleter
  · intro p o i h1 h2 h3
    dsimp only at h1 ⊢
    by_cases e : p < s.objs.length
    · rw [List.getElem?_append_left e] at h1
      obtain ⟨sl, g1, g2⟩ := h.self p o i h1 h2 h3
      refine ⟨sl, ?_, g2⟩
      rw [List.getElem?_append_left (List.getElem?_eq_some_iff.1 g1).1]
      exact g1
    · rw [List.getElem?_append_right (by omega)] at h1
      have hp : p = s.objs.length := by
        have := (List.getElem?_eq_some_iff.1 h1).1
        simp at this
        omega
      have := List.mem_of_getElem? h1
      rw [List.mem_singleton] at this
      subst this
      dsimp only at h2
      rcases hx with ⟨_, hx⟩ | ⟨hx, hx'⟩
      · rw [hx] at h2; cases h2
      · rw [hx'] at h2
        cases h2
        subst hx
        refine ⟨_, by rw [List.getElem?_append_right (Nat.le_refl _)]; simp; rfl, rfl, by rw [hp], rfl, ?_⟩
        intro b
        constructor
        · intro q; cases q
        · rintro ⟨k, hk, hkp⟩
          obtain ⟨o', g1, _⟩ := h.obj b k p hk hkp
          exact absurd (List.getElem?_eq_some_iff.1 g1).1 e

/-! ### Taking over -/

/-- A block for a pointer, the object's own handle having been told or not. -/
theorem Inv.own0 {s : St} {P : List Item} (h : Inv s P) {home : Option Nat} (hp : s.place home = true)
    (q : Option Nat) (del : Option Nat) (slots : List Slot) (w : Nat)
    (hq : ∀ p, q = some p → s.aliveAt p = true ∧ ∀ k ∈ s.blocks, k.obj ≠ some p)
    (hlen : slots.length = s.slots.length)
    (hsame : ∀ (i : Nat) (sl' : Slot), slots[i]? = some sl' → ∃ sl, s.slots[i]? = some sl ∧ sl'.live = sl.live ∧
      sl'.home = sl.home ∧ (sl'.ref = sl.ref ∨ sl'.ref = some s.blocks.length))
    (howner : ∀ b, slots.countP (isOwner b) = s.slots.countP (isOwner b))
    (hwatch : ∀ b, b ≠ s.blocks.length → slots.countP (isWatcher b) = s.slots.countP (isWatcher b))
    (hw : w = slots.countP (isWatcher s.blocks.length) + 1)
    (hself : ∀ (p : Nat) (o : Obj) (i : Nat), s.objs[p]? = some o → o.self = some i → o.alive = true →
      ∃ sl, slots[i]? = some sl ∧ sl.kind = .self ∧ sl.home = some p ∧ sl.live = true ∧
        ∀ b, sl.ref = some b ↔ (∃ k, s.blocks[b]? = some k ∧ k.obj = some p) ∨ b = s.blocks.length ∧ q = some p) :
    Inv { s with blocks := s.blocks ++ [⟨q, 1, w, del, false⟩],
                 slots := slots ++ [⟨home, .strong, some s.blocks.length, true⟩] } P := by
  have hno : s.slots.countP (isOwner s.blocks.length) = 0 := by
    rw [List.countP_eq_zero]
    intro sl hsl hc
    simp only [isOwner, Bool.and_eq_true, decide_eq_true_eq] at hc
    have := h.refs sl hsl hc.1.1 _ hc.2
    omega
  have hnp : ∀ x, P.count (.rel x s.blocks.length) = 0 := by
    intro x
    rw [List.count_eq_zero]
    intro hm
    have := h.todo x _ hm
    omega
  have hblk : ∀ (b : Nat) (k : Block), (s.blocks ++ [⟨q, 1, w, del, false⟩])[b]? = some k →
      s.blocks[b]? = some k ∧ b < s.blocks.length ∨ b = s.blocks.length ∧ k = ⟨q, 1, w, del, false⟩ := by
    intro b k hk
    by_cases e : b < s.blocks.length
    · rw [List.getElem?_append_left e] at hk
      exact .inl ⟨hk, e⟩
    · rw [List.getElem?_append_right (by omega)] at hk
      have h1 := (List.getElem?_eq_some_iff.1 hk).1
      have := List.mem_of_getElem? hk
      rw [List.mem_singleton] at this
      simp at h1
      exact .inr ⟨by omega, this⟩
  have hbs : ∀ (b : Nat) (k : Block), s.blocks[b]? = some k → (s.blocks ++ [⟨q, 1, w, del, false⟩])[b]? = some k := by
    intro b k hk
    rw [List.getElem?_append_left (List.getElem?_eq_some_iff.1 hk).1]
    exact hk
  constructor
  · intro b k hk
    dsimp only
    rw [List.countP_append, howner]
    rcases hblk b k hk with ⟨hk, e⟩ | ⟨e, ek⟩
    · have := h.strong b k hk
      have e' : ¬ s.blocks.length = b := by omega
      simp [isOwner, e']
      exact this
    · subst e ek
      rw [hno, hnp]
      simp [isOwner]
  · intro b k hk
    dsimp only
    rw [List.countP_append]
    rcases hblk b k hk with ⟨hk, e⟩ | ⟨e, ek⟩
    · have := h.weak b k hk
      rw [hwatch b (by omega)]
      simp [isWatcher]
      exact this
    · subst e ek
      rw [hnp]
      simp [isWatcher, hw]
  · intro b k hk
    rcases hblk b k hk with ⟨hk, e⟩ | ⟨e, ek⟩
    · exact h.freed b k hk
    · subst ek
      simp [hw]
  · intro sl hsl hl b hb
    rw [List.length_append]
    rcases List.mem_append.1 hsl with hm | hm
    · obtain ⟨i, hi⟩ := List.getElem?_of_mem hm
      obtain ⟨x, g1, g2, g3, g4⟩ := hsame i sl hi
      rcases g4 with g4 | g4
      · have := h.refs x (List.mem_of_getElem? g1) (g2 ▸ hl) b (g4 ▸ hb)
        omega
      · rw [hb] at g4
        cases g4
        simp
    · rw [List.mem_singleton] at hm
      subst hm
      cases hb
      simp
  · intro x b hm
    have := h.todo x b hm
    rw [List.length_append]
    omega
  · intro b k p hk hkp
    rcases hblk b k hk with ⟨hk, e⟩ | ⟨e, ek⟩
    · exact h.obj b k p hk hkp
    · subst ek
      have := (hq p hkp).1
      simp only [St.aliveAt] at this
      split at this
      · exact ⟨_, by assumption, by simp [this]⟩
      · cases this
  · intro b b' k k' p hk hk' hp hp'
    rcases hblk b k hk with ⟨hk, e⟩ | ⟨e, ek⟩ <;> rcases hblk b' k' hk' with ⟨hk', e'⟩ | ⟨e', ek'⟩
    · exact h.uniq b b' k k' p hk hk' hp hp'
    · subst ek'
      exact absurd hp ((hq p hp').2 k (List.mem_of_getElem? hk))
    · subst ek
      exact absurd hp' ((hq p hp).2 k' (List.mem_of_getElem? hk'))
    · rw [e, e']
  · intro i
    rw [h.drops i]
    have key : orphan { s with blocks := s.blocks ++ [⟨q, 1, w, del, false⟩],
                               slots := slots ++ [⟨home, .strong, some s.blocks.length, true⟩] } i = orphan s i := by
      simp only [orphan]
      by_cases e : i < s.slots.length
      · rw [List.getElem?_append_left (by omega)]
        have hi := List.getElem?_eq_getElem (l := slots) (i := i) (by omega)
        obtain ⟨x, g1, g2, g3, _⟩ := hsame i _ hi
        rw [g1, hi]
        dsimp only
        rw [g2, g3]
        rfl
      · rw [List.getElem?_append_right (by omega), List.getElem?_eq_none (by omega : s.slots.length ≤ i)]
        cases hj : i - slots.length with
        | zero =>
          simp only [List.getElem?_cons_zero, Bool.true_and]
          show (!s.place home) = false
          rw [hp]; rfl
        | succ n => rfl
    rw [key]
  · intro sl hsl p hh
    rcases List.mem_append.1 hsl with hm | hm
    · obtain ⟨i, hi⟩ := List.getElem?_of_mem hm
      obtain ⟨x, g1, _, g3, _⟩ := hsame i sl hi
      exact h.home x (List.mem_of_getElem? g1) p (g3 ▸ hh)
    · rw [List.mem_singleton] at hm
      subst hm
      exact place_lt hp hh
  · exact h.nodup
  · exact h.logged
  · intro p d hm k hk hkp
    rcases List.mem_append.1 hk with hk | hk
    · exact h.deleter p d hm k hk hkp
    · rw [List.mem_singleton] at hk
      subst hk
      obtain ⟨o, g1, g2⟩ := (h.logged p).1 (List.mem_map_of_mem hm)
      have := (hq p hkp).1
      simp only [St.aliveAt, g1, g2] at this
      cases this
  · intro p o i h1 h2 h3
    obtain ⟨sl, g1, g2, g3, g4, g5⟩ := hself p o i h1 h2 h3
    refine ⟨sl, ?_, g2, g3, g4, fun b => (g5 b).trans ?_⟩
    · dsimp only
      rw [List.getElem?_append_left (List.getElem?_eq_some_iff.1 g1).1]
      exact g1
    · constructor
      · rintro (⟨k, hk, hkp⟩ | ⟨e1, e2⟩)
        · exact ⟨k, hbs b k hk, hkp⟩
        · subst e1
          exact ⟨⟨q, 1, w, del, false⟩, by simp, e2⟩
      · rintro ⟨k, hk, hkp⟩
        rcases hblk b k hk with ⟨hk, e⟩ | ⟨e, ek⟩
        · exact .inl ⟨k, hk, hkp⟩
        · subst ek
          exact .inr ⟨e, hkp⟩

theorem modify_last {α} (l : List α) (a : α) (f : α → α) : (l ++ [a]).modify l.length f = l ++ [f a] := by
  induction l with
  | nil => rfl
  | cons x l ih => simp [List.modify_succ_cons, ih]

/-- What is there after a pointer was taken over: the object's own handle is told. -/
theorem own_inv {s : St} {P : List Item} (h : Inv s P) {home : Option Nat} (hp : s.place home = true)
    (q : Option Nat) (del : Option Nat)
    (hq : ∀ p, q = some p → s.aliveAt p = true ∧ ∀ k ∈ s.blocks, k.obj ≠ some p) :
    (own s home q del).2 = [] ∧ Inv (own s home q del).1 P := by
  have plain : (∀ (p : Nat) (o : Obj), q = some p → s.objs[p]? = some o → o.self = none) →
      Inv { s with blocks := s.blocks ++ [⟨q, 1, 1, del, false⟩],
                   slots := s.slots ++ [⟨home, .strong, some s.blocks.length, true⟩] } P := by
    intro hn
    refine h.own0 hp q del s.slots 1 hq rfl (fun i sl hi => ⟨sl, hi, rfl, rfl, .inl rfl⟩) (fun _ => rfl) (fun _ _ => rfl) ?_ ?_
    · have : s.slots.countP (isWatcher s.blocks.length) = 0 := by
        rw [List.countP_eq_zero]
        intro sl hsl hc
        simp only [isWatcher, Bool.and_eq_true, decide_eq_true_eq] at hc
        have := h.refs sl hsl hc.1.1 _ hc.2
        omega
      rw [this]
    · intro p o i h1 h2 h3
      obtain ⟨sl, g1, g2, g3, g4, g5⟩ := h.self p o i h1 h2 h3
      refine ⟨sl, g1, g2, g3, g4, fun b => (g5 b).trans ?_⟩
      constructor
      · exact fun e => .inl e
      · rintro (e | ⟨_, e⟩)
        · exact e
        · rw [hn p o e h1] at h2
          cases h2
  cases q with
  | none =>
    refine ⟨rfl, ?_⟩
    exact plain (fun p o e => by cases e)
  | some p =>
    obtain ⟨hal, hnew⟩ := hq p rfl
    have ho : ∃ o, s.objs[p]? = some o ∧ o.alive = true := by
      simp only [St.aliveAt] at hal
      split at hal
      · exact ⟨_, by assumption, hal⟩
      · cases hal
    obtain ⟨o, ho, hoa⟩ := ho
    cases hs : o.self with
    | none =>
      simp only [own, tell, ho, hs]
      exact ⟨trivial, plain (fun p' o' e e' => by cases e; rw [ho] at e'; cases e'; exact hs)⟩
    | some i =>
      obtain ⟨sl, g1, g2, g3, g4, g5⟩ := h.self p o i ho hs hoa
      have hlt := (List.getElem?_eq_some_iff.1 g1).1
      have hr : sl.ref = none := by
        cases hr : sl.ref with
        | none => rfl
        | some b =>
          obtain ⟨k, hk, hkp⟩ := (g5 b).1 hr
          exact absurd hkp (hnew k (List.mem_of_getElem? hk))
      have hget : (s.slots ++ [(⟨home, .strong, some s.blocks.length, true⟩ : Slot)])[i]? = some sl := by
        rw [List.getElem?_append_left hlt]
        exact g1
      have hset : (s.slots ++ [(⟨home, .strong, some s.blocks.length, true⟩ : Slot)]).set i { sl with ref := some s.blocks.length } =
          s.slots.set i { sl with ref := some s.blocks.length } ++ [⟨home, .strong, some s.blocks.length, true⟩] := by
        exact List.set_append_left _ _ hlt
      have hacq : acquire (s.blocks ++ [⟨some p, 1, 1, del, false⟩]) .self (some s.blocks.length) =
          s.blocks ++ [⟨some p, 1, 2, del, false⟩] := by
        simp only [acquire]
        rw [modify_last]
        rfl
      simp only [own, tell, ho, hs, hget, hr, St.expired, if_true, hset, hacq, giveBack]
      refine ⟨trivial, ?_⟩
      have hc : ∀ f : Slot → Bool, _ := fun f => countP_set' f s.slots i sl { sl with ref := some s.blocks.length } g1
      have hcw : ∀ b, isWatcher b sl = false := by
        intro b
        simp [isWatcher, hr]
      have := h.own0 hp (some p) del (s.slots.set i { sl with ref := some s.blocks.length }) 2 hq (by simp) ?_ ?_ ?_ ?_ ?_
      · exact (by simpa only [g3, g4, g2, hr] using this)
      · intro j x hj
        by_cases e : j = i
        · subst e
          rw [List.getElem?_set_self hlt] at hj
          cases hj
          exact ⟨sl, g1, rfl, rfl, .inr rfl⟩
        · rw [List.getElem?_set_ne (fun z => e z.symm)] at hj
          exact ⟨x, hj, rfl, rfl, .inl rfl⟩
      · intro b
        have h1 := hc (isOwner b)
        have e1 : isOwner b sl = false := by simp [isOwner, g2]
        have e2 : isOwner b { sl with ref := some s.blocks.length } = false := by simp [isOwner, g2]
        rw [e1, e2] at h1
        simpa using h1
      · intro b hb
        have h1 := hc (isWatcher b)
        have e2 : isWatcher b { sl with ref := some s.blocks.length } = false := by
          simp [isWatcher]
          exact fun _ _ e => hb e.symm
        rw [hcw b, e2] at h1
        simpa using h1
      · have h1 := hc (isWatcher s.blocks.length)
        have e2 : isWatcher s.blocks.length { sl with ref := some s.blocks.length } = true := by
          simp [isWatcher, g2, g4]
        have h0 : s.slots.countP (isWatcher s.blocks.length) = 0 := by
          rw [List.countP_eq_zero]
          intro x hx hxc
          simp only [isWatcher, Bool.and_eq_true, decide_eq_true_eq] at hxc
          have := h.refs x hx hxc.1.1 _ hxc.2
          omega
        rw [hcw, e2, h0] at h1
        simp only [Bool.false_eq_true, if_false, if_true] at h1
        omega
      · intro p' o' i' h1 h2 h3
        obtain ⟨x, f1, f2, f3, f4, f5⟩ := h.self p' o' i' h1 h2 h3
        by_cases e : i' = i
        · subst e
          rw [g1] at f1
          cases f1
          have hpp : p' = p := by
            rw [g3] at f3
            cases f3
            rfl
          subst hpp
          refine ⟨_, List.getElem?_set_self hlt, g2, g3, g4, fun b => ?_⟩
          simp only [Option.some.injEq]
          constructor
          · intro e; exact .inr ⟨e.symm, trivial⟩
          · rintro (⟨k, hk, hkp⟩ | ⟨e, _⟩)
            · exact absurd hkp (hnew k (List.mem_of_getElem? hk))
            · exact e.symm
        · refine ⟨x, by rw [List.getElem?_set_ne (fun z => e z.symm)]; exact f1, f2, f3, f4, fun b => (f5 b).trans ?_⟩
          constructor
          · exact fun z => .inl z
          · rintro (z | ⟨_, z⟩)
            · exact z
            · cases z
              rw [ho] at h1
              cases h1
              rw [hs] at h2
              cases h2
              exact absurd rfl e

/-! ### Operations -/

theorem expired_some (s : St) (b : Nat) :
    s.expired (some b) = false ↔ ∃ k, s.blocks[b]? = some k ∧ 0 < k.strong := by
  have hc : s.expired (some b) = decide (s.count b = 0) := rfl
  rw [hc, decide_eq_false_iff_not]
  cases hk : s.blocks[b]? with
  | none =>
    have : s.count b = 0 := by simp only [St.count, hk]
    simp [this]
  | some k =>
    have : s.count b = k.strong := by simp only [St.count, hk]
    rw [this]
    constructor
    · intro h; exact ⟨k, rfl, by omega⟩
    · rintro ⟨k', e, h⟩; cases e; omega

theorem upgrade_inv {s s' : St} {P : List Item} (h : Inv s P) {home ref : Option Nat} (hp : s.place home = true)
    (hu : upgrade s home ref = some s') : Inv s' P := by
  unfold upgrade at hu
  split at hu
  · cases hu
  · rename_i he
    cases hu
    refine h.make hp ?_
    intro b hb
    subst hb
    obtain ⟨k, hk, h0⟩ := (expired_some s b).1 (by simpa using he)
    exact ⟨k, hk, fun _ => h0, fun e => absurd rfl e⟩

theorem assign_inv {s s' : St} {P new : List Item} (h : Inv s P) {i : Nat} {sl : Slot} {ref : Option Nat}
    (hh : s.handle i = some sl) (hk : sl.kind ≠ .self) (ha : Able s sl.kind ref)
    (he : assign s i sl ref = .ok s' new) : Inv s' (new ++ P) := by
  obtain ⟨hi, hl, hp⟩ := handle_some hh
  unfold assign at he
  cases he
  have := h.set hi hl (ref := ref) (live := true) (fun e => by cases e) ha (giveBack sl.kind sl.ref ++ P) ?_ ?_
    (fun e => absurd e hk) ref (fun _ => rfl)
  · rw [← hl] at this
    exact this
  · intro j
    rw [List.count_append, count_giveBack_drop]
    simp
  · intro x b
    rw [List.count_append]
    omega

theorem destroy_inv {s s' : St} {P new : List Item} (h : Inv s P) {p : Nat}
    (hf : ∀ k ∈ s.blocks, k.obj ≠ some p) (hd : destroy s p none = some (s', new)) : Inv s' (new ++ P) := by
  unfold destroy at hd
  split at hd
  · cases hd
  · rename_i o ho
    split at hd
    · rename_i ha
      simp only [Option.some.injEq, Prod.mk.injEq] at hd
      obtain ⟨e1, e2⟩ := hd
      subst e1 e2
      refine h.kill ho ha s.blocks _ none rfl ?_ (fun k hk e => absurd e (hf k hk)) ?_ ?_
      · intro b k hk
        refine ⟨k, hk, rfl, rfl, rfl, rfl, ?_, ?_, fun e => absurd e (hf k (List.mem_of_getElem? hk)), fun _ => rfl⟩
        · rw [List.count_append, count_map_drop_rel]; omega
        · rw [List.count_append, count_map_drop_rel]; omega
      · intro x b hm
        simp only [List.mem_append, List.mem_map] at hm
        rcases hm with ⟨_, _, hm⟩ | hm
        · cases hm
        · exact h.todo x b hm
      · intro i
        rw [List.count_append, count_map_drop, List.count_reverse]
        omega
    · cases hd

theorem apply_inv {c : Classes} {s s' : St} {P new : List Item} {op : Op} (h : Inv s P) (hf : Fair s op)
    (ha : apply c s op = .ok s' new) : Inv s' (new ++ P) := by
  cases op with
  | new t =>
    simp only [apply] at ha
    cases ha
    exact h.newObj c t
  | delete p =>
    simp only [apply] at ha
    split at ha
    · rename_i hd
      cases ha
      exact destroy_inv h hf hd
    · cases ha
  | empty home kind =>
    simp only [apply] at ha
    split at ha
    · rename_i hc
      cases ha
      exact h.make hc.1 (able_none _ _)
    · cases ha
  | own home p del =>
    simp only [apply] at ha
    split at ha
    · rename_i hc
      cases ha
      have := own_inv h hc p del (fun q e => by subst e; exact hf)
      rw [this.1]
      exact this.2
    · cases ha
  | copy home i =>
    simp only [apply] at ha
    split at ha
    · rename_i ref live hh
      split at ha
      · rename_i hc
        cases ha
        obtain ⟨hi, hl, _⟩ := handle_some hh
        exact h.make hc (h.able hi hl .strong (fun _ => rfl))
      · cases ha
    · cases ha
  | move home i =>
    simp only [apply] at ha
    split at ha
    · rename_i sl hh
      split at ha
      · rename_i hc
        cases ha
        exact h.move hh hc.2 hc.1
      · cases ha
    · cases ha
  | weaken home i =>
    simp only [apply] at ha
    split at ha
    · rename_i sl hh
      split at ha
      · rename_i hc
        cases ha
        obtain ⟨hi, hl, _⟩ := handle_some hh
        exact h.make hc.1 (h.able hi hl .weak (fun e => by cases e))
      · cases ha
    · cases ha
  | fromWeak home i =>
    simp only [apply] at ha
    split at ha
    · split at ha
      · rename_i hc
        split at ha
        · rename_i hu
          cases ha
          exact upgrade_inv h hc hu
        · cases ha
      · cases ha
    · cases ha
  | lock home i =>
    simp only [apply] at ha
    split at ha
    · split at ha
      · rename_i hc
        split at ha
        · rename_i hu
          cases ha
          exact upgrade_inv h hc hu
        · cases ha
          exact h.make hc (able_none _ _)
      · cases ha
    · cases ha
  | staticCast home i t =>
    simp only [apply] at ha
    split at ha
    · rename_i ref live hh
      obtain ⟨hi, hl, _⟩ := handle_some hh
      have hab := h.able hi hl .strong (fun _ => rfl)
      split at ha
      · rename_i hc
        split at ha
        · split at ha
          · cases ha
            exact h.make hc hab
          · cases ha
        · cases ha
          exact h.make hc hab
      · cases ha
    · cases ha
  | dynamicCast home i t =>
    simp only [apply] at ha
    split at ha
    · rename_i ref live hh
      obtain ⟨hi, hl, _⟩ := handle_some hh
      have hab := h.able hi hl .strong (fun _ => rfl)
      split at ha
      · rename_i hc
        split at ha
        · split at ha
          · cases ha
            exact h.make hc hab
          · cases ha
            exact h.make hc (able_none _ _)
        · cases ha
          exact h.make hc (able_none _ _)
      · cases ha
    · cases ha
  | assign i j =>
    simp only [apply] at ha
    split at ha
    · rename_i a b hi hj
      split at ha
      · rename_i hc
        obtain ⟨gj, gl, _⟩ := handle_some hj
        refine assign_inv h hi ?_ (h.able gj gl a.kind ?_) ha
        · rcases hc with hc | hc
          · exact hc.2
          · rw [hc.1]; decide
        · intro e
          rcases hc with hc | hc
          · rw [← hc.1]; exact e
          · exact hc.2
      · cases ha
    · cases ha
  | reset i =>
    simp only [apply] at ha
    split at ha
    · rename_i a hi
      split at ha
      · rename_i hc
        exact assign_inv h hi hc (able_none _ _) ha
      · cases ha
    · cases ha
  | drop i =>
    simp only [apply] at ha
    split at ha
    · rename_i a hh
      split at ha
      · rename_i hc
        cases ha
        obtain ⟨hi, hl, hp⟩ := handle_some hh
        refine h.set hi hl (ref := none) (live := false) (fun _ => rfl) (able_none _ _) _ ?_ ?_ (fun e => absurd e hc) a.ref
          (fun e => by cases e)
        · intro j
          rw [List.count_append, count_giveBack_drop, hp]
          simp
        · intro x b
          rw [List.count_append]
          omega
      · cases ha
    · cases ha
  | fromThis home p =>
    simp only [apply] at ha
    split at ha
    · split at ha
      · rename_i hc
        split at ha
        · split at ha
          · split at ha
            · rename_i hu
              cases ha
              exact upgrade_inv h hc.2 hu
            · cases ha
          · cases ha
        · cases ha
      · cases ha
    · cases ha

/-! ### Programs -/

/-- What the other threads have to give back. -/
theorem flatten_set (l : List (List Item)) (t : Nat) (a b : List Item) (h : l[t]? = some a) :
    ∃ R, l.flatten.Perm (a ++ R) ∧ (l.set t b).flatten.Perm (b ++ R) := by
  induction l generalizing t with
  | nil => simp at h
  | cons x l ih =>
    cases t with
    | zero =>
      simp only [List.getElem?_cons_zero, Option.some.injEq] at h
      subst h
      exact ⟨l.flatten, by simp, by simp⟩
    | succ t =>
      simp only [List.getElem?_cons_succ] at h
      obtain ⟨R, h1, h2⟩ := ih t h
      refine ⟨x ++ R, ?_, ?_⟩
      · simp only [List.flatten_cons]
        exact (h1.append_left x).trans (by rw [← List.append_assoc, ← List.append_assoc]; exact (List.perm_append_comm).append_right R)
      · simp only [List.set_cons_succ, List.flatten_cons]
        exact (h2.append_left x).trans (by rw [← List.append_assoc, ← List.append_assoc]; exact (List.perm_append_comm).append_right R)

theorem work_inv {m : Machine} {t : Nat} {it : Item} {rest : List Item} (h : Inv m.st m.stacks.flatten)
    (ht : m.stacks[t]? = some (it :: rest)) :
    ∃ s' new, exec m.st it = some (s', new) ∧ work m t = some ⟨s', m.stacks.set t (new ++ rest)⟩ ∧
      Inv s' (m.stacks.set t (new ++ rest)).flatten := by
  obtain ⟨R0, h1, _⟩ := flatten_set m.stacks t _ [] ht
  obtain ⟨s', new, he, _⟩ := exec_inv (h.perm h1)
  obtain ⟨R, h1, h2⟩ := flatten_set m.stacks t _ (new ++ rest) ht
  obtain ⟨s2, new2, he2, hi⟩ := exec_inv (h.perm h1)
  rw [he] at he2
  cases he2
  refine ⟨s', new, he, by simp only [work, ht, he], ?_⟩
  refine hi.perm ?_
  rw [List.append_assoc] at h2
  exact h2.symm

theorem reach_inv {c : Classes} {m : Machine} (h : Reach c m) : Inv m.st m.stacks.flatten := by
  induction h with
  | start n =>
    have : (List.replicate n ([] : List Item)).flatten = [] := by
      induction n with
      | zero => rfl
      | succ n ih => simp [List.replicate_succ, ih]
    simp only [Spec.start, this]
    constructor <;> simp [orphan]
  | call _ hf hc ih =>
    rename_i m m' t op _
    unfold SharedPtr.call at hc
    split at hc
    · rename_i rest ht
      split at hc
      · rename_i s new ha
        cases hc
        obtain ⟨R, h1, h2⟩ := flatten_set m.stacks t _ (new ++ rest) ht
        refine (apply_inv (ih.perm h1) hf ha).perm ?_
        rw [List.append_assoc] at h2
        exact h2.symm
      · cases hc
        exact ih
      · cases hc
    · cases hc
  | work _ hw ih =>
    rename_i m m' t _
    have hw0 := hw
    unfold SharedPtr.work at hw
    split at hw
    · rename_i it rest ht
      obtain ⟨s', new, _, h2, h3⟩ := work_inv ih ht
      rw [h2] at hw0
      cases hw0
      exact h3
    · cases hw

theorem quiet_flatten {m : Machine} (h : Quiet m) : m.stacks.flatten = [] := by
  rw [List.flatten_eq_nil_iff]
  exact h

theorem play_reach {c : Classes} {m m' : Machine} {l : List (Nat × Option Op)} (h : Reach c m)
    (hf : playFair c m l = true) (hp : play c m l = some m') : Reach c m' := by
  induction l generalizing m with
  | nil =>
    cases hp
    exact h
  | cons x l ih =>
    obtain ⟨t, op⟩ := x
    cases op with
    | none =>
      simp only [play, Option.bind_eq_some_iff] at hp
      obtain ⟨m1, h1, h2⟩ := hp
      simp only [playFair, h1] at hf
      exact ih (.work h h1) hf h2
    | some op =>
      simp only [play, Option.bind_eq_some_iff] at hp
      obtain ⟨m1, h1, h2⟩ := hp
      simp only [playFair, h1, Bool.and_eq_true, decide_eq_true_eq] at hf
      exact ih (.call h hf.1 h1) hf.2 h2

/-! ### Handles of objects that were taken over -/

/-- What a handle points to, by its block. -/
theorem get_some {s : St} {i p : Nat} (h : get s i = some p) :
    ∃ sl b k, s.slots[i]? = some sl ∧ sl.ref = some b ∧ s.blocks[b]? = some k ∧ k.obj = some p := by
  unfold get at h
  rw [Option.bind_eq_some_iff] at h
  obtain ⟨b, h1, h2⟩ := h
  rw [Option.bind_eq_some_iff] at h1 h2
  obtain ⟨sl, h3, h4⟩ := h1
  obtain ⟨k, h5, h6⟩ := h2
  exact ⟨sl, b, k, h3, h4, h5, h6⟩

theorem get_of {s : St} {i p b : Nat} {sl : Slot} {k : Block} (h1 : s.slots[i]? = some sl) (h2 : sl.ref = some b)
    (h3 : s.blocks[b]? = some k) (h4 : k.obj = some p) : get s i = some p := by
  simp [get, h1, h2, h3, h4]

theorem aliveAt_iff {s : St} {p : Nat} : s.aliveAt p = true ↔ ∃ o, s.objs[p]? = some o ∧ o.alive = true := by
  cases h : s.objs[p]? with
  | none => simp [St.aliveAt, h]
  | some o => simp [St.aliveAt, h]

/-- A block's object lives while the block has a count. -/
theorem Inv.alive_iff {s : St} {P : List Item} (h : Inv s P) {b p : Nat} {k : Block} (hk : s.blocks[b]? = some k)
    (hp : k.obj = some p) : s.aliveAt p = true ↔ s.expired (some b) = false := by
  obtain ⟨o, ho, ha⟩ := h.obj b k p hk hp
  rw [expired_some]
  constructor
  · intro hal
    obtain ⟨o', h1, h2⟩ := aliveAt_iff.1 hal
    rw [ho] at h1
    cases h1
    exact ⟨k, hk, ha.1 h2⟩
  · rintro ⟨k', h1, h2⟩
    rw [hk] at h1
    cases h1
    exact aliveAt_iff.2 ⟨o, ho, ha.2 h2⟩

theorem Inv.owner_count {s : St} {P : List Item} (h : Inv s P) {i b : Nat} {sl : Slot} {k : Block}
    (hi : s.slots[i]? = some sl) (hl : sl.live = true) (hs : sl.kind = .strong) (hr : sl.ref = some b)
    (hk : s.blocks[b]? = some k) : 0 < k.strong := by
  rw [h.strong b k hk]
  have := countP_pos_of (isOwner b) _ _ _ hi (by simp [isOwner, hl, hs, hr])
  omega

/-! ### The new handle -/

theorem mk_slot (s : St) (home : Option Nat) (kind : Kind) (ref : Option Nat) :
    (mk s home kind ref).slots[s.slots.length]? = some ⟨home, kind, ref, true⟩ := by
  simp [mk]

theorem get_mk (s : St) (home : Option Nat) (kind : Kind) (ref : Option Nat) :
    get (mk s home kind ref) s.slots.length = ref.bind fun b => s.blocks[b]?.bind Block.obj := by
  simp only [get, mk_slot, Option.bind_some]
  cases ref with
  | none => rfl
  | some b =>
    simp only [Option.bind_some, mk, get_acquire]
    cases s.blocks[b]? with
    | none => rfl
    | some k => by_cases e : kind = .strong <;> simp [e]

theorem count_mk (s : St) (home : Option Nat) (b : Nat) (h : b < s.blocks.length) :
    (mk s home .strong (some b)).count b = s.count b + 1 := by
  simp only [St.count, mk, get_acquire, List.getElem?_eq_getElem h]
  simp

theorem useCount_mk (s : St) (home : Option Nat) (ref : Option Nat) (h : ∀ b, ref = some b → b < s.blocks.length) :
    useCount (mk s home .strong ref) s.slots.length =
      match ref with
      | none => 0
      | some b => s.count b + 1 := by
  simp only [useCount, mk_slot, Option.bind_some]
  cases ref with
  | none => rfl
  | some b => exact count_mk s home b (h b rfl)

/-! ### The end of giving back -/

def isStrong : Item → Bool
  | .rel true _ => true
  | _ => false

/-- What is left to do, at most. -/
def cost (s : St) (P : List Item) : Nat :=
  s.slots.countP Slot.live * (s.slots.length + 3) + P.countP isStrong * (s.slots.length + 1) + P.length

theorem members_length (s : St) (p : Nat) : (members s p).length ≤ s.slots.length := by
  unfold members
  exact Nat.le_trans (List.length_filter_le _ _) (by simp)

theorem countP_map_drop (l : List Nat) : (l.map Item.drop).countP isStrong = 0 := by
  rw [List.countP_eq_zero]
  intro x hx
  obtain ⟨_, _, e⟩ := List.mem_map.1 hx
  subst e
  simp [isStrong]

theorem exec_cost {s s' : St} {it : Item} {new R : List Item} (h : exec s it = some (s', new)) :
    cost s' (new ++ R) < cost s (it :: R) := by
  cases it with
  | drop i =>
    simp only [exec] at h
    split at h
    · cases h
    · rename_i sl hi
      split at h
      · rename_i hl
        cases h
        have hc := countP_set' Slot.live s.slots i sl { sl with live := false } hi
        simp only [hl, if_true] at hc
        simp only [cost, List.length_set, List.countP_append, List.length_append, List.countP_cons, List.length_cons]
        have h1 : (giveBack sl.kind sl.ref).countP isStrong ≤ (giveBack sl.kind sl.ref).length := List.countP_le_length
        have h2 : (giveBack sl.kind sl.ref).length ≤ 1 := by cases sl.ref <;> simp [giveBack]
        have h3 : isStrong (.drop i) = false := rfl
        rw [h3]
        simp only [Bool.false_eq_true, if_false, Nat.add_zero] at hc ⊢
        rw [← hc]
        have h4 : (giveBack sl.kind sl.ref).countP isStrong * (s.slots.length + 1) ≤ 1 * (s.slots.length + 1) :=
          Nat.mul_le_mul_right _ (by omega)
        simp only [Nat.add_mul, Nat.one_mul] at h4 ⊢
        omega
      · cases h
  | rel x b =>
    cases x with
    | false =>
      simp only [exec] at h
      split at h
      · cases h
      · split at h
        · cases h
        · cases h
          have h3 : isStrong (.rel false b) = false := rfl
          simp [cost, List.countP_cons, h3]
    | true =>
      simp only [exec] at h
      have h3 : isStrong (.rel true b) = true := rfl
      split at h
      · cases h
      · rename_i k hk
        split at h
        · cases h
        · split at h
          · split at h
            · cases h
              simp only [cost, List.countP_append, List.length_append, List.countP_cons, List.length_cons, List.countP_nil,
                List.length_nil, isStrong, Bool.false_eq_true, if_false, if_true, Nat.add_mul]
              omega
            · rename_i p _
              split at h
              · cases h
              · rename_i hd
                unfold destroy at hd
                split at hd
                · cases hd
                · split at hd
                  · cases hd
                    cases h
                    have h1 := members_length s p
                    have h2 : ∀ bs, members { s with blocks := bs } p = members s p := fun _ => rfl
                    simp only [cost, List.countP_append, List.length_append, List.countP_cons, List.length_cons,
                      List.countP_nil, List.length_nil, countP_map_drop, h2, List.length_map, List.length_reverse,
                      isStrong, Bool.false_eq_true, if_false, if_true, Nat.add_mul]
                    omega
                  · cases hd
          · cases h
            simp only [cost, List.countP_append, List.length_append, List.countP_cons, List.length_cons, List.countP_nil,
              List.length_nil, isStrong, if_true, Nat.add_mul]
            omega

theorem cost_perm {s : St} {P Q : List Item} (h : P.Perm Q) : cost s P = cost s Q := by
  simp only [cost, h.countP_eq, h.length_eq]

theorem work_cost {m m' : Machine} {t : Nat} (h : work m t = some m') :
    cost m'.st m'.stacks.flatten < cost m.st m.stacks.flatten := by
  unfold work at h
  split at h
  · rename_i it rest ht
    split at h
    · rename_i s new he
      cases h
      obtain ⟨R, h1, h2⟩ := flatten_set m.stacks t _ (new ++ rest) ht
      rw [cost_perm h1, cost_perm h2, List.append_assoc]
      exact exec_cost he
    · cases h
  · cases h

theorem works_bound {m m' : Machine} {n : Nat} (h : Works m n m') :
    n + cost m'.st m'.stacks.flatten ≤ cost m.st m.stacks.flatten := by
  induction h with
  | zero => omega
  | succ hw _ ih =>
    have := work_cost hw
    omega

theorem not_quiet {m : Machine} (h : ¬ Quiet m) : ∃ (t : Nat) (it : Item) (rest : List Item), m.stacks[t]? = some (it :: rest) := by
  have : ∃ st ∈ m.stacks, st ≠ [] := by
    refine Classical.byContradiction fun hc => h fun st hst => ?_
    exact Classical.byContradiction fun hne => hc ⟨st, hst, hne⟩
  obtain ⟨st, hst, hne⟩ := this
  obtain ⟨t, ht⟩ := List.getElem?_of_mem hst
  cases st with
  | nil => exact absurd rfl hne
  | cons it rest => exact ⟨t, it, rest, ht⟩

theorem drains_of {c : Classes} (n : Nat) : ∀ {m : Machine}, Reach c m → cost m.st m.stacks.flatten ≤ n →
    ∃ n' m', Works m n' m' ∧ Quiet m' ∧ Reach c m' := by
  induction n with
  | zero =>
    intro m hr hc
    by_cases hq : Quiet m
    · exact ⟨0, m, .zero, hq, hr⟩
    · obtain ⟨t, it, rest, ht⟩ := not_quiet hq
      obtain ⟨s', new, _, hw, _⟩ := work_inv (reach_inv hr) ht
      have := work_cost hw
      omega
  | succ n ih =>
    intro m hr hc
    by_cases hq : Quiet m
    · exact ⟨0, m, .zero, hq, hr⟩
    · obtain ⟨t, it, rest, ht⟩ := not_quiet hq
      obtain ⟨s', new, _, hw, _⟩ := work_inv (reach_inv hr) ht
      have := work_cost hw
      obtain ⟨n', m', h1, h2, h3⟩ := ih (.work hr hw) (by omega)
      exact ⟨n' + 1, m', .succ hw h1, h2, h3⟩

/-! ### Classes -/

def Shape (c : Classes) (s : St) : Prop := ∀ o ∈ s.objs, o.self.isSome = c.shares o.typ

theorem Shape.of_eq {c : Classes} {s s' : St} (h : Shape c s) (e : s'.objs = s.objs) : Shape c s' := by
  intro o ho
  rw [e] at ho
  exact h o ho

theorem Shape.destroy {c : Classes} {s s' : St} {p : Nat} {d : Option Nat} {new : List Item} (h : Shape c s)
    (hd : destroy s p d = some (s', new)) : Shape c s' := by
  unfold SharedPtr.destroy at hd
  split at hd
  · cases hd
  · rename_i o ho
    split at hd
    · cases hd
      intro o' ho'
      rcases List.mem_or_eq_of_mem_set ho' with hm | hm
      · exact h o' hm
      · subst hm
        exact h o (List.mem_of_getElem? ho)
    · cases hd

theorem Shape.exec {c : Classes} {s s' : St} {it : Item} {new : List Item} (h : Shape c s)
    (he : exec s it = some (s', new)) : Shape c s' := by
  unfold SharedPtr.exec at he
  split at he
  · split at he
    · cases he
    · split at he
      · cases he; exact h
      · cases he
  · split at he
    · cases he
    · split at he
      · cases he
      · dsimp only at he
        split at he
        · split at he
          · cases he; exact h
          · split at he
            · cases he
            · rename_i hd
              cases he
              exact Shape.destroy (c := c) (by exact h) hd
        · cases he; exact h
  · split at he
    · cases he
    · split at he
      · cases he
      · cases he; exact h

theorem upgrade_objs {s s' : St} {home ref : Option Nat} (h : upgrade s home ref = some s') : s'.objs = s.objs := by
  unfold upgrade at h
  split at h
  · cases h
  · cases h; rfl

theorem own_objs (s : St) (home p del : Option Nat) : (own s home p del).1.objs = s.objs := by
  cases p with
  | none => rfl
  | some p =>
    simp only [own, tell]
    split
    · rfl
    · split
      · rfl
      · split
        · rfl
        · split <;> rfl

theorem Shape.apply {c : Classes} {s s' : St} {op : Op} {new : List Item} (h : Shape c s)
    (ha : apply c s op = .ok s' new) : Shape c s' := by
  cases op with
  | new t =>
    simp only [SharedPtr.apply] at ha
    cases ha
    unfold newObj
    split
    · rename_i hs
      intro o ho
      rcases List.mem_append.1 ho with hm | hm
      · exact h o hm
      · rw [List.mem_singleton] at hm
        subst hm
        simp [hs]
    · rename_i hs
      intro o ho
      rcases List.mem_append.1 ho with hm | hm
      · exact h o hm
      · rw [List.mem_singleton] at hm
        subst hm
        simpa using hs
  | delete p =>
    simp only [SharedPtr.apply] at ha
    split at ha
    · rename_i hd
      cases ha
      exact h.destroy hd
    · cases ha
  | own home p del =>
    simp only [SharedPtr.apply] at ha
    split at ha
    · cases ha
      exact h.of_eq (own_objs ..)
    · cases ha
  | _ =>
    simp only [SharedPtr.apply, SharedPtr.assign] at ha
    repeat' split at ha
    all_goals first
      | (cases ha; done)
      | (cases ha; exact h)
      | (rename_i hu; cases ha; exact h.of_eq (upgrade_objs hu))

theorem reach_shape {c : Classes} {m : Machine} (h : Reach c m) : Shape c m.st := by
  induction h with
  | start n => intro o ho; cases ho
  | call _ hf hc ih =>
    unfold SharedPtr.call at hc
    split at hc
    · split at hc
      · rename_i ha
        cases hc
        exact ih.apply ha
      · cases hc
        exact ih
      · cases hc
    · cases hc
  | work _ hw ih =>
    unfold SharedPtr.work at hw
    split at hw
    · split at hw
      · rename_i he
        cases hw
        exact ih.exec he
      · cases hw
    · cases hw

/-- A handle that got another block. -/
theorem get_assigned {s : St} {i : Nat} {sl : Slot} (hi : s.slots[i]? = some sl) (kind : Kind) (ref : Option Nat) :
    get { s with blocks := acquire s.blocks kind ref, slots := s.slots.set i { sl with ref := ref } } i =
      ref.bind fun b => s.blocks[b]?.bind Block.obj := by
  simp only [get, List.getElem?_set_self (List.getElem?_eq_some_iff.1 hi).1, Option.bind_some]
  cases ref with
  | none => rfl
  | some b =>
    simp only [Option.bind_some, get_acquire]
    cases s.blocks[b]? with
    | none => rfl
    | some k => by_cases e : kind = .strong <;> simp [e]

theorem get_eq {s : St} {i : Nat} {sl : Slot} (hi : s.slots[i]? = some sl) :
    get s i = sl.ref.bind fun b => s.blocks[b]?.bind Block.obj := by
  simp [get, hi]

theorem le_sum {l : List Nat} {a : Nat} (h : a ∈ l) : a ≤ l.sum := by
  induction l with
  | nil => cases h
  | cons x l ih =>
    rw [List.sum_cons]
    rcases List.mem_cons.1 h with e | e
    · omega
    · have := ih e
      omega

end Verif.SharedPtr.Lemmas
