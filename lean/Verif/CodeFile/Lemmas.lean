import Verif.CodeFile.Spec

namespace Verif.CodeFile.Lemmas
open Verif.CodeFile Verif.CodeFile.Spec

/-- A slot whose decoder, if any, owns nothing. -/
def Clean (o : Option Dec) : Prop := ∀ d, o = some d → d.newed = false ∧ ∀ id, d.buf ≠ .heap id

theorem clean_none : Clean none := fun d h => by cases h
theorem clean_empty : Clean (some {}) := fun d h => by cases h; exact ⟨rfl, fun id h => by cases h⟩
theorem clean_user (m : Mem) : Clean (some ⟨false, .user m⟩) := fun d h => by cases h; exact ⟨rfl, fun id h => by cases h⟩

theorem set_get {l : List (Option Dec)} {i j : Nat} {o o' : Option Dec} (h : (l.set i o)[j]? = some o') : (i = j ∧ o' = o) ∨ (i ≠ j ∧ l[j]? = some o') := by
  rw [List.getElem?_set] at h
  split at h
  · rename_i e
    split at h
    · exact Or.inl ⟨e, (Option.some.inj h).symm⟩
    · cases h
  · rename_i e; exact Or.inr ⟨e, h⟩

theorem owns_set {h : List (Option Mem)} {l : List (Option Dec)} {i j id : Nat} {o : Option Dec} (hc : Clean o) :
    Owns ⟨h, l.set i o⟩ j id ↔ i ≠ j ∧ Owns ⟨h, l⟩ j id := by
  constructor
  · rintro ⟨d, hd, hn, hb⟩
    rcases set_get hd with ⟨-, e⟩ | ⟨e, hd'⟩
    · exact absurd hb ((hc d e.symm).2 id)
    · exact ⟨e, d, hd', hn, hb⟩
  · rintro ⟨e, d, hd, hn, hb⟩
    exact ⟨d, by show (l.set i o)[j]? = _; rw [List.getElem?_set_ne e]; exact hd, hn, hb⟩

/-- Freeing what a decoder owns, when its slot becomes clean. -/
theorem detach_tidy {st : State} (ht : Tidy st) {i : Nat} {d : Dec} (hd : st.decs[i]? = some (some d)) {o : Option Dec} (hc : Clean o) :
    ∃ h', detach st.heap d = some h' ∧ h'.length = st.heap.length ∧ Tidy ⟨h', st.decs.set i o⟩ := by
  obtain ⟨hp, l⟩ := st
  have hu := ht.used i d hd
  have usedAll : ∀ (h' : List (Option Mem)) (j : Nat) d', (⟨h', l.set i o⟩ : State).decs[j]? = some (some d') → (d'.newed = true ↔ ∃ id, d'.buf = .heap id) := by
    intro h' j d' hd'
    rcases set_get hd' with ⟨-, e⟩ | ⟨-, hd''⟩
    · have := hc d' e.symm
      constructor
      · intro h; rw [this.1] at h; cases h
      · rintro ⟨id, h⟩; exact absurd h (this.2 id)
    · exact ht.used j d' hd''
  by_cases hn : d.newed = true
  · obtain ⟨id, hb⟩ := hu.1 hn
    have hown : Owns ⟨hp, l⟩ i id := ⟨d, hd, hn, hb⟩
    obtain ⟨m, hm⟩ := (ht.kept id).2 ⟨i, hown⟩
    have hm' : hp[id]? = some (some m) := hm
    refine ⟨hp.set id none, by simp [detach, hb, hn, hm'], by simp, ?_, ?_, usedAll _⟩
    · intro id'
      have hl : Live ⟨hp.set id none, l.set i o⟩ id' ↔ id ≠ id' ∧ Live ⟨hp, l⟩ id' := by
        simp only [Live, List.getElem?_set]
        by_cases e : id = id'
        · subst e; simp
        · simp [e]
      rw [hl, ht.kept id']
      constructor
      · rintro ⟨hne, j, hj⟩
        refine ⟨j, (owns_set (h := hp.set id none) hc).2 ⟨?_, hj⟩⟩
        rintro rfl
        obtain ⟨d', hd', _, hb'⟩ := hj
        rw [hd] at hd'; cases hd'
        rw [hb] at hb'; cases hb'; exact hne rfl
      · rintro ⟨j, hj⟩
        obtain ⟨hij, hj⟩ := (owns_set (h := hp.set id none) hc).1 hj
        refine ⟨?_, j, hj⟩
        rintro rfl
        exact hij (ht.apart i j id hown hj)
    · intro j k id' hj hk
      exact ht.apart j k id' ((owns_set (h := hp.set id none) hc).1 hj).2 ((owns_set (h := hp.set id none) hc).1 hk).2
  · have hnb : ∀ id, d.buf ≠ .heap id := fun id h => hn (hu.2 ⟨id, h⟩)
    refine ⟨hp, ?_, rfl, ?_, ?_, usedAll _⟩
    · unfold detach
      cases e : d.buf with
      | null => rfl
      | heap id => exact absurd e (hnb id)
      | user m => simp [hn]
    · intro id'
      have : Live ⟨hp, l.set i o⟩ id' ↔ Live ⟨hp, l⟩ id' := Iff.rfl
      rw [this, ht.kept id']
      constructor
      · rintro ⟨j, hj⟩
        refine ⟨j, (owns_set hc).2 ⟨?_, hj⟩⟩
        rintro rfl
        obtain ⟨d', hd', _, hb'⟩ := hj
        rw [hd] at hd'; cases hd'
        exact hnb _ hb'
      · rintro ⟨j, hj⟩
        exact ⟨j, ((owns_set hc).1 hj).2⟩
    · intro j k id' hj hk
      exact ht.apart j k id' ((owns_set hc).1 hj).2 ((owns_set hc).1 hk).2

theorem live_lt {st : State} {id : Nat} (h : Live st id) : id < st.heap.length := by
  obtain ⟨m, hm⟩ := h
  exact (List.getElem?_eq_some_iff.1 hm).1

/-- A new array for a decoder that owned nothing. -/
theorem alloc_tidy {h : List (Option Mem)} {l : List (Option Dec)} {i : Nat} (hi : i < l.length) (ht : Tidy ⟨h, l.set i (some {})⟩) (m : Mem) :
    Tidy ⟨h ++ [some m], l.set i (some ⟨true, .heap h.length⟩)⟩ := by
  have ow : ∀ j id, Owns ⟨h ++ [some m], l.set i (some ⟨true, .heap h.length⟩)⟩ j id ↔ (i = j ∧ id = h.length) ∨ Owns ⟨h, l.set i (some {})⟩ j id := by
    intro j id
    rw [owns_set clean_empty]
    constructor
    · rintro ⟨d, hd, hn, hb⟩
      rcases set_get hd with ⟨e, e'⟩ | ⟨e, hd'⟩
      · cases e'; cases hb; exact Or.inl ⟨e, rfl⟩
      · exact Or.inr ⟨e, d, hd', hn, hb⟩
    · rintro (⟨rfl, rfl⟩ | ⟨e, d, hd, hn, hb⟩)
      · exact ⟨⟨true, .heap h.length⟩, by simp [hi], rfl, rfl⟩
      · exact ⟨d, by show (l.set i _)[j]? = _; rw [List.getElem?_set_ne e]; exact hd, hn, hb⟩
  have lt : ∀ j id, Owns ⟨h, l.set i (some {})⟩ j id → id < h.length := fun j id hj => live_lt ((ht.kept id).2 ⟨j, hj⟩)
  refine ⟨?_, ?_, ?_⟩
  · intro id
    have hl : Live ⟨h ++ [some m], l.set i (some ⟨true, .heap h.length⟩)⟩ id ↔ id = h.length ∨ Live ⟨h, l.set i (some {})⟩ id := by
      simp only [Live]
      by_cases e : id < h.length
      · rw [List.getElem?_append_left e]
        have : id ≠ h.length := by omega
        simp [this]
      · by_cases e' : id = h.length
        · subst e'; simp
        · have h1 : (h ++ [some m])[id]? = none := by rw [List.getElem?_eq_none]; simp; omega
          have h2 : h[id]? = none := by rw [List.getElem?_eq_none]; omega
          simp [h1, h2, e']
    rw [hl, ht.kept id]
    constructor
    · rintro (rfl | ⟨j, hj⟩)
      · exact ⟨i, (ow _ _).2 (Or.inl ⟨rfl, rfl⟩)⟩
      · exact ⟨j, (ow _ _).2 (Or.inr hj)⟩
    · rintro ⟨j, hj⟩
      rcases (ow _ _).1 hj with ⟨-, e⟩ | hj
      · exact Or.inl e
      · exact Or.inr ⟨j, hj⟩
  · intro j k id hj hk
    rcases (ow _ _).1 hj with ⟨e, e'⟩ | hj <;> rcases (ow _ _).1 hk with ⟨f, f'⟩ | hk
    · omega
    · have := lt _ _ hk; omega
    · have := lt _ _ hj; omega
    · exact ht.apart _ _ _ hj hk
  · intro j d hd
    rcases set_get hd with ⟨-, e⟩ | ⟨e, hd'⟩
    · cases e; exact ⟨fun _ => ⟨_, rfl⟩, fun _ => rfl⟩
    · exact ht.used j d (by show (l.set i _)[j]? = _; rw [List.getElem?_set_ne e]; exact hd')

theorem stream_tidy {st : State} (ht : Tidy st) {i : Nat} {d : Dec} (hd : st.decs[i]? = some (some d)) (data : Str) {size : Int} (room : Bool) (hs : ¬ (-8 ≤ size ∧ size < 0)) :
    ∃ r, attachStream st.heap d data size room = some r ∧ Tidy (put st i r).1 := by
  obtain ⟨h', e, -, ht'⟩ := detach_tidy ht hd clean_empty
  have hi : i < st.decs.length := (List.getElem?_eq_some_iff.1 hd).1
  unfold attachStream
  rw [e]
  simp only [Option.bind_some]
  by_cases h1 : size < -8
  · rw [if_pos h1]; exact ⟨_, rfl, ht'⟩
  · rw [if_neg h1, if_neg (by omega)]
    cases room
    · exact ⟨_, rfl, ht'⟩
    · exact ⟨_, rfl, alloc_tidy hi ht' _⟩

theorem tidy_put_self {st : State} (ht : Tidy st) {i : Nat} {d : Dec} (hd : st.decs[i]? = some (some d)) : Tidy ⟨st.heap, st.decs.set i (some d)⟩ := by
  obtain ⟨hi, e⟩ := List.getElem?_eq_some_iff.1 hd
  rw [← e, List.set_getElem_self]
  exact ht

theorem new_tidy {st : State} (ht : Tidy st) : Tidy ⟨st.heap, st.decs ++ [some ({} : Dec)]⟩ := by
  have get : ∀ (j : Nat) d, (st.decs ++ [some ({} : Dec)])[j]? = some (some d) → st.decs[j]? = some (some d) ∨ d = ({} : Dec) := by
    intro j d h
    by_cases e : j < st.decs.length
    · rw [List.getElem?_append_left e] at h; exact Or.inl h
    · rw [List.getElem?_append_right (by omega)] at h
      cases e' : j - st.decs.length with
      | zero => rw [e'] at h; simp at h; exact Or.inr h.symm
      | succ n => rw [e'] at h; simp at h
  have ow : ∀ j id, Owns ⟨st.heap, st.decs ++ [some ({} : Dec)]⟩ j id ↔ Owns st j id := by
    intro j id
    constructor
    · rintro ⟨d, hd, hn, hb⟩
      rcases get j d hd with h | rfl
      · exact ⟨d, h, hn, hb⟩
      · cases hb
    · rintro ⟨d, hd, hn, hb⟩
      exact ⟨d, by show (st.decs ++ _)[j]? = _; rw [List.getElem?_append_left (List.getElem?_eq_some_iff.1 hd).1]; exact hd, hn, hb⟩
  refine ⟨fun id => ?_, fun j k id hj hk => ht.apart j k id ((ow _ _).1 hj) ((ow _ _).1 hk), fun j d hd => ?_⟩
  · rw [show Live ⟨st.heap, st.decs ++ [some ({} : Dec)]⟩ id ↔ Live st id from Iff.rfl, ht.kept id]
    exact ⟨fun ⟨j, h⟩ => ⟨j, (ow _ _).2 h⟩, fun ⟨j, h⟩ => ⟨j, (ow _ _).1 h⟩⟩
  · rcases get j d hd with h | rfl
    · exact ht.used j d h
    · exact ⟨fun h => (by cases h), fun ⟨_, h⟩ => (by cases h)⟩

theorem read_sees {st : State} {pos : Nat} {m : Mem} {b : UInt8} {d : Dec}
    (hs : d.buf = .user m ∨ ∃ id, d.buf = .heap id ∧ st.heap[id]? = some (some m)) (hb : m[pos]? = some (some b)) : readByte st.heap d pos = some b := by
  unfold readByte
  rcases hs with h | ⟨id, h, hm⟩
  · simp [h, hb]
  · simp [h, hm, hb]

theorem step_tidy {st : State} (ht : Tidy st) {c : Cmd} (hc : Careful st c) : ∃ st' r, step st c = some (st', r) ∧ Tidy st' := by
  cases c with
  | new => exact ⟨_, _, rfl, new_tidy ht⟩
  | attachFile i f room =>
    obtain ⟨⟨d, hd⟩, hf⟩ := hc
    simp only [step, hd]
    cases f with
    | none => exact ⟨_, _, rfl, tidy_put_self ht hd⟩
    | some f =>
      obtain ⟨r, e, ht'⟩ := stream_tidy ht hd f.data room (hf f rfl)
      simp only [attachFile, e]
      exact ⟨_, _, rfl, ht'⟩
  | attachStream i data size room =>
    obtain ⟨⟨d, hd⟩, hs⟩ := hc
    simp only [step, hd]
    obtain ⟨r, e, ht'⟩ := stream_tidy ht hd data room hs
    rw [e]
    exact ⟨_, _, rfl, ht'⟩
  | attachBuf i m =>
    obtain ⟨d, hd⟩ := hc
    simp only [step, hd, attachBuf]
    obtain ⟨h', e, -, ht'⟩ := detach_tidy ht hd (clean_user m)
    rw [e]
    exact ⟨_, _, rfl, ht'⟩
  | detach i =>
    obtain ⟨d, hd⟩ := hc
    simp only [step, hd]
    obtain ⟨h', e, -, ht'⟩ := detach_tidy ht hd clean_empty
    rw [e]
    exact ⟨_, _, rfl, ht'⟩
  | destroy i =>
    obtain ⟨d, hd⟩ := hc
    simp only [step, hd]
    obtain ⟨h', e, -, ht'⟩ := detach_tidy ht hd clean_none
    rw [e]
    exact ⟨_, _, rfl, ht'⟩
  | read i pos =>
    obtain ⟨m, b, ⟨d, hd, hs⟩, hb⟩ := hc
    simp only [step, hd, read_sees hs hb]
    exact ⟨_, _, rfl, ht⟩
  | copy i => exact hc.elim
  | assign i j => exact hc.elim

theorem run_tidy (cs : List Cmd) {st : State} (ht : Tidy st) (hc : CarefulRun cs st) : ∃ st', run cs st = some st' ∧ Tidy st' := by
  induction cs generalizing st with
  | nil => exact ⟨st, rfl, ht⟩
  | cons c cs ih =>
    obtain ⟨st', r, e, ht'⟩ := step_tidy ht hc.1
    simp only [run, e]
    exact ih ht' (hc.2 _ _ e)

theorem tidy_start : Tidy {} :=
  ⟨fun id => ⟨fun ⟨_, h⟩ => (by simp at h), fun ⟨_, _, h, _⟩ => (by simp at h)⟩, fun _ _ _ ⟨_, h, _⟩ => (by simp at h), fun _ _ h => (by simp at h)⟩

theorem detach_other {st : State} (ht : Tidy st) {i j : Nat} {d : Dec} {m : Mem} (hd : st.decs[j]? = some (some d)) (hij : i ≠ j) (hs : Sees st i m)
    {h' : List (Option Mem)} (e : detach st.heap d = some h') (o : Option Dec) : Sees ⟨h', st.decs.set j o⟩ i m := by
  obtain ⟨di, hdi, hb⟩ := hs
  refine ⟨di, by show (st.decs.set j o)[i]? = _; rw [List.getElem?_set_ne (Ne.symm hij)]; exact hdi, ?_⟩
  rcases hb with hb | ⟨id, hb, hm⟩
  · exact Or.inl hb
  · refine Or.inr ⟨id, hb, ?_⟩
    have hown : Owns st i id := ⟨di, hdi, (ht.used i di hdi).2 ⟨id, hb⟩, hb⟩
    show h'[id]? = some (some m)
    unfold detach at e
    cases hbd : d.buf with
    | null => rw [hbd] at e; cases e; exact hm
    | user u =>
      rw [hbd] at e
      by_cases hn : d.newed = true
      · simp [hn] at e
      · simp [hn] at e; subst e; exact hm
    | heap id' =>
      have hn : d.newed = true := (ht.used j d hd).2 ⟨id', hbd⟩
      have hne : id' ≠ id := by
        rintro rfl
        exact hij (ht.apart i j id' hown ⟨d, hd, hn, hbd⟩)
      simp only [hbd, hn, if_true] at e
      split at e
      · cases e; rw [List.getElem?_set_ne hne]; exact hm
      · cases e

theorem sees_append {h : List (Option Mem)} {l : List (Option Dec)} {i : Nat} {m : Mem} (hs : Sees ⟨h, l⟩ i m) (a : List (Option Mem)) : Sees ⟨h ++ a, l⟩ i m := by
  obtain ⟨d, hd, hb⟩ := hs
  refine ⟨d, hd, ?_⟩
  rcases hb with hb | ⟨id, hb, hm⟩
  · exact Or.inl hb
  · exact Or.inr ⟨id, hb, by show (h ++ a)[id]? = _; rw [List.getElem?_append_left (List.getElem?_eq_some_iff.1 hm).1]; exact hm⟩

theorem stream_other {st : State} (ht : Tidy st) {i j : Nat} {d : Dec} {m : Mem} (hd : st.decs[j]? = some (some d)) (hij : i ≠ j) (hs : Sees st i m)
    {data : Str} {size : Int} {room : Bool} {r : Res × List (Option Mem) × Dec} (e : attachStream st.heap d data size room = some r) : Sees (put st j r).1 i m := by
  unfold attachStream at e
  obtain ⟨h', eh, e⟩ := Option.bind_eq_some_iff.1 e
  have hs' := fun o => detach_other ht hd hij hs eh o
  split at e
  · cases e; exact hs' _
  · split at e
    · cases e
    · split at e
      · cases e; exact sees_append (hs' _) _
      · cases e; exact hs' _

theorem step_other {st : State} (ht : Tidy st) {i : Nat} {m : Mem} (hs : Sees st i m) {c : Cmd} (hc : target st c ≠ i) {st' : State} {r : Res} (e : step st c = some (st', r)) :
    Sees st' i m := by
  have grow : ∀ o, Sees ⟨st.heap, st.decs ++ [o]⟩ i m := by
    intro o
    obtain ⟨d, hd, hb⟩ := hs
    exact ⟨d, by show (st.decs ++ _)[i]? = _; rw [List.getElem?_append_left (List.getElem?_eq_some_iff.1 hd).1]; exact hd, hb⟩
  have keep : ∀ j o, j ≠ i → Sees ⟨st.heap, st.decs.set j o⟩ i m := by
    intro j o hj
    obtain ⟨d, hd, hb⟩ := hs
    exact ⟨d, by show (st.decs.set j o)[i]? = _; rw [List.getElem?_set_ne hj]; exact hd, hb⟩
  cases c with
  | new => cases e; exact grow _
  | copy j =>
    simp only [step] at e
    split at e
    · cases e; exact grow _
    · cases e
  | attachFile j f room =>
    have hj : j ≠ i := hc
    simp only [step] at e
    split at e
    · rename_i d hd
      cases f with
      | none => cases e; exact keep _ _ hj
      | some f =>
        obtain ⟨r', e1, e2⟩ := Option.map_eq_some_iff.1 e
        have := stream_other ht hd (Ne.symm hj) hs e1
        rw [e2] at this; exact this
    · cases e
  | attachStream j data size room =>
    have hj : j ≠ i := hc
    simp only [step] at e
    split at e
    · rename_i d hd
      obtain ⟨r', e1, e2⟩ := Option.map_eq_some_iff.1 e
      have := stream_other ht hd (Ne.symm hj) hs e1
      rw [e2] at this; exact this
    · cases e
  | attachBuf j u =>
    have hj : j ≠ i := hc
    simp only [step, attachBuf] at e
    split at e
    · rename_i d hd
      obtain ⟨r', e1, e2⟩ := Option.map_eq_some_iff.1 e
      obtain ⟨h', e3, rfl⟩ := Option.map_eq_some_iff.1 e1
      cases e2
      exact detach_other ht hd (Ne.symm hj) hs e3 _
    · cases e
  | detach j =>
    have hj : j ≠ i := hc
    simp only [step] at e
    split at e
    · rename_i d hd
      obtain ⟨h', e1, e2⟩ := Option.map_eq_some_iff.1 e
      cases e2
      exact detach_other ht hd (Ne.symm hj) hs e1 _
    · cases e
  | destroy j =>
    have hj : j ≠ i := hc
    simp only [step] at e
    split at e
    · rename_i d hd
      obtain ⟨h', e1, e2⟩ := Option.map_eq_some_iff.1 e
      cases e2
      exact detach_other ht hd (Ne.symm hj) hs e1 _
    · cases e
  | read j pos =>
    simp only [step] at e
    split at e
    · obtain ⟨b, e1, e2⟩ := Option.map_eq_some_iff.1 e
      cases e2; exact hs
    · cases e
  | assign j k =>
    simp only [step] at e
    split at e
    · cases e; exact keep _ _ hc
    · cases e

/-- Attaching to a stream, when there is room. -/
theorem stream_sees {st : State} (ht : Tidy st) {i : Nat} (hi : There st i) (data : Str) (n : Nat) :
    ∃ st', step st (.attachStream i data n true) = some (st', .int 0) ∧ Sees st' i (content data n) := by
  obtain ⟨d, hd⟩ := hi
  obtain ⟨h', e, -, -⟩ := detach_tidy ht hd clean_empty
  have hil : i < st.decs.length := (List.getElem?_eq_some_iff.1 hd).1
  simp only [step, hd, attachStream, e, Option.bind_some]
  rw [if_neg (by omega), if_neg (by omega)]
  refine ⟨_, rfl, ⟨true, .heap h'.length⟩, by simp [hil], Or.inr ⟨_, rfl, by simp⟩⟩

theorem stream_refused {h h' : List (Option Mem)} {d : Dec} (e : detach h d = some h') (data : Str) {size : Int} (room : Bool) :
    (size < -8 → attachStream h d data size room = some (.threw, h', {})) ∧ (-8 ≤ size ∧ size < 0 → attachStream h d data size room = none) := by
  unfold attachStream
  rw [e]
  simp only [Option.bind_some]
  constructor
  · intro h1; rw [if_pos h1]
  · intro h1; rw [if_neg (by omega), if_pos (by omega)]

theorem file_step (st : State) (i : Nat) (f : File) (room : Bool) : step st (.attachFile i (some f) room) = step st (.attachStream i f.data (fileSize f) room) := rfl

theorem fileSize_mod (f : File) {n : Nat} (h : f.stat = some n) : fileSize f = if n % 2 ^ 32 < 2 ^ 31 then ((n % 2 ^ 32 : Nat) : Int) else ((n % 2 ^ 32 : Nat) : Int) - 2 ^ 32 := by
  unfold fileSize
  rw [h]
  show Int.bmod (n : Int) (2 ^ 32) = _
  rw [Int.bmod_def]
  split <;> split <;> omega

end Verif.CodeFile.Lemmas
