import Verif.CsvIter.Spec
/-! # Lemmas: iterators over CSV -/
namespace Verif.CsvIter.Lemmas
open Verif.CsvIter Verif.CsvIter.Spec
open Verif.Csv (Parser Buf)

/-! ### Every row the parser yields can be read -/

/-- What was stored is kept. -/
def Keeps (b b' : Buf) : Prop := b.cnt ≤ b'.cnt ∧ ∀ j < b.cnt, b'.data[j]? = b.data[j]?

theorem Keeps.refl (b : Buf) : Keeps b b := ⟨Nat.le_refl _, fun _ _ => rfl⟩

theorem Keeps.trans {a b c : Buf} (h : Keeps a b) (h' : Keeps b c) : Keeps a c :=
  ⟨Nat.le_trans h.1 h'.1, fun j hj => by rw [h'.2 j (by have := h.1; omega), h.2 j hj]⟩

theorem store_keeps {b b' : Buf} {c : UInt8} (h : Csv.store b c = some b') :
    Keeps b b' ∧ b'.cnt = b.cnt + 1 ∧ b'.data[b.cnt]? = some c := by
  unfold Csv.store at h
  split at h
  · cases h
    refine ⟨⟨by simp, fun j hj => ?_⟩, rfl, ?_⟩
    · rw [List.getElem?_set_ne (by omega)]
    · rw [List.getElem?_set_self (by assumption)]
  · cases h

theorem extend_keeps {b : Buf} (h : b.cnt ≤ b.data.length) : Keeps b (Csv.extend b) :=
  ⟨Nat.le_refl _, fun j hj => by rw [Csv.extend, List.getElem?_append_left (by omega)]⟩

theorem putChar_keeps {b b' : Buf} {c : UInt8} (hb : b.cnt ≤ b.data.length) (h : Csv.putChar b c = some b') :
    Keeps b b' ∧ b'.cnt ≤ b'.data.length := by
  unfold Csv.putChar at h
  have hs := store_keeps h
  have hl : b'.cnt ≤ b'.data.length := by
    have := (List.getElem?_eq_some_iff.1 hs.2.2).1
    rw [hs.2.1]; omega
  refine ⟨Keeps.trans ?_ hs.1, hl⟩
  split
  · exact extend_keeps hb
  · exact Keeps.refl b

theorem quoted_keeps {p : Str} {b : Buf} {r : Str × Buf} (hb : b.cnt ≤ b.data.length) (h : Csv.quoted p b = some r) :
    Keeps b r.2 ∧ r.2.cnt ≤ r.2.data.length := by
  fun_induction Csv.quoted p b with
  | case1 => cases h
  | case2 => cases h
  | case3 => cases h; exact ⟨Keeps.refl _, hb⟩
  | case4 => cases h
  | case5 b d p' hd b' hp ih =>
    have := putChar_keeps hb hp
    have := ih this.2 h
    exact ⟨Keeps.trans (putChar_keeps hb hp).1 this.1, this.2⟩
  | case6 => cases h
  | case7 b c p hc b' hp ih =>
    have := putChar_keeps hb hp
    have := ih this.2 h
    exact ⟨Keeps.trans (putChar_keeps hb hp).1 this.1, this.2⟩

theorem plain_keeps {p : Str} {b : Buf} {r : Str × Buf} (hb : b.cnt ≤ b.data.length) (h : Csv.plain p b = some r) :
    Keeps b r.2 ∧ r.2.cnt ≤ r.2.data.length := by
  fun_induction Csv.plain p b with
  | case1 => cases h; exact ⟨Keeps.refl _, hb⟩
  | case2 => cases h
  | case3 b c p hc b' hp ih =>
    have := putChar_keeps hb hp
    have := ih this.2 h
    exact ⟨Keeps.trans (putChar_keeps hb hp).1 this.1, this.2⟩
  | case4 => cases h; exact ⟨Keeps.refl _, hb⟩

theorem field_keeps {p : Str} {b : Buf} {r : Str × Buf} (hb : b.cnt ≤ b.data.length) (h : Csv.field p b = some r) :
    Keeps b r.2 ∧ r.2.cnt ≤ r.2.data.length := by
  unfold Csv.field at h
  split at h
  · cases h
  · split at h
    · split at h
      · cases h
      · rename_i hq
        cases h
        have := quoted_keeps hb hq
        exact this
    · exact plain_keeps hb h

/-- Every field has its terminator. -/
def Ends (b : Buf) (cur : List Nat) : Prop := ∀ o ∈ cur, ∃ j, o ≤ j ∧ j < b.cnt ∧ b.data[j]? = some 0

theorem loop_ends {p : Str} {b : Buf} {cur : List Nat} {r : Str × Buf × List Nat} (hb : b.cnt ≤ b.data.length) (hc : Ends b cur)
    (h : Csv.loop p b cur = some r) : Ends r.2.1 r.2.2 := by
  have key : ∀ {p p1 : Str} {b b1 b2 : Buf} {cur : List Nat}, b.cnt ≤ b.data.length → Ends b cur → Csv.field p b = some (p1, b1) →
      Csv.store b1 0 = some b2 → Ends b2 (cur ++ [b.cnt]) ∧ b2.cnt ≤ b2.data.length := by
    intro p p1 b b1 b2 cur hb hc h1 h2
    have k1 := field_keeps hb h1
    have k2 := store_keeps h2
    have k := Keeps.trans k1.1 k2.1
    refine ⟨?_, ?_⟩
    · intro o ho
      rcases List.mem_append.1 ho with ho | ho
      · obtain ⟨j, j1, j2, j3⟩ := hc o ho
        exact ⟨j, j1, by have := k.1; omega, by rw [k.2 j j2]; exact j3⟩
      · rw [List.mem_singleton] at ho
        subst ho
        exact ⟨b1.cnt, k1.1.1, by have := k2.2.1; omega, k2.2.2⟩
    · have := (List.getElem?_eq_some_iff.1 k2.2.2).1
      have := k2.2.1
      omega
  fun_induction Csv.loop p b cur with
  | case1 => cases h
  | case2 => cases h
  | case3 p b cur b1 b2 h2 h1 => cases h; exact (key hb hc h1 h2).1
  | case4 => cases h
  | case5 p b cur p1 b1 h1 b2 h2 hne p2 h3 => cases h; exact (key hb hc h1 h2).1
  | case6 p b cur p1 b1 h1 b2 h2 hne p2 h3 ih =>
    exact ih (key hb hc h1 h2).2 (key hb hc h1 h2).1 h

theorem cstr_some {buf : Str} {o j : Nat} (h1 : o ≤ j) (h2 : buf[j]? = some 0) : ∃ s, Csv.cstr buf o = some s := by
  unfold Csv.cstr
  refine ⟨(buf.drop o).takeWhile (· ≠ 0), if_pos ?_⟩
  refine List.mem_iff_getElem?.2 ⟨j - o, ?_⟩
  rw [List.getElem?_drop]
  rw [show o + (j - o) = j by omega]
  exact h2

theorem mapM_some {α β : Type} {f : α → Option β} {l : List α} (h : ∀ a ∈ l, ∃ b, f a = some b) : ∃ r, l.mapM f = some r := by
  induction l with
  | nil => exact ⟨[], rfl⟩
  | cons a l ih =>
    obtain ⟨b, hb⟩ := h a (List.mem_cons_self)
    obtain ⟨r, hr⟩ := ih (fun a ha => h a (List.mem_cons_of_mem _ ha))
    exact ⟨b :: r, by simp [List.mapM_cons, hb, hr]⟩

/-- The parser can be read. -/
def Readable (P : Parser) : Prop := ∃ r, Csv.row P = some r

theorem next_readable {P P' : Parser} {b : Bool} (h : Csv.next P = some (b, P')) : Readable P' := by
  unfold Csv.next at h
  split at h
  · cases h; exact ⟨[], rfl⟩
  · split at h
    · cases h
    · rename_i hl
      cases h
      have := loop_ends (Nat.zero_le _) (fun o ho => by cases ho) hl
      refine mapM_some (fun o ho => ?_)
      obtain ⟨j, j1, _, j3⟩ := this o ho
      exact cstr_some j1 j3

/-! ### Objects -/

theorem iter_lt {s : State} {n : Nat} {it : Iter} (h : s.iter n = some it) : n < s.iters.length := by
  unfold State.iter at h
  by_cases hn : n < s.iters.length
  · exact hn
  · rw [List.getElem?_eq_none (by omega)] at h; cases h

theorem iter_push_old {s : State} {n : Nat} (it : Iter) (h : n < s.iters.length) : (push s it).iter n = s.iter n := by
  unfold State.iter push
  dsimp only
  rw [List.getElem?_append_left h]

theorem iter_push_new (s : State) (it : Iter) : (push s it).iter s.iters.length = some it := by
  unfold State.iter push
  dsimp only
  simp

theorem iter_set_self {s : State} {n : Nat} (v : Option Iter) (h : n < s.iters.length) : ({ s with iters := s.iters.set n v } : State).iter n = v := by
  unfold State.iter
  dsimp only
  rw [List.getElem?_set_self h]
  cases v <;> rfl

theorem iter_set_ne {s : State} {n m : Nat} (v : Option Iter) (h : m ≠ n) : ({ s with iters := s.iters.set n v } : State).iter m = s.iter m := by
  unfold State.iter
  dsimp only
  rw [List.getElem?_set_ne (by omega)]

theorem next_eq {s s' : State} (h : next s = some s') : ∃ b P, Csv.next s.P = some (b, P) ∧ s' = { s with P := P, hasNext := b } := by
  unfold next at h
  split at h
  · cases h
  · rename_i b P e; cases h; exact ⟨b, P, e, rfl⟩

theorem inc_eq {s s' : State} {n : Nat} (h : inc s n = some s') : ∃ it b P, s.iter n = some it ∧ it.p = true ∧ Csv.next s.P = some (b, P) ∧
    s' = { P := P, hasNext := b, iters := s.iters.set n (some { it with cached := false, p := b }) } := by
  unfold inc at h
  split at h
  · cases h
  · rename_i it hit
    split at h
    · cases h
    · rename_i hp
      split at h
      · cases h
      · rename_i s1 hs1
        obtain ⟨b, P, e, rfl⟩ := next_eq hs1
        cases h
        exact ⟨it, b, P, hit, by simpa using hp, e, rfl⟩

/-- A copy of an iterator that is not at the end. -/
def copyOf (s : State) : Iter := ⟨true, true, s.P.cur.map (fun off => ⟨s.iters.length, 0, off⟩), s.P.buf, 0⟩

theorem copy_eq {s s' : State} {m : Nat} (h : copy s m = some s') : ∃ it, s.iter m = some it ∧
    s' = push s (if it.p then copyOf s else ⟨false, false, [], [], 0⟩) := by
  unfold copy at h
  split at h
  · cases h
  · rename_i it hit
    refine ⟨it, hit, ?_⟩
    split at h <;> cases h
    · rename_i hp; rw [if_pos hp]; rfl
    · rename_i hp; rw [if_neg hp]

theorem destroy_eq {s s' : State} {n : Nat} (h : destroy s n = some s') : ∃ it, s.iter n = some it ∧ s' = { s with iters := s.iters.set n none } := by
  unfold destroy at h
  split at h
  · cases h
  · rename_i it hit; cases h; exact ⟨it, hit, rfl⟩

theorem postInc_eq {e : Bool} {s s' : State} {n : Nat} (h : postInc e s n = some s') : ∃ s1 s2, copy s n = some s1 ∧ inc s1 n = some s2 ∧
    (e = true → s' = s2) ∧ (e = false → ∃ s3, copy s2 s.iters.length = some s3 ∧ destroy s3 s.iters.length = some s') := by
  unfold postInc at h
  split at h
  · cases h
  · rename_i s1 h1
    split at h
    · cases h
    · rename_i s2 h2
      refine ⟨s1, s2, h1, h2, ?_, ?_⟩
      · intro he; rw [if_pos he] at h; cases h; rfl
      · intro he
        rw [if_neg (by simp [he])] at h
        split at h
        · cases h
        · rename_i s3 h3; exact ⟨s3, h3, h⟩

/-! ### Other iterators are left alone -/

theorem inc_other {s s' : State} {n m : Nat} (h : inc s n = some s') (hm : m ≠ n) : s'.iter m = s.iter m ∧ s'.iters.length = s.iters.length := by
  obtain ⟨it, b, P, _, _, _, rfl⟩ := inc_eq h
  exact ⟨iter_set_ne (s := { s with P := P, hasNext := b }) _ hm, by simp⟩

theorem inc_length {s s' : State} {n : Nat} (h : inc s n = some s') : s'.iters.length = s.iters.length := by
  obtain ⟨it, b, P, _, _, _, rfl⟩ := inc_eq h
  simp

theorem copy_other {s s' : State} {n m : Nat} (h : copy s n = some s') (hm : m < s.iters.length) : s'.iter m = s.iter m := by
  obtain ⟨it, _, rfl⟩ := copy_eq h
  exact iter_push_old _ hm

theorem copy_length {s s' : State} {n : Nat} (h : copy s n = some s') : s'.iters.length = s.iters.length + 1 := by
  obtain ⟨it, _, rfl⟩ := copy_eq h
  simp [push]

theorem destroy_other {s s' : State} {n m : Nat} (h : destroy s n = some s') (hm : m ≠ n) : s'.iter m = s.iter m ∧ s'.iters.length = s.iters.length := by
  obtain ⟨it, _, rfl⟩ := destroy_eq h
  exact ⟨iter_set_ne _ hm, by simp⟩

theorem step_other {s s' : State} {o : Op} {m : Nat} (h : step s o = some s') (ht : ¬ Touches m o) (hm : m < s.iters.length) :
    s'.iter m = s.iter m ∧ s.iters.length ≤ s'.iters.length := by
  cases o with
  | next =>
    obtain ⟨b, P, _, rfl⟩ := next_eq h
    exact ⟨rfl, Nat.le_refl _⟩
  | make =>
    have h : inc (push s ⟨true, false, [], [], 0⟩) s.iters.length = some s' := h
    obtain ⟨h1, h2⟩ := inc_other h (m := m) (by omega)
    rw [h1, h2, iter_push_old _ hm]
    exact ⟨rfl, by simp [push]⟩
  | makeEnd =>
    cases h
    exact ⟨iter_push_old _ hm, by simp [makeEnd, push]⟩
  | copy n => exact ⟨copy_other h hm, by rw [copy_length h]; omega⟩
  | assign n k =>
    have hne : m ≠ n := fun e => ht e.symm
    have h : assign s n k = some s' := h
    unfold assign at h
    split at h
    · split at h <;> cases h
      · exact ⟨rfl, Nat.le_refl _⟩
      · exact ⟨iter_set_ne _ hne, by simp⟩
    · cases h
  | destroy n =>
    obtain ⟨h1, h2⟩ := destroy_other h (m := m) (fun e => ht e.symm)
    exact ⟨h1, by omega⟩
  | inc n =>
    obtain ⟨h1, h2⟩ := inc_other h (m := m) (fun e => ht e.symm)
    exact ⟨h1, by omega⟩
  | postInc e n =>
    obtain ⟨s1, s2, h1, h2, h3, h4⟩ := postInc_eq h
    have hne : m ≠ n := fun e => ht e.symm
    have c1 := copy_other h1 hm
    have l1 := copy_length h1
    obtain ⟨c2, l2⟩ := inc_other h2 hne
    cases e with
    | true => rw [h3 rfl, c2, c1]; exact ⟨rfl, by omega⟩
    | false =>
      obtain ⟨s3, h5, h6⟩ := h4 rfl
      have c3 := copy_other h5 (m := m) (by omega)
      have l3 := copy_length h5
      obtain ⟨c4, l4⟩ := destroy_other h6 (m := m) (by omega)
      rw [c4, c3, c2, c1]
      exact ⟨rfl, by omega⟩

theorem run_other {s s' : State} {os : List Op} {m : Nat} (h : run s os = some s') (ht : ∀ o ∈ os, ¬ Touches m o) (hm : m < s.iters.length) :
    s'.iter m = s.iter m := by
  induction os generalizing s with
  | nil => cases h; rfl
  | cons o os ih =>
    unfold run at h
    split at h
    · cases h
    · rename_i s1 h1
      obtain ⟨e, l⟩ := step_other h1 (ht o List.mem_cons_self) hm
      rw [ih h (fun o ho => ht o (List.mem_cons_of_mem _ ho)) (by omega), e]

theorem run_append {s : State} {as bs : List Op} : run s (as ++ bs) = (run s as).bind (fun s => run s bs) := by
  induction as generalizing s with
  | nil => rfl
  | cons a as ih =>
    simp only [List.cons_append, run]
    cases step s a with
    | none => rfl
    | some s1 => exact ih

/-! ### Pointers -/

theorem mapM_congr {α β γ : Type} {f : α → Option γ} {g : β → Option γ} {k : β → α} {l : List β} (h : ∀ b ∈ l, f (k b) = g b) :
    (l.map k).mapM f = l.mapM g := by
  induction l with
  | nil => rfl
  | cons b l ih =>
    simp only [List.map_cons, List.mapM_cons]
    rw [h b List.mem_cons_self, ih (fun b hb => h b (List.mem_cons_of_mem _ hb))]

/-- Reading a copy through its own buffer. -/
theorem read_copy {s t : State} (h : t.iter s.iters.length = some (copyOf s)) : (copyOf s).cur.mapM (readPtr t) = Csv.row s.P := by
  unfold Csv.row
  refine mapM_congr (fun off _ => ?_)
  unfold readPtr
  rw [h]
  rfl

theorem deref_copy {s t : State} {r : List Str} (h : t.iter s.iters.length = some (copyOf s)) (hr : Csv.row s.P = some r) :
    deref t s.iters.length = .row r ∧ arrow t s.iters.length = .row r := by
  unfold deref arrow
  rw [h]
  dsimp only
  rw [read_copy h, hr]
  exact ⟨rfl, rfl⟩

/-- What is true without assignments: the pointers of a copy point into its own buffer. -/
structure Inv (s : State) : Prop where
  readable : Readable s.P
  own : ∀ n it, s.iter n = some it → it.cached = true → ∀ q ∈ it.cur, q.owner = n ∧ q.gen = it.gen ∧ ∃ x, Csv.cstr it.buf q.off = some x

theorem mem_mapM {α β : Type} {f : α → Option β} {l : List α} {r : List β} (h : l.mapM f = some r) : ∀ a ∈ l, ∃ b, f a = some b := by
  induction l generalizing r with
  | nil => intro a ha; cases ha
  | cons x l ih =>
    simp only [List.mapM_cons] at h
    obtain ⟨b, hb, h⟩ := Option.bind_eq_some_iff.1 h
    obtain ⟨rs, hrs, _⟩ := Option.bind_eq_some_iff.1 h
    intro a ha
    rcases List.mem_cons.1 ha with rfl | ha
    · exact ⟨b, hb⟩
    · exact ih hrs a ha

theorem inv_start (t : Str) : Inv (start t) := ⟨⟨[], rfl⟩, fun n it h => by simp [start, State.iter] at h⟩

theorem inv_push {s : State} (h : Inv s) {it : Iter}
    (hit : it.cached = true → ∀ q ∈ it.cur, q.owner = s.iters.length ∧ q.gen = it.gen ∧ ∃ x, Csv.cstr it.buf q.off = some x) : Inv (push s it) := by
  refine ⟨h.readable, fun n i hi hc => ?_⟩
  have hl := iter_lt hi
  simp only [push, List.length_append, List.length_cons, List.length_nil] at hl
  by_cases hn : n < s.iters.length
  · rw [iter_push_old _ hn] at hi
    exact h.own n i hi hc
  · have : n = s.iters.length := by omega
    subst this
    rw [iter_push_new] at hi
    cases hi
    exact hit hc

theorem inv_copy {s s' : State} {m : Nat} (h : Inv s) (hc : copy s m = some s') : Inv s' := by
  obtain ⟨it, _, rfl⟩ := copy_eq hc
  refine inv_push h ?_
  split
  · intro _ q hq
    obtain ⟨off, ho, rfl⟩ := List.mem_map.1 hq
    obtain ⟨r, hr⟩ := h.readable
    exact ⟨rfl, rfl, mem_mapM hr off ho⟩
  · intro hc; cases hc

theorem inv_inc {s s' : State} {n : Nat} (h : Inv s) (hc : inc s n = some s') : Inv s' := by
  obtain ⟨it, b, P, hit, _, hn, rfl⟩ := inc_eq hc
  refine ⟨next_readable hn, fun m i hi hc => ?_⟩
  by_cases hm : m = n
  · subst hm
    rw [iter_set_self (s := { s with P := P, hasNext := b }) _ (iter_lt hit)] at hi
    cases hi
    cases hc
  · rw [iter_set_ne (s := { s with P := P, hasNext := b }) _ hm] at hi
    exact h.own m i hi hc

theorem inv_destroy {s s' : State} {n : Nat} (h : Inv s) (hc : destroy s n = some s') : Inv s' := by
  obtain ⟨it, hit, rfl⟩ := destroy_eq hc
  refine ⟨h.readable, fun m i hi hc => ?_⟩
  by_cases hm : m = n
  · subst hm
    rw [iter_set_self _ (iter_lt hit)] at hi
    cases hi
  · rw [iter_set_ne _ hm] at hi
    exact h.own m i hi hc

theorem inv_step {s s' : State} {o : Op} (h : Inv s) (ho : NoAssign o) (hs : step s o = some s') : Inv s' := by
  cases o with
  | next =>
    obtain ⟨b, P, hn, rfl⟩ := next_eq hs
    exact ⟨next_readable hn, h.own⟩
  | make => exact inv_inc (inv_push h (fun hc => by cases hc)) hs
  | makeEnd => cases hs; exact inv_push h (fun hc => by cases hc)
  | copy n => exact inv_copy h hs
  | assign n k => cases ho
  | destroy n => exact inv_destroy h hs
  | inc n => exact inv_inc h hs
  | postInc e n =>
    obtain ⟨s1, s2, h1, h2, h3, h4⟩ := postInc_eq hs
    have i2 := inv_inc (inv_copy h h1) h2
    cases e with
    | true => rw [h3 rfl]; exact i2
    | false =>
      obtain ⟨s3, h5, h6⟩ := h4 rfl
      exact inv_destroy (inv_copy i2 h5) h6

theorem inv_run {s s' : State} {os : List Op} (h : Inv s) (ho : ∀ o ∈ os, NoAssign o) (hs : run s os = some s') : Inv s' := by
  induction os generalizing s with
  | nil => cases hs; exact h
  | cons o os ih =>
    unfold run at hs
    split at hs
    · cases hs
    · rename_i s1 h1
      exact ih (inv_step h (ho o List.mem_cons_self) h1) (fun o h => ho o (List.mem_cons_of_mem _ h)) hs

/-- The parser can always be read, whatever was assigned. -/
theorem readable_step {s s' : State} {o : Op} (h : Readable s.P) (hs : step s o = some s') : Readable s'.P := by
  have hinc : ∀ {s s' : State} {n : Nat}, inc s n = some s' → Readable s'.P := by
    intro s s' n h
    obtain ⟨_, _, _, _, _, hn, rfl⟩ := inc_eq h
    exact next_readable hn
  have hcopy : ∀ {s s' : State} {n : Nat}, Readable s.P → copy s n = some s' → Readable s'.P := by
    intro s s' n h hc
    obtain ⟨_, _, rfl⟩ := copy_eq hc
    exact h
  cases o with
  | next =>
    obtain ⟨b, P, hn, rfl⟩ := next_eq hs
    exact next_readable hn
  | make => exact hinc hs
  | makeEnd => cases hs; exact h
  | copy n => exact hcopy h hs
  | assign n k =>
    have hs : assign s n k = some s' := hs
    unfold assign at hs
    split at hs
    · split at hs <;> cases hs <;> exact h
    · cases hs
  | destroy n => obtain ⟨_, _, rfl⟩ := destroy_eq hs; exact h
  | inc n => exact hinc hs
  | postInc e n =>
    obtain ⟨s1, s2, h1, h2, h3, h4⟩ := postInc_eq hs
    have r2 := hinc h2
    cases e with
    | true => rw [h3 rfl]; exact r2
    | false =>
      obtain ⟨s3, h5, h6⟩ := h4 rfl
      obtain ⟨_, _, rfl⟩ := destroy_eq h6
      have := hcopy r2 h5
      exact this

theorem readable_run {s s' : State} {os : List Op} (h : Readable s.P) (hs : run s os = some s') : Readable s'.P := by
  induction os generalizing s with
  | nil => cases hs; exact h
  | cons o os ih =>
    unfold run at hs
    split at hs
    · cases hs
    · rename_i s1 h1
      exact ih (readable_step h h1) hs

/-- An iterator at the end holds no row. -/
def Plain (s : State) : Prop := ∀ n it, s.iter n = some it → it.p = false → it.cached = false

theorem plain_push {s : State} (h : Plain s) {i : Iter} (hi : i.p = false → i.cached = false) : Plain (push s i) := by
  intro n it hn
  have hl := iter_lt hn
  simp only [push, List.length_append, List.length_cons, List.length_nil] at hl
  by_cases hlt : n < s.iters.length
  · rw [iter_push_old _ hlt] at hn
    exact h n it hn
  · have : n = s.iters.length := by omega
    subst this
    rw [iter_push_new] at hn
    cases hn
    exact hi

theorem plain_set {s : State} (h : Plain s) {m : Nat} {v : Option Iter} (hv : ∀ i, v = some i → i.p = false → i.cached = false) :
    Plain { s with iters := s.iters.set m v } := by
  intro n it hn
  by_cases hnm : n = m
  · subst hnm
    have hl := iter_lt hn
    simp only [List.length_set] at hl
    rw [iter_set_self _ hl] at hn
    exact hv it hn
  · rw [iter_set_ne _ hnm] at hn
    exact h n it hn

theorem plain_inc {s s' : State} {n : Nat} (h : Plain s) (hs : inc s n = some s') : Plain s' := by
  obtain ⟨it, b, P, _, _, _, rfl⟩ := inc_eq hs
  exact plain_set (s := { s with P := P, hasNext := b }) h (fun i hi _ => by cases hi; rfl)

theorem plain_copy {s s' : State} {n : Nat} (h : Plain s) (hs : copy s n = some s') : Plain s' := by
  obtain ⟨it, _, rfl⟩ := copy_eq hs
  refine plain_push h ?_
  split
  · intro hc; cases hc
  · intro _; rfl

theorem plain_destroy {s s' : State} {n : Nat} (h : Plain s) (hs : destroy s n = some s') : Plain s' := by
  obtain ⟨it, _, rfl⟩ := destroy_eq hs
  exact plain_set h (fun i hi => by cases hi)

theorem plain_step {s s' : State} {o : Op} (h : Plain s) (hs : step s o = some s') : Plain s' := by
  cases o with
  | next =>
    obtain ⟨b, P, hn, rfl⟩ := next_eq hs
    exact h
  | make => exact plain_inc (plain_push h (fun _ => rfl)) hs
  | makeEnd => cases hs; exact plain_push h (fun _ => rfl)
  | copy n => exact plain_copy h hs
  | assign n k =>
    have hs : assign s n k = some s' := hs
    unfold assign at hs
    split at hs
    · rename_i a b ha hb
      split at hs <;> cases hs
      · exact h
      · exact plain_set h (fun i hi hp => by cases hi; exact h k b hb hp)
    · cases hs
  | destroy n => exact plain_destroy h hs
  | inc n => exact plain_inc h hs
  | postInc e n =>
    obtain ⟨s1, s2, h1, h2, h3, h4⟩ := postInc_eq hs
    have i2 := plain_inc (plain_copy h h1) h2
    cases e with
    | true => rw [h3 rfl]; exact i2
    | false =>
      obtain ⟨s3, h5, h6⟩ := h4 rfl
      exact plain_destroy (plain_copy i2 h5) h6

theorem plain_run {s s' : State} {os : List Op} (h : Plain s) (hs : run s os = some s') : Plain s' := by
  induction os generalizing s with
  | nil => cases hs; exact h
  | cons o os ih =>
    unfold run at hs
    split at hs
    · cases hs
    · rename_i s1 h1
      exact ih (plain_step h h1) hs

end Verif.CsvIter.Lemmas
