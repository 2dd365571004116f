import Verif.Csv.Model
import Verif.Csv.Spec

namespace Verif.Csv.Lemmas
open Verif.Csv Verif.Csv.Spec

/-! ### The size of the buffer -/

theorem grow_self {n e : Nat} (h : e ≤ n) : grow n e = n := by
  unfold grow
  rw [if_neg (by omega)]

theorem grow_ge (n e : Nat) (h : 0 < n) : e ≤ grow n e ∧ n ≤ grow n e := by
  fun_induction grow n e <;> omega

theorem grow_grow (n e e' : Nat) (h : e ≤ e') : grow (grow n e) e' = grow n e' := by
  fun_induction grow n e with
  | case1 n hn ih =>
    rw [ih]
    conv => rhs; unfold grow
    rw [if_pos (by omega)]
  | case2 n hn => rfl

theorem grow_succ (n k : Nat) (h0 : 0 < n) (hk : k ≤ n) : grow n (k + 1) = if n ≤ k then 2 * n else n := by
  by_cases h : n ≤ k
  · rw [if_pos h]
    unfold grow
    rw [if_pos (by omega), grow_self (by omega)]
  · rw [if_neg h, grow_self (by omega)]

/-- The buffer has size `n` and begins with `out`, which is all that was written. -/
def Holds (b : Buf) (out : List UInt8) (n : Nat) : Prop :=
  b.cnt = out.length ∧ b.data.length = n ∧ ∃ g, b.data = out ++ g

theorem Holds.le {b out n} (h : Holds b out n) : out.length ≤ n := by
  obtain ⟨_, h2, g, hg⟩ := h
  rw [← h2, hg, List.length_append]; omega

theorem store_holds {b out n} (h : Holds b out n) (c : UInt8) (hlt : out.length < n) :
    ∃ b', store b c = some b' ∧ Holds b' (out ++ [c]) n := by
  obtain ⟨h1, h2, g, hg⟩ := h
  refine ⟨_, by rw [store, if_pos (by omega)], by simp [h1], by simp [h2], ?_⟩
  cases g with
  | nil => rw [hg] at h2; simp at h2; omega
  | cons x g =>
    refine ⟨g, ?_⟩
    simp [h1, hg]

theorem store_none {b out n} (h : Holds b out n) (c : UInt8) (hle : ¬ out.length < n) : store b c = none := by
  rw [store, if_neg (by have := h.1; have := h.2.1; omega)]

theorem putChar_holds {b out n} (h : Holds b out n) (h0 : 0 < n) (c : UInt8) :
    ∃ b', putChar b c = some b' ∧ Holds b' (out ++ [c]) (grow n (out.length + 1)) := by
  have hle := h.le
  rw [putChar, grow_succ _ _ h0 hle]
  by_cases hn : n ≤ out.length
  · rw [if_pos (by have := h.1; have := h.2.1; omega), if_pos hn]
    refine store_holds ?_ c (by omega)
    obtain ⟨h1, h2, g, hg⟩ := h
    refine ⟨h1, ?_, g ++ List.replicate b.data.length 0, ?_⟩
    · simp [extend, h2]; omega
    · simp only [extend]
      conv => lhs; lhs; rw [hg]
      rw [List.append_assoc]
  · rw [if_neg (by have := h.1; have := h.2.1; omega), if_neg hn]
    exact store_holds h c (by omega)

theorem quoted_spec {b out n} (h : Holds b out n) (h0 : 0 < n) (f : List UInt8) (d : UInt8) (hd : d ≠ 34)
    (rest : List UInt8) :
    ∃ b', quoted (escape f ++ 34 :: d :: rest) b = some (d :: rest, b') ∧
      Holds b' (out ++ f) (grow n (out.length + f.length)) := by
  induction f generalizing b out n with
  | nil =>
    refine ⟨b, ?_, ?_⟩
    · simp [escape, quoted, hd]
    · rw [List.append_nil, List.length_nil, Nat.add_zero, grow_self h.le]; exact h
  | cons c f ih =>
    obtain ⟨b1, e1, h1⟩ := putChar_holds h h0 c
    have hpos : 0 < grow n (out.length + 1) := Nat.lt_of_lt_of_le h0 (grow_ge _ _ h0).2
    obtain ⟨b2, e2, h2⟩ := ih h1 hpos
    refine ⟨b2, ?_, ?_⟩
    · by_cases hc : c = 34
      · subst hc
        simp only [escape, if_true, List.cons_append]
        rw [quoted]
        simp only [if_true, ne_eq, not_true, if_false, e1, e2]
      · simp only [escape, if_neg hc, List.cons_append]
        rw [quoted.eq_def]
        simp only [if_neg hc, e1, e2]
    · rw [grow_grow _ _ _ (by simp)] at h2
      rw [show out ++ c :: f = out ++ [c] ++ f by simp,
        show out.length + (c :: f).length = (out ++ [c]).length + f.length by simp; omega]
      exact h2

/-- What ends a field without quotes. -/
def Stop (t : List UInt8) : Prop := t = [] ∨ ∃ d r, t = d :: r ∧ (d = 44 ∨ d = 13 ∨ d = 10)

theorem plain_spec {b out n} (h : Holds b out n) (h0 : 0 < n) (f : List UInt8)
    (hf : ∀ b ∈ f, b ≠ 44 ∧ b ≠ 13 ∧ b ≠ 10) (t : List UInt8) (ht : Stop t) :
    ∃ b', plain (f ++ t) b = some (t, b') ∧ Holds b' (out ++ f) (grow n (out.length + f.length)) := by
  induction f generalizing b out n with
  | nil =>
    refine ⟨b, ?_, ?_⟩
    · rcases ht with rfl | ⟨d, r, rfl, hd⟩
      · rfl
      · rw [List.nil_append, plain, if_neg (by grind)]
    · rw [List.append_nil, List.length_nil, Nat.add_zero, grow_self h.le]; exact h
  | cons c f ih =>
    obtain ⟨b1, e1, h1⟩ := putChar_holds h h0 c
    have hpos : 0 < grow n (out.length + 1) := Nat.lt_of_lt_of_le h0 (grow_ge _ _ h0).2
    obtain ⟨b2, e2, h2⟩ := ih h1 hpos (fun b hb => hf b (List.mem_cons_of_mem _ hb))
    refine ⟨b2, ?_, ?_⟩
    · have := hf c List.mem_cons_self
      rw [List.cons_append, plain, if_pos this]
      simp only [e1, e2]
    · rw [grow_grow _ _ _ (by simp)] at h2
      rw [show out ++ c :: f = out ++ [c] ++ f by simp,
        show out.length + (c :: f).length = (out ++ [c]).length + f.length by simp; omega]
      exact h2

/-- What follows a cell: a comma, an end of line, or the end of the input after a non-empty cell without quotes. -/
def After (c : Cell) (t : List UInt8) : Prop :=
  (∃ r, t = 44 :: r ∨ t = 10 :: r ∨ t = 13 :: 10 :: r) ∨ (t = [] ∧ c.quoted = false ∧ c.text ≠ [])

theorem field_cell {b out n} (h : Holds b out n) (h0 : 0 < n) (c : Cell) (hc : CellOk c) (t : List UInt8)
    (ht : After c t) :
    ∃ b', field (renderCell c ++ t) b = some (if c.quoted then skip t else t, b') ∧
      Holds b' (out ++ c.text) (grow n (out.length + c.text.length)) := by
  obtain ⟨text, q⟩ := c
  cases q with
  | true =>
    simp only [renderCell, if_true]
    have : ∃ d r, t = d :: r ∧ d ≠ 34 := by
      rcases ht with ⟨r, rfl | rfl | rfl⟩ | ⟨_, h, _⟩
      · exact ⟨_, _, rfl, by decide⟩
      · exact ⟨_, _, rfl, by decide⟩
      · exact ⟨_, _, rfl, by decide⟩
      · exact absurd h (by simp)
    obtain ⟨d, r, rfl, hd⟩ := this
    obtain ⟨b', e, hb⟩ := quoted_spec h h0 text d hd r
    refine ⟨b', ?_, hb⟩
    rw [show 34 :: escape text ++ [34] ++ d :: r = 34 :: (escape text ++ 34 :: d :: r) by simp, field, if_pos rfl, e]
  | false =>
    simp only [renderCell, Bool.false_eq_true, if_false]
    have hs : Stop t := by
      rcases ht with ⟨r, rfl | rfl | rfl⟩ | ⟨h, _⟩
      · exact .inr ⟨_, _, rfl, by simp⟩
      · exact .inr ⟨_, _, rfl, by simp⟩
      · exact .inr ⟨_, _, rfl, by simp⟩
      · exact .inl h
    obtain ⟨hns, hhd⟩ := hc.2 rfl
    obtain ⟨b', e, hb⟩ := plain_spec h h0 text hns t hs
    refine ⟨b', ?_, hb⟩
    rw [← e]
    have : ∃ x y, text ++ t = x :: y ∧ x ≠ 34 := by
      cases text with
      | nil =>
        rcases ht with ⟨r, rfl | rfl | rfl⟩ | ⟨_, _, h⟩
        · exact ⟨_, _, rfl, by decide⟩
        · exact ⟨_, _, rfl, by decide⟩
        · exact ⟨_, _, rfl, by decide⟩
        · exact absurd rfl h
      | cons x y => exact ⟨x, y ++ t, rfl, by simpa using hhd⟩
    obtain ⟨x, y, hxy, hx⟩ := this
    rw [hxy, field, if_neg hx]

/-! ### Rows -/

/-- The cells one after the other, each with a 0 byte. -/
def flat (r : List Cell) : List UInt8 := r.flatMap fun c => c.text ++ [0]

/-- Where the cells begin. -/
def offs : Nat → List Cell → List Nat
  | _, [] => []
  | pos, c :: cs => pos :: offs (pos + c.text.length + 1) cs

/-- What follows a row, and what is left after it. -/
def Tail (r : List Cell) (t rest : List UInt8) : Prop :=
  t = 10 :: rest ∨ t = 13 :: 10 :: rest ∨
    (t = [] ∧ rest = [] ∧ ∃ c, r.getLast? = some c ∧ c.quoted = false ∧ c.text ≠ [])

theorem loop_row {b out n} (h : Holds b out n) (h0 : 0 < n) (r : List Cell) (hr : RowOk r) (t rest : List UInt8)
    (ht : Tail r t rest) (cur : List Nat) :
    (rowFits n out.length r = none → loop (renderCells r ++ t) b cur = none) ∧
    (∀ n', rowFits n out.length r = some n' → ∃ b',
      loop (renderCells r ++ t) b cur = some (rest, b', cur ++ offs out.length r) ∧ Holds b' (out ++ flat r) n') := by
  induction r generalizing b out n cur with
  | nil => exact absurd rfl hr.1
  | cons c cs ih =>
    -- the text after the first cell
    obtain ⟨t1, ht1, he⟩ : ∃ t1, After c t1 ∧ renderCells (c :: cs) ++ t = renderCell c ++ t1 ∧
        ((cs = [] ∧ t1 = t) ∨ (cs ≠ [] ∧ t1 = 44 :: (renderCells cs ++ t))) := by
      cases cs with
      | nil =>
        refine ⟨t, ?_, rfl, .inl ⟨rfl, rfl⟩⟩
        rcases ht with h | h | ⟨h, _, c', hc', h2, h3⟩
        · exact .inl ⟨rest, .inr (.inl h)⟩
        · exact .inl ⟨rest, .inr (.inr h)⟩
        · simp only [List.getLast?_singleton, Option.some.injEq] at hc'
          subst hc'
          exact .inr ⟨h, h2, h3⟩
      | cons d cs =>
        refine ⟨44 :: (renderCells (d :: cs) ++ t), .inl ⟨_, .inl rfl⟩, ?_, .inr ⟨by simp, rfl⟩⟩
        simp [renderCells]
    obtain ⟨he, hcs⟩ := he
    obtain ⟨b1, e1, h1⟩ := field_cell h h0 c (hr.2 c List.mem_cons_self) t1 ht1
    have hpos : 0 < grow n (out.length + c.text.length) := Nat.lt_of_lt_of_le h0 (grow_ge _ _ h0).2
    rw [he]
    simp only [rowFits]
    by_cases hfit : out.length + c.text.length < grow n (out.length + c.text.length)
    · rw [if_pos hfit]
      obtain ⟨b2, e2, h2⟩ := store_holds h1 0 (by simpa using hfit)
      have hcnt : b.cnt = out.length := h.1
      rcases hcs with ⟨rfl, rfl⟩ | ⟨hne, rfl⟩
      · -- last cell
        refine ⟨fun hn => by simp [rowFits] at hn, fun n' hn' => ⟨b2, ?_, ?_⟩⟩
        · rw [loop.eq_def]
          split
          · rename_i hx; rw [hx] at e1; simp at e1
          · rename_i p1 b1' hx
            rw [e1] at hx
            simp only [Option.some.injEq, Prod.mk.injEq] at hx
            obtain ⟨rfl, rfl⟩ := hx
            rw [e2]
            simp only [offs]
            rcases ht with rfl | rfl | ⟨rfl, rfl, c', hc', hq, _⟩
            · have hsk : (if c.quoted = true then skip (10 :: rest) else 10 :: rest) = 10 :: rest := by
                cases c.quoted <;> simp [skip]
              rw [if_neg (by rw [hsk]; simp)]
              split
              · rename_i hs; rw [hsk] at hs; simp [sep] at hs
              · rename_i hs; rw [hsk] at hs; simp [sep] at hs; simp [hs, hcnt]
              · rename_i hs; rw [hsk] at hs; simp [sep] at hs
            · have hsk : (if c.quoted = true then skip (13 :: 10 :: rest) else 13 :: 10 :: rest) ≠ [] ∧
                  sep (if c.quoted = true then skip (13 :: 10 :: rest) else 13 :: 10 :: rest) = some (true, rest) := by
                cases c.quoted <;> simp [skip, sep]
              rw [if_neg hsk.1]
              split
              · rename_i hs; rw [hsk.2] at hs; simp at hs
              · rename_i hs; rw [hsk.2] at hs; simp at hs; simp [hs, hcnt]
              · rename_i hs; rw [hsk.2] at hs; simp at hs
            · simp only [List.getLast?_singleton, Option.some.injEq] at hc'
              subst hc'
              rw [hq]
              simp [hcnt]
        · simp only [rowFits, Option.some.injEq] at hn'
          subst hn'
          simpa [flat] using h2
      · -- more cells
        have hsk : (if c.quoted = true then skip (44 :: (renderCells cs ++ t)) else 44 :: (renderCells cs ++ t)) =
            44 :: (renderCells cs ++ t) := by
          cases c.quoted <;> simp [skip]
        have hloop : loop (renderCell c ++ 44 :: (renderCells cs ++ t)) b cur =
            loop (renderCells cs ++ t) b2 (cur ++ [out.length]) := by
          rw [loop.eq_def]
          split
          · rename_i hx; rw [hx] at e1; simp at e1
          · rename_i p1 b1' hx
            rw [e1, hsk] at hx
            simp only [Option.some.injEq, Prod.mk.injEq] at hx
            obtain ⟨rfl, rfl⟩ := hx
            rw [e2]
            simp only [reduceCtorEq, if_false]
            split
            · rename_i hs; simp [sep] at hs
            · rename_i hs; simp [sep] at hs
            · rename_i hs; simp [sep] at hs; rw [hs, hcnt]
        rw [hloop]
        have hlen : (out ++ c.text ++ [0]).length = out.length + c.text.length + 1 := by simp; omega
        have htl : Tail cs t rest := by
          rcases ht with h | h | ⟨h, h', c', hc', h3⟩
          · exact .inl h
          · exact .inr (.inl h)
          · refine .inr (.inr ⟨h, h', c', ?_, h3⟩)
            obtain ⟨d, cs', rfl⟩ := List.exists_cons_of_ne_nil hne
            rwa [List.getLast?_cons_cons] at hc'
        have := ih h2 hpos ⟨hne, fun c hc => hr.2 c (List.mem_cons_of_mem _ hc)⟩ htl (cur ++ [out.length])
        rw [hlen] at this
        refine ⟨this.1, fun n' hn' => ?_⟩
        obtain ⟨b', e', h'⟩ := this.2 n' hn'
        refine ⟨b', by rw [e']; simp [offs], ?_⟩
        simpa [flat] using h'
    · rw [if_neg hfit]
      have e2 := store_none h1 0 (by simpa using hfit)
      refine ⟨fun _ => ?_, fun n' hn' => by simp at hn'⟩
      rw [loop.eq_def]
      split
      · rfl
      · rename_i p1 b1' hx
        rw [e1] at hx
        simp only [Option.some.injEq, Prod.mk.injEq] at hx
        obtain ⟨rfl, rfl⟩ := hx
        rw [e2]

theorem cstr_at (out text g : List UInt8) (h : 0 ∉ text) : cstr (out ++ (text ++ 0 :: g)) out.length = some text := by
  unfold cstr
  rw [List.drop_left, if_pos (by simp)]
  congr 1
  have : ∀ x ∈ text, (decide (x ≠ 0)) = true := by
    intro x hx
    simp only [ne_eq, decide_not, Bool.not_eq_true', decide_eq_false_iff_not]
    rintro rfl
    exact h hx
  rw [List.takeWhile_append_of_pos this]
  simp

theorem offs_texts (r : List Cell) (hr : ∀ c ∈ r, 0 ∉ c.text) (out g : List UInt8) :
    (offs out.length r).mapM (cstr (out ++ (flat r ++ g))) = some (texts r) := by
  induction r generalizing out with
  | nil => rfl
  | cons c cs ih =>
    rw [offs, List.mapM_cons]
    have h1 : out ++ (flat (c :: cs) ++ g) = out ++ (c.text ++ 0 :: (flat cs ++ g)) := by simp [flat]
    have h2 : out ++ (flat (c :: cs) ++ g) = (out ++ c.text ++ [0]) ++ (flat cs ++ g) := by simp [flat]
    rw [h1, cstr_at _ _ _ (hr c List.mem_cons_self), ← h1, h2,
      show out.length + c.text.length + 1 = (out ++ c.text ++ [0]).length by simp; omega,
      ih (fun c hc => hr c (List.mem_cons_of_mem _ hc))]
    rfl

/-! ### Tables -/

theorem renderCells_ne {r : List Cell} {t rest : List UInt8} (hr : RowOk r) (ht : Tail r t rest) :
    renderCells r ++ t ≠ [] := by
  rcases ht with rfl | rfl | ⟨rfl, _, c, hc, hq, hne⟩
  · simp
  · simp
  · match r, hc with
    | [c'], hc =>
      simp only [List.getLast?_singleton, Option.some.injEq] at hc
      subst hc
      simp [renderCells, renderCell, hq, hne]
    | _ :: _ :: _, _ => simp [renderCells]

theorem next_row (r : List Cell) (hr : RowOk r) (t rest : List UInt8) (ht : Tail r t rest) (buf : List UInt8)
    (cur : List Nat) (h0 : 0 < buf.length) :
    (rowFits buf.length 0 r = none → next { p := renderCells r ++ t, buf := buf, cur := cur } = none) ∧
    (∀ n', rowFits buf.length 0 r = some n' → ∃ P', next { p := renderCells r ++ t, buf := buf, cur := cur } = some (true, P') ∧
      P'.p = rest ∧ P'.buf.length = n' ∧ row P' = some (texts r)) := by
  have hh : Holds { data := buf, cnt := 0 } [] buf.length := ⟨rfl, rfl, buf, rfl⟩
  have := loop_row hh h0 r hr t rest ht []
  have hne := renderCells_ne hr ht
  refine ⟨fun h => ?_, fun n' h => ?_⟩
  · unfold next
    simp only [hne, if_false, this.1 h]
  · obtain ⟨b', e, h1, h2, g, hg⟩ := this.2 n' h
    refine ⟨_, by unfold next; simp only [hne, if_false, e]; rfl, rfl, h2, ?_⟩
    unfold row
    simp only [List.nil_append] at hg ⊢
    rw [hg]
    exact offs_texts r (fun c hc => (hr.2 c hc).1) [] g

theorem parseFrom_nil (buf : List UInt8) (cur : List Nat) : parseFrom { p := [], buf := buf, cur := cur } = some [] := by
  rw [parseFrom.eq_def]
  simp only [next]
  rfl

theorem rowFits_pos {n pos : Nat} {r : List Cell} {n' : Nat} (h : rowFits n pos r = some n') (h0 : 0 < n) : 0 < n' := by
  induction r generalizing n pos with
  | nil => simp only [rowFits, Option.some.injEq] at h; omega
  | cons c cs ih =>
    simp only [rowFits] at h
    split at h
    · exact ih h (Nat.lt_of_lt_of_le h0 (grow_ge _ _ h0).2)
    · exact absurd h (by simp)

/-- One row, then the rest. -/
theorem parseFrom_row (r : List Cell) (hr : RowOk r) (t rest : List UInt8) (ht : Tail r t rest) (buf : List UInt8)
    (cur : List Nat) (h0 : 0 < buf.length) :
    (rowFits buf.length 0 r = none → parseFrom { p := renderCells r ++ t, buf := buf, cur := cur } = none) ∧
    (∀ n', rowFits buf.length 0 r = some n' → ∃ P', P'.p = rest ∧ P'.buf.length = n' ∧
      parseFrom { p := renderCells r ++ t, buf := buf, cur := cur } = (parseFrom P').map (texts r :: ·)) := by
  have := next_row r hr t rest ht buf cur h0
  refine ⟨fun h => ?_, fun n' h => ?_⟩
  · rw [parseFrom.eq_def]
    split
    · rfl
    · rename_i hx; rw [this.1 h] at hx; simp at hx
    · rename_i hx; rw [this.1 h] at hx; simp at hx
  · obtain ⟨P', e, h1, h2, h3⟩ := this.2 n' h
    refine ⟨P', h1, h2, ?_⟩
    rw [parseFrom.eq_def]
    split
    · rename_i hx; rw [e] at hx; simp at hx
    · rename_i hx; rw [e] at hx; simp at hx
    · rename_i hx
      rw [e] at hx
      simp only [Option.some.injEq, Prod.mk.injEq, true_and] at hx
      subst hx
      rw [h3]
      cases parseFrom P' <;> rfl

theorem parseFrom_table (t : List (List Cell × Bool)) (ht : ∀ r ∈ t, RowOk r.1) (last : List (List Cell))
    (hl : last = [] ∨ ∃ r c, last = [r] ∧ RowOk r ∧ r.getLast? = some c ∧ c.quoted = false ∧ c.text ≠ [])
    (buf : List UInt8) (cur : List Nat) (h0 : 0 < buf.length) :
    parseFrom { p := render t ++ last.flatMap renderCells, buf := buf, cur := cur } =
      if fits buf.length (t.map (·.1) ++ last) then some ((t.map fun r => texts r.1) ++ last.map texts) else none := by
  induction t generalizing buf cur with
  | nil =>
    rcases hl with rfl | ⟨r, c, rfl, hr, hc⟩
    · simp only [render, List.flatMap_nil, List.append_nil, List.map_nil, fits, if_true]
      exact parseFrom_nil _ _
    · have := parseFrom_row r hr [] [] (.inr (.inr ⟨rfl, rfl, c, hc⟩)) buf cur h0
      simp only [render, List.flatMap_nil, List.nil_append, List.map_nil, List.flatMap_cons, List.map_cons, fits]
      cases hf : rowFits buf.length 0 r with
      | none => simpa using this.1 hf
      | some n' =>
        obtain ⟨⟨p, pb, pc⟩, rfl, _, e⟩ := this.2 n' hf
        rw [e, parseFrom_nil]
        rfl
  | cons r t ih =>
    have hp : render (r :: t) ++ last.flatMap renderCells =
        renderCells r.1 ++ (eol r.2 ++ (render t ++ last.flatMap renderCells)) := by simp [render]
    have htl : Tail r.1 (eol r.2 ++ (render t ++ last.flatMap renderCells)) (render t ++ last.flatMap renderCells) := by
      cases hb : r.2
      · exact .inl (by simp [eol])
      · exact .inr (.inl (by simp [eol]))
    have := parseFrom_row r.1 (ht r List.mem_cons_self) _ _ htl buf cur h0
    rw [hp]
    simp only [List.map_cons, List.cons_append, fits]
    cases hf : rowFits buf.length 0 r.1 with
    | none => simpa using this.1 hf
    | some n' =>
      obtain ⟨⟨p, pb, pc⟩, hp', hn', e⟩ := this.2 n' hf
      dsimp only at hp' hn'
      subst hp' hn'
      rw [e, ih (fun r hr => ht r (List.mem_cons_of_mem _ hr)) pb pc (rowFits_pos hf h0)]
      simp only
      split <;> rfl

/-! ### When everything fits -/

/-- No terminator falls on one of the sizes the buffer can have. -/
theorem rowFits_some (k : Nat) (pos : Nat) (r : List Cell) (hpos : pos ≤ 1024 * 2 ^ k)
    (h : ∀ l₁ c l₂, r = l₁ ++ c :: l₂ → ∀ j, pos + need l₁ + c.text.length ≠ 1024 * 2 ^ j) :
    ∃ j, rowFits (1024 * 2 ^ k) pos r = some (1024 * 2 ^ j) := by
  induction r generalizing k pos with
  | nil => exact ⟨k, rfl⟩
  | cons c cs ih =>
    have hg : ∀ e k, ∃ j, grow (1024 * 2 ^ k) e = 1024 * 2 ^ j ∧ e ≤ 1024 * 2 ^ j := by
      intro e k
      have h0 : 0 < 1024 * 2 ^ k := Nat.mul_pos (by decide) (Nat.pos_of_ne_zero (by simp))
      have hge := (grow_ge (1024 * 2 ^ k) e h0).1
      have : ∃ j, grow (1024 * 2 ^ k) e = 1024 * 2 ^ j := by
        clear hge h0 ih h
        generalize hn : 1024 * 2 ^ k = n
        fun_induction grow n e generalizing k with
        | case1 n _ ih' => exact ih' (k + 1) (by rw [← hn, Nat.pow_succ]; omega)
        | case2 n _ => exact ⟨k, hn.symm⟩
      obtain ⟨j, hj⟩ := this
      exact ⟨j, hj, by omega⟩
    obtain ⟨j, hj, hle⟩ := hg (pos + c.text.length) k
    have hne : pos + c.text.length ≠ 1024 * 2 ^ j := by simpa [need] using h [] c cs rfl j
    simp only [rowFits, hj]
    rw [if_pos (by omega)]
    refine ih j _ (by omega) ?_
    intro l₁ d l₂ e i
    have := h (c :: l₁) d l₂ (by rw [e]; rfl) i
    simp only [need, List.map_cons, List.sum_cons] at this ⊢
    omega

theorem fits_of (k : Nat) (rs : List (List Cell))
    (h : ∀ r ∈ rs, ∀ l₁ c l₂, r = l₁ ++ c :: l₂ → ∀ j, need l₁ + c.text.length ≠ 1024 * 2 ^ j) :
    fits (1024 * 2 ^ k) rs = true := by
  induction rs generalizing k with
  | nil => rfl
  | cons r rs ih =>
    obtain ⟨j, hj⟩ := rowFits_some k 0 r (by omega) (by simpa using h r List.mem_cons_self)
    simp only [fits, hj]
    exact ih j fun r hr => h r (List.mem_cons_of_mem _ hr)

/-! ### A long cell -/

theorem rowOk_long (n : Nat) : RowOk [⟨List.replicate n 97, false⟩] := by
  refine ⟨by simp, fun c hc => ?_⟩
  simp only [List.mem_singleton] at hc
  subst hc
  refine ⟨by simp [List.mem_replicate], fun _ => ⟨fun b hb => ?_, ?_⟩⟩
  · rw [(List.mem_replicate.mp hb).2]; decide
  · cases n <;> simp [List.replicate_succ]

theorem fits_long (n : Nat) : fits n [[⟨List.replicate n 97, false⟩]] = false := by
  simp [fits, rowFits, grow_self]

theorem split_one {c d : Cell} {l₁ l₂ : List Cell} (h : [c] = l₁ ++ d :: l₂) : l₁ = [] ∧ d = c := by
  cases l₁ with
  | nil => simp at h; exact ⟨rfl, h.1.symm⟩
  | cons _ l => simp at h

end Verif.Csv.Lemmas
