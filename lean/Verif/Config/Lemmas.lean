import Verif.Config.Spec
/-! # Lemmas for configuration files -/
namespace Verif.Config.Lemmas
open Verif.Config Verif.Config.Spec

theorem isSpace_iff {b : UInt8} : isSpace b = true ↔ Blank b := by
  simp only [isSpace, Blank, Bool.or_eq_true, Bool.and_eq_true, decide_eq_true_eq, List.mem_cons, List.not_mem_nil, or_false, UInt8.le_iff_toNat_le,
    ← UInt8.toNat_inj]
  simp only [UInt8.toNat_ofNat, UInt8.reduceToNat]
  omega

theorem isSpace_false {b : UInt8} : isSpace b = false ↔ ¬ Blank b := by
  rw [← isSpace_iff]
  cases isSpace b <;> simp

theorem mem_takeWhile {p : UInt8 → Bool} {b : UInt8} {l : Str} (h : b ∈ l.takeWhile p) : p b = true := by
  induction l with
  | nil => simp at h
  | cons x xs ih =>
    rw [List.takeWhile_cons] at h
    split at h
    · next hx =>
      rcases List.mem_cons.mp h with rfl | h
      · exact hx
      · exact ih h
    · simp at h

theorem takeWhile_all {p : UInt8 → Bool} {l : Str} (h : ∀ b ∈ l, p b = true) : l.takeWhile p = l := by
  induction l with
  | nil => rfl
  | cons x xs ih =>
    rw [List.takeWhile_cons, if_pos (h x (by simp)), ih (fun b hb => h b (by simp [hb]))]

theorem getLast?_quote (v : Str) : (34 :: (v ++ [34])).getLast? = some 34 := by
  rw [← List.cons_append, List.getLast?_concat]

theorem dropWhile_space_append {ws s : Str} (h : Space ws) :
    (ws ++ s).dropWhile isSpace = s.dropWhile isSpace := by
  induction ws with
  | nil => rfl
  | cons x xs ih =>
    have hx : isSpace x = true := isSpace_iff.2 (h x (by simp))
    have := ih (fun b hb => h b (by simp [hb]))
    simp [List.dropWhile_cons, hx, this]

theorem dropWhile_space {ws : Str} (h : Space ws) : ws.dropWhile isSpace = [] := by
  simpa using dropWhile_space_append (s := []) h

theorem dropWhile_head {s : Str} (h : ∀ b, s.head? = some b → isSpace b = false) :
    s.dropWhile isSpace = s := by
  cases s with
  | nil => rfl
  | cons x xs => simp [List.dropWhile_cons, h x rfl]

theorem space_reverse {ws : Str} (h : Space ws) : Space ws.reverse := fun b hb => h b (by simpa using hb)

theorem trim_eq {ws raw ws' : Str} (h1 : Space ws) (h2 : Trimmed raw) (h3 : Space ws') :
    trim (ws ++ raw ++ ws') = raw := by
  unfold trim
  rw [List.append_assoc, dropWhile_space_append h1]
  cases hr : raw with
  | nil => simp [dropWhile_space h3]
  | cons x xs =>
    rw [← hr]
    have : (raw ++ ws').dropWhile isSpace = raw ++ ws' := by
      apply dropWhile_head
      intro b hb
      exact isSpace_false.2 (h2.1 b (by rw [hr] at hb ⊢; simpa using hb))
    rw [this, List.reverse_append, dropWhile_space_append (space_reverse h3)]
    rw [dropWhile_head (by intro b hb; exact isSpace_false.2 (h2.2 b (by simpa using hb))), List.reverse_reverse]

/-- `s` splits into leading space and the rest that starts with non-space. -/
theorem split_space (s : Str) : ∃ ws, Space ws ∧ s = ws ++ s.dropWhile isSpace ∧
    ∀ b, (s.dropWhile isSpace).head? = some b → isSpace b = false := by
  refine ⟨s.takeWhile isSpace, fun b hb => isSpace_iff.1 (mem_takeWhile hb), by simp, ?_⟩
  intro b hb
  have := List.head?_dropWhile_not isSpace s
  rw [hb] at this
  simpa using this

theorem trim_split (s : Str) : ∃ ws ws', Space ws ∧ Space ws' ∧ Trimmed (trim s) ∧
    s = ws ++ trim s ++ ws' := by
  obtain ⟨ws, h1, h2, h3⟩ := split_space s
  obtain ⟨wr, g1, g2, g3⟩ := split_space (s.dropWhile isSpace).reverse
  have e : s.dropWhile isSpace = trim s ++ wr.reverse := by
    have := congrArg List.reverse g2
    rw [List.reverse_reverse, List.reverse_append] at this
    exact this
  refine ⟨ws, wr.reverse, h1, space_reverse g1, ⟨?_, ?_⟩, ?_⟩
  · intro b hb
    refine isSpace_false.1 (h3 _ ?_)
    rw [e]
    cases ht : trim s with
    | nil => rw [ht] at hb; simp at hb
    | cons x xs => rw [ht] at hb; simpa using hb
  · intro b hb
    refine isSpace_false.1 (g3 _ ?_)
    rw [← List.getLast?_reverse]
    exact hb
  · rw [List.append_assoc, ← e]; exact h2

theorem strchr_none {c : UInt8} {s : Str} : strchr c s = none ↔ c ∉ s := by
  induction s with
  | nil => simp [strchr]
  | cons x xs ih =>
    rw [strchr]
    by_cases h : x = c
    · simp [h]
    · have h' : c ≠ x := fun e => h e.symm
      simp [h, h', ih]

theorem strchr_some {c : UInt8} {s a b : Str} :
    strchr c s = some (a, b) ↔ s = a ++ [c] ++ b ∧ c ∉ a := by
  induction s generalizing a with
  | nil => simp [strchr]
  | cons x xs ih =>
    rw [strchr]
    by_cases h : x = c
    · subst h
      rw [if_pos rfl]
      cases a with
      | nil => simp [eq_comm]
      | cons y ys =>
        simp only [Option.some.injEq, Prod.mk.injEq, List.cons_append, List.cons.injEq,
          List.mem_cons, not_or]
        constructor
        · rintro ⟨h, _⟩; cases h
        · rintro ⟨⟨h1, _⟩, h2, _⟩; exact absurd h1 h2
    · rw [if_neg h]
      cases a with
      | nil =>
        simp only [Option.map_eq_some_iff, Prod.mk.injEq, List.nil_append, List.cons_append,
          List.cons.injEq]
        constructor
        · rintro ⟨_, _, h, _⟩; cases h
        · rintro ⟨⟨h1, _⟩, _⟩; exact absurd h1 h
      | cons y ys =>
        simp only [Option.map_eq_some_iff, Prod.mk.injEq, List.cons_append, List.cons.injEq,
          List.mem_cons, not_or]
        constructor
        · rintro ⟨⟨a', b'⟩, h1, ⟨h2, h3⟩, h4⟩
          simp only at h2 h3 h4
          subst h2; subst h3; subst h4
          obtain ⟨e1, e2⟩ := ih.mp h1
          exact ⟨⟨rfl, e1⟩, fun e => h e.symm, e2⟩
        · rintro ⟨⟨h1, h2⟩, h3, h4⟩
          exact ⟨(ys, b), ih.mpr ⟨h2, h4⟩, ⟨h1, rfl⟩, rfl⟩

theorem unquote_quoted (v : Str) : unquote ([34] ++ v ++ [34]) = v := by
  rw [unquote, if_pos (by simp), if_pos (by simp [getLast?_quote])]
  simp

theorem unquote_plain {v : Str} (h : ¬ ∃ w, v = [34] ++ w ++ [34]) : unquote v = v := by
  rw [unquote]
  split
  · next hl =>
    split
    · next hq =>
      exfalso
      apply h
      obtain ⟨h1, h2⟩ := hq
      cases v with
      | nil => simp at hl
      | cons x xs =>
        have hx : x = 34 := by simpa using h1
        subst hx
        have hne : xs ≠ [] := by rintro rfl; simp at hl
        have hl2 : xs.getLast? = some 34 := by
          cases xs with
          | nil => exact absurd rfl hne
          | cons y ys => simpa [List.getLast?_cons_cons] using h2
        refine ⟨xs.dropLast, ?_⟩
        rw [List.getLast?_eq_some_getLast hne, Option.some.injEq] at hl2
        have := List.dropLast_concat_getLast hne
        rw [hl2] at this
        simp [this]
    · rfl
  · rfl

theorem denotes_iff (raw v : Str) : Denotes raw v ↔ unquote raw = v := by
  constructor
  · rintro (_ | ⟨h⟩)
    · exact unquote_quoted v
    · next h => exact unquote_plain h
  · rintro rfl
    by_cases h : ∃ w, raw = [34] ++ w ++ [34]
    · obtain ⟨w, rfl⟩ := h
      rw [unquote_quoted]
      exact .quoted w
    · rw [unquote_plain h]
      exact .plain raw h

theorem not_space_of {c : UInt8} (h : c = 59 ∨ c = 91 ∨ c = 61 ∨ c = 93) : isSpace c = false := by
  rcases h with rfl | rfl | rfl | rfl <;> decide

/-- A line of the grammar is classified as that item. -/
theorem parseLine_of_lineIs {n : Nat} {l : Str} {it : Item} (h : LineIs (visible l) it) :
    parseLine n l = .ok it := by
  unfold parseLine
  unfold visible at h
  generalize l.takeWhile (· ≠ 0) = st at *
  simp only [skipSpaces]
  cases h with
  | blank _ hs => rw [dropWhile_space hs]
  | comment ws rest hs =>
    rw [List.append_assoc, dropWhile_space_append hs]
    have : ([59] ++ rest).dropWhile isSpace = 59 :: rest :=
      dropWhile_head (by intro b hb; simp at hb; subst hb; decide)
    rw [this]
    simp
  | «section» ws name ws' hs hs' hn =>
    rw [List.append_assoc, List.append_assoc, List.append_assoc, dropWhile_space_append hs]
    have : ([91] ++ (name ++ ([93] ++ ws'))).dropWhile isSpace = 91 :: (name ++ ([93] ++ ws')) :=
      dropWhile_head (by intro b hb; simp at hb; subst hb; decide)
    rw [this]
    have hc : strchr 93 (91 :: (name ++ ([93] ++ ws'))) = some (91 :: name, ws') := by
      rw [strchr_some]
      exact ⟨by simp, by simp [hn]⟩
    simp only [show ¬ (91 : UInt8) = 59 by decide, if_false, if_true, hc]
    rw [dropWhile_space hs']
    rfl
  | assign ws k ws1 ws2 raw ws3 v hs hs1 hs2 hs3 hk hk1 hk2 hk3 hr hd =>
    have hassoc : ws ++ k ++ ws1 ++ [61] ++ ws2 ++ raw ++ ws3
        = ws ++ ((k ++ ws1) ++ [61] ++ (ws2 ++ raw ++ ws3)) := by simp
    rw [hassoc, dropWhile_space_append hs]
    have hv := (denotes_iff raw v).mp hd
    have htr : trim (ws2 ++ raw ++ ws3) = raw := trim_eq hs2 hr hs3
    have hnk : (61 : UInt8) ∉ k ++ ws1 := by
      simp only [List.mem_append, not_or]
      refine ⟨hk1, fun hm => ?_⟩
      have := hs1 61 hm
      exact absurd this (by decide)
    cases hkc : k with
    | nil =>
      -- empty key: leading white space is skipped first
      subst hkc
      have hd1 : (([] ++ ws1) ++ [61] ++ (ws2 ++ raw ++ ws3)).dropWhile isSpace
          = 61 :: (ws2 ++ raw ++ ws3) := by
        rw [List.nil_append, List.append_assoc, dropWhile_space_append hs1]
        exact dropWhile_head (by intro b hb; simp at hb; subst hb; decide)
      rw [hd1]
      have hc : strchr 61 (61 :: (ws2 ++ raw ++ ws3)) = some ([], ws2 ++ raw ++ ws3) := by
        rw [strchr_some]; simp
      simp only [show ¬ (61 : UInt8) = 59 by decide, show ¬ (61 : UInt8) = 91 by decide, if_false, hc,
        htr, hv]
      rfl
    | cons x xs =>
      have hx : isSpace x = false := isSpace_false.2 (hk.1 x (by rw [hkc]; rfl))
      have hd1 : (((x :: xs) ++ ws1) ++ [61] ++ (ws2 ++ raw ++ ws3)).dropWhile isSpace
          = x :: (xs ++ ws1 ++ [61] ++ (ws2 ++ raw ++ ws3)) :=
        dropWhile_head (by intro b hb; simp at hb; subst hb; exact hx)
      rw [hd1]
      have hc : strchr 61 (x :: (xs ++ ws1 ++ [61] ++ (ws2 ++ raw ++ ws3)))
          = some (k ++ ws1, ws2 ++ raw ++ ws3) := by
        rw [strchr_some]; exact ⟨by simp [hkc], hnk⟩
      have h59 : ¬ x = 59 := by rintro rfl; exact hk2 (by rw [hkc]; rfl)
      have h91 : ¬ x = 91 := by rintro rfl; exact hk3 (by rw [hkc]; rfl)
      have htk : trim (k ++ ws1) = k := by
        simpa using trim_eq (ws := []) (fun b hb => by cases hb) hk hs1
      simp only [h59, h91, if_false, hc, htr, hv, htk]
      rw [hkc]

/-- Whatever the parser accepts is a line of the grammar. -/
theorem lineIs_of_parseLine {n : Nat} {l : Str} {it : Item} (h : parseLine n l = .ok it) :
    LineIs (visible l) it := by
  unfold parseLine at h
  unfold visible
  generalize l.takeWhile (· ≠ 0) = st at *
  simp only [skipSpaces] at h
  obtain ⟨ws, h1, h2, h3⟩ := split_space st
  cases hp : st.dropWhile isSpace with
  | nil =>
    rw [hp] at h h2
    simp only [Except.ok.injEq] at h
    subst h
    rw [h2, List.append_nil]
    exact .blank ws h1
  | cons c p =>
    rw [hp] at h h2 h3
    have hc : isSpace c = false := h3 c rfl
    simp only [] at h
    split at h
    · next e =>
      subst e
      simp only [Except.ok.injEq] at h
      subst h
      have : st = ws ++ [59] ++ p := by rw [h2]; simp
      rw [this]
      exact .comment ws p h1
    · next n59 =>
      split at h
      · next e =>
        subst e
        split at h
        · cases h
        · next before after hs =>
          obtain ⟨e1, e2⟩ := strchr_some.mp hs
          split at h
          · next hsp =>
            simp only [Except.ok.injEq] at h
            subst h
            cases before with
            | nil => simp at e1
            | cons x xs =>
              simp only [List.cons_append, List.cons.injEq] at e1
              obtain ⟨rfl, e1⟩ := e1
              obtain ⟨ws', g1, g2, g3⟩ := split_space after
              rw [hsp, List.append_nil] at g2
              subst g2
              simp only [List.drop_succ_cons, List.drop_zero]
              have : st = ws ++ [91] ++ xs ++ [93] ++ after := by rw [h2, e1]; simp
              rw [this]
              exact .section ws xs after h1 g1 (fun hm => e2 (by simp [hm]))
          · cases h
      · next n91 =>
        split at h
        · cases h
        · next before after hs =>
          obtain ⟨e1, e2⟩ := strchr_some.mp hs
          simp only [Except.ok.injEq] at h
          subst h
          obtain ⟨wa, wb, a1, a2, a3, a4⟩ := trim_split before
          obtain ⟨wc, wd, b1, b2, b3, b4⟩ := trim_split after
          -- no leading space before a non-empty key
          have hst : st = (ws ++ wa) ++ trim before ++ wb ++ [61] ++ wc ++ trim after ++ wd := by
            rw [h2, e1]
            conv => lhs; rw [a4, b4]
            simp
          rw [hst]
          refine .assign (ws ++ wa) (trim before) wb wc (trim after) wd _ ?_ a2 b1 b2 a3 ?_ ?_ ?_ b3
            ((denotes_iff _ _).mpr rfl)
          · intro b hb
            rcases List.mem_append.mp hb with hb | hb
            · exact h1 b hb
            · exact a1 b hb
          · intro hm
            apply e2
            rw [a4]
            simp [hm]
          all_goals
            intro hh
            cases ht : trim before with
            | nil => rw [ht] at hh; simp at hh
            | cons y ys =>
              rw [ht] at hh a4
              simp only [List.head?_cons, Option.some.injEq] at hh
              subst hh
              have hwa : wa = [] := by
                cases wa with
                | nil => rfl
                | cons z zs =>
                  exfalso
                  have hz : isSpace z = true := isSpace_iff.2 (a1 z (by simp))
                  rw [a4] at e1
                  simp only [List.cons_append, List.cons.injEq] at e1
                  rw [← e1.1, hc] at hz
                  cases hz
              rw [hwa] at a4
              rw [a4] at e1
              simp only [List.nil_append, List.cons_append, List.cons.injEq] at e1
              first
                | exact n59 e1.1
                | exact n91 e1.1

theorem parseLine_error_lineno {n : Nat} {l : Str} {e : ParseError} (h : parseLine n l = .error e) :
    e.lineno = n := by
  unfold parseLine at h
  simp only [] at h
  split at h
  · cases h
  · split at h
    · cases h
    · split at h
      · split at h
        · cases h; rfl
        · split at h
          · cases h
          · cases h; rfl
      · split at h
        · cases h; rfl
        · cases h

theorem isLines_getLines (s : Str) : IsLines s (getLines s) := by
  fun_induction getLines s with
  | case1 => exact .nil
  | case2 x xs h =>
    refine .last _ (by simp) ?_
    intro hm
    have : (x :: xs).takeWhile (· ≠ 10) = x :: xs := by
      have := List.takeWhile_append_dropWhile (p := (· ≠ 10)) (l := x :: xs)
      rw [h, List.append_nil] at this
      exact this
    rw [← this] at hm
    have := mem_takeWhile hm
    simp at this
  | case3 x xs y rest h ih =>
    have e := List.takeWhile_append_dropWhile (p := (· ≠ 10)) (l := x :: xs)
    rw [h] at e
    have hy : y = 10 := by
      have := List.head?_dropWhile_not (· ≠ 10) (x :: xs)
      rw [h] at this
      simpa using this
    subst hy
    have := IsLines.cons ((x :: xs).takeWhile (· ≠ 10)) rest _ (by
      intro hm
      have := mem_takeWhile hm
      simp at this) ih
    rwa [List.append_assoc, List.singleton_append, e] at this

theorem isLines_unique {s : Str} {a b : List Str} (ha : IsLines s a) (hb : IsLines s b) : a = b := by
  have key : ∀ (l l' r r' : Str), 10 ∉ l → 10 ∉ l' → l ++ [10] ++ r = l' ++ [10] ++ r' →
      l = l' ∧ r = r' := by
    intro l l' r r' h h' e
    have h1 := (strchr_some (c := 10) (s := l ++ [10] ++ r)).mpr ⟨rfl, h⟩
    have h2 := (strchr_some (c := 10) (s := l ++ [10] ++ r)).mpr ⟨e, h'⟩
    rw [h1] at h2
    simpa using h2
  induction ha generalizing b with
  | nil =>
    generalize hs : ([] : Str) = s at hb
    cases hb with
    | nil => rfl
    | last => subst hs; contradiction
    | cons => simp at hs
  | last l hne hl =>
    generalize hs : l = s at hb
    cases hb with
    | nil => exact absurd hs hne
    | last => subst hs; rfl
    | cons l' r ls _ _ => subst hs; simp at hl
  | cons l r ls hl _ ih =>
    generalize hs : l ++ [10] ++ r = s at hb
    cases hb with
    | nil => simp at hs
    | last l' _ hl' => subst hs; simp at hl'
    | cons l' r' ls' hl' hr' =>
      obtain ⟨rfl, rfl⟩ := key _ _ _ _ hl hl' hs
      rw [ih hr']

theorem get?_touch (d : Data) (s sec key : Str) : get? (touch d s) sec key = get? d sec key := by
  unfold get? touch AssocMap.insertNew
  split
  · rfl
  · next h =>
    rw [AssocMap.find_upsert]
    split
    · next e =>
      subst e
      have : AssocMap.find d sec = none := by simpa using h
      rw [this]
      simp [AssocMap.find]
    · rfl

theorem get?_assign (d : Data) (s k v sec key : Str) :
    get? (assign d s k v) sec key = if sec = s ∧ key = k then some v else get? d sec key := by
  unfold get? assign
  rw [AssocMap.find_upsert]
  by_cases h1 : sec = s
  · subst h1
    simp only [if_true, Option.bind_some, AssocMap.find_upsert, true_and]
    split
    · rfl
    · cases AssocMap.find d sec with
      | none => simp [AssocMap.find]
      | some m => rfl
  · simp [h1]

theorem lastValue_cons (sec key : Str) (a : Str × Str × Str) (as : List (Str × Str × Str)) :
    lastValue sec key (a :: as)
      = (lastValue sec key as).or (if a.1 = sec ∧ a.2.1 = key then some a.2.2 else none) := by
  unfold lastValue
  rw [List.reverse_cons, List.find?_append]
  cases h : List.find? (fun a => decide (a.1 = sec ∧ a.2.1 = key)) as.reverse with
  | some x => simp
  | none =>
    simp only [Option.none_or, Option.map_none, List.find?_cons, List.find?_nil]
    by_cases e : a.1 = sec ∧ a.2.1 = key <;> simp [e]

/-- The loop on well-formed lines. -/
theorem initLoop_ok : ∀ (ls : List Str) (its : List Item) (n : Nat) (cur : Str) (d : Data),
    List.Forall₂ (fun l it => LineIs (visible l) it) ls its →
    ∃ d', initLoop n cur d ls = .ok d' ∧
      ∀ sec key, get? d' sec key = (lastValue sec key (assignments cur its)).or (get? d sec key)
  | [], _, n, cur, d, h => by
    cases h
    exact ⟨d, rfl, fun _ _ => by simp [assignments, lastValue]⟩
  | l :: ls, _, n, cur, d, h => by
    cases h with
    | @cons _ it _ its h1 h2 =>
    have hp := parseLine_of_lineIs (n := n) h1
    rw [initLoop, hp]
    cases it with
    | nothing => exact initLoop_ok ls its (n + 1) cur d h2
    | sectionHead s =>
      obtain ⟨d', e1, e2⟩ := initLoop_ok ls its (n + 1) s (touch d s) h2
      refine ⟨d', e1, fun sec key => ?_⟩
      rw [e2, get?_touch]; rfl
    | assign k v =>
      obtain ⟨d', e1, e2⟩ := initLoop_ok ls its (n + 1) cur (assign d cur k v) h2
      refine ⟨d', e1, fun sec key => ?_⟩
      rw [e2, get?_assign, assignments, lastValue_cons]
      cases lastValue sec key (assignments cur its) with
      | some x => simp
      | none =>
        simp only [Option.none_or]
        by_cases e : sec = cur ∧ key = k
        · rw [if_pos e, if_pos ⟨e.1.symm, e.2.symm⟩]; rfl
        · rw [if_neg e, if_neg (fun h => e ⟨h.1.symm, h.2.symm⟩)]; rfl

/-- The loop stops at the first malformed line. -/
theorem initLoop_bad : ∀ (pre : List Str) (bad : Str) (post : List Str) (n : Nat) (cur : Str)
    (d : Data), (∀ l ∈ pre, WellFormed l) → ¬ WellFormed bad →
    ∃ e, initLoop n cur d (pre ++ bad :: post) = .error e ∧ e.lineno = n + pre.length ∧
      parseLine (n + pre.length) bad = .error e
  | [], bad, post, n, cur, d, _, hb => by
    simp only [List.nil_append, initLoop]
    cases hp : parseLine n bad with
    | error e => exact ⟨e, rfl, by simpa using parseLine_error_lineno hp, by simpa using hp⟩
    | ok it => exact absurd ⟨it, lineIs_of_parseLine hp⟩ hb
  | l :: pre, bad, post, n, cur, d, hpre, hb => by
    obtain ⟨it, hit⟩ := hpre l (by simp)
    have hp := parseLine_of_lineIs (n := n) hit
    simp only [List.cons_append, initLoop, hp]
    cases it
    all_goals
      obtain ⟨e, e1, e2, e3⟩ := initLoop_bad pre bad post (n + 1) _ _
        (fun l' hl' => hpre l' (by simp [hl'])) hb
      refine ⟨e, e1, by rw [e2, List.length_cons]; omega, ?_⟩
      rwa [show n + (l :: pre).length = n + 1 + pre.length by rw [List.length_cons]; omega]

theorem get_eq (d : Data) (sec key : Str) : get d sec key = (get? d sec key).getD [] := by
  unfold get get?
  cases AssocMap.find d sec with
  | none => rfl
  | some m =>
    simp only [Option.bind_some]
    cases AssocMap.find m key <;> rfl

theorem visible_eq {l : Str} (h : 0 ∉ l) : visible l = l := by
  unfold visible
  apply takeWhile_all
  intro x hx
  simp only [ne_eq, decide_eq_true_eq]
  rintro rfl
  exact h hx

/-- Lines and items of a rendered document. -/
def docLines (d : Doc) : List Str :=
  d.flatMap fun s => ([91] ++ s.1 ++ [93]) :: s.2.map fun kv => kv.1 ++ [61, 34] ++ kv.2 ++ [34]

def docItems (d : Doc) : List Item :=
  d.flatMap fun s => Item.sectionHead s.1 :: s.2.map fun kv => Item.assign kv.1 kv.2

theorem isLines_kvs (kvs : List (Str × Str)) (h : ∀ kv ∈ kvs, 10 ∉ kv.1 ∧ 10 ∉ kv.2)
    {rest : Str} {ls : List Str} (hr : IsLines rest ls) :
    IsLines (kvs.flatMap renderAssign ++ rest)
      ((kvs.map fun kv => kv.1 ++ [61, 34] ++ kv.2 ++ [34]) ++ ls) := by
  induction kvs with
  | nil => exact hr
  | cons kv kvs ih =>
    have := ih (fun x hx => h x (by simp [hx]))
    have hkv := h kv (by simp)
    have := IsLines.cons (kv.1 ++ [61, 34] ++ kv.2 ++ [34]) _ _ (by simp [hkv.1, hkv.2]) this
    simpa [renderAssign] using this

theorem isLines_render (d : Doc) (hd : DocOk d) : IsLines (render d) (docLines d) := by
  induction d with
  | nil => exact .nil
  | cons s d ih =>
    have ih := ih (fun x hx => hd x (by simp [hx]))
    obtain ⟨⟨h1, h2, h3⟩, h4⟩ := hd s (by simp)
    have hk := isLines_kvs s.2 (fun kv hkv => ⟨(h4 kv hkv).1.2.2.1, (h4 kv hkv).2.1⟩) ih
    have := IsLines.cons ([91] ++ s.1 ++ [93]) _ _ (by simp [h2]) hk
    simpa [render, docLines, renderSection] using this

theorem lineIs_doc (d : Doc) (hd : DocOk d) :
    List.Forall₂ (fun l it => LineIs (visible l) it) (docLines d) (docItems d) := by
  induction d with
  | nil => exact .nil
  | cons s d ih =>
    have ih := ih (fun x hx => hd x (by simp [hx]))
    obtain ⟨⟨h1, h2, h3⟩, h4⟩ := hd s (by simp)
    have hsp : Space [] := fun b hb => by cases hb
    simp only [docLines, docItems, List.flatMap_cons, List.cons_append]
    refine .cons ?_ ?_
    · rw [visible_eq (by simp [h3])]
      simpa using LineIs.section [] s.1 [] hsp hsp h1
    · clear hd
      generalize s.2 = kvs at *
      induction kvs with
      | nil => exact ih
      | cons kv kvs ihk =>
        obtain ⟨⟨t1, t2, t3, t4, t5, t6⟩, v1, v2⟩ := h4 kv (by simp)
        simp only [List.map_cons, List.cons_append]
        refine .cons ?_ (ihk (fun x hx => h4 x (by simp [hx])))
        rw [visible_eq (by simp [t4, v2])]
        have := LineIs.assign [] kv.1 [] [] ([34] ++ kv.2 ++ [34]) [] kv.2 hsp hsp hsp hsp t1 t2 t5 t6
          ⟨by intro b hb; simp at hb; subst hb; decide, by
            intro b hb
            rw [List.append_assoc, List.singleton_append, getLast?_quote] at hb
            simp at hb; subst hb; decide⟩
          (.quoted kv.2)
        simpa using this

theorem assignments_append (a b : List Item) (cur : Str) :
    assignments cur (a ++ b) = assignments cur a ++ assignments (sectionAfter cur a) b := by
  induction a generalizing cur with
  | nil => rfl
  | cons x xs ih =>
    cases x <;> simp [assignments, sectionAfter, ih]

theorem assignments_kvs (kvs : List (Str × Str)) (cur : Str) (rest : List Item) :
    assignments cur ((kvs.map fun kv => Item.assign kv.1 kv.2) ++ rest)
      = (kvs.map fun kv => (cur, kv.1, kv.2)) ++ assignments cur rest := by
  induction kvs with
  | nil => rfl
  | cons kv kvs ih => simp [assignments, ih]

theorem assignments_doc (d : Doc) (cur : Str) : assignments cur (docItems d) = docAssignments d := by
  induction d generalizing cur with
  | nil => rfl
  | cons s d ih =>
    have ih := ih s.1
    simp only [docItems, docAssignments, List.flatMap_cons, List.cons_append, assignments] at ih ⊢
    rw [assignments_kvs, ih]

end Verif.Config.Lemmas
