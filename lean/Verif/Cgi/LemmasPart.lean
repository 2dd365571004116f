import Verif.Cgi.Lemmas
/-! Lemmas for `Verif.Cgi.Props`: the parts of a multipart body, and that reading them comes to an end. -/

namespace Verif.Cgi.Lemmas
open Verif Verif.AssocMap Verif.Cgi Verif.Cgi.Spec
open Verif.Socket (Prog)
open Verif.Http (readLws readFields readHeader headerOfStream istreamStep isspace splitLine)
open Verif.Http.Spec (fold)
open Verif.Http.Lemmas (fieldLine names)

/-! ### Headers from a stream -/

theorem line_some (l rest : Str) (h : 10 ∉ l) : (Prog.getline 0).run istreamStep (l ++ 10 :: rest) = (some l, rest) := by
  have ht : (l ++ 10 :: rest).takeWhile (· ≠ 10) = l := by
    rw [List.takeWhile_append_of_pos, List.takeWhile_cons_of_neg (by simp), List.append_nil]
    intro x hx
    have : x ≠ 10 := fun e => h (e ▸ hx)
    simpa using this
  have hm : 10 ∈ l ++ 10 :: rest := by simp
  unfold Prog.getline
  simp only [Prog.run, istreamStep, if_pos hm, ht]
  simp [List.drop_append]

theorem run_bind_eq {α β : Type} {p : Prog α} {f : α → Prog β} {s s' : Str} {a : α} (h : p.run istreamStep s = (a, s')) :
    (p.bind f).run istreamStep s = (f a).run istreamStep s' := by rw [Prog.run_bind', h]

/-- A value with its carriage return. -/
def crd (v : Str) : Str := if v = [] then [] else v ++ [13]

theorem field_line {e : Str × Str} (h : Field e) :
    10 ∉ fieldLine e ++ [13] ∧ splitLine [] (fieldLine e ++ [13]) = (e.1, 32 :: e.2 ++ [13])
      ∧ (32 :: e.2 ++ [13]).dropWhile isspace = crd e.2 ∧ ∃ c l, fieldLine e ++ [13] = c :: l ∧ isspace c = false ∧ c :: l ≠ [13] := by
  have hns : ∀ c ∈ e.1, isspace c = false := by
    intro c hc
    cases hx : isspace c with
    | false => rfl
    | true => exact absurd ((Http.Lemmas.isspace_iff c).1 hx) (h.token c hc).1
  refine ⟨?_, ?_, ?_, ?_⟩
  · unfold fieldLine
    simp only [List.append_assoc, List.cons_append, List.mem_append, List.mem_cons, not_or]
    refine ⟨fun hc => ?_, by decide, by decide, h.oneLine, by decide⟩
    exact (h.token 10 hc).1 (Or.inr (by decide))
  · have e1 : fieldLine e ++ [13] = e.1 ++ 58 :: (32 :: e.2 ++ [13]) := by simp [fieldLine]
    rw [e1, Http.Lemmas.splitLine_eq _ _ (fun hc => (h.token 58 hc).2 rfl), List.nil_append, Http.Lemmas.dropWhile_head, List.reverse_reverse]
    intro c hc
    refine hns c ?_
    rw [List.head?_reverse] at hc
    exact List.mem_of_getLast? hc
  · obtain ⟨k, v⟩ := e
    cases v with
    | nil => show List.dropWhile isspace [32, 13] = crd []; decide
    | cons c v =>
      have : isspace c = false := by
        cases hx : isspace c with
        | false => rfl
        | true => exact absurd ((Http.Lemmas.isspace_iff c).1 hx) (h.start c (by simp))
      simp only [List.cons_append]
      rw [List.dropWhile_cons, if_pos (by decide), List.dropWhile_cons, this]
      simp [crd]
  · obtain ⟨k, v⟩ := e
    cases k with
    | nil => exact absurd rfl h.nonempty
    | cons c k => exact ⟨c, k ++ 58 :: 32 :: v ++ [13], by simp [fieldLine], hns c (by simp), by simp⟩

theorem text_line (e : Str × Str) (h : Http.Header) (rest : Str) :
    Http.Spec.text (e :: h) ++ rest = (fieldLine e ++ [13]) ++ 10 :: (Http.Spec.text h ++ rest) := by
  rw [Http.Lemmas.text_cons]; simp

theorem names_received (h : Http.Header) : names (received h) = names h := by simp [names, received]

theorem readFields_stream (rest : Str) : ∀ (h : Http.Header) (e : Str × Str) (done : Http.Header) (fuel : Nat),
    h.length < fuel → Field e → (∀ e ∈ h, Field e) → (names (done ++ e :: h)).Nodup →
    (readFields (Prog.getline 0) fuel (fieldLine e ++ [13]) done).run istreamStep (Http.Spec.text h ++ rest)
      = (.ok (done ++ received (e :: h)), rest) := by
  intro h
  induction h with
  | nil =>
    intro e done fuel hf he _ hn
    obtain ⟨fuel, rfl⟩ : ∃ n, fuel = n + 1 := ⟨fuel - 1, by omega⟩
    obtain ⟨_, h3, h4, _⟩ := field_line he
    have hnew : fold e.1 ∉ names done := by
      have e1 : names (done ++ [e]) = names done ++ [fold e.1] := by simp [names]
      rw [e1, List.nodup_append] at hn
      intro hx
      exact hn.2.2 _ hx _ (List.mem_singleton.2 rfl) rfl
    have hl : (Prog.getline 0).run istreamStep (Http.Spec.text [] ++ rest) = (some [13], rest) := line_some [13] rest (by decide)
    unfold readFields
    rw [h3]
    dsimp only
    have hr : (readLws (Prog.getline 0) (fuel + 1) (32 :: e.2 ++ [13])).run istreamStep (Http.Spec.text [] ++ rest)
        = (some (none, 32 :: e.2 ++ [13]), rest) := by
      unfold readLws
      rw [run_bind_eq hl]
      rfl
    rw [run_bind_eq hr]
    dsimp only
    rw [h4, Http.Lemmas.set_new _ _ _ hnew]
    rfl
  | cons e' h ih =>
    intro e done fuel hf he hh hn
    obtain ⟨fuel, rfl⟩ : ∃ n, fuel = n + 1 := ⟨fuel - 1, by omega⟩
    obtain ⟨_, h3, h4, _⟩ := field_line he
    obtain ⟨g1, _, _, c, l, g5, g6, g7⟩ := field_line (hh e' (by simp))
    have hn' : (names (done ++ [(e.1, crd e.2)] ++ e' :: h)).Nodup := by
      have : names (done ++ [(e.1, crd e.2)] ++ e' :: h) = names (done ++ e :: e' :: h) := by simp [names]
      rw [this]; exact hn
    have hnew : fold e.1 ∉ names done := by
      have e1 : names (done ++ e :: e' :: h) = names done ++ fold e.1 :: names (e' :: h) := by simp [names]
      rw [e1, List.nodup_append] at hn
      intro hx
      exact hn.2.2 _ hx _ (by simp) rfl
    have hl : (Prog.getline 0).run istreamStep (Http.Spec.text (e' :: h) ++ rest) = (some (fieldLine e' ++ [13]), Http.Spec.text h ++ rest) := by
      rw [text_line]
      exact line_some _ _ g1
    unfold readFields
    rw [h3]
    dsimp only
    have hr : (readLws (Prog.getline 0) (fuel + 1) (32 :: e.2 ++ [13])).run istreamStep (Http.Spec.text (e' :: h) ++ rest)
        = (some (some (fieldLine e' ++ [13]), 32 :: e.2 ++ [13]), Http.Spec.text h ++ rest) := by
      unfold readLws
      rw [run_bind_eq hl, g5]
      dsimp only
      rw [if_neg g7, if_neg (by simp [g6]), Prog.run_ret]
    rw [run_bind_eq hr]
    dsimp only
    rw [h4, Http.Lemmas.set_new _ _ _ hnew, ih e' (done ++ [(e.1, crd e.2)]) fuel (by simpa using hf) (hh e' (by simp)) (fun x hx => hh x (by simp [hx])) hn']
    simp [received, crd]

theorem length_text (h : Http.Header) : h.length ≤ (Http.Spec.text h).length := by
  induction h with
  | nil => simp
  | cons e h ih => rw [Http.Lemmas.text_cons]; simp; omega

theorem headerOfStream_text (h : Http.Header) (rest : Str) (hs : Sendable h) :
    headerOfStream (Http.Spec.text h ++ rest) = (.ok (received h), rest) := by
  unfold headerOfStream readHeader
  cases h with
  | nil => exact absurd rfl hs.nonempty
  | cons e h =>
    obtain ⟨g1, _, _, c, l, g5, _, _⟩ := field_line (hs.field e (by simp))
    have h1 : (Prog.getline 0).run istreamStep (Http.Spec.text (e :: h) ++ rest) = (some (fieldLine e ++ [13]), Http.Spec.text h ++ rest) := by
      rw [text_line]
      exact line_some _ _ g1
    have hlen := length_text (e :: h)
    rw [run_bind_eq h1]
    have := readFields_stream rest h e [] ((Http.Spec.text (e :: h) ++ rest).length + 1) (by simp at hlen ⊢; omega) (hs.field e (by simp))
      (fun x hx => hs.field x (by simp [hx])) (by simpa [names] using hs.distinct)
    rw [g5] at this ⊢
    exact this

theorem text_last (h : Http.Header) : (Http.Spec.text h).getLast? = some 10 := by
  induction h with
  | nil => rfl
  | cons e h ih => rw [Http.Lemmas.text_cons, List.getLast?_append, ih]; rfl

theorem splitPart_text (p : Part) (hs : Sendable p.header) : splitPart p.text = .ok (received p.header, p.content) := by
  unfold splitPart Part.text
  rw [headerOfStream_text _ _ hs]
  dsimp only
  rw [if_neg]
  rintro ⟨h1, h2⟩
  rw [h1, List.append_nil, text_last] at h2
  exact h2 rfl

/-! ### Delimiters -/

theorem enter_cons (b l rest : Str) (hl : 10 ∉ l) :
    enter b (l ++ 10 :: rest) = if l.take (b.length + 2) = [45, 45] ++ b then
      if l.take (b.length + 4) = [45, 45] ++ b ++ [45, 45] then none else some rest
    else enter b rest := by
  have ht : (l ++ 10 :: rest).takeWhile (· ≠ 10) = l := by
    rw [List.takeWhile_append_of_pos, List.takeWhile_cons_of_neg (by simp), List.append_nil]
    intro x hx
    have : x ≠ 10 := fun e => hl (e ▸ hx)
    simpa using this
  have hd : (l ++ 10 :: rest).drop (l.length + 1) = rest := by simp [List.drop_append]
  rw [enter.eq_def]
  split
  · rename_i h; simp at h
  · rename_i c t h
    simp only [ht, hd]

theorem enter_pre (b : Str) (s : Str) : ∀ ls : List Str, (∀ l ∈ ls, 10 ∉ l ∧ ¬ [45, 45] ++ b <+: l) →
    enter b ((ls.map (· ++ [10])).flatten ++ s) = enter b s := by
  intro ls
  induction ls with
  | nil => intro _; rfl
  | cons l ls ih =>
    intro h
    have e : ((l :: ls).map (· ++ [10])).flatten ++ s = l ++ 10 :: ((ls.map (· ++ [10])).flatten ++ s) := by simp
    rw [e, enter_cons b l _ (h l (by simp)).1, if_neg, ih (fun l' hl' => h l' (by simp [hl']))]
    intro ht
    exact (h l (by simp)).2 (by rw [← ht]; exact List.take_prefix _ _)

theorem enter_next (b rest : Str) (hb : 10 ∉ b) : enter b ([45, 45] ++ b ++ [13, 10] ++ rest) = some rest := by
  have e : [45, 45] ++ b ++ [13, 10] ++ rest = ([45, 45] ++ b ++ [13]) ++ 10 :: rest := by simp
  have h1 : ([45, 45] ++ b ++ [13]).take (b.length + 2) = [45, 45] ++ b := by
    rw [List.take_append_of_le_length (by simp)]; simp
  rw [e, enter_cons _ _ _ (by simp [hb]), if_pos h1, if_neg]
  intro h2
  have := congrArg List.length h2
  simp at this

theorem enter_last (b rest : Str) (hb : 10 ∉ b) : enter b ([45, 45] ++ b ++ [45, 45, 13, 10] ++ rest) = none := by
  have e : [45, 45] ++ b ++ [45, 45, 13, 10] ++ rest = ([45, 45] ++ b ++ [45, 45, 13]) ++ 10 :: rest := by simp
  have h1 : ([45, 45] ++ b ++ [45, 45, 13]).take (b.length + 2) = [45, 45] ++ b := by
    rw [List.take_append_of_le_length (by simp)]; simp
  have h2 : ([45, 45] ++ b ++ [45, 45, 13]).take (b.length + 4) = [45, 45] ++ b ++ [45, 45] := by
    have : [45, 45] ++ b ++ [45, 45, 13] = ([45, 45] ++ b ++ [45, 45]) ++ [13] := by simp
    rw [this, List.take_append_of_le_length (by simp)]
    rw [List.take_of_length_le (by simp)]
  rw [e, enter_cons _ _ _ (by simp [hb]), if_pos h1, if_pos h2]

/-! ### Attributes -/

theorem findIdx_append (c : UInt8) (x y : Str) (h : c ∉ x) : (x ++ c :: y).findIdx? (· = c) = some x.length := by
  rw [List.findIdx?_append, List.findIdx?_cons]
  have : x.findIdx? (fun z => decide (z = c)) = none := by
    rw [List.findIdx?_eq_none_iff]
    intro z hz
    have : z ≠ c := fun e => h (e ▸ hz)
    simpa using this
  rw [this]; simp

theorem findChar_some (c : UInt8) (u x y : Str) (i : Nat) (hi : i = u.length) (h : c ∉ x) :
    findChar c (u ++ (x ++ c :: y)) i = some (u.length + x.length) := by
  subst hi
  unfold findChar
  rw [List.drop_left, findIdx_append c x y h]
  simp [Nat.add_comm]

theorem extractAttr_text (k v rest : Str) (h1 : 61 ∉ k) (h2 : stringTolower (trim (32 :: k)) = k) (h3 : 34 ∉ v) :
    extractAttr (32 :: k ++ [61, 34] ++ v ++ [34] ++ rest) = (k, v) := by
  have e : 32 :: k ++ [61, 34] ++ v ++ [34] ++ rest = (32 :: k) ++ 61 :: (34 :: (v ++ 34 :: rest)) := by simp
  have f1 : findChar 61 ((32 :: k) ++ 61 :: (34 :: (v ++ 34 :: rest))) 0 = some (32 :: k).length := by
    have := findChar_some 61 [] (32 :: k) (34 :: (v ++ 34 :: rest)) 0 rfl (by simp [h1])
    simpa using this
  have f2 : findChar 34 ((32 :: k) ++ 61 :: (34 :: (v ++ 34 :: rest))) ((32 :: k).length + 1) = some ((32 :: k).length + 1) := by
    have := findChar_some 34 ((32 :: k) ++ [61]) [] (v ++ 34 :: rest) ((32 :: k).length + 1) (by simp) (by simp)
    simpa using this
  have f3 : findChar 34 ((32 :: k) ++ 61 :: (34 :: (v ++ 34 :: rest))) ((32 :: k).length + 1 + 1) = some ((32 :: k).length + 2 + v.length) := by
    have := findChar_some 34 ((32 :: k) ++ [61, 34]) v rest ((32 :: k).length + 2) (by simp) h3
    simpa using this
  unfold extractAttr
  rw [e]
  simp only [f1, f2, f3]
  rw [List.take_left, h2]
  have d : ((32 :: k) ++ 61 :: (34 :: (v ++ 34 :: rest))).drop ((32 :: k).length + 1 + 1) = v ++ 34 :: rest := by
    simp [List.drop_append]
  rw [d, show (32 :: k).length + 2 + v.length - ((32 :: k).length + 1) - 1 = v.length by omega, List.take_left]

theorem findIdx_none (c : UInt8) (x : Str) (h : c ∉ x) : x.findIdx? (· = c) = none := by
  rw [List.findIdx?_eq_none_iff]
  intro z hz
  have : z ≠ c := fun e => h (e ▸ hz)
  simpa using this

theorem attrs_last (x : Str) (i : Nat) (m : List (Str × Str)) (h : 59 ∉ x) :
    attrs i x m = insertNew m (extractAttr x).1 (extractAttr x).2 := by
  have hf := findIdx_none 59 x h
  rw [attrs.eq_def]
  split
  · rfl
  · rename_i hn; rw [hf] at hn; cases hn

theorem attrs_next (x y : Str) (i : Nat) (m : List (Str × Str)) (h : 59 ∉ x) :
    ∃ z i', attrs i (x ++ 59 :: y) m = attrs i' y (insertNew m (extractAttr (x ++ z)).1 (extractAttr (x ++ z)).2) := by
  have hf := findIdx_append 59 x y h
  refine ⟨(59 :: y).take (i + x.length - x.length), i + x.length + 1, ?_⟩
  rw [attrs.eq_def]
  split
  · rename_i hn; rw [hf] at hn; cases hn
  · rename_i n hn
    rw [hf] at hn
    cases hn
    have e : (x ++ 59 :: y).take (i + x.length) = x ++ (59 :: y).take (i + x.length - x.length) := by
      rw [List.take_append, List.take_of_length_le (by omega)]
    have d : (x ++ 59 :: y).drop (x.length + 1) = y := by simp [List.drop_append]
    simp only [e, d]

theorem find_insertNew (m : List (Str × Str)) (k k' x : Str) :
    find (insertNew m k x) k' = if k' = k ∧ find m k = none then some x else find m k' := by
  unfold insertNew
  split
  · rename_i h
    rw [if_neg]
    rintro ⟨_, h'⟩
    rw [h'] at h
    cases h
  · rename_i h
    rw [find_upsert]
    have : find m k = none := by simpa using h
    simp [this]

theorem header_value (n : Str) (hn : Quotable n) :
    ∃ m, extractHeader (formData ++ attrText nameKey n ++ [13]) = (formData, m) ∧ find m nameKey = some n ∧ find m filenameKey = none := by
  obtain ⟨q1, q2, _⟩ := hn
  have e : formData ++ attrText nameKey n ++ [13] = formData ++ 59 :: (32 :: nameKey ++ [61, 34] ++ n ++ [34] ++ [13]) := by simp [attrText]
  unfold extractHeader
  rw [e, findIdx_append 59 formData _ (by decide)]
  dsimp only
  have d : (formData ++ 59 :: (32 :: nameKey ++ [61, 34] ++ n ++ [34] ++ [13])).drop (formData.length + 1)
      = 32 :: nameKey ++ [61, 34] ++ n ++ [34] ++ [13] := by simp [List.drop_append]
  rw [List.take_left, d, attrs_last _ _ _ (by simp [q2, nameKey]), extractAttr_text nameKey n [13] (by decide) (by decide) q1]
  refine ⟨_, rfl, ?_, ?_⟩
  · rw [find_insertNew, if_pos ⟨rfl, rfl⟩]
  · rw [find_insertNew, if_neg (fun h => absurd h.1 (show filenameKey ≠ nameKey by decide))]; rfl

theorem header_upload (n f : Str) (hn : Quotable n) (hf : Quotable f) :
    ∃ m, extractHeader (formData ++ attrText nameKey n ++ attrText filenameKey f ++ [13]) = (formData, m)
      ∧ find m nameKey = some n ∧ find m filenameKey = some f := by
  obtain ⟨q1, q2, _⟩ := hn
  obtain ⟨r1, r2, _⟩ := hf
  have e : formData ++ attrText nameKey n ++ attrText filenameKey f ++ [13]
      = formData ++ 59 :: ((32 :: nameKey ++ [61, 34] ++ n ++ [34]) ++ 59 :: (32 :: filenameKey ++ [61, 34] ++ f ++ [34] ++ [13])) := by simp [attrText]
  unfold extractHeader
  rw [e, findIdx_append 59 formData _ (by decide)]
  dsimp only
  have d : (formData ++ 59 :: ((32 :: nameKey ++ [61, 34] ++ n ++ [34]) ++ 59 :: (32 :: filenameKey ++ [61, 34] ++ f ++ [34] ++ [13]))).drop (formData.length + 1)
      = (32 :: nameKey ++ [61, 34] ++ n ++ [34]) ++ 59 :: (32 :: filenameKey ++ [61, 34] ++ f ++ [34] ++ [13]) := by simp [List.drop_append]
  rw [List.take_left, d]
  obtain ⟨z, i', hz⟩ := attrs_next (32 :: nameKey ++ [61, 34] ++ n ++ [34]) (32 :: filenameKey ++ [61, 34] ++ f ++ [34] ++ [13]) (formData.length + 1) []
    (by simp [q2, nameKey])
  rw [hz, extractAttr_text nameKey n z (by decide) (by decide) q1, attrs_last _ _ _ (by simp [r2, filenameKey]),
    extractAttr_text filenameKey f [13] (by decide) (by decide) r1]
  refine ⟨_, rfl, ?_, ?_⟩
  · rw [find_insertNew, if_neg (fun h => absurd h.1 (show nameKey ≠ filenameKey by decide)), find_insertNew, if_pos ⟨rfl, rfl⟩]
  · have : find (insertNew [] nameKey n) filenameKey = none := by
      rw [find_insertNew, if_neg (fun h => absurd h.1 (show filenameKey ≠ nameKey by decide))]; rfl
    rw [find_insertNew, if_pos ⟨rfl, this⟩]

theorem header_attached (f : Str) (hf : Quotable f) :
    ∃ m, extractHeader (attachment ++ attrText filenameKey f ++ [13]) = (attachment, m) ∧ find m filenameKey = some f := by
  obtain ⟨q1, q2, _⟩ := hf
  have e : attachment ++ attrText filenameKey f ++ [13] = attachment ++ 59 :: (32 :: filenameKey ++ [61, 34] ++ f ++ [34] ++ [13]) := by simp [attrText]
  unfold extractHeader
  rw [e, findIdx_append 59 attachment _ (by decide)]
  dsimp only
  have d : (attachment ++ 59 :: (32 :: filenameKey ++ [61, 34] ++ f ++ [34] ++ [13])).drop (attachment.length + 1)
      = 32 :: filenameKey ++ [61, 34] ++ f ++ [34] ++ [13] := by simp [List.drop_append]
  rw [List.take_left, d, attrs_last _ _ _ (by simp [q2, filenameKey]), extractAttr_text filenameKey f [13] (by decide) (by decide) q1]
  refine ⟨_, rfl, ?_⟩
  rw [find_insertNew, if_pos ⟨rfl, rfl⟩]

theorem header_other (d : Str) (hd : 59 ∉ d) : extractHeader (crd d) = (crd d, []) ∧ crd d ≠ formData ∧ crd d ≠ attachment := by
  refine ⟨?_, ?_, ?_⟩
  · have : 59 ∉ crd d := by
      unfold crd
      split
      · exact List.not_mem_nil
      · simp [hd]
    unfold extractHeader
    rw [findIdx_none 59 _ this]
  all_goals
    intro h
    have hl := congrArg List.getLast? h
    unfold crd at hl
    split at hl
    · exact absurd hl (by decide)
    · rw [List.getLast?_concat] at hl
      exact absurd hl (by decide)

/-! ### `find` of a string -/

theorem findStr_none {p : Str} : ∀ {s : Str}, ¬ p <:+: s → findStr p s = none := by
  intro s
  induction s with
  | nil =>
    intro h
    unfold findStr
    rw [if_neg]
    intro hp
    exact h (List.isPrefixOf_iff_prefix.mp hp).isInfix
  | cons c s ih =>
    intro h
    unfold findStr
    rw [if_neg (fun hp => h (List.isPrefixOf_iff_prefix.mp hp).isInfix), ih (fun hi => h (hi.trans (List.suffix_cons c s).isInfix))]
    rfl

theorem not_infix_cr {v : Str} (h : ¬ multipartSlash <:+: v) : ¬ multipartSlash <:+: crd v := by
  unfold crd
  split
  · decide
  · rintro ⟨x, y, e⟩
    rcases List.eq_nil_or_concat y with rfl | ⟨y', z, rfl⟩
    · have := congrArg List.getLast? e
      simp [multipartSlash] at this
    · have e' : (x ++ multipartSlash ++ y') ++ [z] = v ++ [13] := by rw [← e]; simp
      exact h ⟨x, y', (List.append_inj' e' rfl).1⟩

/-! ### A part -/

theorem lookup_received (h : Http.Header) (n : Str) : Http.Lemmas.lookup (received h) n = (fieldOf h n).map crd := by
  unfold Http.Lemmas.lookup fieldOf received
  rw [List.find?_map]
  cases hx : h.find? ((fun e : Str × Str => decide (fold e.1 = fold n)) ∘ fun e : Str × Str => (e.1, if e.2 = [] then [] else e.2 ++ [13])) with
  | none =>
    have : h.find? (fun e => decide (fold e.1 = fold n)) = none := hx
    rw [this]; rfl
  | some a =>
    have : h.find? (fun e => decide (fold e.1 = fold n)) = some a := hx
    rw [this]; rfl

theorem get_eq (k : Str) (h : Http.Header) : (Http.get k h).1 = (Http.Lemmas.lookup h k).getD [] := by
  simp only [Http.get, Http.Lemmas.getConst_eq, Http.Lemmas.lookup_update]
  simp

theorem update_id_some (k : Str) : ∀ h : Http.Header, (Http.Lemmas.lookup h k).isSome → Http.update k id h = h := by
  intro h
  induction h with
  | nil => intro h; cases h
  | cons e h ih =>
    intro hs
    unfold Http.update
    split
    · rfl
    · rename_i hc
      have : fold e.1 ≠ fold k := fun hx => hc ((Http.Lemmas.cicmp_iff _ _).2 hx)
      rw [ih]
      unfold Http.Lemmas.lookup at hs ⊢
      rwa [List.find?_cons_of_neg (by simpa using this)] at hs

theorem update_id_none (k : Str) : ∀ h : Http.Header, Http.Lemmas.lookup h k = none → Http.update k id h = h ++ [(k, [])] := by
  intro h
  induction h with
  | nil => intro _; rfl
  | cons e h ih =>
    intro hs
    unfold Http.Lemmas.lookup at hs
    have hne : ¬ fold e.1 = fold k := by
      intro hx
      rw [List.find?_cons_of_pos (by simpa using hx)] at hs
      cases hs
    rw [List.find?_cons_of_neg (by simpa using hne)] at hs
    unfold Http.update
    rw [if_neg (fun hc => hne ((Http.Lemmas.cicmp_iff _ _).1 hc)), ih hs]
    rfl

theorem get_type (h : Http.Header) : (Http.get contentType (received h)).2 = kept h := by
  unfold kept
  have hl := lookup_received h contentType
  cases hx : fieldOf h contentType with
  | none =>
    rw [hx] at hl
    exact update_id_none contentType _ hl
  | some v =>
    rw [hx] at hl
    simp only [Option.isSome_some, if_true, List.append_nil]
    exact update_id_some contentType _ (by rw [hl]; rfl)

theorem lookup_kept (h : Http.Header) (d : Str) (hd : fieldOf h contentDisposition = some d) :
    Http.Lemmas.lookup (kept h) contentDisposition = some (crd d) := by
  rw [← get_type]
  have hne : fold contentType ≠ fold contentDisposition := by decide
  have := Http.Lemmas.lookup_update contentType id (received h) contentDisposition
  rw [if_neg hne, lookup_received, hd] at this
  exact this

theorem addPart_kept {p : Part} {e : Entry} (h : Describes p e) (st : St) :
    addPart (kept p.header) p.content st = match e with
      | .value n v => st.add n v
      | .upload n f c => (st.add n f).addFile f c (kept p.header)
      | .attached f c => st.addFile f c (kept p.header)
      | .other _ _ => st := by
  have hl := lookup_kept _ _ h.disposition
  have g1 : (Http.get contentDisposition (kept p.header)).1 = crd e.disposition := by rw [get_eq, hl]; rfl
  have g2 : (Http.get contentDisposition (kept p.header)).2 = kept p.header := update_id_some _ _ (by rw [hl]; rfl)
  unfold addPart
  have g : Http.get contentDisposition (kept p.header) = (crd e.disposition, kept p.header) := Prod.ext g1 g2
  rw [g]
  have hc := h.content
  have hq := h.quotable
  cases e with
  | value n v =>
    obtain ⟨m, m1, m2, m3⟩ := header_value n hq
    have : crd (Entry.value n v).disposition = formData ++ attrText nameKey n ++ [13] := by
      simp [crd, Entry.disposition, formData]
    simp only at hc
    rw [this]
    dsimp only
    rw [m1]
    simp [m2, m3, hc]
  | upload n f c =>
    obtain ⟨m, m1, m2, m3⟩ := header_upload n f hq.1 hq.2
    have : crd (Entry.upload n f c).disposition = formData ++ attrText nameKey n ++ attrText filenameKey f ++ [13] := by
      simp [crd, Entry.disposition, formData]
    simp only at hc
    rw [this]
    dsimp only
    rw [m1]
    simp [m2, m3, hc]
  | attached f c =>
    obtain ⟨m, m1, m2⟩ := header_attached f hq
    have : crd (Entry.attached f c).disposition = attachment ++ attrText filenameKey f ++ [13] := by
      simp [crd, Entry.disposition, attachment]
    simp only at hc
    rw [this]
    dsimp only
    rw [m1]
    have hne : ¬ attachment = formData := by decide
    simp [m2, hc, hne]
  | other d c =>
    obtain ⟨m1, m2, m3⟩ := header_other d hq
    have : crd (Entry.other d c).disposition = crd d := rfl
    rw [this]
    dsimp only
    rw [m1]
    simp [m2, m3]

theorem type_plain {p : Part} {e : Entry} (h : Describes p e) :
    Http.get contentType (received p.header) = ((Http.get contentType (received p.header)).1, kept p.header)
      ∧ (findStr multipartSlash (Http.get contentType (received p.header)).1).isSome = false := by
  refine ⟨Prod.ext rfl (get_type _), ?_⟩
  rw [get_eq, lookup_received]
  cases hx : fieldOf p.header contentType with
  | none => decide
  | some v =>
    have := findStr_none (not_infix_cr (h.plain v hx))
    simp [this]

/-! ### All parts -/

/-- What a part does to the form values. -/
def enterEntry (h : Http.Header) (st : St) : Entry → St
  | .value n v => st.add n v
  | .upload n f c => (st.add n f).addFile f c (kept h)
  | .attached f c => st.addFile f c (kept h)
  | .other _ _ => st

/-- From one delimiter on. -/
def goText (b post : Str) : List Part → Str
  | [] => [45, 45] ++ b ++ [45, 45, 13, 10] ++ post
  | p :: ps => [45, 45] ++ b ++ [13, 10] ++ p.text ++ [13, 10] ++ goText b post ps

theorem bodyText_eq (b pre post : Str) (ps : List Part) : bodyText b pre ps post = pre ++ goText b post ps := by
  unfold bodyText
  simp only [List.append_assoc, List.append_cancel_left_eq]
  induction ps with
  | nil => simp [goText]
  | cons p ps ih =>
    simp only [List.map_cons, List.flatten_cons, goText, List.append_assoc]
    rw [ih]

/-- What all parts do. -/
def enterAll : List Part → List Entry → St → St
  | p :: ps, e :: es, st => enterAll ps es (enterEntry p.header st e)
  | _, _, st => st

theorem parts_step (n : Nat) (b s : Str) (st : St) (p : Part) (e : Entry) (fin : Bool) (rest : Str)
    (h : Describes p e) (hs : scanPart b 0 0 0 [] s = (p.text, fin, rest)) :
    parts (n + 1) b s st = if fin then .ok (enterEntry p.header st e) else parts n b rest (enterEntry p.header st e) := by
  obtain ⟨t1, t2⟩ := type_plain h
  rw [parts, hs]
  simp only [splitPart_text p h.sendable]
  simp only [bind, Except.bind]
  rw [t1]
  simp only [t2, addPart_kept h]
  cases e <;> rfl

theorem parts_all (b post : Str) : ∀ (ps : List Part) (es : List Entry) (p : Part) (e : Entry) (n : Nat) (st : St),
    Describes p e → Undisturbed b p.text → List.Forall₂ Describes ps es → (∀ p ∈ ps, Undisturbed b p.text) → ps.length < n →
    parts n b (p.text ++ [13, 10] ++ goText b post ps) st = .ok (enterAll (p :: ps) (e :: es) st) := by
  intro ps
  induction ps with
  | nil =>
    intro es p e n st hp hu hf _ hn
    cases hf
    obtain ⟨n, rfl⟩ : ∃ m, n = m + 1 := ⟨n - 1, by omega⟩
    have hs : scanPart b 0 0 0 [] (p.text ++ [13, 10] ++ goText b post []) = (p.text, true, post) := by
      have e : p.text ++ [13, 10] ++ goText b post [] = p.text ++ [13, 10, 45, 45] ++ b ++ ([45, 45, 13, 10] ++ post) := by simp [goText]
      rw [e, scan_part b _ _ hu, tail_last]
    rw [parts_step n b _ st p e true post hp hs]
    rfl
  | cons q ps ih =>
    intro es p e n st hp hu hf hus hn
    cases hf with
    | cons hq hf =>
      rename_i d es
      obtain ⟨n, rfl⟩ : ∃ m, n = m + 1 := ⟨n - 1, by omega⟩
      have hs : scanPart b 0 0 0 [] (p.text ++ [13, 10] ++ goText b post (q :: ps)) = (p.text, false, q.text ++ [13, 10] ++ goText b post ps) := by
        have e : p.text ++ [13, 10] ++ goText b post (q :: ps)
            = p.text ++ [13, 10, 45, 45] ++ b ++ ([13, 10] ++ (q.text ++ [13, 10] ++ goText b post ps)) := by simp [goText]
        rw [e, scan_part b _ _ hu, tail_next]
      rw [parts_step n b _ st p e false _ hp hs]
      simp only [Bool.false_eq_true, if_false]
      rw [ih es q d n _ hq (hus q (by simp)) hf (fun x hx => hus x (by simp [hx])) (by simpa using hn)]
      rfl

theorem count_go (b post : Str) (ps : List Part) : ps.length ≤ (goText b post ps).count 10 := by
  induction ps with
  | nil => simp
  | cons p ps ih => simp [goText, List.count_append]; omega

theorem multipart_all (b pre post : Str) (ps : List Part) (es : List Entry) (st : St) (hb : 10 ∉ b) (hpre : Preamble b pre)
    (hf : List.Forall₂ Describes ps es) (hu : ∀ p ∈ ps, Undisturbed b p.text) :
    parseMultipart (bodyText b pre ps post) b st = .ok (enterAll ps es st) := by
  obtain ⟨ls, rfl, hls⟩ := hpre
  unfold parseMultipart
  rw [bodyText_eq, enter_pre b _ ls hls]
  cases ps with
  | nil =>
    cases hf
    rw [goText, enter_last _ _ hb]
    rfl
  | cons p ps =>
    cases hf with
    | cons hp hf =>
      have e : goText b post (p :: ps) = [45, 45] ++ b ++ [13, 10] ++ (p.text ++ [13, 10] ++ goText b post ps) := by simp [goText]
      rw [e, enter_next _ _ hb]
      dsimp only
      refine parts_all b post ps _ p _ _ st hp (hu p (by simp)) hf (fun x hx => hu x (by simp [hx])) ?_
      have := count_go b post ps
      simp only [List.count_append]
      omega

/-! ### What the maps hold -/

theorem enterAll_holds : ∀ (ps : List Part) (es : List Entry) (st : St) (qs : List (Str × Str)), ps.length = es.length → Holds st qs →
    Holds (enterAll ps es st) (qs ++ es.filterMap Entry.pair) := by
  intro ps
  induction ps with
  | nil =>
    intro es st qs hl h
    cases es with
    | nil => simpa [enterAll] using h
    | cons _ _ => simp at hl
  | cons p ps ih =>
    intro es st qs hl h
    cases es with
    | nil => simp at hl
    | cons e es =>
      have h2 : Holds (enterEntry p.header st e) (qs ++ e.pair.toList) := by
        cases e with
        | value n v => exact holds_add h n v
        | upload n f c => exact holds_add h n f
        | attached f c =>
          have h' : Holds (enterEntry p.header st (.attached f c)) qs := h
          simpa [Entry.pair] using h'
        | other d c =>
          have h' : Holds (enterEntry p.header st (.other d c)) qs := h
          simpa [Entry.pair] using h'
      have := ih es _ _ (by simpa using hl) h2
      have e2 : qs ++ e.pair.toList ++ es.filterMap Entry.pair = qs ++ (e :: es).filterMap Entry.pair := by
        cases e <;> simp [Entry.pair, List.filterMap_cons]
      rw [e2] at this
      exact this

theorem last_or {α : Type} (l : List α) (o : Option α) : (l.getLast?).or o = match l with | [] => o | _ :: _ => l.getLast? := by
  cases l with
  | nil => rfl
  | cons a l => rw [List.getLast?_cons]; rfl

theorem enterAll_files : ∀ (ps : List Part) (es : List Entry) (st : St) (f : Str), ps.length = es.length →
    find (enterAll ps es st).file f = ((values (files es) f).getLast?).or (find st.file f)
      ∧ find (enterAll ps es st).info f = ((((headers ps es).filter (·.1 = f)).map (·.2)).getLast?).or (find st.info f) := by
  intro ps
  induction ps with
  | nil =>
    intro es st f hl
    cases es with
    | nil => exact ⟨rfl, rfl⟩
    | cons _ _ => simp at hl
  | cons p ps ih =>
    intro es st f hl
    cases es with
    | nil => simp at hl
    | cons e es =>
      have hl' : ps.length = es.length := by simpa using hl
      cases e with
      | value n v => exact ih es (st.add n v) f hl'
      | other d c => exact ih es st f hl'
      | attached f' c =>
        obtain ⟨h1, h2⟩ := ih es (st.addFile f' c (kept p.header)) f hl'
        refine ⟨?_, ?_⟩
        · have e1 : find (st.addFile f' c (kept p.header)).file f = if f = f' then some c else find st.file f := find_upsert _ _ _ _
          rw [enterAll, enterEntry, h1, e1]
          by_cases hf : f = f'
          · subst hf
            simp only [if_true, files, values, List.filter_cons, decide_true, List.map_cons, List.getLast?_cons]
            cases (((files es).filter (fun x => decide (x.1 = f))).map (·.2)).getLast? <;> rfl
          · have hf' : ¬ f' = f := fun h => hf h.symm
            simp [files, values, hf, hf']
        · have e1 : find (st.addFile f' c (kept p.header)).info f = if f = f' then some (kept p.header) else find st.info f := find_upsert _ _ _ _
          rw [enterAll, enterEntry, h2, e1]
          by_cases hf : f = f'
          · subst hf
            simp only [if_true, headers, List.filter_cons, decide_true, List.map_cons, List.getLast?_cons]
            cases (((headers ps es).filter (fun x => decide (x.1 = f))).map (·.2)).getLast? <;> rfl
          · have hf' : ¬ f' = f := fun h => hf h.symm
            simp [headers, hf, hf']
      | upload n f' c =>
        obtain ⟨h1, h2⟩ := ih es ((st.add n f').addFile f' c (kept p.header)) f hl'
        refine ⟨?_, ?_⟩
        · have e1 : find ((st.add n f').addFile f' c (kept p.header)).file f = if f = f' then some c else find st.file f := find_upsert _ _ _ _
          rw [enterAll, enterEntry, h1, e1]
          by_cases hf : f = f'
          · subst hf
            simp only [if_true, files, values, List.filter_cons, decide_true, List.map_cons, List.getLast?_cons]
            cases (((files es).filter (fun x => decide (x.1 = f))).map (·.2)).getLast? <;> rfl
          · have hf' : ¬ f' = f := fun h => hf h.symm
            simp [files, values, hf, hf']
        · have e1 : find ((st.add n f').addFile f' c (kept p.header)).info f = if f = f' then some (kept p.header) else find st.info f := find_upsert _ _ _ _
          rw [enterAll, enterEntry, h2, e1]
          by_cases hf : f = f'
          · subst hf
            simp only [if_true, headers, List.filter_cons, decide_true, List.map_cons, List.getLast?_cons]
            cases (((headers ps es).filter (fun x => decide (x.1 = f))).map (·.2)).getLast? <;> rfl
          · have hf' : ¬ f' = f := fun h => hf h.symm
            simp [headers, hf, hf']

/-! ### Reading comes to an end -/

theorem istream_suffix (o : Socket.Op) (s : Str) : (istreamStep o s).2 <:+ s := by
  cases o with
  | getline n =>
    by_cases h : 10 ∈ s
    · simp only [istreamStep, if_pos h]
      exact List.drop_suffix _ _
    · simp only [istreamStep, if_neg h]
      exact List.nil_suffix
  | _ => exact List.suffix_refl _

theorem run_suffix {α : Type} (p : Prog α) : ∀ s : Str, (p.run istreamStep s).2 <:+ s := by
  induction p with
  | ret a => intro s; exact List.suffix_refl _
  | op o next ih => intro s; exact (ih _ _).trans (istream_suffix o s)

theorem count_run {α : Type} (p : Prog α) (s : Str) : (p.run istreamStep s).2.count 10 ≤ s.count 10 := (run_suffix p s).sublist.count_le 10

/-- A line takes a newline from the stream. -/
theorem line_count (s : Str) : (∃ s', (Prog.getline 0).run istreamStep s = (none, s')) ∨
    ∃ l s', (Prog.getline 0).run istreamStep s = (some l, s') ∧ s'.count 10 < s.count 10 := by
  by_cases h : 10 ∈ s
  · right
    obtain ⟨l, r, e, hl⟩ := List.eq_append_cons_of_mem h
    exact ⟨l, r, by rw [e]; exact line_some l r hl, by rw [e]; simp [List.count_append]; omega⟩
  · left
    exact ⟨[], by simp [Prog.getline, Prog.run, istreamStep, h]⟩

theorem readLws_count : ∀ (n : Nat) (val s : Str), s.count 10 < n →
    ∃ next v s', (readLws (Prog.getline 0) n val).run istreamStep s = (some (next, v), s')
      ∧ s'.count 10 ≤ s.count 10 ∧ (next.isSome → s'.count 10 < s.count 10) := by
  intro n
  induction n with
  | zero => intro val s h; omega
  | succ n ih =>
    intro val s h
    unfold readLws
    rcases line_count s with ⟨s', hr⟩ | ⟨l, s', hr, hc⟩
    · have := count_run (Prog.getline 0) s
      rw [hr] at this
      exact ⟨none, val, s', by rw [run_bind_eq hr]; rfl, this, by simp⟩
    · rw [run_bind_eq hr]
      cases l with
      | nil => exact ⟨none, val, s', rfl, by omega, by simp⟩
      | cons c l =>
        dsimp only
        split
        · exact ⟨none, val, s', rfl, by omega, by simp⟩
        · split
          · obtain ⟨next, v, s2, h1, h2, h3⟩ := ih (Http.joinLws val (c :: l)) s' (by omega)
            exact ⟨next, v, s2, h1, by omega, fun hx => by have := h3 hx; omega⟩
          · exact ⟨_, val, s', rfl, by omega, fun _ => hc⟩

theorem readFields_count : ∀ (n : Nat) (line : Str) (h : Http.Header) (s : Str), s.count 10 < n →
    ((readFields (Prog.getline 0) n line h).run istreamStep s).1 ≠ .error .fuel := by
  intro n
  induction n with
  | zero => intro line h s hn; omega
  | succ n ih =>
    intro line h s hn
    obtain ⟨next, v, s', h1, h2, h3⟩ := readLws_count (n + 1) (splitLine [] line).2 s hn
    unfold readFields
    dsimp only
    rw [run_bind_eq h1]
    dsimp only
    cases next with
    | none => simp [Prog.run]
    | some l =>
      have := h3 rfl
      exact ih l _ s' (by omega)

theorem headerOfStream_count (s : Str) : (headerOfStream s).1 ≠ .error .fuel ∧
    ((∃ hd, (headerOfStream s).1 = .ok hd) → (headerOfStream s).2.count 10 < s.count 10) := by
  unfold headerOfStream readHeader
  have hlen : s.count 10 ≤ s.length := List.count_le_length
  rcases line_count s with ⟨s', hr⟩ | ⟨l, s', hr, hc⟩
  · rw [run_bind_eq hr]
    exact ⟨by simp [Prog.run], by rintro ⟨hd, h⟩; simp [Prog.run] at h⟩
  · rw [run_bind_eq hr]
    cases l with
    | nil => exact ⟨by simp [Prog.run], fun _ => hc⟩
    | cons c l =>
      refine ⟨readFields_count _ _ _ _ (by omega), fun _ => ?_⟩
      have := count_run (readFields (Prog.getline 0) (s.length + 1) (c :: l) []) s'
      exact Nat.lt_of_le_of_lt this hc

theorem splitPart_count (s : Str) : splitPart s ≠ .error .fuel ∧ ∀ hd body, splitPart s = .ok (hd, body) → body.count 10 < s.count 10 := by
  obtain ⟨h1, h2⟩ := headerOfStream_count s
  unfold splitPart
  cases hx : headerOfStream s with
  | mk r rest =>
    rw [hx] at h1 h2
    cases r with
    | error e =>
      cases e with
      | invalid => exact ⟨by simp, by intro hd body h; simp at h⟩
      | fuel => exact absurd rfl h1
    | ok hd =>
      dsimp only at h2 ⊢
      refine ⟨by split <;> simp, ?_⟩
      intro hd' body h
      split at h
      · simp at h
      · simp only [Except.ok.injEq, Prod.mk.injEq] at h
        rw [← h.2]
        exact h2 ⟨hd, rfl⟩

theorem tail_count : ∀ (s : Str) (cnt : Int) (fin : Bool), (delimiterTail cnt fin s).2.count 10 ≤ s.count 10 := by
  intro s
  induction s with
  | nil => intro cnt fin; simp [delimiterTail]
  | cons a s ih =>
    intro cnt fin
    have hle : s.count 10 ≤ (a :: s).count 10 := List.count_le_count_cons
    unfold delimiterTail
    split
    · exact hle
    · split
      · split
        · exact Nat.le_trans (ih _ _) hle
        · exact Nat.le_trans (ih _ _) hle
      · exact Nat.le_trans (ih _ _) hle

theorem chop_count (s : Str) : (chop s).count 10 ≤ s.count 10 := by
  unfold chop
  split
  · exact (List.dropLast_sublist s).count_le 10
  · exact Nat.le_refl _

theorem chk_count (n : Nat) (s : Str) : (readChk n s).count 10 + (s.drop n).count 10 = s.count 10 := by
  unfold readChk
  have h1 : (List.replicate (n - s.length) (32 : UInt8)).count 10 = 0 := by simp [List.count_replicate]
  have h2 := congrArg (List.count 10) (List.take_append_drop n s)
  rw [List.count_append] at h2 ⊢
  omega

theorem scan_count (bd : Str) : ∀ (n : Nat) (s : Str) (a b : UInt8) (cnt : Nat) (str : Str), s.length ≤ n →
    (cnt < 2 → a ≠ 10) → (cnt = 0 → b ≠ 10) →
    (scanPart bd a b cnt str s).1.count 10 + (scanPart bd a b cnt str s).2.2.count 10 ≤ str.count 10 + (pend cnt a b ++ s).count 10 := by
  intro n
  induction n with
  | zero =>
    intro s a b cnt str hs _ _
    have hs : s = [] := by simpa using hs
    subst hs
    rw [scanPart.eq_def]
    simp
  | succ n ih =>
    intro s a b cnt str hs ha hb
    cases s with
    | nil => rw [scanPart.eq_def]; simp
    | cons c s =>
      have hs' : s.length ≤ n := by simpa using hs
      rw [scanPart.eq_def]
      simp only
      by_cases hd : a = 10 ∧ b = 45 ∧ c = 45
      · rw [if_pos hd]
        obtain ⟨rfl, rfl, rfl⟩ := hd
        have hcnt : ¬ cnt < 2 := fun h => ha h rfl
        obtain ⟨cnt, rfl⟩ : ∃ m, cnt = m + 2 := ⟨cnt - 2, by omega⟩
        have hk := chk_count bd.length s
        split
        · have h1 := tail_count (s.drop bd.length) 0 false
          have h2 := chop_count str
          simp only [pend, List.count_append, List.count_cons, List.count_nil]
          simp
          omega
        · have := ih (s.drop bd.length) 45 45 0 (str ++ [10] ++ [45, 45] ++ readChk bd.length s) (by rw [List.length_drop]; omega) (by decide) (by decide)
          simp only [pend, List.count_append, List.count_cons, List.count_nil] at this ⊢
          simp at this ⊢
          omega
      · rw [if_neg hd]
        rcases cnt with _ | _ | cnt
        · have := ih s b c 1 str hs' (fun _ => hb rfl) (by omega)
          simp only [pend, List.count_append, List.count_cons, List.count_nil] at this ⊢
          simp at this ⊢
          omega
        · have := ih s b c 2 str hs' (by omega) (by omega)
          simp only [pend, List.count_append, List.count_cons, List.count_nil] at this ⊢
          simp at this ⊢
          omega
        · rw [if_pos (by omega)]
          have := ih s b c (cnt + 3) (str ++ [a]) hs' (by omega) (by omega)
          have e1 : pend (cnt + 3) b c = [b, c] := rfl
          have e2 : pend (cnt + 1 + 1) a b = [a, b] := rfl
          have e3 : cnt + 1 + 1 + 1 = cnt + 3 := rfl
          rw [e2, e3]
          rw [e1] at this
          simp only [List.count_append, List.count_cons, List.count_nil] at this ⊢
          omega

theorem enter_count (b : Str) : ∀ (n : Nat) (s r : Str), s.length ≤ n → enter b s = some r → r.count 10 ≤ s.count 10 := by
  intro n
  induction n with
  | zero =>
    intro s r hs h
    have hs : s = [] := by simpa using hs
    subst hs
    rw [enter.eq_def] at h
    simp at h
    simp [← h]
  | succ n ih =>
    intro s r hs h
    rw [enter.eq_def] at h
    split at h
    · cases h; simp
    · rename_i c t
      simp only at h
      have hd : ((c :: t).drop (((c :: t).takeWhile (· ≠ 10)).length + 1)).count 10 ≤ (c :: t).count 10 := (List.drop_sublist _ _).count_le 10
      split at h
      · split at h
        · cases h
        · cases h; exact hd
      · refine Nat.le_trans (ih _ _ ?_ h) hd
        rw [List.length_drop]
        simp at hs ⊢
        omega

theorem boundaryOf_fuel (ct : Str) : boundaryOf ct ≠ .error .fuel := by
  unfold boundaryOf substr
  split <;> split <;> simp

theorem parts_fuel : ∀ (n : Nat) (b s : Str) (st : St), s.count 10 < n → parts n b s st ≠ .error .fuel := by
  intro n
  induction n with
  | zero => intro b s st h; omega
  | succ n ih =>
    intro b s st h
    have hc := scan_count b s.length s 0 0 0 [] (Nat.le_refl _) (by decide) (by decide)
    simp only [pend, List.nil_append, List.count_nil, Nat.zero_add] at hc
    rw [parts]
    cases hx : scanPart b 0 0 0 [] s with
    | mk str r =>
      obtain ⟨fin, rest⟩ := r
      rw [hx] at hc
      dsimp only at hc ⊢
      obtain ⟨h1, h2⟩ := splitPart_count str
      cases hy : splitPart str with
      | error e =>
        rw [hy] at h1
        simp only [bind, Except.bind]
        intro h
        cases h
        exact h1 rfl
      | ok v =>
        obtain ⟨hd, body⟩ := v
        have h3 := h2 hd body hy
        simp only [bind, Except.bind]
        have tail : ∀ st', (if fin = true then Except.ok st' else parts n b rest st') ≠ .error .fuel := by
          intro st'
          split
          · simp
          · exact ih b rest st' (by omega)
        split
        · cases hb : boundaryOf (Http.get contentType hd).1 with
          | error e' =>
            have := boundaryOf_fuel (Http.get contentType hd).1
            rw [hb] at this
            intro h
            cases h
            exact this rfl
          | ok bd =>
            dsimp only
            cases hn : enter bd body with
            | none => exact tail _
            | some s' =>
              dsimp only
              have hle := enter_count bd _ body s' (Nat.le_refl _) hn
              have hne := ih bd s' st (by omega)
              cases hp : parts n bd s' st with
              | error e' =>
                rw [hp] at hne
                intro h
                cases h
                exact hne rfl
              | ok st' => exact tail _
        · exact tail _

/-! ### The closing delimiter -/

theorem tail_neg : ∀ (s : Str) (cnt : Int) (fin : Bool), cnt < 0 → (delimiterTail cnt fin s).1 = fin := by
  intro s
  induction s with
  | nil => intro cnt fin _; rfl
  | cons a s ih =>
    intro cnt fin h
    unfold delimiterTail
    split
    · rfl
    · split
      · rw [if_neg (by omega)]; exact ih cnt fin h
      · exact ih _ _ (by omega)

theorem tail_closed (s : Str) (h : (delimiterTail 0 false s).1 = true) : [45, 45] <+: s := by
  match s, h with
  | [], h => simp [delimiterTail] at h
  | [a], h =>
    unfold delimiterTail at h
    split at h
    · simp at h
    · split at h
      · simp [delimiterTail] at h
      · simp [delimiterTail] at h
  | a :: b :: s, h =>
    unfold delimiterTail at h
    split at h
    · simp at h
    · split at h
      · rename_i ha
        subst ha
        rw [if_pos (by omega)] at h
        unfold delimiterTail at h
        split at h
        · simp at h
        · split at h
          · rename_i hb; subst hb; exact ⟨s, rfl⟩
          · rw [tail_neg _ _ _ (by omega)] at h; simp at h
      · rw [tail_neg _ _ _ (by omega)] at h; simp at h

theorem tail_suffix : ∀ (s : Str) (cnt : Int) (fin : Bool), (delimiterTail cnt fin s).2 <:+ s := by
  intro s
  induction s with
  | nil => intro cnt fin; exact List.suffix_refl _
  | cons a s ih =>
    intro cnt fin
    have hle : s <:+ a :: s := List.suffix_cons a s
    unfold delimiterTail
    split
    · exact hle
    · split
      · split
        · exact (ih _ _).trans hle
        · exact (ih _ _).trans hle
      · exact (ih _ _).trans hle

theorem scan_closed (bd : Str) : ∀ (n : Nat) (s : Str) (a b : UInt8) (cnt : Nat) (str : Str), s.length ≤ n →
    (cnt < 2 → a ≠ 10) → (cnt = 0 → b ≠ 10) →
    (scanPart bd a b cnt str s).2.2 <:+ s
      ∧ ((scanPart bd a b cnt str s).2.1 = true → [45, 45] ++ bd ++ [45, 45] <:+: pend cnt a b ++ s) := by
  intro n
  induction n with
  | zero =>
    intro s a b cnt str hs _ _
    have hs : s = [] := by simpa using hs
    subst hs
    rw [scanPart.eq_def]
    simp
  | succ n ih =>
    intro s a b cnt str hs ha hb
    cases s with
    | nil => rw [scanPart.eq_def]; simp
    | cons c s =>
      have hs' : s.length ≤ n := by simpa using hs
      have hsuf : s <:+ c :: s := List.suffix_cons c s
      rw [scanPart.eq_def]
      simp only
      by_cases hd : a = 10 ∧ b = 45 ∧ c = 45
      · rw [if_pos hd]
        obtain ⟨rfl, rfl, rfl⟩ := hd
        have hcnt : ¬ cnt < 2 := fun h => ha h rfl
        obtain ⟨cnt, rfl⟩ : ∃ m, cnt = m + 2 := ⟨cnt - 2, by omega⟩
        split
        · rename_i hk
          refine ⟨(tail_suffix _ _ _).trans ((List.drop_suffix _ _).trans hsuf), fun h => ?_⟩
          obtain ⟨r, hr⟩ := tail_closed _ h
          have hlen : bd.length ≤ s.length := by
            have := congrArg List.length hr
            simp at this
            omega
          have hbd : s.take bd.length = bd := by
            have : bd.length - s.length = 0 := by omega
            rw [readChk, this] at hk
            simpa using hk
          refine ⟨[10], r, ?_⟩
          have e : s = bd ++ ([45, 45] ++ r) := by
            rw [hr]
            conv => rhs; lhs; rw [← hbd]
            exact (List.take_append_drop _ _).symm
          rw [e]
          simp [pend]
        · obtain ⟨h1, h2⟩ := ih (s.drop bd.length) 45 45 0 (str ++ [10] ++ [45, 45] ++ readChk bd.length s) (by rw [List.length_drop]; omega) (by decide) (by decide)
          refine ⟨h1.trans ((List.drop_suffix _ _).trans hsuf), fun h => ?_⟩
          have h3 : s.drop bd.length <:+ [10, 45] ++ 45 :: s := (List.drop_suffix _ _).trans (hsuf.trans (List.suffix_append _ _))
          exact (h2 h).trans h3.isInfix
      · rw [if_neg hd]
        rcases cnt with _ | _ | cnt
        · obtain ⟨h1, h2⟩ := ih s b c 1 (if 2 ≤ 0 then str ++ [a] else str) hs' (fun _ => hb rfl) (by omega)
          exact ⟨h1.trans hsuf, h2⟩
        · obtain ⟨h1, h2⟩ := ih s b c 2 (if 2 ≤ 0 + 1 then str ++ [a] else str) hs' (by omega) (by omega)
          exact ⟨h1.trans hsuf, h2⟩
        · obtain ⟨h1, h2⟩ := ih s b c (cnt + 3) (if 2 ≤ cnt + 1 + 1 then str ++ [a] else str) hs' (by omega) (by omega)
          exact ⟨h1.trans hsuf, fun h => (h2 h).trans (List.suffix_append [a] (b :: c :: s)).isInfix⟩

theorem enter_suffix (b : Str) : ∀ (n : Nat) (s r : Str), s.length ≤ n → enter b s = some r → r <:+ s := by
  intro n
  induction n with
  | zero =>
    intro s r hs h
    have hs : s = [] := by simpa using hs
    subst hs
    rw [enter.eq_def] at h
    simp at h
    simp [← h]
  | succ n ih =>
    intro s r hs h
    rw [enter.eq_def] at h
    split at h
    · cases h; exact List.suffix_refl _
    · rename_i c t
      simp only at h
      split at h
      · split at h
        · cases h
        · cases h; exact List.drop_suffix _ _
      · refine (ih _ _ ?_ h).trans (List.drop_suffix _ _)
        rw [List.length_drop]
        simp at hs ⊢
        omega

theorem enter_none (b : Str) : ∀ (n : Nat) (s : Str), s.length ≤ n → enter b s = none → [45, 45] ++ b ++ [45, 45] <:+: s := by
  intro n
  induction n with
  | zero =>
    intro s hs h
    have hs : s = [] := by simpa using hs
    subst hs
    rw [enter.eq_def] at h
    simp at h
  | succ n ih =>
    intro s hs h
    rw [enter.eq_def] at h
    split at h
    · cases h
    · rename_i c t
      simp only at h
      split at h
      · split at h
        · rename_i h2
          rw [← h2]
          exact ((List.take_prefix _ _).trans (List.takeWhile_prefix _)).isInfix
        · cases h
      · refine (ih _ ?_ h).trans (List.drop_suffix _ _).isInfix
        rw [List.length_drop]
        simp at hs ⊢
        omega

theorem parts_closed : ∀ (n : Nat) (b s : Str) (st st' : St), parts n b s st = .ok st' → [45, 45] ++ b ++ [45, 45] <:+: s := by
  intro n
  induction n with
  | zero => intro b s st st' h; simp [parts] at h
  | succ n ih =>
    intro b s st st' h
    obtain ⟨h1, h2⟩ := scan_closed b s.length s 0 0 0 [] (Nat.le_refl _) (by decide) (by decide)
    rw [parts] at h
    cases hx : scanPart b 0 0 0 [] s with
    | mk str r =>
      obtain ⟨fin, rest⟩ := r
      rw [hx] at h h1 h2
      dsimp only at h h1 h2
      cases hy : splitPart str with
      | error e => rw [hy] at h; simp [bind, Except.bind] at h
      | ok v =>
        obtain ⟨hd, body⟩ := v
        rw [hy] at h
        simp only [bind, Except.bind] at h
        have fin_or : ∀ st1, (if fin = true then Except.ok st1 else parts n b rest st1) = Except.ok st' → [45, 45] ++ b ++ [45, 45] <:+: s := by
          intro st1 h
          split at h
          · rename_i hf; simpa [pend] using h2 hf
          · exact (ih b rest st1 st' h).trans h1.isInfix
        split at h
        · cases hb : boundaryOf (Http.get contentType hd).1 with
          | error e => rw [hb] at h; simp at h
          | ok bd =>
            rw [hb] at h
            dsimp only at h
            cases hn : enter bd body with
            | none => rw [hn] at h; exact fin_or _ h
            | some s' =>
              rw [hn] at h
              dsimp only at h
              cases hp : parts n bd s' st with
              | error e => rw [hp] at h; simp at h
              | ok st1 => rw [hp] at h; exact fin_or _ h
        · exact fin_or _ h

/-- `Undisturbed`, computed. -/
def undisturbedCheck (b : Str) : Str → Bool
  | [] => true
  | c :: t => (!([10, 45, 45].isPrefixOf (c :: t)) || (decide (b.length ≤ (t.drop 2).length) && !(b.isPrefixOf (t.drop 2)))) && undisturbedCheck b t

theorem undisturbed_of_check {b t : Str} (h : undisturbedCheck b t = true) : Undisturbed b t := by
  intro u
  induction u generalizing t with
  | nil =>
    intro v e
    subst e
    simp only [List.nil_append, List.cons_append, undisturbedCheck, List.drop_succ_cons, List.drop_zero, Bool.and_eq_true] at h
    have h1 := h.1
    simp [List.isPrefixOf] at h1
    exact ⟨h1.1, fun hp => by
      have := List.isPrefixOf_iff_prefix.mpr hp
      simp [this] at h1⟩
  | cons c u ih =>
    intro v e
    subst e
    simp only [List.cons_append, undisturbedCheck, Bool.and_eq_true] at h
    exact ih h.2 v (by simp)

end Verif.Cgi.Lemmas
