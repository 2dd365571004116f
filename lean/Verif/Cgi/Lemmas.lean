import Verif.Cgi.Spec
import Verif.UriCode.Props
import Verif.Http.Lemmas
/-! Lemmas for `Verif.Cgi.Props`. -/

namespace Verif.Cgi.Lemmas
open Verif Verif.AssocMap Verif.Cgi Verif.Cgi.Spec

/-! ### The maps -/

theorem values_append (ps qs : List (Str × Str)) (k : Str) : values (ps ++ qs) k = values ps k ++ values qs k := by
  simp [values]

theorem holds_nil : Holds {} [] := by intro k; simp [values, find]

theorem holds_add {st : St} {ps : List (Str × Str)} (h : Holds st ps) (k v : Str) : Holds (st.add k v) (ps ++ [(k, v)]) := by
  intro k'
  obtain ⟨h1, h2⟩ := h k'
  rw [values_append]
  by_cases hk : k = k'
  · subst hk
    have : values [(k, v)] k = [v] := by simp [values]
    rw [this]
    refine ⟨?_, ?_⟩
    · simp [St.add, find_upsert]
    · simp only [St.add, find_upsert, if_true, h2]
      by_cases hv : values ps k = [] <;> simp [hv]
  · have : values [(k, v)] k' = [] := by simp [values, hk]
    rw [this, List.append_nil]
    have hk' : k' ≠ k := fun h => hk h.symm
    exact ⟨by simp [St.add, find_upsert, hk', h1], by simp [St.add, find_upsert, hk', h2]⟩

theorem add_file (st : St) (k v : Str) : (st.add k v).file = st.file ∧ (st.add k v).info = st.info := ⟨rfl, rfl⟩

/-! ### Query strings -/

theorem strchr_append (c : UInt8) (a b : Str) (ha : ∀ x ∈ a, x ≠ 0 ∧ x ≠ c) (hc : c ≠ 0) : strchr c (a ++ c :: b) = some a.length := by
  unfold strchr
  rw [List.takeWhile_append_of_pos (by intro x hx; simpa using (ha x hx).1), List.takeWhile_cons_of_pos (by simpa using hc)]
  rw [List.findIdx?_append, List.findIdx?_cons]
  have : a.findIdx? (fun x => decide (x = c)) = none := by
    rw [List.findIdx?_eq_none_iff]; intro x hx; simpa using (ha x hx).2
  rw [this]; simp

theorem strchr_none (c : UInt8) (a : Str) (ha : ∀ x ∈ a, x ≠ c) : strchr c a = none := by
  unfold strchr
  rw [List.findIdx?_eq_none_iff]
  intro x hx
  simpa using ha x ((List.takeWhile_sublist _).subset hx)

theorem strchr_ge (c : UInt8) (a b : Str) (ha : ∀ x ∈ a, x ≠ c) (r : Nat) (h : strchr c (a ++ b) = some r) : a.length ≤ r := by
  unfold strchr at h
  obtain ⟨h1, h2, _⟩ := List.findIdx?_eq_some_iff_getElem.mp h
  rcases Nat.lt_or_ge r a.length with hr | hr
  · exfalso
    have hp := List.takeWhile_prefix (p := fun x : UInt8 => decide (x ≠ 0)) (l := a ++ b)
    have e := hp.getElem h1
    rw [List.getElem_append_left hr] at e
    rw [e] at h2
    exact ha _ (List.getElem_mem hr) (by simpa using h2)
  · exact hr

theorem means_text {i : Item} {p : Str × Str} (h : i.Means p) : i.text ≠ [] ∧ ∀ c ∈ i.text, c ≠ 0 ∧ c ≠ 38 := by
  cases h with
  | pair h1 h2 _ _ =>
    refine ⟨by simp [Item.text], fun c hc => ?_⟩
    simp only [Item.text, List.append_assoc, List.mem_append, List.mem_singleton] at hc
    rcases hc with hc | rfl | hc
    · exact ⟨(h1 c hc).1, (h1 c hc).2.1⟩
    · decide
    · exact h2 c hc
  | bare h1 h2 _ => exact ⟨h2, fun c hc => ⟨(h1 c hc).1, (h1 c hc).2.1⟩⟩

/-- One item and what follows it: nothing, or `&` and a text. -/
theorem parseStep_item {i : Item} {k v : Str} (h : i.Means (k, v)) (st : St) (tail : Str) (ht : tail = [] ∨ tail.head? = some 38) :
    parseStep (i.text ++ tail) st = (st.add k v, tail.tail) := by
  have hc := (means_text h).2
  have hq : (strchr 38 (i.text ++ tail)).getD (i.text ++ tail).length = i.text.length := by
    cases tail with
    | nil => rw [List.append_nil, strchr_none 38 _ (fun x hx => (hc x hx).2), Option.getD_none]
    | cons c t =>
      have : c = 38 := by simpa using ht
      subst this
      rw [strchr_append 38 _ _ hc (by decide)]; rfl
  have hd : (i.text ++ tail).drop (if i.text.length < (i.text ++ tail).length then i.text.length + 1 else i.text.length) = tail.tail := by
    cases tail with
    | nil => simp
    | cons c t => simp [List.drop_append]
  unfold parseStep
  simp only [hq, hd, List.take_left]
  cases h with
  | pair h1 h2 h3 h4 =>
    rename_i kt vt
    have e1 : strchr 61 ((Item.pair kt vt).text ++ tail) = some kt.length := by
      have : (Item.pair kt vt).text ++ tail = kt ++ 61 :: (vt ++ tail) := by simp [Item.text]
      rw [this]
      exact strchr_append 61 _ _ (fun x hx => ⟨(h1 x hx).1, (h1 x hx).2.2⟩) (by decide)
    have e2 : kt.length < (Item.pair kt vt).text.length := by simp [Item.text]
    have e3 : ((Item.pair kt vt).text ++ tail).take kt.length = kt := by simp [Item.text]
    have e4 : (Item.pair kt vt).text.drop (kt.length + 1) = vt := by simp [Item.text, List.drop_append]
    rw [e1]
    simp only [e2, if_true, e3, e4, UriCode.Props.decode_any _ _ h3, UriCode.Props.decode_any _ _ h4]
  | bare h1 h2 h3 =>
    rename_i kt
    have e : ∀ r, strchr 61 ((Item.bare kt).text ++ tail) = some r → ¬ r < (Item.bare kt).text.length := by
      intro r hr
      have := strchr_ge 61 kt tail (fun x hx => (h1 x hx).2.2) r hr
      exact Nat.not_lt.mpr this
    have ek : UriCode.decode (Item.bare kt).text = k := UriCode.Props.decode_any _ _ h3
    split
    · rename_i r hr
      rw [if_neg (e r hr), ek]
    · rw [ek]

theorem parseInput_nonempty (s : Str) (st : St) (hs : s ≠ []) (h0 : s.head? ≠ some 0) :
    parseInput s st = parseInput (parseStep s st).2 (parseStep s st).1 := by
  cases s with
  | nil => exact absurd rfl hs
  | cons c s =>
    rw [parseInput.eq_def]
    simp only
    rw [if_neg (by simpa using h0)]

theorem parseInput_nil (st : St) : parseInput [] st = st := by rw [parseInput.eq_def]

theorem parseInput_form : ∀ (is : List Item) (ps qs : List (Str × Str)) (st : St), List.Forall₂ Item.Means is ps → Holds st qs →
    Holds (parseInput (formText is) st) (qs ++ ps) ∧ (parseInput (formText is) st).file = st.file
      ∧ (parseInput (formText is) st).info = st.info := by
  intro is
  induction is with
  | nil =>
    intro ps qs st h hq
    cases h
    simpa [formText, parseInput_nil] using hq
  | cons i is ih =>
    intro ps qs st h hq
    cases h with
    | cons hi hr =>
      rename_i p ps
      obtain ⟨k, v⟩ := p
      obtain ⟨hne, hc⟩ := means_text hi
      have head : ∀ tail : Str, (i.text ++ tail) ≠ [] ∧ (i.text ++ tail).head? ≠ some 0 := by
        intro tail
        cases hx : i.text with
        | nil => exact absurd hx hne
        | cons c t =>
          refine ⟨by simp, ?_⟩
          have := (hc c (by simp [hx])).1
          simpa using this
      have key : ∃ tail : Str, formText (i :: is) = i.text ++ tail ∧ (tail = [] ∨ tail.head? = some 38) ∧ tail.tail = formText is := by
        cases is with
        | nil => exact ⟨[], by simp [formText], Or.inl rfl, rfl⟩
        | cons j js => exact ⟨38 :: formText (j :: js), by simp [formText], Or.inr rfl, rfl⟩
      obtain ⟨tail, e1, e2, e3⟩ := key
      rw [e1, parseInput_nonempty _ _ (head tail).1 (head tail).2, parseStep_item hi st tail e2]
      simp only [e3]
      have := ih ps (qs ++ [(k, v)]) (st.add k v) hr (holds_add hq k v)
      simpa [(add_file st k v).1, (add_file st k v).2] using this

/-- What browsers send is an item of the right meaning. -/
theorem encoded_means (p : Str × Str) : (encoded p).Means p := by
  have hb : ∀ c : UInt8, ∀ d ∈ UriCode.encode [c], d ≠ 0 ∧ d ≠ 38 ∧ d ≠ 61 := by
    have : ∀ c : Fin 256, ∀ d ∈ UriCode.encode [UInt8.ofNat c.1], d ≠ 0 ∧ d ≠ 38 ∧ d ≠ 61 := by decide +kernel
    intro c d hd
    have := this ⟨c.toNat, c.toNat_lt⟩ d
    simp only [UInt8.ofNat_toNat] at this
    exact this hd
  have ha : ∀ s : Str, ∀ d ∈ UriCode.encode s, d ≠ 0 ∧ d ≠ 38 ∧ d ≠ 61 := by
    intro s
    induction s with
    | nil => intro d hd; simp [UriCode.encode] at hd
    | cons c s ih =>
      intro d hd
      have e : UriCode.encode (c :: s) = UriCode.encode [c] ++ UriCode.encode s := by
        simp only [UriCode.encode]
        split
        · rfl
        · split <;> rfl
      rw [e, List.mem_append] at hd
      rcases hd with hd | hd
      · exact hb c d hd
      · exact ih d hd
  exact .pair (ha p.1) (fun c hc => ⟨(ha p.2 c hc).1, (ha p.2 c hc).2.1⟩) (UriCode.Props.encode_correct p.1).1 (UriCode.Props.encode_correct p.2).1

/-! ### The end of a part -/

theorem undisturbed_suffix {b u v : Str} (h : Undisturbed b (u ++ v)) : Undisturbed b v := by
  intro x y e
  exact h (u ++ x) y (by rw [e]; simp)

theorem undisturbed_cr {b t : Str} (h : Undisturbed b t) : Undisturbed b (t ++ [13]) := by
  intro u v e
  rcases List.eq_nil_or_concat v with rfl | ⟨v', x, rfl⟩
  · exfalso
    have := congrArg List.getLast? e
    simp at this
  · have e' : t ++ [13] = (u ++ [10, 45, 45] ++ v') ++ [x] := by rw [e]; simp
    obtain ⟨e1, e2⟩ := List.append_inj' e' rfl
    obtain ⟨h1, h2⟩ := h u v' e1
    refine ⟨by simp; omega, fun hp => h2 ?_⟩
    have hp' : b <+: v' ++ [x] := by simpa using hp
    exact List.prefix_of_prefix_length_le hp' (List.prefix_append v' [x]) h1

/-- The characters the loop has read but not stored yet. -/
def pend : Nat → UInt8 → UInt8 → Str
  | 0, _, _ => []
  | 1, _, b => [b]
  | _, a, b => [a, b]

theorem scan (bd tail : Str) : ∀ (n : Nat) (s : Str) (a b : UInt8) (cnt : Nat) (str t : Str), s.length ≤ n →
    pend cnt a b ++ s = t ++ [10, 45, 45] ++ bd ++ tail → Undisturbed bd t → (cnt < 2 → a ≠ 10) → (cnt = 0 → b ≠ 10) →
    scanPart bd a b cnt str s = (chop (str ++ t), delimiterTail 0 false tail) := by
  intro n
  induction n with
  | zero =>
    intro s a b cnt str t hs e _ _ _
    have hs : s = [] := by simpa using hs
    subst hs
    have := congrArg List.length e
    rcases cnt with _ | _ | cnt <;> simp [pend] at this <;> omega
  | succ n ih =>
    intro s a b cnt str t hs e hu ha hb
    cases s with
    | nil =>
      have := congrArg List.length e
      rcases cnt with _ | _ | cnt <;> simp [pend] at this <;> omega
    | cons c s =>
      have hs' : s.length ≤ n := by simpa using hs
      rw [scanPart.eq_def]
      simp only
      by_cases hd : a = 10 ∧ b = 45 ∧ c = 45
      · obtain ⟨rfl, rfl, rfl⟩ := hd
        have hcnt : ¬ cnt < 2 := fun h => ha h rfl
        obtain ⟨cnt, rfl⟩ : ∃ m, cnt = m + 2 := ⟨cnt - 2, by omega⟩
        simp only [pend, List.cons_append, List.nil_append] at e
        rw [if_pos ⟨rfl, rfl, rfl⟩]
        match t, e, hu with
        | [], e, _ =>
          have e : s = bd ++ tail := by simpa using e
          have hk : readChk bd.length s = bd := by simp [readChk, e]
          rw [if_pos hk, e, List.drop_left, List.append_nil]
        | [x], e, _ => simp at e
        | [x, y], e, _ => simp at e
        | x :: y :: z :: v, e, hu =>
          have es : x = 10 ∧ y = 45 ∧ z = 45 ∧ s = v ++ ([10, 45, 45] ++ bd ++ tail) := by
            simp only [List.cons_append, List.cons.injEq] at e
            obtain ⟨e1, e2, e3, e4⟩ := e
            exact ⟨e1.symm, e2.symm, e3.symm, by simpa using e4⟩
          obtain ⟨rfl, rfl, rfl, es⟩ := es
          obtain ⟨h1, h2⟩ := hu [] v (by simp)
          have hk : readChk bd.length s = v.take bd.length := by
            have : bd.length - s.length = 0 := by rw [es]; simp; omega
            rw [readChk, this, es, List.take_append_of_le_length h1]; simp
          have hne : readChk bd.length s ≠ bd := by
            rw [hk]
            intro h
            exact h2 (by rw [← h]; exact List.take_prefix _ _)
          rw [if_neg hne, hk]
          have hu' : Undisturbed bd (v.drop bd.length) := by
            have h3 : Undisturbed bd ([10, 45, 45] ++ v.take bd.length ++ v.drop bd.length) := by simpa using hu
            exact undisturbed_suffix h3
          rw [ih (s.drop bd.length) 45 45 0 _ (v.drop bd.length) (by rw [List.length_drop]; omega)
            (by simp only [pend, List.nil_append]; rw [es, List.drop_append_of_le_length h1]; simp) hu' (by decide) (by decide)]
          congr 2
          simp
      · rw [if_neg hd]
        rcases cnt with _ | _ | cnt
        · rw [if_neg (by decide)]
          exact ih s b c 1 str t hs' (by simpa [pend] using e) hu (fun _ => hb rfl) (by omega)
        · rw [if_neg (by decide)]
          exact ih s b c 2 str t hs' (by simpa [pend] using e) hu (by omega) (by omega)
        · rw [if_pos (by omega)]
          cases t with
          | nil =>
            exfalso
            simp [pend] at e
            exact hd ⟨e.1, e.2.1, e.2.2.1⟩
          | cons x t =>
            simp only [pend, List.cons_append, List.cons.injEq] at e
            obtain ⟨rfl, e⟩ := e
            have := ih s b c (cnt + 3) (str ++ [a]) t hs' (by simpa [pend] using e) (undisturbed_suffix (u := [a]) hu) (by omega) (by omega)
            rw [this]
            congr 2
            simp

theorem scan_part (bd t tail : Str) (h : Undisturbed bd t) :
    scanPart bd 0 0 0 [] (t ++ [13, 10, 45, 45] ++ bd ++ tail) = (t, delimiterTail 0 false tail) := by
  rw [scan bd tail _ _ 0 0 0 [] (t ++ [13]) (Nat.le_refl _) (by simp [pend]) (undisturbed_cr h) (by decide) (by decide)]
  simp [chop]

theorem tail_next (rest : Str) : delimiterTail 0 false ([13, 10] ++ rest) = (false, rest) := rfl

theorem tail_last (rest : Str) : delimiterTail 0 false ([45, 45, 13, 10] ++ rest) = (true, rest) := rfl

end Verif.Cgi.Lemmas
