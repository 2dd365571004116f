import Verif.Xhtml.Spec

namespace Verif.Xhtml.Lemmas
open Verif.Xhtml Verif.Xhtml.Spec

/-! ### Encoding and decoding -/

theorem encode_cons (c : UInt8) (s : List UInt8) : encode (c :: s) = encodeChar c ++ encode s := by
  simp [encode]

theorem encodeChar_cases (c : UInt8) :
    (c = 38 ∧ encodeChar c = [38, 97, 109, 112, 59]) ∨ (c = 34 ∧ encodeChar c = [38, 113, 117, 111, 116, 59]) ∨
    (c = 39 ∧ encodeChar c = [38, 35, 48, 51, 57, 59]) ∨ (c = 60 ∧ encodeChar c = [38, 108, 116, 59]) ∨
    (c = 62 ∧ encodeChar c = [38, 103, 116, 59]) ∨
    ((c ≠ 38 ∧ c ≠ 34 ∧ c ≠ 39 ∧ c ≠ 60 ∧ c ≠ 62) ∧ encodeChar c = [c]) := by
  unfold encodeChar
  by_cases h1 : c = 38
  · left; subst h1; exact ⟨rfl, rfl⟩
  by_cases h2 : c = 34
  · right; left; subst h2; exact ⟨rfl, rfl⟩
  by_cases h3 : c = 39
  · right; right; left; subst h3; exact ⟨rfl, rfl⟩
  by_cases h4 : c = 60
  · right; right; right; left; subst h4; exact ⟨rfl, rfl⟩
  by_cases h5 : c = 62
  · right; right; right; right; left; subst h5; exact ⟨rfl, rfl⟩
  · right; right; right; right; right
    exact ⟨⟨h1, h2, h3, h4, h5⟩, by simp [h1, h2, h3, h4, h5]⟩

theorem decode_encode (s : List UInt8) : decode (encode s) = some s := by
  unfold decode
  induction s with
  | nil => rfl
  | cons c s ih =>
    rw [encode_cons]
    rcases encodeChar_cases c with ⟨rfl, h⟩ | ⟨rfl, h⟩ | ⟨rfl, h⟩ | ⟨rfl, h⟩ | ⟨rfl, h⟩ | ⟨hc, h⟩
    all_goals rw [h]
    any_goals simp [decodeGo, entity, ih]
    simp [hc]

/-! ### Reading -/

/-- Reading `s` goes from `st` to `st'` with the events `ev`, whatever follows. -/
def Steps (st : St) (s : List UInt8) (st' : St) (ev : List Event) : Prop :=
  ∀ rest, run st (s ++ rest) = (run st' rest).map (ev ++ ·)

theorem Steps.nil (st : St) : Steps st [] st [] := by
  intro rest; simp

theorem Steps.trans {st st1 st2 a b e1 e2} (h1 : Steps st a st1 e1) (h2 : Steps st1 b st2 e2) :
    Steps st (a ++ b) st2 (e1 ++ e2) := by
  intro rest
  rw [List.append_assoc, h1, h2, Option.map_map]
  congr 1
  funext x
  simp

theorem Steps.cons {st st1 c ev} (h : step st c = some (st1, ev)) : Steps st [c] st1 ev := by
  intro rest
  simp [run, h]

theorem encodeChar_text (c : UInt8) : Steps .text (encodeChar c) .text [.char c] := by
  intro rest
  rcases encodeChar_cases c with ⟨rfl, h⟩ | ⟨rfl, h⟩ | ⟨rfl, h⟩ | ⟨rfl, h⟩ | ⟨rfl, h⟩ | ⟨hc, h⟩
  all_goals rw [h]
  any_goals simp [run, step, entity]
  any_goals rfl
  simp [hc]

theorem encode_text (s : List UInt8) : Steps .text (encode s) .text (s.map .char) := by
  induction s with
  | nil => exact Steps.nil _
  | cons c s ih =>
    rw [encode_cons]
    exact (encodeChar_text c).trans ih

theorem encodeChar_val (n as k v) (c : UInt8) : Steps (.val n as k v) (encodeChar c) (.val n as k (v ++ [c])) [] := by
  intro rest
  rcases encodeChar_cases c with ⟨rfl, h⟩ | ⟨rfl, h⟩ | ⟨rfl, h⟩ | ⟨rfl, h⟩ | ⟨rfl, h⟩ | ⟨hc, h⟩
  all_goals rw [h]
  any_goals simp [run, step, entity]
  simp [hc]

theorem encode_val (n as k v) (s : List UInt8) : Steps (.val n as k v) (encode s) (.val n as k (v ++ s)) [] := by
  induction s generalizing v with
  | nil => simpa [encode] using Steps.nil _
  | cons c s ih =>
    rw [encode_cons]
    have := (encodeChar_val n as k v c).trans (ih (v ++ [c]))
    simpa using this

/-! ### Names -/

theorem encodeChar_name {c : UInt8} (h : isMarkup c = false) : encodeChar c = [c] := by
  simp only [isMarkup, Bool.or_eq_false_iff, beq_eq_false_iff_ne, ne_eq] at h
  unfold encodeChar
  simp [h]

theorem encode_name {n : List UInt8} (h : ∀ c ∈ n, isSpace c = false ∧ isMarkup c = false) : encode n = n := by
  induction n with
  | nil => rfl
  | cons c n ih =>
    rw [encode_cons, encodeChar_name (h c List.mem_cons_self).2, ih fun d hd => h d (List.mem_cons_of_mem _ hd)]
    rfl

theorem notMarkup {c : UInt8} (h : isMarkup c = false) : c ≠ 47 ∧ c ≠ 62 ∧ c ≠ 61 := by
  simp only [isMarkup, Bool.or_eq_false_iff, beq_eq_false_iff_ne, ne_eq] at h
  exact ⟨h.2, h.1.2, h.1.1.2⟩

theorem startName_steps (a n : List UInt8) (h : ∀ c ∈ n, isSpace c = false ∧ isMarkup c = false) :
    Steps (.startName a) n (.startName (a ++ n)) [] := by
  induction n generalizing a with
  | nil => simpa using Steps.nil _
  | cons c n ih =>
    have hc := h c List.mem_cons_self
    have := (Steps.cons (st := .startName a) (c := c) (st1 := .startName (a ++ [c])) (ev := []) (by
      simp [step, hc.1, hc.2, notMarkup hc.2])).trans (ih (a ++ [c]) fun d hd => h d (List.mem_cons_of_mem _ hd))
    simpa using this

theorem key_steps (m as a n) (h : ∀ c ∈ n, isSpace c = false ∧ isMarkup c = false) :
    Steps (.key m as a) n (.key m as (a ++ n)) [] := by
  induction n generalizing a with
  | nil => simpa using Steps.nil _
  | cons c n ih =>
    have hc := h c List.mem_cons_self
    have := (Steps.cons (st := .key m as a) (c := c) (st1 := .key m as (a ++ [c])) (ev := []) (by
      simp [step, hc.1, hc.2, notMarkup hc.2])).trans (ih (a ++ [c]) fun d hd => h d (List.mem_cons_of_mem _ hd))
    simpa using this

theorem stopName_steps (a n : List UInt8) (h : ∀ c ∈ n, isSpace c = false ∧ isMarkup c = false) :
    Steps (.stopName a) n (.stopName (a ++ n)) [] := by
  induction n generalizing a with
  | nil => simpa using Steps.nil _
  | cons c n ih =>
    have hc := h c List.mem_cons_self
    have := (Steps.cons (st := .stopName a) (c := c) (st1 := .stopName (a ++ [c])) (ev := []) (by
      simp [step, hc.1, hc.2, notMarkup hc.2])).trans (ih (a ++ [c]) fun d hd => h d (List.mem_cons_of_mem _ hd))
    simpa using this

/-! ### Tags -/

/-- In a tag, after the name and the attributes `as`. -/
def TagEnd (st : St) (n : List UInt8) (as : Attrs) : Prop :=
  (∀ c, isSpace c = true → step st c = some (.inTag n as, [])) ∧ step st 62 = some (.text, [.start n as])

theorem name_steps {n : List UInt8} (h : Name n) : Steps .text (60 :: n) (.startName n) [] := by
  obtain ⟨hne, hc⟩ := h
  obtain ⟨c, n, rfl⟩ := List.exists_cons_of_ne_nil hne
  have hc0 := hc c List.mem_cons_self
  have h1 : Steps .text [60] .lt [] := Steps.cons (by simp [step])
  have h2 : Steps .lt [c] (.startName [c]) [] := Steps.cons (by simp [step, hc0.1, hc0.2, notMarkup hc0.2])
  have h3 := startName_steps [c] n fun d hd => hc d (List.mem_cons_of_mem _ hd)
  exact (h1.trans h2).trans h3

theorem tagEnd_start (n : List UInt8) : TagEnd (.startName n) n [] := by
  refine ⟨fun c hc => by simp [step, hc], ?_⟩
  simp [step, isSpace]

theorem tagEnd_inTag (n as) : TagEnd (.inTag n as) n as := by
  refine ⟨fun c hc => by simp [step, hc], ?_⟩
  simp [step, isSpace]

theorem attr_steps {st n as} (hst : TagEnd st n as) (p : List UInt8 × List UInt8) (hp : Name p.1) :
    ∃ st', Steps st (if p.2 ≠ [] then 32 :: encode p.1 ++ [61, 34] ++ encode p.2 ++ [34] else 32 :: encode p.1) st' [] ∧
      TagEnd st' n (as ++ [p]) := by
  obtain ⟨k, v⟩ := p
  obtain ⟨hne, hc⟩ := hp
  dsimp only at hne hc ⊢
  rw [encode_name hc]
  obtain ⟨c, k, rfl⟩ := List.exists_cons_of_ne_nil hne
  have hc0 := hc c List.mem_cons_self
  have h1 : Steps st [32] (.inTag n as) [] := Steps.cons (hst.1 32 rfl)
  have h2 : Steps (.inTag n as) [c] (.key n as [c]) [] := Steps.cons (by simp [step, hc0.1, hc0.2, notMarkup hc0.2])
  have h3 := key_steps n as [c] k fun d hd => hc d (List.mem_cons_of_mem _ hd)
  have hk : Steps st (32 :: c :: k) (.key n as (c :: k)) [] := (h1.trans h2).trans h3
  by_cases hv : v = []
  · subst hv
    rw [if_neg (by simp)]
    refine ⟨_, hk, fun c hc => by simp [step, hc], ?_⟩
    simp [step, isSpace]
  · rw [if_pos hv]
    have h4 : Steps (.key n as (c :: k)) [61] (.eq n as (c :: k)) [] := Steps.cons (by simp [step, isSpace])
    have h5 : Steps (.eq n as (c :: k)) [34] (.val n as (c :: k) []) [] := Steps.cons (by simp [step])
    have h6 := encode_val n as (c :: k) [] v
    have h7 : Steps (.val n as (c :: k) v) [34] (.valEnd n (as ++ [(c :: k, v)])) [] := Steps.cons (by simp [step])
    refine ⟨.valEnd n (as ++ [(c :: k, v)]), ?_, fun c hc => by simp [step, hc], by simp [step, isSpace]⟩
    have := (hk.trans (h4.trans h5)).trans (h6.trans h7)
    simpa using this

theorem attrs_steps {st n as} (hst : TagEnd st n as) (l : Attrs) (hl : ∀ p ∈ l, Name p.1) :
    ∃ st', Steps st (renderAttr l) st' [] ∧ TagEnd st' n (as ++ l) := by
  induction l generalizing st as with
  | nil => exact ⟨st, Steps.nil _, by simpa using hst⟩
  | cons p l ih =>
    obtain ⟨st1, h1, e1⟩ := attr_steps hst p (hl p List.mem_cons_self)
    obtain ⟨st2, h2, e2⟩ := ih e1 fun q hq => hl q (List.mem_cons_of_mem _ hq)
    exact ⟨st2, h1.trans h2, by simpa using e2⟩

theorem head_steps {n : List UInt8} (hn : Name n) (l : Attrs) (hl : ∀ p ∈ l, Name p.1) :
    ∃ st, Steps .text (60 :: encode n ++ renderAttr l) st [] ∧ TagEnd st n l := by
  rw [encode_name hn.2]
  obtain ⟨st, h, e⟩ := attrs_steps (tagEnd_start n) l hl
  exact ⟨st, (name_steps hn).trans h, by simpa using e⟩

theorem newline_steps {st n as} (hst : TagEnd st n as) (i : Nat) : Steps st (newline i) (.inTag n as) [] := by
  have h1 : Steps st [10] (.inTag n as) [] := Steps.cons (hst.1 10 rfl)
  have h2 : ∀ k, Steps (.inTag n as) (List.replicate k 32) (.inTag n as) [] := by
    intro k
    induction k with
    | zero => exact Steps.nil _
    | succ k ih => exact (Steps.cons (ev := []) ((tagEnd_inTag n as).1 32 rfl)).trans ih
  exact h1.trans (h2 (i * 2 + 1))

theorem empty_steps {st n as} (hst : TagEnd st n as) : Steps st [32, 47, 62] .text [.empty n as] := by
  have h1 : Steps st [32] (.inTag n as) [] := Steps.cons (hst.1 32 rfl)
  have h2 : Steps (.inTag n as) [47] (.slash n as) [] := Steps.cons (by simp [step, isSpace])
  have h3 : Steps (.slash n as) [62] .text [.empty n as] := Steps.cons (by simp [step])
  exact (h1.trans h2).trans h3

theorem stop_steps {n : List UInt8} (hn : Name n) : Steps .text ([60, 47] ++ encode n ++ [62]) .text [.stop n] := by
  rw [encode_name hn.2]
  have h1 : Steps .text [60] .lt [] := Steps.cons (by simp [step])
  have h2 : Steps .lt [47] (.stopName []) [] := Steps.cons (by simp [step])
  have h3 := stopName_steps [] n hn.2
  have h4 : Steps (.stopName n) [62] .text [.stop n] := Steps.cons (by simp [step])
  have := ((h1.trans h2).trans h3).trans h4
  simpa using this

theorem stop_newline_steps {n : List UInt8} (hn : Name n) (i : Nat) :
    Steps .text ([60, 47] ++ encode n ++ newline i ++ [62]) .text [.stop n] := by
  rw [encode_name hn.2]
  have h1 : Steps .text [60] .lt [] := Steps.cons (by simp [step])
  have h2 : Steps .lt [47] (.stopName []) [] := Steps.cons (by simp [step])
  have h3 := stopName_steps [] n hn.2
  have h4 : Steps (.stopName n) [10] (.stopSpace n) [] := Steps.cons (by simp [step, isSpace])
  have h5 : ∀ k, Steps (.stopSpace n) (List.replicate k 32) (.stopSpace n) [] := by
    intro k
    induction k with
    | zero => exact Steps.nil _
    | succ k ih => exact (Steps.cons (ev := []) (by simp [step, isSpace])).trans ih
  have h6 : Steps (.stopSpace n) [62] .text [.stop n] := Steps.cons (by simp [step])
  have := (((h1.trans h2).trans h3).trans (h4.trans (h5 (i * 2 + 1)))).trans h6
  simpa [newline] using this

mutual
theorem render_steps : ∀ e : Elem, Ok e → Steps .text (render e) .text (events e)
  | .tag n l [], h => by
    simp only [Ok] at h
    obtain ⟨st, h1, e1⟩ := head_steps h.1 l h.2.1
    have := h1.trans (empty_steps e1)
    simpa [render, events] using this
  | .tag n l (c :: cs), h => by
    simp only [Ok] at h
    obtain ⟨st, h1, e1⟩ := head_steps h.1 l h.2.1
    have h2 : Steps st [62] .text [.start n l] := Steps.cons e1.2
    have h3 := renderAll_steps (c :: cs) h.2.2
    have := (h1.trans h2).trans (h3.trans (stop_steps h.1))
    simpa [render, events, eventsAll] using this
  | .text s, _ => by simpa [render, events] using encode_text s
  | .prim _, h => by simp [Ok] at h
theorem renderAll_steps : ∀ es : List Elem, OkAll es → Steps .text (renderAll es) .text (eventsAll es)
  | [], _ => Steps.nil _
  | e :: es, h => by
    simp only [OkAll] at h
    simpa [renderAll, eventsAll] using (render_steps e h.1).trans (renderAll_steps es h.2)
end

mutual
theorem pretty_steps : ∀ (i : Nat) (e : Elem), Ok e → Steps .text (pretty i e) .text (events e)
  | i, .tag n l [], h => by
    simp only [Ok] at h
    obtain ⟨st, h1, e1⟩ := head_steps h.1 l h.2.1
    have := (h1.trans (newline_steps e1 i)).trans (empty_steps (tagEnd_inTag n l))
    simpa [pretty, events] using this
  | i, .tag n l (c :: cs), h => by
    simp only [Ok] at h
    obtain ⟨st, h1, e1⟩ := head_steps h.1 l h.2.1
    have h2 : Steps (.inTag n l) [62] .text [.start n l] := Steps.cons (tagEnd_inTag n l).2
    have h3 := prettyAll_steps (i + 1) (c :: cs) h.2.2
    have := ((h1.trans (newline_steps e1 i)).trans h2).trans (h3.trans (stop_newline_steps h.1 i))
    simpa [pretty, events, eventsAll] using this
  | i, .text s, _ => by simpa [pretty, events] using encode_text s
  | i, .prim _, h => by simp [Ok] at h
theorem prettyAll_steps : ∀ (i : Nat) (es : List Elem), OkAll es → Steps .text (prettyAll i es) .text (eventsAll es)
  | _, [], _ => Steps.nil _
  | i, e :: es, h => by
    simp only [OkAll] at h
    simpa [prettyAll, eventsAll] using (pretty_steps i e h.1).trans (prettyAll_steps i es h.2)
end

theorem read_of_steps {s : List UInt8} {ev : List Event} (h : Steps .text s .text ev) : read s = some ev := by
  have := h []
  simpa [Spec.read, run] using this

/-! ### Nesting -/

theorem nested_chars (stack) (s : List UInt8) (es : List Event) : nested stack (s.map .char ++ es) = nested stack es := by
  induction s with
  | nil => rfl
  | cons c s ih => simpa [nested] using ih

mutual
theorem nested_events : ∀ (e : Elem) (stack es), nested stack (events e ++ es) = nested stack es
  | .tag n l [], stack, es => by simp [events, nested]
  | .tag n l (c :: cs), stack, es => by
    simp only [events, List.cons_append, List.append_assoc, nested]
    rw [nested_events c, nested_eventsAll cs]
    simp [nested]
  | .text s, stack, es => nested_chars stack s es
  | .prim _, stack, es => rfl
theorem nested_eventsAll : ∀ (l : List Elem) (stack es), nested stack (eventsAll l ++ es) = nested stack es
  | [], _, _ => rfl
  | e :: l, stack, es => by
    rw [eventsAll, List.append_assoc, nested_events e, nested_eventsAll l]
end

end Verif.Xhtml.Lemmas
