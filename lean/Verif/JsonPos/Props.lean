import Verif.JsonPos.LemmasBlame
import Verif.JsonPos.LemmasBegin
/-! Where and why the JSON parser stops, what it has reported by then, and how deep it goes. A new parser is in front of the characters
`us`; `q.evs` are the callbacks made. -/

namespace Verif.JsonPos.Props
open Verif.JsonPos Verif.JsonPos.Spec Verif.JsonPos.Lemmas
open Verif.Json (Str Event Value)
open Verif.Json.Spec (Text Ends ShortExp LaxWs events)
open Verif.Ustring.Spec (Scalar)

variable {F : Type}

/-- A library whose numbers with a fraction or an exponent are all out of range. -/
def noDbl : Lib Nat := ⟨fun _ => none, fun _ => .huge⟩

/-- The characters of a text. -/
def chars (s : String) : List Nat := s.toList.map (·.toNat)

/-- Wherever a parse error is thrown, the text is that read so far followed by the rest, the line and the column are those of the first
character that has not been read, and the message describes what is wrong there. -/
theorem error_described (lib : Lib F) (room : Nat) (us : List Nat) (l c : Nat) (m : Str) (q : P F) (hs : ∀ x ∈ us, Scalar x)
    (h : parseStream lib room (fresh us) = .exc (.parse l c m) q) :
    ∃ before after, us = before ++ after ∧ l = line before ∧ c = column before ∧ Fits lib m before after := by
  obtain ⟨h1, v, h2, h3⟩ := blames_parseStream lib room (fresh us) [] hs l c m q h
  obtain ⟨u, x, k1, k2, -⟩ := good_parseStream lib room (fresh us)
  rw [h] at k1 k2
  have e : u = v := List.append_cancel_right (k1.symm.trans h2)
  subst e
  have k3 : pl q = (line u, column u) := k2.trans (advs_line u)
  rw [← h1] at k3
  exact ⟨u, pend q, h2, (Prod.mk.inj k3).1, (Prod.mk.inj k3).2, h3⟩

example : ∃ q, parseStream noDbl 9 (fresh (chars "[1,\n \"a\"; 2]")) = .exc (.parse 2 5 (ascii "',' is required but got ';'")) q :=
  ⟨⟨some 59, chars " 2]", 2, 5, [.startArr, .int 1, .str [97]]⟩, by decide +kernel⟩

example : line (chars "[1,\n \"a\"") = 2 ∧ column (chars "[1,\n \"a\"") = 5 ∧
    Fits noDbl (ascii "',' is required but got ';'") (chars "[1,\n \"a\"") (chars "; 2]") :=
  ⟨by decide, by decide, .required _ _ 44 59 (by decide) (by decide)⟩

example : ∃ q, parseStream noDbl 9 (fresh (chars "{\"k\":\n nul}")) = .exc (.parse 2 5 (ascii "'l' is required but got '}'")) q :=
  ⟨⟨some 125, [], 2, 5, [.startObj, .key [107]]⟩, by decide +kernel⟩

/-- After a success, too, line and column are those of the first character that has not been read. -/
theorem position_kept (lib : Lib F) (room : Nat) (us : List Nat) (q : P F) (h : parseStream lib room (fresh us) = .ok () q) :
    ∃ before, us = before ++ (q.cbuf.toList ++ q.rest) ∧ q.line = line before ∧ q.col = column before := by
  obtain ⟨u, x, k1, k2, -⟩ := good_parseStream lib room (fresh us)
  rw [h] at k1 k2
  have k3 : pl q = (line u, column u) := k2.trans (advs_line u)
  exact ⟨u, k1, (Prod.mk.inj k3).1, (Prod.mk.inj k3).2⟩

example : parseStream noDbl 9 (fresh (chars "\n\n {} x")) = .ok () ⟨none, chars " x", 3, 4, [.startObj, .endObj]⟩ := by decide +kernel

/-- What comes behind the characters that were looked at does not matter: with anything else there the parser throws the same exception
at the same place after the same callbacks. -/
theorem error_local (lib : Lib F) (room : Nat) (us : List Nat) (e : Ex) (q : P F) (h : parseStream lib room (fresh us) = .exc e q)
    (hq : q.rest ≠ []) :
    ∃ seen, us = seen ++ q.rest ∧ ∀ z, z ≠ [] → ∃ q', parseStream lib room (fresh (seen ++ z)) = .exc e q' ∧ q'.evs = q.evs ∧ q'.rest = z := by
  obtain ⟨u, x, _, _, k3, k4⟩ := good_parseStream lib room (fresh us)
  rw [h] at k3 k4
  exact ⟨x, k3, fun z hz => ⟨{ q with rest := z }, k4 hq z hz, rfl, rfl⟩⟩

example : parseStream noDbl 9 (fresh (chars "[tru3]")) = .exc (.parse 1 5 (ascii "'e' is required but got '3'")) ⟨some 51, chars "]", 1, 5, [.startArr]⟩ := by
  decide +kernel

/-- The same for a success. -/
theorem value_local (lib : Lib F) (room : Nat) (us : List Nat) (q : P F) (h : parseStream lib room (fresh us) = .ok () q)
    (hq : q.rest ≠ []) :
    ∃ seen, us = seen ++ q.rest ∧ ∀ z, z ≠ [] → ∃ q', parseStream lib room (fresh (seen ++ z)) = .ok () q' ∧ q'.evs = q.evs ∧ q'.rest = z := by
  obtain ⟨u, x, _, _, k3, k4⟩ := good_parseStream lib room (fresh us)
  rw [h] at k3 k4
  exact ⟨x, k3, fun z hz => ⟨{ q with rest := z }, k4 hq z hz, rfl, rfl⟩⟩

example : ∃ q, parseStream noDbl 9 (fresh (chars "[12] 34")) = .ok () q ∧ q.rest = chars " 34" := ⟨⟨none, chars " 34", 1, 5, [.startArr, .int 12, .endArr]⟩,
  by decide +kernel, rfl⟩

/-- The end of the data is reported only when all of the text has been read. -/
theorem end_of_data_at_end (lib : Lib F) (room : Nat) (us : List Nat) (q : P F) (h : parseStream lib room (fresh us) = .exc .eod q) :
    q.cbuf = none ∧ q.rest = [] := by
  have := eod_parseStream lib room (fresh us) _ q h rfl
  unfold pend at this
  simpa using this

example : parseStream noDbl 9 (fresh (chars "[1, \"ab")) = .exc .eod ⟨none, [], 1, 8, [.startArr, .int 1]⟩ := by decide +kernel

/-- Whatever is thrown, the callbacks made before are the beginning of the callbacks for some value. -/
theorem callbacks_begin_value (lib : Lib F) (room : Nat) (us : List Nat) (e : Ex) (q : P F) (h : parseStream lib room (fresh us) = .exc e q) :
    ∃ v more, events v = q.evs ++ more := by
  obtain ⟨es, r, h1, v, h2⟩ := (begins_parseStream lib room (fresh us)).2 e q h
  have : q.evs = es := h1
  exact ⟨v, r, by rw [this, h2]⟩

example : (∃ q, parseStream noDbl 9 (fresh (chars "{\"a\":[true, x")) = .exc (.parse 1 13 (ascii "invalid char: 'x' (U+0078)")) q ∧
      q.evs = [.startObj, .key [97], .startArr, .bool true]) ∧
    events (.obj [([97], .arr [.bool true])] : Value Nat) = [.startObj, .key [97], .startArr, .bool true] ++ [.endArr, .endObj] :=
  ⟨⟨⟨some 120, [], 1, 13, [.startObj, .key [97], .startArr, .bool true]⟩, by decide +kernel, rfl⟩, rfl⟩

/-- The parser never fails otherwise: a value with its callbacks, the end of the data, a parse error, or no room for a call. -/
theorem outcomes (lib : Lib F) (room : Nat) (us : List Nat) :
    (∃ q v, parseStream lib room (fresh us) = .ok () q ∧ q.evs = events v) ∨ (∃ q, parseStream lib room (fresh us) = .exc .eod q) ∨
      (∃ l c m q, parseStream lib room (fresh us) = .exc (.parse l c m) q) ∨ (∃ q, parseStream lib room (fresh us) = .exc .deep q) := by
  cases h : parseStream lib room (fresh us) with
  | ok a q =>
    obtain ⟨es, h1, v, h2⟩ := (begins_parseStream lib room (fresh us)).1 a q h
    exact .inl ⟨q, v, rfl, h1.trans h2⟩
  | exc e q =>
    cases e with
    | eod => exact .inr (.inl ⟨q, rfl⟩)
    | parse l c m => exact .inr (.inr (.inl ⟨l, c, m, q, rfl⟩))
    | deep => exact .inr (.inr (.inr ⟨q, rfl⟩))
    | stuck => exact absurd h (calm_parseStream lib room _ q)

example : ∃ q, parseStream noDbl 2 (fresh (chars "[[1]]")) = .exc .deep q := ⟨⟨some 49, chars "]]", 1, 3, [.startArr, .startArr]⟩, by decide +kernel⟩

/-- This is the parser of `Verif.Json`: with room for the calls, it gives a value where that one does, after the same callbacks and in the
same state, and an exception of the same kind where that one does. -/
theorem same_parser (lib : Lib F) (room : Nat) (us : List Nat) (h : ∀ q, parseStream lib room (fresh us) ≠ .exc .deep q) :
    (∀ es s, Json.parseStream lib.strtod ⟨none, us⟩ = .ok (es, s) ↔
      ∃ q, parseStream lib room (fresh us) = .ok () q ∧ q.evs = es ∧ s = ⟨q.cbuf, q.rest⟩) ∧
    (Json.parseStream lib.strtod ⟨none, us⟩ = .error .eod ↔ ∃ q, parseStream lib room (fresh us) = .exc .eod q) ∧
    (Json.parseStream lib.strtod ⟨none, us⟩ = .error .parse ↔ ∃ l c m q, parseStream lib room (fresh us) = .exc (.parse l c m) q) := by
  have key := erE_parseStream lib room (fresh us)
  have hS : toS (fresh us : P F) = ⟨none, us⟩ := rfl
  rw [hS] at key
  cases hr : parseStream lib room (fresh us) with
  | ok a q =>
    rw [hr] at key
    obtain ⟨es, h1, h2⟩ := key
    rw [h1]
    have h2 : q.evs = es := h2
    refine ⟨fun es' s => ?_, by simp, by simp⟩
    constructor
    · rintro ⟨⟩
      exact ⟨q, rfl, h2, rfl⟩
    · rintro ⟨q', ⟨⟩, rfl, rfl⟩
      rw [← h2]
      rfl
  | exc e q =>
    rw [hr] at key
    obtain ⟨h1 | h1, -⟩ := key
    · subst h1
      exact absurd hr (h q)
    · rw [h1]
      refine ⟨by simp, ?_, ?_⟩ <;> cases e <;> simp [cls]

example : Json.parseStream noDbl.strtod ⟨none, chars "[[1]]"⟩ = .ok ([.startArr, .startArr, .int 1, .endArr, .endArr], ⟨none, []⟩) ∧
    (∀ q, parseStream noDbl 3 (fresh (chars "[[1]]")) ≠ .exc .deep q) :=
  ⟨by decide +kernel, fun q h => by
    rw [show parseStream noDbl 3 (fresh (chars "[[1]]")) = .ok () ⟨none, [], 1, 6, [.startArr, .startArr, .int 1, .endArr, .endArr]⟩ by
      decide +kernel] at h
    cases h⟩

/-! The depth of the recursion -/

/-- Whatever room there is for calls, a text of that many opening brackets and one more leaves none: the stack overflows, after a callback for
each of the first ones. -/
theorem nesting_overflows (lib : Lib F) (room : Nat) (t : List Nat) :
    ∃ q, parseStream lib room (fresh (List.replicate (room + 1) 91 ++ t)) = .exc .deep q ∧ q.evs = List.replicate room .startArr := by
  obtain ⟨q, h1, h2, h3⟩ := ss_at (F := F) (c := 91) (t := List.replicate room 91 ++ t) (p := fresh (List.replicate (room + 1) 91 ++ t)) (by
    simp [pend, fresh, List.replicate_succ]) rfl
  have hq : q.cbuf = some 91 := congrArg (·.cbuf) h2
  have hp : pend q = List.replicate (room + 1) 91 ++ t := congrArg (fun s : Json.S => s.cbuf.toList ++ s.rest) h2
  obtain ⟨r, r1, r2⟩ := deep_brackets lib room (2 * (q.cbuf.toList.length + q.rest.length) + 1) q t hp (by
    have := congrArg List.length hp
    simp [pend] at this
    omega)
  refine ⟨r, ?_, by rw [r2, h3]; rfl⟩
  rw [parseStream, bind_def, h1]
  dsimp only
  rw [bind_def]
  simp only [loadedC, hq, Option.isSome_some]
  rw [bind_def]
  simp only [more, Bool.true_or, Bool.not_true, Bool.false_eq_true, if_false]
  exact r1

example : ∃ q, parseStream noDbl 3 (fresh (chars "[[[[]]]]")) = .exc .deep q ∧ q.evs = List.replicate 3 .startArr :=
  nesting_overflows noDbl 3 (chars "]]]]")

/-- No text with fewer opening brackets and braces than there is room for calls overflows the stack. -/
theorem few_brackets_fit (lib : Lib F) (room : Nat) (us : List Nat) (h : opens us < room) (q : P F) :
    parseStream lib room (fresh us) ≠ .exc .deep q := by
  intro hq
  exact nd_parseStream lib room (fresh us) h _ _ hq rfl

example : opens (chars "[{\"a\":[]}, {}") = 4 ∧ ∀ q, parseStream noDbl 5 (fresh (chars "[{\"a\":[]}, {}")) ≠ .exc .deep q :=
  ⟨by decide, few_brackets_fit noDbl 5 _ (by decide)⟩

/-- More room changes nothing unless there was too little. -/
theorem more_room_same (lib : Lib F) (room room' : Nat) (us : List Nat) (hr : room ≤ room')
    (h : ∀ q, parseStream lib room (fresh us) ≠ .exc .deep q) : parseStream lib room' (fresh us) = parseStream lib room (fresh us) := by
  rcases (calls_parseStream lib room room' hr (fresh us)).1 with h1 | ⟨q, h1⟩
  · exact h1.symm
  · exact absurd h1 (h q)

example (room : Nat) (h : 5 ≤ room) : ∃ q, parseStream noDbl room (fresh (chars "[{\"a\":[]}, {}")) = .exc .eod q :=
  ⟨⟨none, [], 1, 14, [.startArr, .startObj, .key [97], .startArr, .endArr, .endObj, .startObj, .endObj]⟩, by
    rw [more_room_same noDbl 5 room _ h (few_brackets_fit noDbl 5 _ (by decide))]
    decide +kernel⟩

/-- A JSON text is parsed if its value is nested at most as deep as there is room for calls; otherwise the stack overflows. -/
theorem room_needed (lib : Lib F) (room : Nat) (v : Value F) (w t rest : List Nat) (hw : ∀ c ∈ w, LaxWs c) (ht : Text lib.strtod v t)
    (he : Ends rest) (hs : rest = [] → ¬ ShortExp t) :
    (height v ≤ room → ∃ q, parseStream lib room (fresh (w ++ (t ++ rest))) = .ok () q ∧ q.evs = events v) ∧
    (room < height v → ∃ q, parseStream lib room (fresh (w ++ (t ++ rest))) = .exc .deep q) := by
  obtain ⟨s', h1, -⟩ := Json.Lemmas.parseStream_text lib.strtod v ⟨none, w ++ (t ++ rest)⟩ w t rest hw ht rfl he hs
  generalize hu : w ++ (t ++ rest) = us at h1
  have big := same_parser lib (max room (opens us + 1)) us (few_brackets_fit lib _ us (by omega))
  obtain ⟨q, g1, g2, -⟩ := (big.1 _ _).mp h1
  obtain ⟨c1, c2⟩ := calls_parseStream lib room (max room (opens us + 1)) (by omega) (fresh us)
  obtain ⟨es, k1, hh, k2, k3, k4, k5⟩ := c2 () q g1
  have e1 : es = events v := by
    have : q.evs = es := k1
    rw [← this, g2]
  subst e1
  have e2 := flat_inj k2 (flat_events v)
  subst e2
  constructor
  · intro hr
    rcases c1 with c1 | c1
    · exact ⟨q, c1.trans g1, g2⟩
    · have := k5 c1
      omega
  · intro hr
    rcases c1 with c1 | c1
    · obtain ⟨es', m1, h', m2, m3, m4, m5⟩ := (calls_parseStream lib room room (Nat.le_refl _) (fresh us)).2 () q (c1.trans g1)
      have e3 : es' = events v := by
        have : q.evs = es' := m1
        rw [← this, g2]
      subst e3
      have := flat_inj m2 (flat_events v)
      omega
    · exact c1

example : height (.arr [.arr [.int 1], .obj [([97], .arr [])]] : Value Nat) = 3 ∧
    (∃ q, parseStream noDbl 3 (fresh (chars "[[1],{\"a\":[]}]")) = .ok () q ∧ q.evs = events (.arr [.arr [.int 1], .obj [([97], .arr [])]])) ∧
    (∃ q, parseStream noDbl 2 (fresh (chars "[[1],{\"a\":[]}]")) = .exc .deep q) :=
  ⟨by decide, ⟨⟨none, [], 1, 15, _⟩, by decide +kernel, rfl⟩, ⟨⟨some 49, chars "],{\"a\":[]}]", 1, 3, [.startArr, .startArr]⟩, by decide +kernel⟩⟩

/-! What a user sees -/

/-- The text of the exception: place and message, unless the message has a zero byte. -/
theorem what_text (l c : Nat) (m : Str) (hm : ∀ b ∈ m, b ≠ 0) :
    what l c m = ascii "<istream>:" ++ Decimal.digits l ++ ascii ":" ++ Decimal.digits c ++ ascii " " ++ m := by
  have h1 : ascii "<istream>" ++ ascii ":" = ascii "<istream>:" := by decide
  rw [what, h1]
  refine cstr_eq ?_
  have hd : ∀ n : Nat, ∀ b ∈ Decimal.digits n, b ≠ 0 := by
    intro n b hb h0
    have := (Decimal.digits_spec n).2.1 b hb
    rw [h0] at this
    exact absurd this (by decide)
  have ha : ∀ b ∈ ascii "<istream>:", b ≠ 0 := by decide
  have hb : ∀ b ∈ ascii ":", b ≠ 0 := by decide
  have hc : ∀ b ∈ ascii " ", b ≠ 0 := by decide
  intro b hbm
  simp only [List.mem_append] at hbm
  rcases hbm with ((((h | h) | h) | h) | h) | h
  · exact ha b h
  · exact hd l b h
  · exact hb b h
  · exact hd c b h
  · exact hc b h
  · exact hm b h

example : (0 : UInt8) ∉ ascii "',' is required but got ';'" := by decide

/-- A message with a zero byte is cut there: what follows is not shown. -/
theorem what_cut (l c : Nat) (m t : Str) : what l c (m ++ 0 :: t) = what l c m := by
  have key : ∀ g : Str, cstr (g ++ 0 :: t) = cstr g := by
    intro g
    induction g with
    | nil => rfl
    | cons b g ih =>
      simp only [cstr, List.cons_append, List.takeWhile_cons] at ih ⊢
      rw [ih]
  simp only [what]
  rw [← List.append_assoc _ m, key]

example : (∃ q, parseStream noDbl 9 (fresh (chars "[1" ++ [0])) = .exc (.parse 1 3 (ascii "',' is required but got '" ++ 0 :: ascii "'")) q) ∧
    what 1 3 (ascii "',' is required but got '" ++ 0 :: ascii "'") = what 1 3 (ascii "',' is required but got '") :=
  ⟨⟨⟨some 0, [], 1, 3, [.startArr, .int 1]⟩, by decide +kernel⟩, what_cut _ _ _ _⟩

/-- The end of the text is not always seen as such. Cut behind a number, an array lacks its end; cut one character later, behind the space, it
is said to have the wrong character there, although the space may stand there. -/
theorem cut_behind_space :
    (∃ q, parseStream noDbl 9 (fresh (chars "[1")) = .exc .eod q) ∧
    (∃ q, parseStream noDbl 9 (fresh (chars "[1 ")) = .exc (.parse 1 3 (ascii "',' is required but got ' '")) q) ∧
    (∃ q, parseStream noDbl 9 (fresh (chars "[1 ]")) = .ok () q) :=
  ⟨⟨⟨none, [], 1, 3, [.startArr, .int 1]⟩, by decide +kernel⟩, ⟨⟨some 32, [], 1, 3, [.startArr, .int 1]⟩, by decide +kernel⟩,
    ⟨⟨none, [], 1, 5, [.startArr, .int 1, .endArr]⟩, by decide +kernel⟩⟩

/-- A message may name the very character that is said to be missing: U+013A shows as a colon. -/
theorem wrong_character_shown :
    ∃ q, parseStream noDbl 9 (fresh (chars "{\"a\"" ++ [0x13A] ++ chars "1}")) = .exc (.parse 1 5 (ascii "':' is required but got ':'")) q :=
  ⟨⟨some 0x13A, chars "1}", 1, 5, [.startObj, .key [97]]⟩, by decide +kernel⟩

end Verif.JsonPos.Props
