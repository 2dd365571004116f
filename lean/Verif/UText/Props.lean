import Verif.Ustring.Props
import Verif.UText.Lemmas

/-! C101: what becomes of text with errors in it, and of text that comes from a C string or goes through a stream. -/

namespace Verif.UText.Props
open Verif.Ustring Verif.Ustring.Spec Verif.UText.Spec Verif.UText.Lemmas

/-- C101. Errors do not spread: text is converted piece by piece, wherever it is cut in front of a character. -/
theorem pieces (x y : List UInt8) (hy : Starts y) : stringToUstring (x ++ y) = stringToUstring x ++ stringToUstring y :=
  stringToUstring_app x y hy

/-- C101. Whatever bytes `x` and `y` are found around correct text, the text is there, whole, in the conversion. -/
theorem text_survives (x y : List UInt8) (us : List Nat) (h : ∀ c ∈ us, Scalar c) :
    stringToUstring (x ++ (ustringToString us ++ y)) =
      if us = [] then stringToUstring (x ++ y) else stringToUstring x ++ us ++ stringToUstring y := by
  by_cases he : us = []
  · subst he; rfl
  · rw [if_neg he, pieces, text_app us h, List.append_assoc]
    intro b hb
    refine starts_text us h b ?_
    cases ht : ustringToString us with
    | nil => exact absurd ht (text_ne_nil us h he)
    | cons a t => rw [ht] at hb; exact hb

/-- Latin-1 bytes around "é" in UTF-8, and a character that was cut off. -/
example : stringToUstring [0xe9, 0x20, 0xc3, 0xa9, 0xe3, 0x81] = [0xFFFD, 0x20, 0xe9, 0xFFFD] := by decide +kernel

/-- C101. The cut must not go through a character: otherwise what is one character becomes two errors. -/
theorem cut_inside : stringToUstring ([0xc3] ++ [0xa9]) = [0xe9] ∧ stringToUstring [0xc3] ++ stringToUstring [0xa9] = [0xFFFD, 0xFFFD] := by
  decide +kernel

/-- C101. Whatever the bytes are, the result is text: only characters, at most one for each byte, and none only for no bytes. What
it is written as is accepted by `check_utf8`. -/
theorem always_text (s : List UInt8) :
    (∀ c ∈ stringToUstring s, Scalar c) ∧ (stringToUstring s).length ≤ s.length ∧ (stringToUstring s = [] ↔ s = []) ∧
      WellFormed (octets (ustringToString (stringToUstring s))) := by
  refine ⟨stringToUstring_scalar s, (stringToUstring_length s).1, ⟨fun h => ?_, fun h => by rw [h, stringToUstring]⟩,
    (Ustring.wf_iff _).mpr ⟨_, stringToUstring_scalar s, rfl⟩⟩
  cases s with
  | nil => rfl
  | cons b s => exact absurd h ((stringToUstring_length (b :: s)).2 (by simp))

/-- C101. An error leaves a mark: text that is not well-formed has a U+FFFD in its conversion. -/
theorem errors_marked (s : List UInt8) (h : ¬ WellFormed (octets s)) : 0xFFFD ∈ stringToUstring s := by
  apply error_marked
  cases hc : checkUtf8 s with
  | false => rfl
  | true => exact absurd ((Ustring.Props.checkUtf8_iff s).mp hc) h

/-- The mark alone is not proof of an error: it may have been in the text. -/
example : stringToUstring [0xef, 0xbf, 0xbd] = [0xFFFD] ∧ checkUtf8 [0xef, 0xbf, 0xbd] = true := by decide +kernel

/-- C101. A C string is converted up to its terminator; without a terminator in the memory the behaviour is undefined. A string
object is converted whole, its zero bytes included. -/
theorem c_string (s m : List UInt8) (h : 0 ∉ s) :
    ofCString (s ++ 0 :: m) = some (stringToUstring s) ∧ ofCString s = none ∧
      stringToUstring (s ++ 0 :: m) = stringToUstring s ++ 0 :: stringToUstring m := by
  refine ⟨by rw [ofCString, cstr_nul s m h]; rfl, by rw [ofCString, (cstr_none s).mpr h]; rfl, ?_⟩
  rw [pieces s (0 :: m) (by intro b hb; simp at hb; subst hb; unfold Continues; decide)]
  congr 1
  have := text_app [0] (by intro c hc; simp at hc; subst hc; exact .inl (by decide)) m
  simpa [ustringToString, ucharToChars] using this

/-- C101. So a C string cannot carry U+0000: of text that contains it, only what is before it comes back. -/
theorem c_string_cut (us vs : List Nat) (h : ∀ c ∈ us, Scalar c ∧ c ≠ 0) (m : List UInt8) :
    ofCString (ustringToString (us ++ 0 :: vs) ++ 0 :: m) = some us := by
  have hz : 0 ∉ ustringToString us := by
    intro hm
    obtain ⟨c, hc, hb⟩ := List.mem_flatMap.mp hm
    obtain ⟨h1, h2⟩ := h c hc
    have : (0 : UInt8).toNat ∈ enc c := by
      rw [← Ustring.octets_ucharToChars c h1]; exact List.mem_map.mpr ⟨0, hb, rfl⟩
    unfold enc at this
    have e0 : (0 : UInt8).toNat = 0 := rfl
    rw [e0] at this
    split at this
    · simp at this; omega
    · split at this
      · simp at this; omega
      · split at this <;> (simp at this; omega)
  have e : ustringToString (us ++ 0 :: vs) ++ 0 :: m = ustringToString us ++ 0 :: (ustringToString vs ++ 0 :: m) := by
    simp [ustringToString, ucharToChars]
  rw [e, (c_string _ _ hz).1, Ustring.Props.utf8_encode_decode us (fun c hc => (h c hc).1)]

example : ofCString [0xc3, 0xa9, 0x41, 0, 0x42] = some [0xe9, 0x41] := by decide +kernel

/-- C101. The first character of a C string is the one of the string object, although only six bytes are looked at: the first
character of the conversion, and 0 for the empty string. The terminated memory is not left. -/
theorem first_char (s m : List UInt8) (h : 0 ∉ s) :
    ucharOfCString (s ++ 0 :: m) = some (ucharOfString s) ∧ ucharOfString s = (stringToUstring s).headD 0 := by
  constructor
  · rw [ucharOfCString, count6_nul 6 s m h, Option.map_some, ucharOfString]
    congr 2
    rw [← decodeOne_take s]
    congr 2
    rw [List.take_append_of_le_length (Nat.min_le_right _ _)]
    rcases Nat.le_total 6 s.length with hl | hl
    · rw [Nat.min_eq_left hl]
    · rw [Nat.min_eq_right hl, List.take_of_length_le (Nat.le_refl _), List.take_of_length_le hl]
  · cases s with
    | nil => rw [stringToUstring]; rfl
    | cons b s => rw [stringToUstring]; rfl

example : ucharOfCString [0xe3, 0x81, 0x82, 0x41, 0] = some 0x3042 ∧ ucharOfCString [0] = some 0 := by decide +kernel

/-- C101. The deprecated conversion that is given no end does what the other one does whenever it does not run out of the memory. -/
theorem no_end_agrees (m : List UInt8) (c : Nat) (rest : List UInt8) (h : decodeRaw m = some (c, rest)) :
    stringToUstring m = c :: stringToUstring rest := by
  obtain ⟨h1, h2⟩ := decodeRaw_some m _ h
  cases m with
  | nil => exact absurd rfl h1
  | cons b m => injection h2 with e1 e2; rw [stringToUstring, e1, e2]

/-- C101. Inside a terminated string it is safe, however broken the text is: it stops in front of the terminator … -/
theorem no_end_terminated (s m : List UInt8) (h : s ≠ []) :
    ∃ c rest, decodeRaw (s ++ 0 :: m) = some (c, rest ++ 0 :: m) ∧ stringToUstring s = c :: stringToUstring rest := by
  cases s with
  | nil => exact absurd rfl h
  | cons b s => exact ⟨_, _, decodeRaw_nul b s m, by rw [stringToUstring]⟩

/-- C101. … but at the terminator it goes on behind it, where the conversion with an end would stay. -/
theorem no_end_passes (m : List UInt8) : decodeRaw (0 :: m) = some (0, m) ∧ decodeOne [] = (some 0, []) := by
  constructor
  · simp [decodeRaw]
  · rfl

/-- C101. And text that ends in the middle of a character, with no terminator behind it, is read beyond its end: undefined. -/
theorem no_end_runs_out (c : Nat) (hc : Scalar c) (p q : List UInt8) (hq : q ≠ []) (h : ucharToChars c = p ++ q) : decodeRaw p = none :=
  decodeRaw_cut c hc p q hq h

example : decodeRaw [0xe3, 0x81] = none ∧ decodeRaw [0xe3, 0x81, 0x82] = some (0x3042, []) ∧ decodeRaw [0xe3, 0x81, 0] = some (0xFFFD, [0]) := by
  decide +kernel

/-- C101. Writing to a stream appends the UTF-8 text, nothing else. -/
theorem written (out : List UInt8) (us : List Nat) : put out us = out ++ ustringToString us := put_eq out us

/-- C101. Reading gives the next word, whatever white space is before it, and leaves what follows it. -/
theorem word_read (w rest : List UInt8) (us : List Nat) (hw : ∀ b ∈ w, b.toNat ∈ blanks) (hu : Word us)
    (hr : ∀ b, rest.head? = some b → b.toNat ∈ blanks) : get (w ++ (ustringToString us ++ rest)) = (us, true, rest) := by
  obtain ⟨h1, h2⟩ := hu
  rw [get, getWord_word w _ rest (fun b hb => (isspace_blank b).mpr (hw b hb)) (text_ne_nil us (fun c hc => (h2 c hc).1) h1)
    (text_nospace us h2) (fun b hb => (isspace_blank b).mpr (hr b hb))]
  simp [Ustring.Props.utf8_encode_decode us (fun c hc => (h2 c hc).1)]

/-- C101. At the end of the stream the read fails, and what the variable held is lost: it is empty afterwards. -/
theorem end_clears (w : List UInt8) (hw : ∀ b ∈ w, b.toNat ∈ blanks) : get w = ([], false, []) := by
  rw [get, getWord_none w (fun b hb => (isspace_blank b).mpr (hw b hb))]
  simp [stringToUstring]

/-- C101. Words that were written with white space between them are read back, all of them, in order. -/
theorem words_come_back (l : List (List Nat × List UInt8)) (h : ∀ p ∈ l, Word p.1 ∧ Separator p.2) (n : Nat) (hn : l.length < n) :
    getAll n (l.foldl (fun out p => put out p.1 ++ p.2) []) = l.map Prod.fst := by
  have e : ∀ (out : List UInt8) (l : List (List Nat × List UInt8)),
      l.foldl (fun out p => put out p.1 ++ p.2) out = out ++ spaced ustringToString l := by
    intro out l
    induction l generalizing out with
    | nil => simp [spaced]
    | cons p l ih => rw [List.foldl_cons, ih, written]; simp [spaced]
  have key : ∀ (l : List (List Nat × List UInt8)), (∀ p ∈ l, Word p.1 ∧ Separator p.2) → ∀ (w : List UInt8), (∀ b ∈ w, b.toNat ∈ blanks) →
      ∀ n, l.length < n → getAll n (w ++ spaced ustringToString l) = l.map Prod.fst := by
    intro l
    induction l with
    | nil =>
      intro _ w hw n hn
      cases n with
      | zero => simp at hn
      | succ n => simp [getAll, spaced, end_clears w hw]
    | cons p l ih =>
      intro h w hw n hn
      cases n with
      | zero => simp at hn
      | succ n =>
        obtain ⟨h1, h2, h3⟩ := h p (by simp)
        have hs : w ++ spaced ustringToString (p :: l) = w ++ (ustringToString p.1 ++ (p.2 ++ spaced ustringToString l)) := by
          simp [spaced]
        have hg := word_read w (p.2 ++ spaced ustringToString l) p.1 hw h1 (by
          intro b hb
          cases hp : p.2 with
          | nil => exact absurd hp h2
          | cons a t => rw [hp] at hb; simp at hb; subst hb; exact h3 _ (by simp [hp]))
        rw [hs, getAll, hg]
        simp only [if_true, List.map_cons]
        rw [ih (fun q hq => h q (by simp [hq])) p.2 h3 n (by simp at hn; omega)]
  rw [e]
  exact key l h [] (by simp) n hn

example : getAll 5 [0xe3, 0x81, 0x82, 0x20, 0x0a, 0x62, 0x63, 0x0a] = [[0x3042], [0x62, 0x63]] := by decide +kernel

/-- C101 fails for other text: the empty text is not read back, and of a text with a blank in it only the first word is. The wide
space U+3000 is no separator. -/
theorem not_come_back (us vs : List Nat) (hu : Word us) :
    getAll 2 (put (put [] []) [0x0a]) = [] ∧ get (put [] (us ++ 0x20 :: vs)) = (us, true, 0x20 :: ustringToString vs) ∧
      (get (put [] [0x3042, 0x3000, 0x3044])).1 = [0x3042, 0x3000, 0x3044] := by
  refine ⟨by decide +kernel, ?_, by decide +kernel⟩
  rw [written]
  have e : [] ++ ustringToString (us ++ 0x20 :: vs) = [] ++ (ustringToString us ++ 0x20 :: ustringToString vs) := by
    simp [ustringToString, ucharToChars]
  rw [e, word_read [] _ us (by simp) hu (by intro b hb; simp at hb; subst hb; decide)]

/-- C101. The classes of characters: ASCII letters and digits, the hiragana block, the block of CJK unified ideographs. -/
theorem classes (c : Nat) :
    (isAlnum c = true ↔ (0x30 ≤ c ∧ c ≤ 0x39) ∨ (0x41 ≤ c ∧ c ≤ 0x5a) ∨ (0x61 ≤ c ∧ c ≤ 0x7a)) ∧
    (isHiragana c = true ↔ 0x3040 ≤ c ∧ c ≤ 0x309f) ∧ (isKanji c = true ↔ 0x4e00 ≤ c ∧ c ≤ 0x9fff) := by
  refine ⟨?_, ?_, ?_⟩ <;>
    simp only [isAlnum, isHiragana, isKanji, inR, Bool.and_eq_true, Bool.or_eq_true, decide_eq_true_eq] <;> omega

end Verif.UText.Props
