import Verif.Json.LemmasParse
/-! Properties C40, C41 and C44 of the JSON parser and printers.

`strtod` is the C library's text-to-number conversion (`none`: out of range), `showF` the stream's formatting of a floating point
number, `bad` the character the library yields for malformed UTF-8. The statements hold whatever these are, within their hypotheses. -/

namespace Verif.Json.Props
open Verif.Json Verif.Json.Spec Verif.Json.Lemmas Verif.Ustring.Spec

variable {F : Type}

/-- The input in front of the parser: a character read ahead, then the rest. -/
def pending (s : S) : List Nat := s.cbuf.toList ++ s.rest

/-! ## C40: parsing what was printed -/

/-- C40: parsing the compact text of a value, escaped or not, yields this value and uses up the text. -/
theorem parse_print (strtod : List Nat → Option F) (showF : F → Str) (bad : List UInt8 → Nat) (escape : Bool) (v : Value F)
    (h : Printable strtod showF v) : parse strtod bad (print showF escape v) = .value v ⟨none, []⟩ := by
  obtain ⟨t, h1, h2, h3, h4⟩ := print_prints strtod showF escape v h
  rw [parse, h1, decodeAll_bytes bad t h2]
  obtain ⟨s', h5, h6⟩ := parseFrom_text strtod v ⟨none, t⟩ [] t [] (by simp) h3 (by simp) (by simp [Ends]) (fun _ => h4)
  rw [h5, norm_printable strtod showF v h, view_nil h6]

/-- C40: the same for the indented text; the line feed at its end is left. -/
theorem parse_pretty (strtod : List Nat → Option F) (showF : F → Str) (bad : List UInt8 → Nat) (escape : Bool) (v : Value F)
    (h : Printable strtod showF v) : ∃ s, parse strtod bad (pretty showF escape v) = .value v s ∧ pending s = [10] := by
  obtain ⟨t, h1, h2, h3, h4⟩ := pretty_prints strtod showF escape v 0 h
  have e : [10] = bytes [10] := by decide
  rw [parse, pretty, h1, e, ← bytes_append, decodeAll_bytes bad (t ++ [10]) (scal_app h2 (by simp [Scalar]))]
  obtain ⟨s', h5, h6⟩ := parseFrom_text strtod v ⟨none, t ++ [10]⟩ [] t [10] (by simp) h3 (by simp) (by simp [Ends, Digit]) (by simp)
  rw [h5, norm_printable strtod showF v h]
  exact ⟨s', rfl, h6⟩

/-- A number conversion that knows one text only. -/
def noFloat : List Nat → Option Nat := fun t => if t = [49, 46, 53] then some 3 else none
/-- Its formatting: 1.5. -/
def showHalf : Nat → Str := fun _ => [49, 46, 53]

/-- `{"a\"é":[1.5,-120,true,null,{}],"":[]}` -/
def sample : Value Nat :=
  .obj [([97, 34, 0xC3, 0xA9], .arr [.flt 3, .int (-120), .bool true, .null, .obj []]), ([], .arr [])]

theorem sample_printable : Printable noFloat showHalf sample := by
  simp only [sample, Printable, PrintableM, PrintableL, and_true, true_and]
  have g1 : GoodStr [97, 34, 0xC3, 0xA9] := (goodStr_iff _).mpr ⟨[97, 34, 0xE9], by simp [Scalar], by decide⟩
  have g2 : GoodStr [] := (goodStr_iff _).mpr ⟨[], by simp, rfl⟩
  have hn : Num noFloat [49, 46, 53] (.flt 3) :=
    ⟨[], [49], [46, 53], [], rfl, .inl rfl, .inr ⟨49, [], rfl, by simp [Digit], by decide, by simp⟩,
      .inr ⟨[53], rfl, by simp, by simp [Digit]⟩, .inl rfl, by unfold NumVal; rw [if_neg (by simp)]; exact ⟨3, rfl, rfl⟩⟩
  have hs : ¬ ShortExp [49, 46, 53] := by
    rintro ⟨p, e, d, h, he, _⟩
    have : e ∈ [49, 46, 53] := by rw [h]; simp
    simp at this; omega
  exact ⟨by decide, g1, ⟨⟨[49, 46, 53], by decide, hn, hs⟩, by unfold IsInt64; omega, by simp⟩, g2⟩

/-- The round trip on it, in all four formats. -/
example : (∀ escape, parse noFloat (fun _ => 0) (print showHalf escape sample) = .value sample ⟨none, []⟩) ∧
    (∀ escape, ∃ s, parse noFloat (fun _ => 0) (pretty showHalf escape sample) = .value sample s ∧ pending s = [10]) :=
  ⟨fun e => parse_print noFloat showHalf _ e sample sample_printable, fun e => parse_pretty noFloat showHalf _ e sample sample_printable⟩

example : print showHalf true sample = "{\"a\\\"\\u00E9\":[1.5,-120,true,null,{}],\"\":[]}".toUTF8.data.toList := by decide +kernel

/-- C40: a text with the same number formatting need not come back: when the formatted text is not read back as the same number (a
`double` is printed with 12 digits), the parser yields the other number. -/
theorem float_precision_lost (strtod : List Nat → Option F) (showF : F → Str) (bad : List UInt8 → Nat) (escape : Bool) (x y : F)
    (t : List Nat) (ht : showF x = bytes t) (hn : Num strtod t (.flt y)) (hs : ¬ ShortExp t) (hxy : x ≠ y) :
    parse strtod bad (print showF escape (.flt x)) = .value (.flt y) ⟨none, []⟩ ∧ Value.flt x ≠ Value.flt y := by
  refine ⟨?_, fun h => hxy (by cases h; rfl)⟩
  rw [parse, print, ht, decodeAll_bytes bad t (num_scalar hn)]
  obtain ⟨s', h5, h6⟩ := parseFrom_text strtod (.flt y) ⟨none, t⟩ [] t [] (by simp) (.num _ _ hn) (by simp) (by simp [Ends]) (fun _ => hs)
  rw [h5, view_nil h6]
  rfl

/-- With a formatting that writes every number as 1.5, the number 7 comes back as 3. -/
example : parse noFloat (fun _ => 0) (print showHalf true (.flt 7)) = .value (.flt 3) ⟨none, []⟩ := by decide +kernel

/-! ## C41: strings -/

/-- C41: a well-formed UTF-8 string without U+0000, printed as a literal in either mode, parses back to itself. -/
theorem string_roundtrip (strtod : List Nat → Option F) (showF : F → Str) (bad : List UInt8 → Nat) (escape : Bool) (s : Str)
    (h : WellFormed (octets s)) (h0 : 0 ∉ s) : parse strtod bad (print showF escape (.str s)) = .value (.str s) ⟨none, []⟩ :=
  parse_print strtod showF bad escape (.str s) (by rw [Printable]; exact ⟨h, h0⟩)

example : WellFormed (octets [0x22, 0x5C, 0x0A, 0x7F, 0xC3, 0xA9, 0xF0, 0x9F, 0x98, 0x80]) ∧
    (0 : UInt8) ∉ [0x22, 0x5C, 0x0A, 0x7F, 0xC3, 0xA9, 0xF0, 0x9F, 0x98, 0x80] := by
  refine ⟨((goodStr_iff _).mpr ⟨[0x22, 0x5C, 0x0A, 0x7F, 0xE9, 0x1F600], by simp [Scalar], by decide +kernel⟩).1, by decide⟩

/-- C41 fails for strings with U+0000: the printer stops there (`c_str()`), and the rest of the string is lost. -/
theorem nul_truncates : ∃ s : Str, WellFormed (octets s) ∧ ∀ escape,
    parse noFloat (fun _ => 0) (print showHalf escape (.str s)) = .value (.str [97]) ⟨none, []⟩ ∧ s ≠ [97] := by
  refine ⟨[97, 0, 98], (Verif.Ustring.wf_iff _).mpr ⟨[97, 0, 98], by simp [Scalar], by decide⟩, ?_⟩
  decide +kernel

/-- C41: in escape mode the literal is printable ASCII, whatever the string holds. -/
theorem escaped_ascii (s : Str) : ∀ b ∈ printString true s, 0x20 ≤ b.toNat ∧ b.toNat < 0x7F := by
  intro b hb
  simp only [printString, if_true, List.mem_cons, List.mem_append, List.not_mem_nil, or_false] at hb
  rcases hb with rfl | hb | rfl
  · decide
  · exact escLoop_ascii s b hb
  · decide

example : printString true [0x0B, 0xF0, 0x9F, 0x98, 0x80, 0xFF] = "\"\\u000B\\uD83D\\uDE00\\uFFFD\"".toUTF8.data.toList := by decide +kernel

/-- C41: each text of a string (any mix of plain characters, escapes, `\u` escapes and surrogate pairs) parses to the bytes it denotes. -/
theorem string_text (strtod : List Nat → Option F) (bad : List UInt8 → Nat) (t : List Nat) (s : Str) (h : StrBody t s)
    (ht : ∀ c ∈ t, Scalar c) : parse strtod bad (bytes (34 :: (t ++ [34]))) = .value (.str s) ⟨none, []⟩ := by
  rw [parse, decodeAll_bytes bad _ (scal_cons (scalar_ascii (by decide)) (scal_app ht (by simp [scalar_ascii])))]
  obtain ⟨s', h5, h6⟩ := parseFrom_text strtod (.str s) ⟨none, 34 :: (t ++ [34])⟩ [] (34 :: (t ++ [34])) [] (by simp) (.str s t h) (by simp)
    (by simp [Ends]) (fun _ => shortExp_end (p := 34 :: t) (by unfold Digit; omega))
  rw [h5, view_nil h6]
  rfl

example : StrBody [92, 117, 68, 56, 51, 68, 92, 117, 100, 101, 48, 48, 97] [0xF0, 0x9F, 0x98, 0x80, 97] := by
  have := StrBody.pair [68, 56, 51, 68] 0xD83D [100, 101, 48, 48] 0xDE00 [97] [97]
    ⟨68, 56, 51, 68, 13, 8, 3, 13, rfl, by decide, by decide, by decide, by decide, by decide⟩
    ⟨100, 101, 48, 48, 13, 14, 0, 0, rfl, by decide, by decide, by decide, by decide, by decide⟩ (by decide) (by decide) (by decide) (by decide)
    (.raw 97 [] [] (by simp [Scalar]) (by decide) (by decide) (by decide) .nil)
  exact this

/-- The buffer of the string parser: a turn of its loop stores at most four bytes, and no sequence of such turns stores a byte
outside of the buffer, which starts at 256 bytes and doubles (the buffer of a later string is at least as large). -/
theorem string_buffer_safe :
    (∀ us us' bs, strStep us = .ok (bs, us') → bs.length ≤ 4) ∧
    ∀ ks : List Nat, (∀ k ∈ ks, k ≤ 4) → ∀ len, 256 ≤ len → bufRun 0 len ks ≠ none := by
  refine ⟨strStep_len, fun ks h len hl hn => ?_⟩
  have := bufRun_ok ks h 0 len (by omega) (by omega)
  rw [hn] at this
  cases this

example : bufRun 0 256 (List.replicate 100 4) = some 512 := by decide +kernel

/-! ## C44: what the parser accepts -/

/-- C44: every parse ends, with a value or an exception, and without undefined behaviour, on every byte string. -/
theorem parse_total (strtod : List Nat → Option F) (bad : List UInt8 → Nat) (hb : ∀ l, bad l = 0 ∨ bad l = 0xFFFD) (bytes : List UInt8) :
    (∃ v s, parse strtod bad bytes = .value v s) ∨ parse strtod bad bytes = .exc .eod ∨ parse strtod bad bytes = .exc .parse := by
  have hs : ∀ c ∈ view ⟨none, decodeAll bad bytes⟩, Scalar c :=
    decodeAll_scalar bad (fun l => by rcases hb l with h | h <;> rw [h] <;> simp [Scalar]) bytes
  rw [parse, parseFrom]
  have hk := parseStream_ne_stuck strtod ⟨none, decodeAll bad bytes⟩ hs
  cases h : parseStream strtod ⟨none, decodeAll bad bytes⟩ with
  | error e =>
    cases e with
    | eod => exact .inr (.inl rfl)
    | parse => exact .inr (.inr rfl)
    | stuck => exact absurd h hk
  | ok r =>
    obtain ⟨ev, s'⟩ := r
    obtain ⟨_, _, v, _, _, _, rfl⟩ := parseStream_sound strtod _ s' ev hs h
    dsimp only
    rw [run_events]
    exact .inl ⟨_, _, rfl⟩

/-- C44: a value comes out only when the input begins with a text of the (laxer) grammar, after white space; it is the value of that
text, in which the last member counts where a key comes twice, and what follows the text is left. Missing from the full claim: the
grammar is laxer than JSON in its numbers and its white space (`number_deviations`), and text after the value is not looked at. -/
theorem parse_sound_partial (strtod : List Nat → Option F) (bad : List UInt8 → Nat) (hb : ∀ l, bad l = 0 ∨ bad l = 0xFFFD)
    (bytes : List UInt8) (v : Value F) (s : S) (h : parse strtod bad bytes = .value v s) :
    ∃ w t v0, (∀ c ∈ w, LaxWs c) ∧ LaxText strtod v0 t ∧ decodeAll bad bytes = w ++ t ++ pending s ∧ v = norm v0 := by
  have hs : ∀ c ∈ view ⟨none, decodeAll bad bytes⟩, Scalar c :=
    decodeAll_scalar bad (fun l => by rcases hb l with h | h <;> rw [h] <;> simp [Scalar]) bytes
  rw [parse, parseFrom] at h
  cases hp : parseStream strtod ⟨none, decodeAll bad bytes⟩ with
  | error e => rw [hp] at h; cases h
  | ok r =>
    obtain ⟨ev, s'⟩ := r
    obtain ⟨w, t, v0, hw, hv, ht, rfl⟩ := parseStream_sound strtod _ s' ev hs hp
    rw [hp] at h
    dsimp only at h
    rw [run_events] at h
    simp only [List.nil_append, Outcome.value.injEq] at h
    obtain ⟨rfl, rfl⟩ := h
    exact ⟨w, t, v0, hw, ht, by rw [List.append_assoc]; exact hv, rfl⟩

/-- An accepted text. -/
example : parse noFloat (fun _ => 0) " [1.5 , {\"a\":1,\"a\":2}] x".toUTF8.data.toList =
    .value (.arr [.flt 3, .obj [([97], .int 2)]]) ⟨none, [32, 120]⟩ := by decide +kernel

/-- C44: every JSON text (RFC 8259) is accepted, after white space, with the value it denotes, and what follows it is left. The text
must not run into a character that continues a number; at the end of the input it must not end in a one-digit exponent without a
sign (`short_exponent_lost`). -/
theorem parse_complete_partial (strtod : List Nat → Option F) (bad : List UInt8 → Nat) (v : Value F) (w t rest : List Nat)
    (hw : ∀ c ∈ w, Ws c) (ht : Text strtod v t) (hsc : ∀ c ∈ w ++ t ++ rest, Scalar c) (he : Ends rest) (hs : rest = [] → ¬ ShortExp t) :
    ∃ s, parse strtod bad (bytes (w ++ t ++ rest)) = .value (norm v) s ∧ pending s = rest := by
  rw [parse, decodeAll_bytes bad _ hsc]
  exact parseFrom_text strtod v ⟨none, w ++ t ++ rest⟩ w t rest (fun c hc => ws_lax (hw c hc)) ht (by simp) he hs

example : Text noFloat (.arr [.flt 3, .null]) [91, 32, 49, 46, 53, 44, 110, 117, 108, 108, 93] :=
  .arr _ [32, 49, 46, 53, 44, 110, 117, 108, 108] (.elemS (.flt 3) [49, 46, 53] [32] [] [.null] [110, 117, 108, 108] (by simp [Ws]) (by simp)
    (.num _ _ ⟨[], [49], [46, 53], [], rfl, .inl rfl, .inr ⟨49, [], rfl, by simp [Digit], by decide, by simp⟩,
      .inr ⟨[53], rfl, by simp, by simp [Digit]⟩, .inl rfl, by unfold NumVal; rw [if_neg (by simp)]; exact ⟨3, rfl, rfl⟩⟩)
    (.elem1 .null [110, 117, 108, 108] [] [] (by simp) (by simp) .null))

/-- C44: texts one after the other on one parser: from any state of the parser the next text is read, whether or not a character has
been read ahead. -/
theorem parse_next (strtod : List Nat → Option F) (s : S) (v : Value F) (w t rest : List Nat) (hw : ∀ c ∈ w, Ws c) (ht : Text strtod v t)
    (hp : pending s = w ++ t ++ rest) (he : Ends rest) (hs : rest = [] → ¬ ShortExp t) :
    ∃ s', parseFrom strtod s = .value (norm v) s' ∧ pending s' = rest :=
  parseFrom_text strtod v s w t rest (fun c hc => ws_lax (hw c hc)) ht (by rw [← List.append_assoc]; exact hp) he hs

/-- `1 true`, read in two steps. -/
example : parseFrom noFloat ⟨none, [49, 32, 116, 114, 117, 101]⟩ = .value (.int 1) ⟨some 32, [116, 114, 117, 101]⟩ ∧
    parseFrom noFloat ⟨some 32, [116, 114, 117, 101]⟩ = .value (.bool true) ⟨none, []⟩ := by decide +kernel

/-- C44: the callbacks of the streaming interface come in document order, each member's key before its value. -/
theorem callbacks_in_order (strtod : List Nat → Option F) (s : S) (v : Value F) (w t rest : List Nat) (hw : ∀ c ∈ w, Ws c)
    (ht : Text strtod v t) (hp : pending s = w ++ t ++ rest) (he : Ends rest) (hs : rest = [] → ¬ ShortExp t) :
    ∃ s', parseStream strtod s = .ok (events v, s') ∧ pending s' = rest :=
  parseStream_text strtod v s w t rest (fun c hc => ws_lax (hw c hc)) ht (by rw [← List.append_assoc]; exact hp) he hs

/-- `{"a":[1,true]}` -/
example : parseStream noFloat ⟨none, [123, 34, 97, 34, 58, 91, 49, 44, 116, 114, 117, 101, 93, 125]⟩ =
    .ok ([.startObj, .key [97], .startArr, .int 1, .bool true, .endArr, .endObj], ⟨none, []⟩) := by decide +kernel

/-- What the parser makes of an ASCII text. -/
def run' (s : String) : Outcome Nat := parse (fun t => if t = [49, 101] then some 1 else none) (fun _ => 0) s.toUTF8.data.toList

/-- C44: texts that are no JSON, all accepted: a lone minus sign as 0, leading zeros, an exponent without digits, vertical tab and
form feed as white space. -/
theorem number_deviations :
    run' "-" = .value (.int 0) ⟨none, []⟩ ∧ run' "007" = .value (.int 7) ⟨none, []⟩ ∧
    run' "[1e]" = .value (.arr [.flt 1]) ⟨none, []⟩ ∧ run' "[\x0b\x0c1]" = .value (.arr [.int 1]) ⟨none, []⟩ := by decide +kernel

/-- C44: a JSON text that is misread: at the end of the input the digit of a one-digit exponent without sign is not read. `strtod` gets
`1e`, which it takes for 1, and the 5 is left. -/
theorem short_exponent_lost : run' "1e5" = .value (.flt 1) ⟨some 53, []⟩ ∧
    ∃ v : Value Nat, Text (fun t => if t = [49, 101, 53] then some 100000 else none) v [49, 101, 53] := by
  refine ⟨by decide +kernel, .flt 100000, .num _ _ ⟨[], [49], [], [101, 53], rfl, .inl rfl,
    .inr ⟨49, [], rfl, by simp [Digit], by decide, by simp⟩, .inl rfl,
    .inr ⟨101, [], [53], rfl, .inl rfl, .inl rfl, by simp, by simp [Digit]⟩, ?_⟩⟩
  unfold NumVal
  rw [if_neg (by simp)]
  exact ⟨100000, by simp, rfl⟩

/-- C44: an array element without the missing quote, bracket, comma or colon, a bad escape, an unpaired surrogate, a control character
and an integer out of range are all rejected. -/
theorem rejected_samples :
    run' "" = .exc .eod ∧ run' "[1" = .exc .eod ∧ run' "[1 2]" = .exc .parse ∧ run' "[1,]" = .exc .parse ∧ run' "{\"a\" 1}" = .exc .parse ∧
    run' "\"\\x\"" = .exc .parse ∧ run' "\"\\uD83Dx\"" = .exc .parse ∧ run' "\"\\uDE00\"" = .exc .parse ∧ run' "\"\n\"" = .exc .parse ∧
    run' "nul" = .exc .eod ∧ run' "9223372036854775808" = .exc .parse ∧
    run' "-9223372036854775808" = .value (.int (-9223372036854775808)) ⟨none, []⟩ := by decide +kernel

end Verif.Json.Props
