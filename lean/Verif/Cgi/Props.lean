import Verif.Cgi.LemmasPart
import Verif.Decimal
import Verif.Util
/-! C57 and C58: the form values a CGI program sees. -/

namespace Verif.Cgi.Props
open Verif Verif.AssocMap Verif.Cgi Verif.Cgi.Spec Verif.Cgi.Lemmas

/-- A text for examples. -/
def str (s : String) : Str := s.toUTF8.toList

/-! ### C57: query strings -/

/-- C57: a query string whose items stand for key/value pairs, in whatever encoding, gives each key its last value in `query` and all its values
in order in `multi_query`; there are no other keys and no files. -/
theorem query_decode (is : List Item) (ps : List (Str × Str)) (h : List.Forall₂ Item.Means is ps) :
    Holds (parseInput (formText is) {}) ps ∧ (parseInput (formText is) {}).file = [] ∧ (parseInput (formText is) {}).info = [] := by
  have := parseInput_form is ps [] {} h holds_nil
  simpa using this

-- `a%26=1=2&b+c&a%26=`
example : List.Forall₂ Item.Means [.pair [97, 37, 50, 54] [49, 61, 50], .bare [98, 43, 99], .pair [97, 37, 50, 54] []]
    [([97, 38], [49, 61, 50]), ([98, 32, 99], []), ([97, 38], [])] ∧
    formText [.pair [97, 37, 50, 54] [49, 61, 50], .bare [98, 43, 99], .pair [97, 37, 50, 54] []] = str "a%26=1=2&b+c&a%26=" := by
  have ha : UriCode.Spec.Encodes [97, 37, 50, 54] [97, 38] :=
    .plain 97 (by decide) (by decide) (.escape 50 54 2 6 38 ⟨2, rfl, by decide, Or.inl (by decide +kernel)⟩
      ⟨6, rfl, by decide, Or.inl (by decide +kernel)⟩ (by decide) .nil)
  refine ⟨.cons (.pair (by decide) (by decide) ha ?_) (.cons (.bare (by decide) (by decide) ?_)
    (.cons (.pair (by decide) (by decide) ha .nil) .nil)), by decide +kernel⟩
  · exact .plain 49 (by decide) (by decide) (.plain 61 (by decide) (by decide) (.plain 50 (by decide) (by decide) .nil))
  · exact .plain 98 (by decide) (by decide) (.space (.plain 99 (by decide) (by decide) .nil))

/-- C57: all lists of pairs, of whatever bytes, encoded as the library does it. -/
theorem query_roundtrip (ps : List (Str × Str)) : Holds (parseInput (formText (ps.map encoded)) {}) ps := by
  refine (query_decode (ps.map encoded) ps ?_).1
  induction ps with
  | nil => exact .nil
  | cons p ps ih => exact .cons (encoded_means p) ih

example : formText ([(str "k&", [0, 38, 61]), (str "k&", str "v w")].map encoded) = str "k%26=%00%26%3D&k%26=v+w" := by decide +kernel
example : find (parseInput (str "k%26=%00%26%3D&k%26=v+w") {}).multi (str "k&") = some [[0, 38, 61], str "v w"] := by decide +kernel

/-- C57: a GET request is answered with the values of its query string. -/
theorem exec_get (env : Env) (max : Nat) (input : Str) (is : List Item) (ps : List (Str × Str)) (hm : env.method = str "GET")
    (hq : env.queryString = formText is) (h : List.Forall₂ Item.Means is ps) :
    ∃ st, exec env max input = (.ok (.run st), input) ∧ Holds st ps ∧ st.file = [] ∧ st.info = [] := by
  have hm : env.method = [71, 69, 84] := by rw [hm]; decide +kernel
  refine ⟨parseInput (formText is) {}, ?_, query_decode is ps h⟩
  unfold exec
  rw [if_pos hm, hq]

theorem contentLength_digits (n : Nat) (hn : n < 2 ^ 64) : contentLength (Decimal.digits n) = n := by
  obtain ⟨h1, h2, h3⟩ := Decimal.digits_spec n
  have hw : (Decimal.digits n).takeWhile (fun c => decide (48 ≤ c) && decide (c ≤ 57)) = Decimal.digits n := by
    have := (Decimal.takeWhile_digits n [] (by simp)).1
    rwa [List.append_nil] at this
  have hh : ∃ c l, Decimal.digits n = c :: l ∧ Decimal.isDigit c = true := by
    cases hd : Decimal.digits n with
    | nil => exact absurd hd h1
    | cons c l => exact ⟨c, l, rfl, h2 c (by simp [hd])⟩
  obtain ⟨c, l, e, hc⟩ := hh
  have hb := Decimal.digit_bounds hc
  have hs : Http.isspace c = false := by
    cases hx : Http.isspace c with
    | false => rfl
    | true =>
      rcases (Http.Lemmas.isspace_iff c).1 hx with rfl | ⟨_, h⟩
      · simp at hb
      · rw [UInt8.le_iff_toNat_le] at h
        have : (13 : UInt8).toNat = 13 := rfl
        omega
  have hdw : (Decimal.digits n).dropWhile Http.isspace = Decimal.digits n := by rw [e, List.dropWhile_cons, hs]; rfl
  have hne : ¬ ((Decimal.digits n).head? = some 45 ∨ (Decimal.digits n).head? = some 43) := by
    rw [e]
    simp only [List.head?_cons, Option.some.injEq, not_or]
    constructor <;> (rintro rfl; simp at hb)
  have hn45 : ¬ (Decimal.digits n).head? = some 45 := fun h => hne (Or.inl h)
  unfold contentLength
  simp only [hdw, if_neg hne, hw]
  have hv : (Decimal.digits n).foldl (fun n c => 10 * n + (c.toNat - 48)) 0 = n := h3
  rw [hv, if_neg (by rintro (h | h) <;> first | exact h1 h | omega), if_neg (by simpa using hn45)]

/-- C57: a POST request whose body is such a text, and whose length is within the limit; what follows the body in the stream is left there. -/
theorem exec_post (env : Env) (max : Nat) (rest : Str) (is : List Item) (ps : List (Str × Str)) (hm : env.method = str "POST")
    (hl : env.contentLength = Decimal.digits (formText is).length) (hmax : (formText is).length ≤ max) (hs : max < 2 ^ 64)
    (ht : ¬ str "multipart/" <:+: env.contentType) (h : List.Forall₂ Item.Means is ps) :
    ∃ st, exec env max (formText is ++ rest) = (.ok (.run st), rest) ∧ Holds st ps ∧ st.file = [] ∧ st.info = [] := by
  have hm : env.method = [80, 79, 83, 84] := by rw [hm]; decide +kernel
  have ht : ¬ multipartSlash <:+: env.contentType := by
    have : str "multipart/" = multipartSlash := by decide +kernel
    rwa [this] at ht
  refine ⟨parseInput (formText is) {}, ?_, query_decode is ps h⟩
  unfold exec
  rw [if_neg (by rw [hm]; decide), if_pos hm, hl, contentLength_digits _ (by omega)]
  simp only
  rw [if_neg (by omega), if_neg (by simp)]
  simp [findStr_none ht]

/-- A body beyond the limit is not read, and `run` is not called. -/
theorem exec_limit (env : Env) (max n : Nat) (input : Str) (hm : env.method = str "POST") (hl : env.contentLength = Decimal.digits n)
    (hn : n < 2 ^ 64) (hmax : max < n) : exec env max input = (.ok (.page .tooLong), input) := by
  have hm : env.method = [80, 79, 83, 84] := by rw [hm]; decide +kernel
  unfold exec
  rw [if_neg (by rw [hm]; decide), if_pos hm, hl, contentLength_digits _ hn]
  simp only
  rw [if_pos hmax]

/-- A body that ends too early is refused. -/
theorem exec_short (env : Env) (max n : Nat) (input : Str) (hm : env.method = str "POST") (hl : env.contentLength = Decimal.digits n)
    (hn : n < 2 ^ 64) (hmax : n ≤ max) (hi : input.length < n) : exec env max input = (.ok (.page .tooShort), []) := by
  have hm : env.method = [80, 79, 83, 84] := by rw [hm]; decide +kernel
  unfold exec
  rw [if_neg (by rw [hm]; decide), if_pos hm, hl, contentLength_digits _ hn]
  simp only
  rw [if_neg (by omega), if_pos hi]

example : exec { method := str "POST", contentLength := str "5" } 4 (str "a=1&b") = (.ok (.page .tooLong), str "a=1&b")
    ∧ exec { method := str "POST", contentLength := str "5" } 9 (str "a=1&") = (.ok (.page .tooShort), [])
    ∧ exec { method := str "POST", contentLength := str "3" } 9 (str "a=1&") = (.ok (.run (St.add {} (str "a") (str "1"))), str "&") := by
  decide +kernel

/-- Findings: a 0 byte in a body hides the items behind it; an item without key and value is dropped at the end, and counts elsewhere. -/
theorem query_oddities :
    (parseInput (str "a=1" ++ [0] ++ str "&b=2") {}).query = [(str "a", str "1" ++ [0] ++ str "&b=2")]
      ∧ parseInput (str "a=1&") {} = parseInput (str "a=1") {}
      ∧ (parseInput (str "a=1&&") {}).query = [([], []), (str "a", str "1")] := by decide +kernel

/-! ### C58: multipart bodies -/

/-- C58, part: a multipart body whose parts describe form values and files gives exactly them, provided no line of a part that begins with `--` ends
so soon that the look-ahead runs over the end of the part. -/
theorem multipart_partial (b pre post : Str) (ps : List Part) (es : List Entry) (hb : 10 ∉ b) (hpre : Preamble b pre)
    (hd : List.Forall₂ Describes ps es) (hu : ∀ p ∈ ps, Undisturbed b p.text) :
    ∃ st, parseMultipart (bodyText b pre ps post) b {} = .ok st ∧ Holds st (es.filterMap Entry.pair) ∧ HoldsFiles st ps es := by
  refine ⟨_, multipart_all b pre post ps es {} hb hpre hd hu, ?_, ?_⟩
  · have := enterAll_holds ps es {} [] hd.length_eq holds_nil
    simpa using this
  · intro f
    obtain ⟨h1, h2⟩ := enterAll_files ps es {} f hd.length_eq
    refine ⟨?_, ?_⟩
    · rw [h1]; simp [find]
    · rw [h2]; simp [find]

/-- The same for a request. -/
theorem exec_multipart_partial (env : Env) (max : Nat) (rest b pre post : Str) (ps : List Part) (es : List Entry) (hm : env.method = str "POST")
    (hl : env.contentLength = Decimal.digits (bodyText b pre ps post).length) (hmax : (bodyText b pre ps post).length ≤ max) (hs : max < 2 ^ 64)
    (ht : env.contentType = str "multipart/form-data; boundary=" ++ b) (hb : 10 ∉ b) (hpre : Preamble b pre)
    (hd : List.Forall₂ Describes ps es) (hu : ∀ p ∈ ps, Undisturbed b p.text) :
    ∃ st, exec env max (bodyText b pre ps post ++ rest) = (.ok (.run st), rest) ∧ Holds st (es.filterMap Entry.pair) ∧ HoldsFiles st ps es := by
  obtain ⟨st, h1, h2⟩ := multipart_partial b pre post ps es hb hpre hd hu
  have hm : env.method = [80, 79, 83, 84] := by rw [hm]; decide +kernel
  have e : str "multipart/form-data; boundary=" = [109, 117, 108, 116, 105, 112, 97, 114, 116, 47, 102, 111, 114, 109, 45, 100, 97, 116, 97, 59, 32,
    98, 111, 117, 110, 100, 97, 114, 121, 61] := by decide +kernel
  rw [e] at ht
  have f1 : findStr multipartSlash env.contentType = some 0 := by rw [ht]; rfl
  have f2 : findStr boundaryEq env.contentType = some 21 := by rw [ht]; rfl
  have f3 : boundaryOf env.contentType = .ok b := by
    unfold boundaryOf substr
    rw [f2, ht]
    simp
  refine ⟨st, ?_, h2⟩
  unfold exec
  rw [if_neg (by rw [hm]; decide), if_pos hm, hl, contentLength_digits _ (by omega)]
  simp only
  rw [if_neg (by omega), if_neg (by simp)]
  simp only [f1, f2, f3, Option.isSome_some, if_true, List.take_left, List.drop_left, bind, Except.bind, h1]

/-- A form value as browsers send it. -/
def valuePart (n v : Str) : Part := ⟨[(contentDisposition, (Entry.value n v).disposition)], v⟩

/-- A file as browsers send it. -/
def filePart (n f c : Str) : Part := ⟨[(contentDisposition, (Entry.upload n f c).disposition), (contentType, str "text/plain")], c⟩

theorem valuePart_describes (n v : Str) (h : Quotable n) : Describes (valuePart n v) (.value n v) :=
  { sendable := ⟨by simp [valuePart], by
      intro e he
      have : e = (contentDisposition, (Entry.value n v).disposition) := by simpa [valuePart] using he
      subst this
      exact ⟨(by decide : contentDisposition ≠ []), (show ∀ c ∈ contentDisposition, _ by unfold Http.Spec.Space; decide), by simp [Entry.disposition, attrText, formData, nameKey, h.2.2],
        by simp [Entry.disposition, formData, Http.Spec.Space]⟩, by simp [valuePart]⟩
    disposition := by simp [fieldOf, valuePart]
    plain := by
      intro w hw
      have : Http.Spec.fold contentDisposition ≠ Http.Spec.fold contentType := by decide
      simp [fieldOf, valuePart, this] at hw
    content := rfl
    quotable := h }

theorem filePart_describes (n f c : Str) (h : Quotable n) (h' : Quotable f) : Describes (filePart n f c) (.upload n f c) := by
  have hne : Http.Spec.fold contentDisposition ≠ Http.Spec.fold contentType := by decide
  exact
  { sendable := ⟨by simp [filePart], by
      intro e he
      have : e = (contentDisposition, (Entry.upload n f c).disposition) ∨ e = (contentType, str "text/plain") := by simpa [filePart] using he
      rcases this with rfl | rfl
      · exact ⟨(by decide : contentDisposition ≠ []), (show ∀ c ∈ contentDisposition, _ by unfold Http.Spec.Space; decide),
          by simp [Entry.disposition, attrText, formData, nameKey, filenameKey, h.2.2, h'.2.2], by simp [Entry.disposition, formData, Http.Spec.Space]⟩
      · exact ⟨by decide, by unfold Http.Spec.Space; decide, by decide +kernel, by unfold Http.Spec.Space; decide +kernel⟩, by
      simp [filePart, hne]⟩
    disposition := by simp [fieldOf, filePart]
    plain := by
      intro w hw
      simp [fieldOf, filePart, hne] at hw
      subst hw
      decide +kernel
    content := rfl
    quotable := ⟨h, h'⟩ }

-- The hypotheses of the two theorems are met by a form with a value and a file.
example : ∃ st, parseMultipart (bodyText (str "XY") (str "hello\n") [valuePart (str "a") (str "1\n--\n2"), filePart (str "f") (str "x.txt") (str "data")] []) (str "XY") {}
    = .ok st ∧ Holds st [(str "a", str "1\n--\n2"), (str "f", str "x.txt")] ∧ find st.file (str "x.txt") = some (str "data") := by
  have hu : ∀ p ∈ [valuePart (str "a") (str "1\n--\n2"), filePart (str "f") (str "x.txt") (str "data")], Undisturbed (str "XY") p.text := by
    intro p hp
    simp only [List.mem_cons, List.not_mem_nil, or_false] at hp
    rcases hp with rfl | rfl <;> apply undisturbed_of_check <;> decide +kernel
  obtain ⟨st, h1, h2, h3⟩ := multipart_partial (str "XY") (str "hello\n") [] _ _ (by decide +kernel) ⟨[str "hello"], by decide +kernel, by decide +kernel⟩
    (.cons (valuePart_describes (str "a") (str "1\n--\n2") (by unfold Quotable; decide +kernel))
      (.cons (filePart_describes (str "f") (str "x.txt") (str "data") (by unfold Quotable; decide +kernel) (by unfold Quotable; decide +kernel)) .nil)) hu
  exact ⟨st, h1, h2, by rw [(h3 _).1]; decide +kernel⟩

/-- A file for itself. -/
def attachedPart (f c : Str) : Part := ⟨[(contentDisposition, (Entry.attached f c).disposition)], c⟩

theorem attachedPart_describes (f c : Str) (h : Quotable f) : Describes (attachedPart f c) (.attached f c) :=
  { sendable := ⟨by simp [attachedPart], by
      intro e he
      have : e = (contentDisposition, (Entry.attached f c).disposition) := by simpa [attachedPart] using he
      subst this
      exact ⟨(by decide : contentDisposition ≠ []), (show ∀ c ∈ contentDisposition, _ by unfold Http.Spec.Space; decide),
        by simp [Entry.disposition, attrText, attachment, filenameKey, h.2.2], by simp [Entry.disposition, attachment, Http.Spec.Space]⟩, by simp [attachedPart]⟩
    disposition := by simp [fieldOf, attachedPart]
    plain := by
      intro w hw
      have : Http.Spec.fold contentDisposition ≠ Http.Spec.fold contentType := by decide
      simp [fieldOf, attachedPart, this] at hw
    content := rfl
    quotable := h }

/-- A part with a disposition without attributes. -/
def otherPart (d c : Str) : Part := ⟨[(contentDisposition, d)], c⟩

theorem otherPart_describes (d c : Str) (h : 59 ∉ d ∧ 10 ∉ d ∧ ∀ x ∈ d.head?, ¬ Http.Spec.Space x) : Describes (otherPart d c) (.other d c) :=
  { sendable := ⟨by simp [otherPart], by
      intro e he
      have : e = (contentDisposition, d) := by simpa [otherPart] using he
      subst this
      exact ⟨(by decide : contentDisposition ≠ []), (show ∀ c ∈ contentDisposition, _ by unfold Http.Spec.Space; decide), h.2.1, h.2.2⟩, by simp [otherPart]⟩
    disposition := by simp [fieldOf, otherPart, Entry.disposition]
    plain := by
      intro w hw
      have : Http.Spec.fold contentDisposition ≠ Http.Spec.fold contentType := by decide
      simp [fieldOf, otherPart, this] at hw
    content := rfl
    quotable := h.1 }

-- A file, something that is not shown, and, Finding, a file without a name: it is ignored, as its kind is read as `attachment` and a carriage return.
example : ∃ st, parseMultipart (bodyText (str "XY") [] [attachedPart (str "x.txt") (str "data"), otherPart (str "inline") (str "hidden"), otherPart (str "attachment") (str "lost")] [])
    (str "XY") {} = .ok st ∧ Holds st [] ∧ find st.file (str "x.txt") = some (str "data") ∧ find st.file [] = none := by
  have hu : ∀ p ∈ [attachedPart (str "x.txt") (str "data"), otherPart (str "inline") (str "hidden"), otherPart (str "attachment") (str "lost")], Undisturbed (str "XY") p.text := by
    intro p hp
    simp only [List.mem_cons, List.not_mem_nil, or_false] at hp
    rcases hp with rfl | rfl | rfl <;> apply undisturbed_of_check <;> decide +kernel
  obtain ⟨st, h1, h2, h3⟩ := multipart_partial (str "XY") [] [] _ _ (by decide +kernel) ⟨[], by decide +kernel, by decide +kernel⟩
    (.cons (attachedPart_describes (str "x.txt") (str "data") (by unfold Quotable; decide +kernel))
      (.cons (otherPart_describes (str "inline") (str "hidden") (by unfold Http.Spec.Space; decide +kernel))
        (.cons (otherPart_describes (str "attachment") (str "lost") (by unfold Http.Spec.Space; decide +kernel)) .nil))) hu
  exact ⟨st, h1, h2, by rw [(h3 _).1]; decide +kernel, by rw [(h3 _).1]; decide +kernel⟩

/-- C58: parsing terminates on every input, whatever the nesting of the parts. -/
theorem multipart_terminates (s b : Str) (st : St) : parseMultipart s b st ≠ .error .fuel := by
  unfold parseMultipart
  split
  · simp
  · exact parts_fuel _ _ _ _ (by omega)

/-- C58: every request is answered, or an exception is thrown. -/
theorem exec_terminates (env : Env) (max : Nat) (input : Str) : (exec env max input).1 ≠ .error .fuel := by
  unfold exec
  split
  · simp
  · split
    · simp only
      split
      · simp
      · split
        · simp
        · dsimp only
          split
          · cases hb : boundaryOf env.contentType with
            | error e =>
              have := boundaryOf_fuel env.contentType
              rw [hb] at this
              intro h
              cases h
              exact this rfl
            | ok b =>
              simp only [bind, Except.bind]
              have := multipart_terminates (input.take (contentLength env.contentLength)) b {}
              split
              · rename_i e he
                rw [he] at this
                intro h
                cases h
                exact this rfl
              · simp
          · simp
    · simp

/-- C58: a body is only accepted if it has the closing delimiter; one that breaks off makes an exception. -/
theorem multipart_complete (s b : Str) (st st' : St) (h : parseMultipart s b st = .ok st') : [45, 45] ++ b ++ [45, 45] <:+: s := by
  unfold parseMultipart at h
  cases he : enter b s with
  | none => exact enter_none b _ s (Nat.le_refl _) he
  | some r =>
    rw [he] at h
    exact (parts_closed _ b r st st' h).trans (enter_suffix b _ s r (Nat.le_refl _) he).isInfix

example : parseMultipart (str "--b\r\nA: 1\r\n\r\nx\r\n--b\r\nA: 1\r\n\r\nyyy") (str "b") {} = .error .invalidHeader
    ∧ parseMultipart (str "--b\r\nA: 1\r\nB\r\n--b--") (str "b") {} = .error .outOfRange := by decide +kernel

/-- The condition of `multipart_partial` is stronger than the absence of the delimiter. -/
theorem undisturbed_noDelimiter (b t : Str) (h : Undisturbed b t) : NoDelimiter b t := by
  rintro ⟨u, v, e⟩
  exact (h u (b ++ v) (by rw [← e]; simp)).2 (List.prefix_append b v)

/-- Finding: the absence of the delimiter is not enough. A text with a signature, separated by `-- ` as is usual in mails, swallows the parts that
follow it. -/
theorem multipart_swallowed : ¬ ∀ (b : Str) (ps : List Part) (es : List Entry), 10 ∉ b → List.Forall₂ Describes ps es →
    (∀ p ∈ ps, NoDelimiter b p.text) → ∃ st, parseMultipart (bodyText b [] ps []) b {} = .ok st ∧ Holds st (es.filterMap Entry.pair) := by
  intro h
  have hw := h (str "XXXXXXXX") [valuePart (str "a") (str "bye\n-- \nme"), valuePart (str "b") (str "2")] _ (by decide +kernel)
    (.cons (valuePart_describes (str "a") (str "bye\n-- \nme") (by unfold Quotable; decide +kernel))
      (.cons (valuePart_describes (str "b") (str "2") (by unfold Quotable; decide +kernel)) .nil))
    (by intro p hp
        simp only [List.mem_cons, List.not_mem_nil, or_false] at hp
        rcases hp with rfl | rfl <;> unfold NoDelimiter <;> decide +kernel)
  obtain ⟨st, h1, h2⟩ := hw
  have hb : ∃ st', parseMultipart (bodyText (str "XXXXXXXX") [] [valuePart (str "a") (str "bye\n-- \nme"), valuePart (str "b") (str "2")] [])
      (str "XXXXXXXX") {} = .ok st' ∧ find st'.query (str "b") = none := by
    refine ⟨_, (by decide +kernel : _ = Except.ok (St.add {} (str "a")
      (str "bye\n-- \nme\r\n--XXXXXXXX\r\nContent-Disposition: form-data; name=\"b\"\r\n\r\n2"))), by decide +kernel⟩
  obtain ⟨st', h3, h4⟩ := hb
  rw [h1] at h3
  cases h3
  have := (h2 (str "b")).1
  rw [h4] at this
  revert this
  decide +kernel

/-- Finding: a part that is multipart itself, sent with the usual line ends, always makes an exception: the carriage return becomes part of
the boundary, and the closing delimiter is not found. With bare newlines in its header it is read. -/
theorem nested_crlf :
    parseMultipart (str "--b\r\nContent-Type: multipart/mixed; boundary=c\r\n\r\n--c\r\nContent-Disposition: form-data; name=\"n\"\r\n\r\nv\r\n--c--\r\n\r\n--b--\r\n")
        (str "b") {} = .error .invalidHeader
      ∧ parseMultipart (str "--b\nContent-Type: multipart/mixed; boundary=c\n\n--c\nContent-Disposition: form-data; name=\"n\"\n\nv\n--c--\n\n--b--\n")
        (str "b") {} = .ok (St.add {} (str "n") (str "v")) := by decide +kernel

/-- Finding: an attribute without quotation marks gets the value of the next one; a semicolon in a file name starts an attribute. -/
theorem attribute_wrong :
    find (extractHeader (str "form-data; filename=x; name=\"n\"")).2 filenameKey = some (str "n")
      ∧ find (extractHeader (str "form-data; name=\"x; filename=y; z\"")).2 filenameKey = some [] := by decide +kernel

/-- Finding: without `boundary=` the rest of the type from its ninth character on is taken for the boundary; the error page is sent only if the
body can be read with it. -/
theorem boundary_missing :
    exec { method := str "POST", contentLength := str "9", contentType := str "multipart/x" } 99 (str "--t/x--\r\n") = (.ok (.page .protocol), [])
      ∧ exec { method := str "POST", contentLength := str "9", contentType := str "multipart/x" } 99 (str "--b--\r\n\r\n") = (.error .invalidHeader, []) := by
  decide +kernel

/-- The words that the theorems above have by name. -/
theorem words : contentType = str "Content-Type" ∧ contentDisposition = str "Content-Disposition" ∧ formData = str "form-data" ∧ attachment = str "attachment"
    ∧ nameKey = str "name" ∧ filenameKey = str "filename" ∧ multipartSlash = str "multipart/" ∧ boundaryEq = str "boundary=" := by decide +kernel

end Verif.Cgi.Props
