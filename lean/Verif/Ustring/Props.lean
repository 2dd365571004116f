import Verif.Ustring.Lemmas
/-! Properties C13, C14, C15 and C16. -/

namespace Verif.Ustring.Props
open Verif.Ustring Verif.Ustring.Spec

/-- C13. Encoding any sequence of scalar values and decoding it gives the sequence back. -/
theorem utf8_encode_decode (us : List Nat) (h : ∀ c ∈ us, Scalar c) : stringToUstring (ustringToString us) = us := by
  induction us with
  | nil => simp [ustringToString, stringToUstring]
  | cons c us ih =>
    have hc := h c (by simp)
    show stringToUstring (ucharToChars c ++ ustringToString us) = _
    rw [stringToUstring_cons c hc _ _ (octets_ucharToChars c hc), ih (fun x hx => h x (by simp [hx]))]

example : (∀ c ∈ [0x41, 0x7ff, 0xd7ff, 0xe000, 0x10ffff], Scalar c) ∧
    ustringToString [0x41, 0x7ff, 0xd7ff] = [0x41, 0xdf, 0xbf, 0xed, 0x9f, 0xbf] := by
  refine ⟨?_, by decide⟩
  intro c hc
  simp only [List.mem_cons, List.not_mem_nil, or_false] at hc
  unfold Scalar; omega

/-- C13. Each scalar value is encoded as RFC 3629 says. -/
theorem utf8_encode_rfc (c : Nat) (h : Scalar c) : octets (ucharToChars c) = enc c := octets_ucharToChars c h

/-- C13. Decoding any well-formed byte string and encoding it again gives the byte string back, and the decoded characters are
scalar values. -/
theorem utf8_decode_encode (s : List UInt8) (h : WellFormed (octets s)) :
    ustringToString (stringToUstring s) = s ∧ ∀ c ∈ stringToUstring s, Scalar c := by
  obtain ⟨us, h1, rfl⟩ := (wf_iff s).mp h
  rw [utf8_encode_decode us h1]
  exact ⟨rfl, h1⟩

example : WellFormed (octets [0xe3, 0x81, 0x82, 0x41]) :=
  .cons [0xe3, 0x81, 0x82] [0x41] (.u3b _ _ _ (by decide) (by decide) (by decide) (by decide) (by decide) (by decide))
    (.cons [0x41] [] (.u1 _ (by decide)) .nil)

/-- C13. `string_to_uchar` returns the first character of a non-empty encoded text. -/
theorem stringToUchar_first (c : Nat) (us : List Nat) (hc : Scalar c) : stringToUchar (ustringToString (c :: us)) = c := by
  show ((decodeOne ((ucharToChars c ++ ustringToString us).take 6)).1).getD _ = c
  have hl : (ucharToChars c).length ≤ 6 := by
    unfold ucharToChars; repeat' split
    all_goals simp
  rw [List.take_append, List.take_of_length_le hl, decodeOne_complete c hc _ _ (octets_ucharToChars c hc)]
  rfl

/-- Limits of `ustring_to_string` outside of the scalar values: values above U+10FFFF vanish, surrogates give ill-formed text. -/
theorem ustringToString_nonscalar : ustringToString [0x110000] = [] ∧ checkUtf8 (ustringToString [0xD800]) = false := by
  decide +kernel

/-- C14. `check_utf8` accepts exactly the well-formed byte strings of RFC 3629. -/
theorem checkUtf8_iff (s : List UInt8) : checkUtf8 s = true ↔ WellFormed (octets s) := by
  constructor
  · intro h; exact (wf_iff s).mpr (checkUtf8_wf s h)
  · intro h
    obtain ⟨us, h1, rfl⟩ := (wf_iff s).mp h
    induction us with
    | nil => simp [ustringToString, checkUtf8]
    | cons c us ih =>
      have hc := h1 c (by simp)
      show checkUtf8 (ucharToChars c ++ ustringToString us) = true
      have h2 : ∀ x ∈ us, Scalar x := fun x hx => h1 x (by simp [hx])
      rw [checkUtf8_cons c hc _ _ (octets_ucharToChars c hc)]
      first | exact ih h2 ((wf_iff _).mpr ⟨us, h2, rfl⟩) | exact ih h2

example : checkUtf8 [0xe3, 0x81, 0x82, 0x41] = true ∧ checkUtf8 [0xc0, 0x80] = false ∧ checkUtf8 [0xed, 0xa0, 0x80] = false ∧
    checkUtf8 [0xf4, 0x90, 0x80, 0x80] = false ∧ checkUtf8 [0xe3, 0x81] = false := by decide +kernel

/-- C14. Equivalently, it accepts exactly the encodings of sequences of scalar values. -/
theorem checkUtf8_iff_encoding (s : List UInt8) : checkUtf8 s = true ↔ ∃ us : List Nat, (∀ c ∈ us, Scalar c) ∧ octets s = us.flatMap enc := by
  have key : ∀ us, (∀ c ∈ us, Scalar c) → octets (ustringToString us) = us.flatMap enc := by
    intro us h
    induction us with
    | nil => rfl
    | cons c us ih =>
      rw [List.flatMap_cons, ← ih (fun x hx => h x (by simp [hx])), ← octets_ucharToChars c (h c (by simp))]
      simp [ustringToString, octets]
  rw [checkUtf8_iff, wf_iff]
  constructor
  · rintro ⟨us, h, rfl⟩; exact ⟨us, h, key us h⟩
  · rintro ⟨us, h, e⟩; exact ⟨us, h, octets_inj (by rw [e, key us h])⟩

/-- C15. Whatever the input, the output is well-formed and has only clean characters. -/
theorem sanitize_clean (s : List UInt8) :
    WellFormed (octets (sanitize s)) ∧ ∃ us : List Nat, (∀ c ∈ us, Scalar c ∧ Clean c) ∧ octets (sanitize s) = us.flatMap enc := by
  obtain ⟨us, h1, h2⟩ := sanitize_out s
  have hw : WellFormed (octets (sanitize s)) := (wf_iff _).mpr ⟨us, fun c hc => (h1 c hc).1, h2⟩
  refine ⟨hw, us, h1, ?_⟩
  rw [h2]
  clear h2 hw
  induction us with
  | nil => rfl
  | cons c us ih =>
    rw [List.flatMap_cons, ← ih (fun x hx => h1 x (by simp [hx])), ← octets_ucharToChars c (h1 c (by simp)).1]
    simp [ustringToString, octets]

/-- C15. Sanitising is idempotent. -/
theorem sanitize_idem (s : List UInt8) : sanitize (sanitize s) = sanitize s := by
  obtain ⟨us, h1, h2⟩ := sanitize_out s
  rw [h2, sanitize_ustring us (fun c hc => (h1 c hc).1), List.filter_eq_self.mpr (fun c hc => by simpa using (h1 c hc).2)]

/-- C15. On well-formed text it removes exactly the characters that are not clean. -/
theorem sanitize_filters (us : List Nat) (h : ∀ c ∈ us, Scalar c) :
    sanitize (ustringToString us) = ustringToString (us.filter (fun c => decide (Clean c))) := sanitize_ustring us h

/-- C15. A text is left unchanged exactly when it is clean, well-formed text. -/
theorem sanitize_fixed_iff (s : List UInt8) :
    sanitize s = s ↔ ∃ us, (∀ c ∈ us, Scalar c ∧ Clean c) ∧ s = ustringToString us := by
  constructor
  · intro h
    obtain ⟨us, h1, h2⟩ := sanitize_out s
    exact ⟨us, h1, by rw [← h2, h]⟩
  · rintro ⟨us, h, rfl⟩
    rw [sanitize_ustring us (fun c hc => (h c hc).1), List.filter_eq_self.mpr (fun c hc => by simpa using (h c hc).2)]

/-- C15. A clean character survives wherever it stands, even between arbitrary garbage, and does not affect its surroundings. -/
theorem sanitize_keeps (x y : List UInt8) (c : Nat) (hc : Scalar c) (hcl : Clean c) :
    sanitize (x ++ ucharToChars c ++ y) = sanitize x ++ ucharToChars c ++ sanitize y := by
  have ho := octets_ucharToChars c hc
  rw [List.append_assoc, sanitize_append, sanitize_enc c hc _ _ ho, if_pos hcl, List.append_assoc]
  intro b hb hcont
  cases hp : ucharToChars c with
  | nil => rw [hp] at ho; exact absurd ho.symm (enc_ne_nil c)
  | cons a k =>
    rw [hp] at hb ho
    simp only [List.cons_append, List.head?_cons, Option.some.injEq] at hb
    subst hb
    unfold Cont at hcont
    rw [octets, List.map_cons] at ho
    unfold enc at ho
    repeat' split at ho
    all_goals (simp only [List.cons.injEq] at ho; unfold Scalar at hc; omega)

example : Scalar 0x3042 ∧ Clean 0x3042 ∧ sanitize [0xff, 0xe3, 0xe3, 0x81, 0x82, 0x80] = [0xe3, 0x81, 0x82] ∧
    sanitize [0xef, 0xbf, 0xbf, 0x41, 0x0a] = [0x41] := by
  refine ⟨by unfold Scalar; omega, by decide, by decide +kernel, by decide +kernel⟩

/-- C16. Full-width Latin back to basic Latin inverts the other direction on ASCII text. -/
theorem latin_roundtrip (us : List Nat) (h : ∀ c ∈ us, c ≤ 0x7f) : zenToBasicS (basicToZenS us) = us := by
  unfold zenToBasicS basicToZenS
  rw [List.map_map]
  conv => rhs; rw [← List.map_id us]
  apply List.map_congr_left
  intro c hc
  have := h c hc
  simp only [Function.comp, id, basicToZen, zenToBasic]
  repeat' split
  all_goals omega

/-- C16. And conversely on full-width Latin text (U+FF01..U+FF5E and the ideographic space). -/
theorem latin_roundtrip' (us : List Nat) (h : ∀ c ∈ us, (0xff01 ≤ c ∧ c ≤ 0xff5e) ∨ c = 0x3000) : basicToZenS (zenToBasicS us) = us := by
  unfold zenToBasicS basicToZenS
  rw [List.map_map]
  conv => rhs; rw [← List.map_id us]
  apply List.map_congr_left
  intro c hc
  have := h c hc
  simp only [Function.comp, id, basicToZen, zenToBasic]
  repeat' split
  all_goals omega

/-- C16. Each conversion changes only the characters it is about, position by position, and moves them by a fixed distance. -/
theorem latin_others (c : Nat) :
    (¬ (0x20 ≤ c ∧ c ≤ 0x7e) → basicToZen c = c) ∧ (¬ ((0xff01 ≤ c ∧ c ≤ 0xff5e) ∨ c = 0x3000) → zenToBasic c = c) ∧
    (0x21 ≤ c ∧ c ≤ 0x7e → basicToZen c = c + 0xfee0) ∧ basicToZen 0x20 = 0x3000 := by
  refine ⟨?_, ?_, ?_, by decide⟩ <;> (intro h; simp only [basicToZen, zenToBasic]; repeat' split) <;> omega

example : basicToZenS [0x41, 0x20, 0x7f] = [0xff21, 0x3000, 0x7f] := by decide

/-- C16. Whatever the input, no half-width form U+FF60..U+FF9F is left. -/
theorem hankaku_none_left (us : List Nat) : ∀ c ∈ hankakuToZenkaku us, ¬ (0xff60 ≤ c ∧ c ≤ 0xff9f) := by
  have step : ∀ (res : List Nat) (u : Nat), (∀ c ∈ res, ¬ (0xff60 ≤ c ∧ c ≤ 0xff9f)) → ∀ c ∈ hzStep res u, ¬ (0xff60 ≤ c ∧ c ≤ 0xff9f) := by
    intro res u h
    have ht : ∀ x ∈ res.tail, ¬ (0xff60 ≤ x ∧ x ≤ 0xff9f) := fun x hx => h x (List.mem_of_mem_tail hx)
    have hcons : ∀ (a : Nat) (l : List Nat), ¬ (0xff60 ≤ a ∧ a ≤ 0xff9f) → (∀ c ∈ l, ¬ (0xff60 ≤ c ∧ c ≤ 0xff9f)) →
        ∀ c ∈ a :: l, ¬ (0xff60 ≤ c ∧ c ≤ 0xff9f) := by
      intro a l ha hl c hc
      rcases List.mem_cons.mp hc with rfl | hc
      · exact ha
      · exact hl c hc
    have htbl : ∀ k < 64, (hankakuTbl[k]?).getD 0 < 0xff60 := by decide +kernel
    unfold hzStep hzCore
    split
    · rename_i hh
      simp only [isHankaku, inR, Bool.and_eq_true, decide_eq_true_eq] at hh
      split
      · split
        · rename_i hk
          have hk := hk.2.1
          simp only [isKatakana, inR, Bool.and_eq_true, decide_eq_true_eq] at hk
          split
          · exact hcons _ _ (by omega) ht
          · split
            · exact hcons _ _ (by omega) ht
            · exact hcons _ _ (by omega) ht
        · exact hcons _ _ (by omega) h
      · split
        · split
          · rename_i hk
            have hk := hk.2.1
            simp only [isKatakana, inR, Bool.and_eq_true, decide_eq_true_eq] at hk
            exact hcons _ _ (by omega) ht
          · exact hcons _ _ (by omega) h
        · have := htbl (u - 0xff60) (by omega)
          exact hcons _ _ (by omega) h
    · rename_i hh
      have hu : ¬ (0xff60 ≤ u ∧ u ≤ 0xff9f) := by
        simpa only [isHankaku, inR, Bool.and_eq_true, decide_eq_true_eq] using hh
      split
      · split
        · exact hcons _ _ (by omega) h
        · exact hcons _ _ hu h
      · exact hcons _ _ hu h
  have run : ∀ (us res : List Nat), (∀ c ∈ res, ¬ (0xff60 ≤ c ∧ c ≤ 0xff9f)) → ∀ c ∈ us.foldl hzStep res, ¬ (0xff60 ≤ c ∧ c ≤ 0xff9f) := by
    intro us
    induction us with
    | nil => intro res h; exact h
    | cons u us ih => intro res h; exact ih _ (step res u h)
  intro c hc
  exact run us [] (by simp) c (List.mem_reverse.mp hc)

/-- C16, the part that holds. The conversion is exactly the one given by the Unicode tables, for every text without U+FF60 in
which no half-width semi-voiced mark directly follows a letter of `misread` (KI, KU, KE, KO and the SA and TA rows, which have
no semi-voiced form). Missing: those texts, on which the code is wrong, see the next two theorems. -/
theorem hankaku_correct_partial (us : List Nat) (h60 : 0xff60 ∉ us)
    (hm : ∀ a b u, us = a ++ u :: 0xff9f :: b → full u ∉ misread) :
    hankakuToZenkaku us = us.foldl widen [] := by
  have last : ∀ (res : List Nat) (u : Nat), u ≠ 0xff60 → (u = 0xff9f → ∀ c, res.head? = some c → c ∉ misread) →
      full u ∉ misread → ∀ c, (hzStep res u).head? = some c → c ∉ misread := by
    intro res u h1 h2 h3 c hc
    have hw := hzStep_widen res u h1 h2
    rw [← List.getLast?_reverse, hw] at hc
    have hv : ∀ p ∈ voiced, p.2 ∉ misread := by decide
    have hs : ∀ p ∈ semivoiced, p.2 ∉ misread := by decide
    have hmem : ∀ (l : List (Nat × Nat)) (k v : Nat), List.lookup k l = some v → (k, v) ∈ l := by
      intro l k v hl
      induction l with
      | nil => cases hl
      | cons p l ih =>
        obtain ⟨p1, p2⟩ := p
        rw [List.lookup_cons] at hl
        split at hl
        · rename_i e
          simp only [beq_iff_eq] at e
          cases hl; subst e; simp
        · exact List.mem_cons_of_mem _ (ih hl)
    unfold widen at hc
    split at hc
    · split at hc
      · rename_i v hb
        simp only [List.getLast?_append, List.getLast?_singleton, Option.some_or, Option.some.injEq] at hc
        obtain ⟨k, _, hk⟩ := Option.bind_eq_some_iff.mp hb
        subst hc
        exact hv _ (hmem _ _ _ hk)
      · simp only [List.getLast?_append, List.getLast?_singleton, Option.some_or, Option.some.injEq] at hc
        subst hc; decide
    · split at hc
      · split at hc
        · rename_i v hb
          simp only [List.getLast?_append, List.getLast?_singleton, Option.some_or, Option.some.injEq] at hc
          obtain ⟨k, _, hk⟩ := Option.bind_eq_some_iff.mp hb
          subst hc
          exact hs _ (hmem _ _ _ hk)
        · simp only [List.getLast?_append, List.getLast?_singleton, Option.some_or, Option.some.injEq] at hc
          subst hc; decide
      · split at hc
        · split at hc <;> simp only [List.getLast?_append, List.getLast?_singleton, Option.some_or, Option.some.injEq] at hc <;> subst hc
          · split <;> decide
          · decide
        · simp only [List.getLast?_append, List.getLast?_singleton, Option.some_or, Option.some.injEq] at hc
          subst hc
          exact h3
  have run : ∀ (us res : List Nat), 0xff60 ∉ us → (∀ a b u, us = a ++ u :: 0xff9f :: b → full u ∉ misread) →
      (∀ b, us = 0xff9f :: b → ∀ c, res.head? = some c → c ∉ misread) →
      (us.foldl hzStep res).reverse = us.foldl widen res.reverse := by
    intro us
    induction us with
    | nil => intro res _ _ _; rfl
    | cons u us ih =>
      intro res h1 h2 h3
      have hu : u ≠ 0xff60 := fun e => h1 (by simp [e])
      have h3' : u = 0xff9f → ∀ c, res.head? = some c → c ∉ misread := fun e => h3 us (by rw [e])
      rw [List.foldl_cons, List.foldl_cons, ← hzStep_widen res u hu h3']
      apply ih _ (fun h => h1 (by simp [h])) (fun a b v e => h2 (u :: a) b v (by rw [e]; rfl))
      intro b e
      exact last res u hu h3' (h2 [] b u (by rw [e]; rfl))
  exact run us [] h60 hm (by simp)

example : hankakuToZenkaku [0xff76, 0xff9e, 0xff8a, 0xff9f, 0x2d, 0x41] = [0x30ac, 0x30d1, 0x30fc, 0x41] := by decide +kernel

/-- C16 fails: half-width KI followed by a semi-voiced mark becomes KU, a different letter, and the mark is lost. -/
theorem hankaku_semivoiced_fails : hankakuToZenkaku [0xff77, 0xff9f] = [0x30af] ∧ [0xff77, 0xff9f].foldl widen [] = [0x30ad, 0x309a] := by
  decide +kernel

/-- C16 fails: U+FF60 (which is a full-width parenthesis, not a half-width form) becomes U+0000. -/
theorem hankaku_ff60_fails : hankakuToZenkaku [0xff60] = [0] := by decide +kernel

end Verif.Ustring.Props
