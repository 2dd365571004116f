import Verif.Json.LemmasGram
/-! Auxiliary lemmas on the printers (no claims). -/

namespace Verif.Json.Lemmas
open Verif.Json Verif.Json.Spec Verif.Ustring Verif.Ustring.Spec

variable {F : Type}

theorem utf8_ascii {c : Nat} (h : c < 128) : utf8 c = [UInt8.ofNat c] := by
  simp [utf8, enc, h]

theorem scalar_ascii {c : Nat} (h : c < 128) : Scalar c := by unfold Scalar; omega

theorem bytes_append (a b : List Nat) : bytes (a ++ b) = bytes a ++ bytes b := by simp [bytes]
theorem bytes_cons (c : Nat) (a : List Nat) : bytes (c :: a) = utf8 c ++ bytes a := by simp [bytes]
theorem bytes_nil : bytes [] = [] := rfl

theorem decodeAll_cons (bad : List UInt8 → Nat) (c : Nat) (hc : Scalar c) (rest : List UInt8) :
    decodeAll bad (utf8 c ++ rest) = c :: decodeAll bad rest := by
  have h := decodeOne_complete c hc (utf8 c) rest (by rw [← utf8_eq hc]; exact octets_ucharToChars c hc)
  have hne : utf8 c ≠ [] := by
    unfold utf8
    simp [enc_ne_nil]
  cases hu : utf8 c with
  | nil => exact absurd hu hne
  | cons b bs =>
    rw [hu] at h
    rw [List.cons_append, decodeAll]
    rw [← List.cons_append, h]
    rfl

theorem decodeAll_bytes (bad : List UInt8 → Nat) (us : List Nat) (h : ∀ c ∈ us, Scalar c) : decodeAll bad (bytes us) = us := by
  induction us with
  | nil => simp [bytes, decodeAll]
  | cons c us ih =>
    rw [bytes_cons, decodeAll_cons bad c (h c (by simp)), ih (fun x hx => h x (by simp [hx]))]

/-! Strings. -/

/-- A hexadecimal digit as a character. -/
def hx (a : Nat) : Nat := if a ≤ 9 then 48 + a else 55 + a

theorem hx_spec : ∀ a < 16, hexVal (hx a) = some a ∧ tohex a = UInt8.ofNat (hx a) ∧ hx a < 128 := by decide +kernel

/-- The text `\uXXXX` of a code unit. -/
def hexText (u : Nat) : List Nat := [92, 117, hx (u / 4096 % 16), hx (u / 256 % 16), hx (u / 16 % 16), hx (u % 16)]

/-- The four digits in it. -/
def hexDigits (u : Nat) : List Nat := [hx (u / 4096 % 16), hx (u / 256 % 16), hx (u / 16 % 16), hx (u % 16)]

theorem hexDigits_spec (u : Nat) (h : u < 65536) : Hex4 (hexDigits u) u :=
  ⟨_, _, _, _, u / 4096 % 16, u / 256 % 16, u / 16 % 16, u % 16, rfl, (hx_spec _ (Nat.mod_lt _ (by decide))).1,
    (hx_spec _ (Nat.mod_lt _ (by decide))).1, (hx_spec _ (Nat.mod_lt _ (by decide))).1, (hx_spec _ (Nat.mod_lt _ (by decide))).1, by omega⟩

theorem hexText_scalar (u : Nat) : ∀ c ∈ hexText u, Scalar c := by
  have h := fun a => (hx_spec (a % 16) (Nat.mod_lt _ (by decide))).2.2
  intro c hc
  simp only [hexText, List.mem_cons, List.not_mem_nil, or_false] at hc
  apply scalar_ascii
  rcases hc with rfl | rfl | rfl | rfl | rfl | rfl
  · decide
  · decide
  all_goals exact h _

theorem bytes_hexText (u : Nat) : bytes (hexText u) = [92, 117, tohex (u / 4096 % 16), tohex (u / 256 % 16), tohex (u / 16 % 16), tohex (u % 16)] := by
  have h := fun a => (hx_spec (a % 16) (Nat.mod_lt _ (by decide)))
  simp only [hexText, bytes_cons, bytes_nil, utf8_ascii (h _).2.2, ← (h _).2.1]
  rfl

theorem and15 (n : Nat) : n &&& 0xf = n % 16 := Nat.and_two_pow_sub_one_eq_mod n 4

theorem esc_table : ∀ u < 128, (escTable.lookup u).all (fun c => decide ((c.toNat, UInt8.ofNat u) ∈ escapes ∧ c.toNat < 128)) = true := by
  decide +kernel

theorem plain_table : ∀ u < 128, escTable.lookup u = none → isCntrl u = false → 0x20 ≤ u ∧ u ≠ 34 ∧ u ≠ 92 := by
  decide +kernel

/-- `p` is a text that stands for the character `u` in a string body. -/
def Stands (p : List Nat) (u : Nat) : Prop := (∀ c ∈ p, Scalar c) ∧ ∀ t s, StrBody t s → StrBody (p ++ t) (utf8 u ++ s)

theorem printUnit_ascii (u : Nat) (h : u < 128) : ∃ p, printUnit u = bytes p ∧ Stands p u := by
  have h1 := esc_table u h
  unfold printUnit
  rw [if_pos (by omega)]
  cases hl : escTable.lookup u with
  | some c =>
    rw [hl] at h1
    simp only [Option.all_some, decide_eq_true_eq] at h1
    refine ⟨[92, c.toNat], ?_, ?_, ?_⟩
    · simp [bytes_cons, bytes_nil, utf8_ascii h1.2, utf8_ascii (show 92 < 128 by decide)]
    · intro x hx
      simp only [List.mem_cons, List.not_mem_nil, or_false] at hx
      apply scalar_ascii
      rcases hx with rfl | rfl
      · decide
      · exact h1.2
    · intro t s hts
      rw [utf8_ascii h]
      exact .esc _ _ t s h1.1 hts
  | none =>
    dsimp only
    by_cases hc : isCntrl u = true
    · rw [if_pos hc]
      refine ⟨hexText u, ?_, hexText_scalar u, fun t s hts => .uni (hexDigits u) u t s (hexDigits_spec u (by omega)) (scalar_ascii h) hts⟩
      rw [bytes_hexText, and15, and15, Nat.shiftRight_eq_div_pow]
      have e1 : u / 4096 % 16 = 0 := by omega
      have e2 : u / 256 % 16 = 0 := by omega
      rw [e1, e2]
      rfl
    · rw [if_neg hc]
      obtain ⟨a1, a2, a3⟩ := plain_table u h hl (by simpa using hc)
      exact ⟨[u], by simp [bytes_cons, bytes_nil, utf8_ascii h], by simp [scalar_ascii h],
        fun t s hts => .raw u t s (scalar_ascii h) a1 a2 a3 hts⟩

theorem printUnit_hex (u : Nat) (h : 128 ≤ u) : printUnit u = bytes (hexText u) := by
  unfold printUnit
  rw [if_neg (by omega), bytes_hexText]
  simp only [and15, Nat.shiftRight_eq_div_pow]
  simp

theorem printChar_stands (u : Nat) (h : Scalar u) : ∃ p, printChar u = bytes p ∧ Stands p u := by
  unfold printChar
  by_cases h1 : u < 0x10000
  · rw [if_pos h1]
    by_cases h2 : u < 128
    · exact printUnit_ascii u h2
    · exact ⟨_, printUnit_hex u (by omega), hexText_scalar u,
        fun t s hts => .uni (hexDigits u) u t s (hexDigits_spec u h1) h hts⟩
  · rw [if_neg h1]
    refine ⟨hexText (0xD800 + (u - 0x10000) / 0x400) ++ hexText (0xDC00 + (u - 0x10000) % 0x400), ?_, ?_, ?_⟩
    · rw [printUnit_hex _ (by omega), printUnit_hex _ (by omega), bytes_append]
    · intro c hc
      rcases List.mem_append.mp hc with hc | hc
      · exact hexText_scalar _ c hc
      · exact hexText_scalar _ c hc
    · intro t s hts
      unfold Scalar at h
      have := StrBody.pair (hexDigits (0xD800 + (u - 0x10000) / 0x400)) (0xD800 + (u - 0x10000) / 0x400)
        (hexDigits (0xDC00 + (u - 0x10000) % 0x400)) (0xDC00 + (u - 0x10000) % 0x400) t s
        (hexDigits_spec _ (by omega)) (hexDigits_spec _ (by omega)) (by omega) (by omega) (by omega) (by omega) hts
      have e : 0x10000 + (0xD800 + (u - 0x10000) / 0x400 - 0xD800) * 0x400 + (0xDC00 + (u - 0x10000) % 0x400 - 0xDC00) = u := by omega
      rw [e] at this
      have e2 : ∀ a b, hexText a ++ hexText b ++ t = 92 :: 117 :: (hexDigits a ++ 92 :: 117 :: (hexDigits b ++ t)) := fun _ _ => rfl
      rw [e2]
      exact this

theorem escLoop_cons (u : Nat) (h : Scalar u) (h0 : u ≠ 0) (rest : Str) : escLoop (utf8 u ++ rest) = printChar u ++ escLoop rest := by
  have hd := decodeOne_complete u h (utf8 u) rest (by rw [← utf8_eq h]; exact octets_ucharToChars u h)
  have hne : utf8 u ≠ [] := by unfold utf8; simp [enc_ne_nil]
  cases hu : utf8 u with
  | nil => exact absurd hu hne
  | cons b bs =>
    rw [hu] at hd
    have hb : b ≠ 0 := by
      rintro rfl
      have ho : octets (utf8 u) = enc u := by rw [← utf8_eq h]; exact octets_ucharToChars u h
      rw [hu] at ho
      unfold enc at ho
      repeat' split at ho
      all_goals (simp [octets] at ho; omega)
    rw [List.cons_append, escLoop, if_neg hb, ← List.cons_append, hd]
    rfl

theorem rawLoop_append (a b : Str) (h : 0 ∉ a) : rawLoop (a ++ b) = a.flatMap printCharRaw ++ rawLoop b := by
  induction a with
  | nil => rfl
  | cons x a ih =>
    simp only [List.mem_cons, not_or] at h
    rw [List.cons_append, rawLoop, if_neg (fun e => h.1 e.symm), ih h.2]
    simp

theorem printCharRaw_high (b : UInt8) (h : 128 ≤ b.toNat) : printCharRaw b = [b] := by
  have key : ∀ n < 256, 128 ≤ n → escTable.lookup n = none ∧ isCntrl n = false := by decide +kernel
  obtain ⟨h1, h2⟩ := key b.toNat (UInt8.toNat_lt b) h
  simp [printCharRaw, h1, h2]

theorem raw_stands (u : Nat) (h : Scalar u) : ∃ p, (utf8 u).flatMap printCharRaw = bytes p ∧ Stands p u := by
  by_cases h2 : u < 128
  · obtain ⟨p, h3, h4⟩ := printUnit_ascii u h2
    refine ⟨p, ?_, h4⟩
    rw [utf8_ascii h2, ← h3]
    have e : (UInt8.ofNat u).toNat = u := by rw [UInt8.toNat_ofNat']; omega
    simp only [List.flatMap_cons, List.flatMap_nil, List.append_nil, printCharRaw, printUnit, e]
    rw [if_pos (c := u ≤ 127) (by omega)]
  · refine ⟨[u], ?_, by simpa using h, fun t s hts => .raw u t s h (by omega) (by omega) (by omega) hts⟩
    have hh : ∀ b ∈ utf8 u, 128 ≤ b.toNat := by
      intro b hb
      unfold utf8 at hb
      obtain ⟨x, hx, rfl⟩ := List.mem_map.mp hb
      have hx2 : 128 ≤ x ∧ x < 256 := by
        refine ⟨?_, enc_lt u h x hx⟩
        unfold enc at hx
        repeat' split at hx
        all_goals (simp at hx; omega)
      rw [UInt8.toNat_ofNat']; omega
    have : ∀ l : Str, (∀ b ∈ l, 128 ≤ b.toNat) → l.flatMap printCharRaw = l := by
      intro l hl
      induction l with
      | nil => rfl
      | cons x l ih =>
        rw [List.flatMap_cons, printCharRaw_high x (hl x (by simp)), ih (fun b hb => hl b (by simp [hb]))]
        rfl
    rw [this _ hh]
    simp [bytes_cons, bytes_nil]

theorem bytes_ustring (us : List Nat) (h : ∀ c ∈ us, Scalar c) : ustringToString us = bytes us := by
  induction us with
  | nil => rfl
  | cons c us ih =>
    rw [bytes_cons, ← ih (fun x hx => h x (by simp [hx])), ← utf8_eq (h c (by simp))]
    simp [ustringToString]

theorem goodStr_iff (s : Str) : GoodStr s ↔ ∃ us, (∀ c ∈ us, Scalar c ∧ c ≠ 0) ∧ s = bytes us := by
  constructor
  · rintro ⟨h1, h2⟩
    obtain ⟨us, h3, rfl⟩ := (wf_iff s).mp h1
    rw [bytes_ustring us h3] at h2 ⊢
    refine ⟨us, fun c hc => ⟨h3 c hc, ?_⟩, rfl⟩
    rintro rfl
    exact h2 (List.mem_flatMap.mpr ⟨0, hc, by simp [utf8_ascii]⟩)
  · rintro ⟨us, h, rfl⟩
    refine ⟨(wf_iff _).mpr ⟨us, fun c hc => (h c hc).1, (bytes_ustring us fun c hc => (h c hc).1).symm⟩, ?_⟩
    intro h0
    obtain ⟨c, hc, h0⟩ := List.mem_flatMap.mp h0
    obtain ⟨h1, h2⟩ := h c hc
    unfold utf8 at h0
    obtain ⟨x, hx, e⟩ := List.mem_map.mp h0
    have hlt := enc_lt c h1 x hx
    have hx0 : x = 0 := by
      have := congrArg UInt8.toNat e
      rw [UInt8.toNat_ofNat'] at this
      simp at this; omega
    subst hx0
    unfold enc at hx
    repeat' split at hx
    all_goals (simp at hx; try omega)

/-- The text of a printed good string. -/
theorem printString_body (esc : Bool) (s : Str) (h : GoodStr s) :
    ∃ t, printString esc s = bytes (34 :: (t ++ [34])) ∧ (∀ c ∈ t, Scalar c) ∧ StrBody t s := by
  obtain ⟨us, hu, rfl⟩ := (goodStr_iff s).mp h
  have key : ∃ t, (if esc then escLoop (bytes us) else rawLoop (bytes us)) = bytes t ∧ (∀ c ∈ t, Scalar c) ∧ StrBody t (bytes us) := by
    clear h
    induction us with
    | nil => exact ⟨[], by cases esc <;> simp [bytes, escLoop, rawLoop], by simp, .nil⟩
    | cons u us ih =>
      obtain ⟨t, h1, h2, h3⟩ := ih (fun c hc => hu c (by simp [hc]))
      obtain ⟨hs, h0⟩ := hu u (by simp)
      cases esc with
      | true =>
        obtain ⟨p, e, hp, hb⟩ := printChar_stands u hs
        refine ⟨p ++ t, ?_, ?_, ?_⟩
        · simp only [if_true] at h1 ⊢
          rw [bytes_cons, escLoop_cons u hs h0, e, h1, bytes_append]
        · intro c hc
          rcases List.mem_append.mp hc with hc | hc
          · exact hp c hc
          · exact h2 c hc
        · rw [bytes_cons]; exact hb t _ h3
      | false =>
        obtain ⟨p, e, hp, hb⟩ := raw_stands u hs
        refine ⟨p ++ t, ?_, ?_, ?_⟩
        · simp only [Bool.false_eq_true, if_false] at h1 ⊢
          have h00 : 0 ∉ utf8 u := by
            have := ((goodStr_iff (bytes [u])).mpr ⟨[u], by simp [hs, h0], rfl⟩).2
            simpa [bytes] using this
          rw [bytes_cons, rawLoop_append _ _ h00, e, h1, bytes_append]
        · intro c hc
          rcases List.mem_append.mp hc with hc | hc
          · exact hp c hc
          · exact h2 c hc
        · rw [bytes_cons]; exact hb t _ h3
  obtain ⟨t, h1, h2, h3⟩ := key
  refine ⟨t, ?_, h2, h3⟩
  rw [printString, h1, bytes_cons, bytes_append, utf8_ascii (by decide), bytes_cons, utf8_ascii (by decide)]
  rfl

/-! Integers. -/

theorem decVal_snoc (ds : List Nat) (d : Nat) : decVal (ds ++ [d]) = 10 * decVal ds + (d - 48) := by simp [decVal]

theorem digits_spec (n : Nat) : ∃ ds, digits n = bytes ds ∧ (∀ c ∈ ds, Digit c) ∧ decVal ds = n ∧
    (ds = [48] ∧ n = 0 ∨ ∃ d r, ds = d :: r ∧ d ≠ 48) := by
  induction n using Nat.strongRecOn with
  | ind n ih =>
    rw [digits]
    by_cases h : n < 10
    · rw [if_pos h]
      refine ⟨[48 + n], ?_, ?_, ?_, ?_⟩
      · rw [bytes_cons, utf8_ascii (by omega)]; rfl
      · simp [Digit]; omega
      · simp [decVal]
      · by_cases h0 : n = 0
        · subst h0; exact .inl ⟨rfl, rfl⟩
        · exact .inr ⟨48 + n, [], rfl, by omega⟩
    · rw [if_neg h]
      obtain ⟨ds, h1, h2, h3, h4⟩ := ih (n / 10) (by omega)
      refine ⟨ds ++ [48 + n % 10], ?_, ?_, ?_, .inr ?_⟩
      · rw [h1, bytes_append, bytes_cons, utf8_ascii (by omega)]; rfl
      · intro c hc
        rcases List.mem_append.mp hc with hc | hc
        · exact h2 c hc
        · simp at hc; subst hc; unfold Digit; omega
      · rw [decVal_snoc, h3]; omega
      · rcases h4 with ⟨_, h0⟩ | ⟨d, r, rfl, hd⟩
        · omega
        · exact ⟨d, r ++ [48 + n % 10], rfl, hd⟩

theorem digit_scalar {c : Nat} (h : Digit c) : Scalar c := by unfold Digit at h; unfold Scalar; omega

theorem printInt_num (strtod : List Nat → Option F) (n : Int) (h : IsInt64 n) :
    ∃ t, printInt n = bytes t ∧ (∀ c ∈ t, Scalar c) ∧ Num strtod t (.int n) ∧ ¬ ShortExp t := by
  obtain ⟨ds, h1, h2, h3, h4⟩ := digits_spec n.natAbs
  have hip : ds = [48] ∨ ∃ d r, ds = d :: r ∧ Digit d ∧ d ≠ 48 ∧ ∀ c ∈ r, Digit c := by
    rcases h4 with ⟨h, _⟩ | ⟨d, r, rfl, hd⟩
    · exact .inl h
    · exact .inr ⟨d, r, rfl, h2 d (by simp), hd, fun c hc => h2 c (by simp [hc])⟩
  have hse : ∀ sg : List Nat, (sg = [] ∨ sg = [45]) → ¬ ShortExp (sg ++ ds) := by
    rintro sg hsg ⟨p, e, d, he, hee, _⟩
    have : e ∈ sg ++ ds := by rw [he]; simp
    rcases List.mem_append.mp this with h | h
    · rcases hsg with rfl | rfl
      · simp at h
      · simp at h; omega
    · have := h2 e h; unfold Digit at this; omega
  unfold printInt
  by_cases hn : n < 0
  · rw [if_pos hn]
    refine ⟨45 :: ds, ?_, ?_, ⟨[45], ds, [], [], by simp, .inr rfl, hip, .inl rfl, .inl rfl, ?_⟩, hse [45] (.inr rfl)⟩
    · rw [bytes_cons, h1, utf8_ascii (by decide)]; rfl
    · intro c hc
      rcases List.mem_cons.mp hc with rfl | hc
      · exact scalar_ascii (by decide)
      · exact digit_scalar (h2 c hc)
    · unfold NumVal
      rw [if_pos ⟨rfl, rfl⟩]
      exact ⟨n, h, by rw [if_neg (by simp), h3, Int.ofNat_natAbs_of_nonpos (Int.le_of_lt hn), Int.neg_neg], rfl⟩
  · rw [if_neg hn]
    refine ⟨ds, h1, fun c hc => digit_scalar (h2 c hc),
      ⟨[], ds, [], [], by simp, .inl rfl, hip, .inl rfl, .inl rfl, ?_⟩, hse [] (.inl rfl)⟩
    unfold NumVal
    rw [if_pos ⟨rfl, rfl⟩]
    exact ⟨n, h, by rw [if_pos rfl, h3, Int.natAbs_of_nonneg (Int.not_lt.mp hn)], rfl⟩

/-! Values. -/

theorem shortExp_end {p : List Nat} {c : Nat} (hc : ¬ Digit c) : ¬ ShortExp (p ++ [c]) := by
  rintro ⟨q, e, d, h, _, hd⟩
  have : q ++ [e, d] = (q ++ [e]) ++ [d] := by simp
  rw [this] at h
  have := (List.append_inj' h rfl).2
  simp at this
  exact hc (this ▸ hd)

/-- A printed form of a value is one of its texts. -/
def Prints (strtod : List Nat → Option F) (out : Str) (v : Value F) : Prop :=
  ∃ t, out = bytes t ∧ (∀ c ∈ t, Scalar c) ∧ Text strtod v t ∧ ¬ ShortExp t

theorem num_scalar {strtod : List Nat → Option F} {t : List Nat} {v : Value F} (h : Num strtod t v) : ∀ c ∈ t, Scalar c := by
  obtain ⟨sg, ip, fr, ex, rfl, hsg, hip, hfr, hex, _⟩ := h
  intro c hc
  simp only [List.mem_append] at hc
  rcases hc with ((hc | hc) | hc) | hc
  · rcases hsg with rfl | rfl
    · simp at hc
    · simp at hc; subst hc; exact scalar_ascii (by decide)
  · rcases hip with rfl | ⟨d, ds, rfl, h1, _, h2⟩
    · simp at hc; subst hc; exact scalar_ascii (by decide)
    · rcases List.mem_cons.mp hc with rfl | hc
      · exact digit_scalar h1
      · exact digit_scalar (h2 c hc)
  · rcases hfr with rfl | ⟨ds, rfl, _, h2⟩
    · simp at hc
    · rcases List.mem_cons.mp hc with rfl | hc
      · exact scalar_ascii (by decide)
      · exact digit_scalar (h2 c hc)
  · rcases hex with rfl | ⟨e, s, ds, rfl, h1, h2, _, h3⟩
    · simp at hc
    · simp only [List.mem_cons, List.mem_append] at hc
      rcases hc with rfl | hc | hc
      · exact scalar_ascii (by omega)
      · rcases h2 with rfl | rfl | rfl
        · simp at hc
        · simp at hc; subst hc; exact scalar_ascii (by decide)
        · simp at hc; subst hc; exact scalar_ascii (by decide)
      · exact digit_scalar (h3 c hc)

theorem prints_null (strtod : List Nat → Option F) : Prints strtod [110, 117, 108, 108] .null :=
  ⟨[110, 117, 108, 108], by decide, fun c hc => scalar_ascii (by simp at hc; omega), .null,
    shortExp_end (p := [110, 117, 108]) (by unfold Digit; omega)⟩

theorem prints_bool (strtod : List Nat → Option F) (b : Bool) : Prints strtod (printBool b) (.bool b) := by
  cases b with
  | true => exact ⟨[116, 114, 117, 101], by decide, fun c hc => scalar_ascii (by simp at hc; omega), .tru,
      shortExp_end (p := [116, 114, 117]) (by unfold Digit; omega)⟩
  | false => exact ⟨[102, 97, 108, 115, 101], by decide, fun c hc => scalar_ascii (by simp at hc; omega), .fls,
      shortExp_end (p := [102, 97, 108, 115]) (by unfold Digit; omega)⟩

theorem prints_int (strtod : List Nat → Option F) (n : Int) (h : IsInt64 n) : Prints strtod (printInt n) (.int n) := by
  obtain ⟨t, h1, h2, h3, h4⟩ := printInt_num strtod n h
  exact ⟨t, h1, h2, .num _ _ h3, h4⟩

theorem prints_flt (strtod : List Nat → Option F) (showF : F → Str) (x : F) (h : Printable strtod showF (.flt x)) :
    Prints strtod (showF x) (.flt x) := by
  rw [Printable] at h
  obtain ⟨t, h1, h2, h3⟩ := h
  exact ⟨t, h1, num_scalar h2, .num _ _ h2, h3⟩

theorem prints_str (strtod : List Nat → Option F) (esc : Bool) (s : Str) (h : GoodStr s) : Prints strtod (printString esc s) (.str s) := by
  obtain ⟨t, h1, h2, h3⟩ := printString_body esc s h
  refine ⟨_, h1, ?_, .str s t h3, shortExp_end (p := 34 :: t) (by unfold Digit; omega)⟩
  intro c hc
  simp only [List.mem_cons, List.mem_append, List.not_mem_nil, or_false] at hc
  rcases hc with rfl | hc | rfl
  · exact scalar_ascii (by decide)
  · exact h2 c hc
  · exact scalar_ascii (by decide)

theorem scal_app {a b : List Nat} (ha : ∀ c ∈ a, Scalar c) (hb : ∀ c ∈ b, Scalar c) : ∀ c ∈ a ++ b, Scalar c := by
  intro c hc
  rcases List.mem_append.mp hc with h | h
  · exact ha c h
  · exact hb c h

theorem scal_cons {x : Nat} {b : List Nat} (ha : Scalar x) (hb : ∀ c ∈ b, Scalar c) : ∀ c ∈ x :: b, Scalar c := by
  intro c hc
  rcases List.mem_cons.mp hc with rfl | h
  · exact ha
  · exact hb c h

theorem ws_scalar {w : List Nat} (h : ∀ c ∈ w, Ws c) : ∀ c ∈ w, Scalar c := by
  intro c hc
  have := h c hc
  unfold Ws at this
  exact scalar_ascii (by omega)

/-- The text of the elements of an array, followed by the white space `w'`. -/
def PrintsL (strtod : List Nat → Option F) (w' : List Nat) (out : Bool → Str) (vs : List (Value F)) : Prop :=
  vs = [] ∧ (∀ b, out b = []) ∨ ∃ e, (∀ c ∈ e, Scalar c) ∧ G Ws (Num strtod) (.elems vs) e ∧
    ∀ b, out b ++ bytes w' = (if b then [] else [44]) ++ bytes e

/-- The text of the members of an object, followed by the white space `w'`. -/
def PrintsM (strtod : List Nat → Option F) (w' : List Nat) (out : Bool → Str) (ms : List (Str × Value F)) : Prop :=
  ms = [] ∧ (∀ b, out b = []) ∨ ∃ e, (∀ c ∈ e, Scalar c) ∧ G Ws (Num strtod) (.mems ms) e ∧
    ∀ b, out b ++ bytes w' = (if b then [] else [44]) ++ bytes e

theorem prints_arr (strtod : List Nat → Option F) (w' : List Nat) (hw : ∀ c ∈ w', Ws c) (out : Bool → Str) (vs : List (Value F))
    (h : PrintsL strtod w' out vs) : Prints strtod (91 :: (out true ++ bytes w' ++ [93])) (.arr vs) := by
  have hb : ∀ x : Nat, x < 128 → bytes [x] = [UInt8.ofNat x] := fun x hx => by simp [bytes_cons, bytes_nil, utf8_ascii hx]
  rcases h with ⟨rfl, h⟩ | ⟨e, h1, h2, h3⟩
  · refine ⟨91 :: (w' ++ [93]), ?_, scal_cons (scalar_ascii (by decide)) (scal_app (ws_scalar hw) (by simp [scalar_ascii])),
      .arr0 w' hw, shortExp_end (p := 91 :: w') (by unfold Digit; omega)⟩
    rw [h true, bytes_cons, bytes_append, hb 93 (by decide), utf8_ascii (by decide)]; rfl
  · refine ⟨91 :: (e ++ [93]), ?_, scal_cons (scalar_ascii (by decide)) (scal_app h1 (by simp [scalar_ascii])),
      .arr vs e h2, shortExp_end (p := 91 :: e) (by unfold Digit; omega)⟩
    rw [h3 true, bytes_cons, bytes_append, hb 93 (by decide), utf8_ascii (by decide)]; rfl

theorem prints_obj (strtod : List Nat → Option F) (w' : List Nat) (hw : ∀ c ∈ w', Ws c) (out : Bool → Str) (ms : List (Str × Value F))
    (h : PrintsM strtod w' out ms) : Prints strtod (123 :: (out true ++ bytes w' ++ [125])) (.obj ms) := by
  have hb : ∀ x : Nat, x < 128 → bytes [x] = [UInt8.ofNat x] := fun x hx => by simp [bytes_cons, bytes_nil, utf8_ascii hx]
  rcases h with ⟨rfl, h⟩ | ⟨e, h1, h2, h3⟩
  · refine ⟨123 :: (w' ++ [125]), ?_, scal_cons (scalar_ascii (by decide)) (scal_app (ws_scalar hw) (by simp [scalar_ascii])),
      .obj0 w' hw, shortExp_end (p := 123 :: w') (by unfold Digit; omega)⟩
    rw [h true, bytes_cons, bytes_append, hb 125 (by decide), utf8_ascii (by decide)]; rfl
  · refine ⟨123 :: (e ++ [125]), ?_, scal_cons (scalar_ascii (by decide)) (scal_app h1 (by simp [scalar_ascii])),
      .obj ms e h2, shortExp_end (p := 123 :: e) (by unfold Digit; omega)⟩
    rw [h3 true, bytes_cons, bytes_append, hb 125 (by decide), utf8_ascii (by decide)]; rfl

/-- Adding an element in front: it is printed after white space `w`. -/
theorem printsL_cons (strtod : List Nat → Option F) (w w' : List Nat) (hw : ∀ c ∈ w, Ws c) (hw' : ∀ c ∈ w', Ws c) (o : Str)
    (out : Bool → Str) (v : Value F) (vs : List (Value F)) (hv : Prints strtod o v) (h : PrintsL strtod w' out vs) :
    PrintsL strtod w' (fun b => (if b then bytes w else 44 :: bytes w) ++ o ++ out false) (v :: vs) := by
  obtain ⟨t, rfl, ht1, ht2, _⟩ := hv
  right
  rcases h with ⟨rfl, h⟩ | ⟨e, h1, h2, h3⟩
  · refine ⟨w ++ (t ++ w'), scal_app (ws_scalar hw) (scal_app ht1 (ws_scalar hw')), .elem1 v t w w' hw hw' ht2, ?_⟩
    intro b
    rw [h false]
    cases b <;> simp [bytes_append]
  · refine ⟨w ++ (t ++ ([] ++ 44 :: e)), scal_app (ws_scalar hw) (scal_app ht1 (scal_cons (scalar_ascii (by decide)) h1)),
      .elemS v t w [] vs e hw (by simp) ht2 h2, ?_⟩
    intro b
    have := h3 false
    simp only [Bool.false_eq_true, if_false] at this
    dsimp only
    rw [List.append_assoc, this]
    cases b <;> simp [bytes_append, bytes_cons, utf8_ascii]

/-- Adding a member in front; `w2` follows the colon. -/
theorem printsM_cons (strtod : List Nat → Option F) (w w2 w' : List Nat) (hw : ∀ c ∈ w, Ws c) (hw2 : ∀ c ∈ w2, Ws c)
    (hw' : ∀ c ∈ w', Ws c) (esc : Bool) (o : Str) (out : Bool → Str) (k : Str) (v : Value F) (ms : List (Str × Value F)) (hk : GoodStr k)
    (hv : Prints strtod o v) (h : PrintsM strtod w' out ms) :
    PrintsM strtod w' (fun b => (if b then bytes w else 44 :: bytes w) ++ printString esc k ++ (58 :: bytes w2) ++ o ++ out false)
      ((k, v) :: ms) := by
  obtain ⟨t, rfl, ht1, ht2, _⟩ := hv
  obtain ⟨p, hp1, hp2, hp3⟩ := printString_body esc k hk
  have s34 : Scalar 34 := scalar_ascii (by decide)
  have s58 : Scalar 58 := scalar_ascii (by decide)
  have s44 : Scalar 44 := scalar_ascii (by decide)
  right
  rcases h with ⟨rfl, h⟩ | ⟨e, h1, h2, h3⟩
  · refine ⟨_, ?_, .mem1 k p v t w [] w2 w' hw (by simp) hw2 hw' hp3 ht2, ?_⟩
    · exact scal_app (ws_scalar hw) (scal_cons s34 (scal_app hp2 (scal_cons s34 (scal_cons s58 (scal_app (ws_scalar hw2)
        (scal_app ht1 (ws_scalar hw')))))))
    · intro b
      rw [h false, hp1]
      cases b <;> simp [bytes_append, bytes_cons, bytes_nil, utf8_ascii]
  · refine ⟨_, ?_, .memS k p v t w [] w2 [] ms e hw (by simp) hw2 (by simp) hp3 ht2 h2, ?_⟩
    · exact scal_app (ws_scalar hw) (scal_cons s34 (scal_app hp2 (scal_cons s34 (scal_cons s58 (scal_app (ws_scalar hw2)
        (scal_app ht1 (scal_cons s44 h1)))))))
    · intro b
      have := h3 false
      simp only [Bool.false_eq_true, if_false] at this
      dsimp only
      rw [List.append_assoc, this, hp1]
      cases b <;> simp [bytes_append, bytes_cons, bytes_nil, utf8_ascii]

theorem print_prints (strtod : List Nat → Option F) (showF : F → Str) (esc : Bool) (v : Value F) :
    Printable strtod showF v → Prints strtod (print showF esc v) v := by
  induction v using events.induct
    (motive_3 := fun vs => PrintableL strtod showF vs → PrintsL strtod [] (fun b => printElems showF esc b vs) vs)
    (motive_2 := fun ms => PrintableM strtod showF ms → PrintsM strtod [] (fun b => printMembers showF esc b ms) ms) with
  | case1 => intro _; exact prints_null strtod
  | case2 n => intro h; rw [Printable] at h; exact prints_int strtod n h
  | case3 x => intro h; exact prints_flt strtod showF x h
  | case4 b => intro _; exact prints_bool strtod b
  | case5 s => intro h; rw [Printable] at h; exact prints_str strtod esc s h
  | case6 vs ih =>
    intro h; rw [Printable] at h
    have := prints_arr strtod [] (by simp) _ vs (ih h)
    simpa [print, bytes_nil] using this
  | case7 ms ih =>
    intro h; rw [Printable] at h
    have := prints_obj strtod [] (by simp) _ ms (ih h.2)
    simpa [print, bytes_nil] using this
  | case8 => exact .inl ⟨rfl, fun b => by simp [printElems]⟩
  | case9 v vs ih1 ih2 =>
    rename_i h
    rw [PrintableL] at h
    have := printsL_cons strtod [] [] (by simp) (by simp) _ _ v vs (ih1 h.1) (ih2 h.2)
    simpa [printElems, bytes_nil] using this
  | case10 => exact .inl ⟨rfl, fun b => by simp [printMembers]⟩
  | case11 k v ms ih1 ih2 =>
    rename_i h
    rw [PrintableM] at h
    have := printsM_cons strtod [] [] [] (by simp) (by simp) (by simp) esc _ _ k v ms h.1 (ih1 h.2.1) (ih2 h.2.2)
    simpa [printMembers, bytes_nil] using this

theorem bytes_blanks (n : Nat) : bytes (List.replicate n 32) = blanks n := by
  induction n with
  | zero => rfl
  | succ n ih => rw [List.replicate_succ, bytes_cons, ih, utf8_ascii (by decide), blanks, blanks, List.replicate_succ]; rfl

/-- A line break and blanks. -/
def nl (n : Nat) : List Nat := 10 :: List.replicate n 32

theorem nl_ws (n : Nat) : ∀ c ∈ nl n, Ws c := by
  intro c hc
  rcases List.mem_cons.mp hc with rfl | hc
  · exact .inr (.inr (.inl rfl))
  · exact .inl (List.eq_of_mem_replicate hc)

theorem bytes_nl (n : Nat) : bytes (nl n) = 10 :: blanks n := by
  rw [nl, bytes_cons, bytes_blanks, utf8_ascii (by decide)]; rfl

theorem pretty_prints (strtod : List Nat → Option F) (showF : F → Str) (esc : Bool) (v : Value F) :
    ∀ l, Printable strtod showF v → Prints strtod (prettyAt showF esc l v) v := by
  induction v using events.induct
    (motive_3 := fun vs => ∀ l, PrintableL strtod showF vs → PrintsL strtod (nl (l * 2)) (fun b => prettyElems showF esc l b vs) vs)
    (motive_2 := fun ms => ∀ l, PrintableM strtod showF ms → PrintsM strtod (nl (l * 2)) (fun b => prettyMembers showF esc l b ms) ms) with
  | case1 => intro l _; exact prints_null strtod
  | case2 n => intro l h; rw [Printable] at h; exact prints_int strtod n h
  | case3 x => intro l h; exact prints_flt strtod showF x h
  | case4 b => intro l _; exact prints_bool strtod b
  | case5 s => intro l h; rw [Printable] at h; exact prints_str strtod esc s h
  | case6 vs ih =>
    intro l h; rw [Printable] at h
    have := prints_arr strtod (nl (l * 2)) (nl_ws _) _ vs (ih l h)
    simpa [prettyAt, bytes_nl] using this
  | case7 ms ih =>
    intro l h; rw [Printable] at h
    have := prints_obj strtod (nl (l * 2)) (nl_ws _) _ ms (ih l h.2)
    simpa [prettyAt, bytes_nl] using this
  | case8 => exact .inl ⟨rfl, fun b => by simp [prettyElems]⟩
  | case9 v vs ih1 ih2 =>
    rename_i l h
    rw [PrintableL] at h
    have := printsL_cons strtod (nl ((l + 1) * 2)) (nl (l * 2)) (nl_ws _) (nl_ws _) _ _ v vs (ih1 (l + 1) h.1) (ih2 l h.2)
    have e : (fun b => prettyElems showF esc l b (v :: vs)) = fun b =>
        (if b then bytes (nl ((l + 1) * 2)) else 44 :: bytes (nl ((l + 1) * 2))) ++ prettyAt showF esc (l + 1) v ++
          prettyElems showF esc l false vs := by
      funext b
      rw [bytes_nl]
      cases b <;> simp [prettyElems]
    rw [e]; exact this
  | case10 => exact .inl ⟨rfl, fun b => by simp [prettyMembers]⟩
  | case11 k v ms ih1 ih2 =>
    rename_i l h
    rw [PrintableM] at h
    have := printsM_cons strtod (nl ((l + 1) * 2)) [32] (nl (l * 2)) (nl_ws _) (by simp [Ws]) (nl_ws _) esc _ _ k v ms h.1
      (ih1 (l + 1) h.2.1) (ih2 l h.2.2)
    have e : (fun b => prettyMembers showF esc l b ((k, v) :: ms)) = fun b =>
        (if b then bytes (nl ((l + 1) * 2)) else 44 :: bytes (nl ((l + 1) * 2))) ++ printString esc k ++ (58 :: bytes [32]) ++
          prettyAt showF esc (l + 1) v ++ prettyMembers showF esc l false ms := by
      funext b
      rw [bytes_nl]
      cases b <;> simp [prettyMembers, bytes_cons, bytes_nil, utf8_ascii]
    rw [e]; exact this

theorem collapse_nodup (ms : List (Str × Value F)) (h : (ms.map (·.1)).Nodup) : collapse ms = ms := by
  induction ms with
  | nil => rfl
  | cons m ms ih =>
    obtain ⟨k, v⟩ := m
    rw [List.map_cons, List.nodup_cons] at h
    rw [collapse, if_neg h.1, ih h.2]

theorem norm_printable (strtod : List Nat → Option F) (showF : F → Str) (v : Value F) : Printable strtod showF v → norm v = v := by
  induction v using events.induct
    (motive_3 := fun vs => PrintableL strtod showF vs → normL vs = vs)
    (motive_2 := fun ms => PrintableM strtod showF ms → normM ms = ms) with
  | case1 => intro _; rfl
  | case2 => intro _; rfl
  | case3 => intro _; rfl
  | case4 => intro _; rfl
  | case5 => intro _; rfl
  | case6 vs ih => intro h; rw [Printable] at h; rw [norm, ih h]
  | case7 ms ih => intro h; rw [Printable] at h; rw [norm, ih h.2, collapse_nodup ms h.1]
  | case8 => rfl
  | case9 v vs ih1 ih2 => rename_i h; rw [PrintableL] at h; rw [normL, ih1 h.1, ih2 h.2]
  | case10 => rfl
  | case11 k v ms ih1 ih2 => rename_i h; rw [PrintableM] at h; rw [normM, ih1 h.2.1, ih2 h.2.2]

end Verif.Json.Lemmas
