import Verif.Ustring.Lemmas
import Verif.UText.Model
import Verif.UText.Spec

namespace Verif.UText.Lemmas
open Verif.Ustring Verif.Ustring.Spec Verif.Ustring Verif.UText.Spec

theorem continues_iff (b : UInt8) : Continues b ↔ b.toNat &&& 0xC0 = 0x80 := by
  have := toNat_lt b
  rw [andC0 _ this]; unfold Continues; omega

theorem starts_nil : Starts [] := by intro b h; simp at h

/-! ### Text behind text -/

theorem contLoop_app (n ret : Nat) (x y : List UInt8) (hy : Starts y) :
    contLoop n ret (x ++ y) = ((contLoop n ret x).1, (contLoop n ret x).2 ++ y) := by
  induction n generalizing ret x with
  | zero => simp [contLoop]
  | succ n ih =>
    cases x with
    | nil =>
      cases y with
      | nil => simp [contLoop]
      | cons b y =>
        have hb : ¬ (b.toNat &&& 0xC0 = 0x80) := fun h => hy b rfl ((continues_iff b).mpr h)
        simp only [List.nil_append, contLoop]
        rw [if_pos (by simpa using hb)]
    | cons b x =>
      simp only [List.cons_append, contLoop]
      split
      · rfl
      · rw [ih]

theorem decodeOne_app (b : UInt8) (x y : List UInt8) (hy : Starts y) :
    decodeOne (b :: x ++ y) = ((decodeOne (b :: x)).1, (decodeOne (b :: x)).2 ++ y) := by
  simp only [List.cons_append, decodeOne]
  split
  · rfl
  · split
    · rfl
    · rw [contLoop_app _ _ _ _ hy]
      rcases h : contLoop ((head (b.toNat &&& 0xFF)).2 - 1) (head (b.toNat &&& 0xFF)).1 x with ⟨_ | r, rest⟩ <;> rfl

theorem stringToUstring_app (x y : List UInt8) (hy : Starts y) :
    stringToUstring (x ++ y) = stringToUstring x ++ stringToUstring y := by
  match x with
  | [] => rw [stringToUstring]; rfl
  | b :: x =>
    have hd := decodeOne_app b x y hy
    have hlt := decodeOne_length b x
    have ih := stringToUstring_app (decodeOne (b :: x)).2 y hy
    rw [stringToUstring]
    show stringToUstring (b :: (x ++ y)) = _
    rw [stringToUstring]
    rw [show b :: (x ++ y) = b :: x ++ y from rfl, hd]
    simp only [List.cons_append, ih]
termination_by x.length

theorem head_enc (c : Nat) (h : Scalar c) : ∃ b p, ucharToChars c = b :: p ∧ ¬ Continues b := by
  have hc : c ≤ 0x10FFFF := by unfold Scalar at h; omega
  have ho := octets_ucharToChars c h
  cases hu : ucharToChars c with
  | nil => rw [hu] at ho; exact absurd ho.symm (enc_ne_nil c)
  | cons b p =>
    refine ⟨b, p, rfl, ?_⟩
    rw [hu] at ho
    unfold Continues
    unfold enc at ho
    simp only [octets, List.map_cons] at ho
    split at ho
    · injection ho with h1; omega
    · split at ho
      · injection ho with h1; omega
      · split at ho
        · injection ho with h1; omega
        · injection ho with h1; omega

theorem starts_text (us : List Nat) (h : ∀ c ∈ us, Scalar c) : Starts (ustringToString us) := by
  cases us with
  | nil => exact starts_nil
  | cons c us =>
    obtain ⟨b, p, e, hb⟩ := head_enc c (h c (by simp))
    intro x hx
    rw [ustringToString, List.flatMap_cons, e] at hx
    simp at hx; subst hx; exact hb

theorem text_app (us : List Nat) (h : ∀ c ∈ us, Scalar c) (s : List UInt8) :
    stringToUstring (ustringToString us ++ s) = us ++ stringToUstring s := by
  induction us with
  | nil => rfl
  | cons c us ih =>
    have hc := h c (by simp)
    rw [ustringToString, List.flatMap_cons, List.append_assoc, stringToUstring_cons c hc _ _ (octets_ucharToChars c hc)]
    rw [show List.flatMap ucharToChars us ++ s = ustringToString us ++ s from rfl, ih (fun x hx => h x (by simp [hx]))]
    rfl

theorem stringToUstring_scalar (s : List UInt8) : ∀ c ∈ stringToUstring s, Scalar c := by
  match s with
  | [] => intro c hc; rw [stringToUstring] at hc; cases hc
  | b :: x =>
    have hlt := decodeOne_length b x
    have ih := stringToUstring_scalar (decodeOne (b :: x)).2
    intro c hc
    rw [stringToUstring] at hc
    rcases List.mem_cons.mp hc with rfl | hc
    · cases hd : (decodeOne (b :: x)).1 with
      | none => simp only [Option.getD_none]; unfold Scalar; omega
      | some d =>
        simp only [Option.getD_some]
        exact (decodeOne_sound b x d (decodeOne (b :: x)).2 (by rw [← hd])).1
    · exact ih c hc
termination_by s.length

theorem stringToUstring_length (s : List UInt8) : (stringToUstring s).length ≤ s.length ∧ (s ≠ [] → stringToUstring s ≠ []) := by
  match s with
  | [] => simp [stringToUstring]
  | b :: x =>
    have hlt := decodeOne_length b x
    have ih := stringToUstring_length (decodeOne (b :: x)).2
    rw [stringToUstring]
    simp only [List.length_cons] at *
    exact ⟨by omega, fun _ => by simp⟩
termination_by s.length

theorem error_marked (s : List UInt8) (h : checkUtf8 s = false) : 0xFFFD ∈ stringToUstring s := by
  match s with
  | [] => rw [checkUtf8] at h; cases h
  | b :: x =>
    have hlt := decodeOne_length b x
    have ih := error_marked (decodeOne (b :: x)).2
    rw [stringToUstring]
    rw [checkUtf8] at h
    cases hd : (decodeOne (b :: x)).1 with
    | none => simp
    | some d =>
      rw [hd] at h
      exact List.mem_cons_of_mem _ (ih h)
termination_by s.length

/-! ### Memory without an end -/

theorem contRaw_nul (n ret : Nat) (x y : List UInt8) :
    contRaw n ret (x ++ 0 :: y) = some ((contLoop n ret x).1, (contLoop n ret x).2 ++ 0 :: y) := by
  induction n generalizing ret x with
  | zero => simp [contRaw, contLoop]
  | succ n ih =>
    cases x with
    | nil => simp [contRaw, contLoop]
    | cons b x =>
      simp only [List.cons_append, contRaw, contLoop]
      split
      · rfl
      · rw [ih]

theorem decodeRaw_nul (b : UInt8) (x y : List UInt8) :
    decodeRaw (b :: x ++ 0 :: y) = some ((decodeOne (b :: x)).1.getD 0xFFFD, (decodeOne (b :: x)).2 ++ 0 :: y) := by
  simp only [List.cons_append, decodeRaw, decodeOne]
  split
  · rfl
  · split
    · rfl
    · rw [contRaw_nul]
      rcases h : contLoop ((head (b.toNat &&& 0xFF)).2 - 1) (head (b.toNat &&& 0xFF)).1 x with ⟨_ | r, rest⟩ <;> rfl

theorem contRaw_none (n ret : Nat) (x : List UInt8) (hx : ∀ b ∈ x, Continues b) (hn : x.length < n) : contRaw n ret x = none := by
  induction x generalizing n ret with
  | nil => cases n with
    | zero => simp at hn
    | succ n => rfl
  | cons b x ih =>
    cases n with
    | zero => simp at hn
    | succ n =>
      have hb := (continues_iff b).mp (hx b (by simp))
      simp only [contRaw]
      rw [if_neg (by simpa using hb)]
      exact ih _ _ (fun c hc => hx c (by simp [hc])) (by simp at hn; omega)

theorem contRaw_some (n ret : Nat) (x : List UInt8) (r) (h : contRaw n ret x = some r) : contLoop n ret x = r := by
  induction n generalizing ret x with
  | zero => simpa [contRaw, contLoop] using h
  | succ n ih =>
    cases x with
    | nil => simp [contRaw] at h
    | cons b x =>
      simp only [contRaw] at h
      simp only [contLoop]
      split
      · rename_i hb; rw [if_pos hb] at h; simpa using h
      · rename_i hb; rw [if_neg hb] at h; exact ih _ _ h

theorem decodeRaw_some (x : List UInt8) (r) (h : decodeRaw x = some r) :
    x ≠ [] ∧ r = ((decodeOne x).1.getD 0xFFFD, (decodeOne x).2) := by
  cases x with
  | nil => simp [decodeRaw] at h
  | cons b x =>
    refine ⟨by simp, ?_⟩
    simp only [decodeRaw] at h
    simp only [decodeOne]
    split at h
    · rename_i h1; rw [if_pos h1]; simpa using h.symm
    · rename_i h1; rw [if_neg h1]
      split at h
      · rename_i h2; rw [if_pos h2]; simpa using h.symm
      · rename_i h2; rw [if_neg h2]
        split at h
        · cases h
        · rename_i hc; rw [contRaw_some _ _ _ _ hc]; simpa using h.symm
        · rename_i hc; rw [contRaw_some _ _ _ _ hc]; simpa using h.symm

/-- A sequence that is cut off is not known to be. -/
theorem decodeRaw_cut (c : Nat) (hc : Scalar c) (p q : List UInt8) (hq : q ≠ []) (h : ucharToChars c = p ++ q) :
    decodeRaw p = none := by
  have hm : c ≤ 0x10FFFF := by unfold Scalar at hc; omega
  have ho := octets_ucharToChars c hc
  rw [h] at ho
  cases p with
  | nil => rfl
  | cons b p =>
    have hb := toNat_lt b
    have hql : 0 < q.length := List.length_pos_iff.mpr hq
    have hlen := congrArg List.length ho
    simp only [octets, List.length_map, List.length_append, List.length_cons] at hlen
    have key : (0x80 ≤ b.toNat ∧ 0xC0 ≤ b.toNat ∧ b.toNat ≤ 0xF7) ∧ p.length < (head b.toNat).2 - 1 ∧ ∀ x ∈ p, Continues x := by
      have hmem : ∀ x ∈ p, x.toNat ∈ (enc c).tail := by
        intro x hx
        rw [← ho]
        simp only [octets, List.cons_append, List.map_cons, List.tail_cons]
        exact List.mem_map.mpr ⟨x, by simp [hx], rfl⟩
      have h0 : (enc c).head? = some b.toNat := by rw [← ho]; rfl
      unfold enc at hmem h0 hlen
      by_cases h1 : c < 0x80
      · simp only [if_pos h1, List.length_cons, List.length_nil] at hlen; omega
      · by_cases h2 : c < 0x800
        · simp only [if_neg h1, if_pos h2, List.length_cons, List.length_nil, List.head?_cons, Option.some.injEq, List.tail_cons] at hmem h0 hlen
          refine ⟨by omega, ?_, ?_⟩
          · rcases head_spec b.toNat (by omega) (by omega) with hh | hh | hh | hh
            · rw [hh.2]; simp only; omega
            · omega
            · omega
            · omega
          · intro x hx; have := hmem x hx; simp only [List.mem_cons, List.not_mem_nil, or_false] at this; unfold Continues; omega
        · by_cases h3 : c < 0x10000
          · simp only [if_neg h1, if_neg h2, if_pos h3, List.length_cons, List.length_nil, List.head?_cons, Option.some.injEq, List.tail_cons] at hmem h0 hlen
            refine ⟨by omega, ?_, ?_⟩
            · rcases head_spec b.toNat (by omega) (by omega) with hh | hh | hh | hh
              · omega
              · rw [hh.2.2]; simp only; omega
              · omega
              · omega
            · intro x hx; have := hmem x hx; simp only [List.mem_cons, List.not_mem_nil, or_false] at this; unfold Continues; omega
          · simp only [if_neg h1, if_neg h2, if_neg h3, List.length_cons, List.length_nil, List.head?_cons, Option.some.injEq, List.tail_cons] at hmem h0 hlen
            refine ⟨by omega, ?_, ?_⟩
            · rcases head_spec b.toNat (by omega) (by omega) with hh | hh | hh | hh
              · omega
              · omega
              · rw [hh.2.2]; simp only; omega
              · omega
            · intro x hx; have := hmem x hx; simp only [List.mem_cons, List.not_mem_nil, or_false] at this; unfold Continues; omega
    obtain ⟨⟨k1, k2, k3⟩, k4, k5⟩ := key
    simp only [decodeRaw, andFF _ hb]
    rw [if_neg (by rw [and80 _ hb]; omega), if_neg (by omega), contRaw_none _ _ _ k5 k4]

/-! ### C strings -/

theorem cstr_nul (s m : List UInt8) (h : 0 ∉ s) : cstr (s ++ 0 :: m) = some s := by
  induction s with
  | nil => simp [cstr]
  | cons b s ih =>
    simp only [List.mem_cons, not_or] at h
    simp only [List.cons_append, cstr]
    rw [if_neg (fun e => h.1 e.symm), ih h.2]; rfl

theorem cstr_none (m : List UInt8) : cstr m = none ↔ 0 ∉ m := by
  induction m with
  | nil => simp [cstr]
  | cons b m ih =>
    simp only [cstr, List.mem_cons, not_or]
    split
    · rename_i h; simp [h]
    · rename_i h; simp only [Option.map_eq_none_iff, ih]; exact ⟨fun h' => ⟨fun e => h e.symm, h'⟩, fun h' => h'.2⟩

theorem count6_nul (n : Nat) (s m : List UInt8) (h : 0 ∉ s) : count6 n (s ++ 0 :: m) = some (min n s.length) := by
  induction s generalizing n with
  | nil => cases n <;> simp [count6]
  | cons b s ih =>
    simp only [List.mem_cons, not_or] at h
    simp only [List.cons_append]
    cases n with
    | zero => simp [count6]
    | succ n =>
      rw [count6, if_neg (fun e => h.1 e.symm)]
      simp only [ih n h.2, Option.map_some, List.length_cons]
      congr 1; omega

/-- The loop looks at `n` bytes only. -/
theorem contLoop_take (n ret k : Nat) (hk : n ≤ k) (x : List UInt8) : (contLoop n ret (x.take k)).1 = (contLoop n ret x).1 := by
  induction n generalizing ret k x with
  | zero => simp [contLoop]
  | succ n ih =>
    obtain ⟨k, rfl⟩ : ∃ j, k = j + 1 := ⟨k - 1, by omega⟩
    cases x with
    | nil => simp
    | cons b x =>
      simp only [List.take_succ_cons, contLoop]
      split
      · rfl
      · exact ih _ k (by omega) x

theorem head_le (c : Nat) : (head c).2 ≤ 6 := by
  unfold head; repeat' split
  all_goals simp

theorem decodeOne_take (x : List UInt8) : (decodeOne (x.take 6)).1 = (decodeOne x).1 := by
  cases x with
  | nil => rfl
  | cons b x =>
    simp only [List.take_succ_cons, decodeOne]
    split
    · rfl
    · split
      · rfl
      · have hl := head_le (b.toNat &&& 0xFF)
        have ht := contLoop_take ((head (b.toNat &&& 0xFF)).2 - 1) (head (b.toNat &&& 0xFF)).1 5 (by omega) x
        rcases h1 : contLoop ((head (b.toNat &&& 0xFF)).2 - 1) (head (b.toNat &&& 0xFF)).1 (x.take 5) with ⟨a, r⟩
        rcases h2 : contLoop ((head (b.toNat &&& 0xFF)).2 - 1) (head (b.toNat &&& 0xFF)).1 x with ⟨a', r'⟩
        rw [h1, h2] at ht
        simp only at ht; subst ht
        cases a <;> rfl

/-! ### Streams -/

theorem put_eq (out : List UInt8) (us : List Nat) : put out us = out ++ ustringToString us := by
  unfold put
  induction us generalizing out with
  | nil => simp [ustringToString]
  | cons c us ih => rw [List.foldl_cons, ih]; simp [ustringToString]

theorem isspace_blank (b : UInt8) : Lexical.isspace b = true ↔ b.toNat ∈ blanks := by
  have : ∀ i : Fin 256, (Lexical.isspace (UInt8.ofNat i) = true ↔ (UInt8.ofNat i).toNat ∈ blanks) := by decide +kernel
  have h := this ⟨b.toNat, toNat_lt b⟩
  simpa using h

theorem text_nospace (us : List Nat) (h : ∀ c ∈ us, Scalar c ∧ c ∉ blanks) : ∀ b ∈ ustringToString us, Lexical.isspace b = false := by
  intro b hb
  obtain ⟨c, hc, hbc⟩ := List.mem_flatMap.mp hb
  obtain ⟨h1, h2⟩ := h c hc
  cases hs : Lexical.isspace b with
  | false => rfl
  | true =>
    have hbl := (isspace_blank b).mp hs
    have hm : b.toNat ∈ enc c := by rw [← octets_ucharToChars c h1]; exact List.mem_map.mpr ⟨b, hbc, rfl⟩
    exfalso
    unfold enc at hm
    simp only [blanks, List.mem_cons, List.not_mem_nil, or_false] at hbl h2
    split at hm
    · simp only [List.mem_cons, List.not_mem_nil, or_false] at hm; omega
    · split at hm
      · simp only [List.mem_cons, List.not_mem_nil, or_false] at hm; omega
      · split at hm
        · simp only [List.mem_cons, List.not_mem_nil, or_false] at hm; omega
        · simp only [List.mem_cons, List.not_mem_nil, or_false] at hm; omega

theorem dropWhile_all {α : Type} (p : α → Bool) (x y : List α) (h : ∀ a ∈ x, p a = true) : (x ++ y).dropWhile p = y.dropWhile p := by
  induction x with
  | nil => rfl
  | cons a x ih =>
    rw [List.cons_append, List.dropWhile_cons_of_pos (h a (by simp)), ih (fun b hb => h b (by simp [hb]))]

theorem takeWhile_all {α : Type} (p : α → Bool) (x y : List α) (h : ∀ a ∈ x, p a = true) (hy : ∀ a, y.head? = some a → p a = false) :
    (x ++ y).takeWhile p = x ∧ (x ++ y).dropWhile p = y := by
  induction x with
  | nil =>
    cases y with
    | nil => simp
    | cons a y => have := hy a rfl; simp [this]
  | cons a x ih =>
    have := ih (fun b hb => h b (by simp [hb]))
    rw [List.cons_append, List.takeWhile_cons_of_pos (h a (by simp)), List.dropWhile_cons_of_pos (h a (by simp))]
    exact ⟨by rw [this.1], this.2⟩

theorem getWord_word (w x y : List UInt8) (hw : ∀ b ∈ w, Lexical.isspace b = true) (hx : x ≠ []) (hx' : ∀ b ∈ x, Lexical.isspace b = false)
    (hy : ∀ b, y.head? = some b → Lexical.isspace b = true) : Lexical.getWord (w ++ (x ++ y)) = (some x, y) := by
  unfold Lexical.getWord
  rw [dropWhile_all _ _ _ hw]
  have h0 : (x ++ y).dropWhile Lexical.isspace = x ++ y := by
    cases x with
    | nil => exact absurd rfl hx
    | cons a x => have := hx' a (by simp); simp [this]
  simp only [h0]
  rw [if_neg (by simp [hx])]
  obtain ⟨h1, h2⟩ := takeWhile_all (fun c => !Lexical.isspace c) x y (fun b hb => by simp [hx' b hb]) (fun b hb => by simp [hy b hb])
  rw [h1, h2]

theorem getWord_none (w : List UInt8) (hw : ∀ b ∈ w, Lexical.isspace b = true) : Lexical.getWord w = (none, []) := by
  unfold Lexical.getWord
  have := dropWhile_all Lexical.isspace w [] hw
  simp only [List.append_nil, List.dropWhile_nil] at this
  simp [this]

theorem text_ne_nil (us : List Nat) (h : ∀ c ∈ us, Scalar c) (hne : us ≠ []) : ustringToString us ≠ [] := by
  cases us with
  | nil => exact absurd rfl hne
  | cons c us =>
    obtain ⟨b, p, e, _⟩ := head_enc c (h c (by simp))
    simp [ustringToString, e]

end Verif.UText.Lemmas
