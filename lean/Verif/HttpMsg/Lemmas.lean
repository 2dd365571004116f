import Verif.HttpMsg.Spec
import Verif.Http.LemmasBody
import Verif.Uri.Props
import Verif.Lexical.Props
import Verif.Socket.Props
/-! Auxiliary lemmas on HTTP messages (no claims). -/

namespace Verif.HttpMsg.Lemmas
open Verif.Socket Verif.Http Verif.HttpMsg Verif.HttpMsg.Spec Verif.Http.Lemmas

theorem forall_byte {p : UInt8 → Prop} (h : ∀ i : Fin 256, p (UInt8.ofNat i)) (c : UInt8) : p c := by
  have := h ⟨c.toNat, c.toNat_lt⟩
  rwa [show UInt8.ofNat c.toNat = c from UInt8.ofNat_toNat] at this

/-! ### Words and numbers -/

theorem isspace_eq : Lexical.isspace = Http.isspace := rfl

theorem getWord_word (w t rest : Str) (hw : ∀ c ∈ w, Lexical.isspace c = true) (ht : ∀ c ∈ t, Lexical.isspace c = false) (hne : t ≠ [])
    (hr : ∀ c ∈ rest.head?, Lexical.isspace c = true) : Lexical.getWord (w ++ t ++ rest) = (some t, rest) := by
  obtain ⟨c, t', rfl⟩ := List.exists_cons_of_ne_nil hne
  have h1 : (w ++ (c :: t') ++ rest).dropWhile Lexical.isspace = (c :: t') ++ rest := by
    rw [List.append_assoc, List.dropWhile_append_of_pos hw]
    simp [ht c (by simp)]
  obtain ⟨h2, h3⟩ := Lexical.Lemmas.takeWhile_split (p := fun c => !Lexical.isspace c) (c :: t') rest
    (fun d hd => by simp [ht d hd]) (fun d hd => by simp [hr d hd])
  unfold Lexical.getWord
  dsimp only
  rw [h1, if_neg (by simp), h2, h3]

/-- Characters that occur in numbers. -/
theorem put_chars (n : Int) : ∀ c ∈ Lexical.put n, Decimal.isDigit c = true ∨ c = 45 := by
  obtain ⟨sg, h1, h2⟩ := Lexical.Lemmas.put_parts n
  intro c hc
  rw [h1, List.mem_append] at hc
  rcases hc with hc | hc
  · rcases h2 with ⟨rfl, _⟩ | ⟨rfl, _⟩
    · simp at hc
    · exact .inr (by simpa using hc)
  · exact .inl ((Decimal.digits_spec _).2.1 c hc)

theorem put_ne (n : Int) : Lexical.put n ≠ [] := by
  obtain ⟨sg, h1, _⟩ := Lexical.Lemmas.put_parts n
  rw [h1]
  intro h
  exact (Decimal.digits_spec _).1 (List.append_eq_nil_iff.1 h).2

theorem number_char (c : UInt8) (h : Decimal.isDigit c = true ∨ c = 45) :
    Lexical.isspace c = false ∧ toupper c = c ∧ c ≠ 0 ∧ c ≠ 10 ∧ c ≠ 46 := by
  revert h; revert c; apply forall_byte; decide +kernel

theorem scanD_put (n : Int) (rest : Str) (hr : ∀ c ∈ rest.head?, Decimal.isDigit c = false) : scanD (Lexical.put n ++ rest) = some (n, rest) := by
  obtain ⟨sg, h1, h2⟩ := Lexical.Lemmas.put_parts n
  obtain ⟨g1, g2, g3⟩ := Decimal.digits_spec n.natAbs
  obtain ⟨d, ds, e⟩ := List.exists_cons_of_ne_nil g1
  obtain ⟨t1, t2⟩ := Lexical.Lemmas.takeWhile_split _ rest g2 hr
  have hd := Lexical.Lemmas.digit_plain d (g2 d (by simp [e]))
  have hd1 : Http.isspace d = false := hd.1
  rcases h2 with ⟨rfl, h2⟩ | ⟨rfl, h2⟩
  · have e1 : (Lexical.put n ++ rest).dropWhile isspace = Decimal.digits n.natAbs ++ rest := by
      rw [h1, List.nil_append, e]; simp [hd1]
    unfold scanD
    dsimp only
    rw [e1]
    have e2 : (Decimal.digits n.natAbs ++ rest).head? = some d := by rw [e]; rfl
    simp only [e2, Option.some.injEq, hd.2.1, hd.2.2, or_self, if_false, t1, t2, g1, g3, Prod.mk.injEq, and_true]
    omega
  · have e1 : (Lexical.put n ++ rest).dropWhile isspace = 45 :: (Decimal.digits n.natAbs ++ rest) := by
      rw [h1]; simp [show isspace 45 = false by decide]
    unfold scanD
    dsimp only
    rw [e1]
    simp only [List.head?_cons, true_or, if_true, List.tail_cons, t1, t2, if_neg g1, g3, Option.some.injEq, Prod.mk.injEq,
      and_true]
    omega

theorem fits_iff (n : Int) : fits n = true ↔ Lexical.Spec.Fits Lexical.int32 n := by
  simp only [fits, Lexical.Spec.Fits, Lexical.int32, Bool.and_eq_true, decide_eq_true_eq, if_true]
  constructor
  · intro h; constructor <;> simp <;> omega
  · intro h; simp at h; omega

theorem version_chars (v : Int × Int) : ∀ c ∈ versionText v, Lexical.isspace c = false ∧ toupper c = c ∧ c ≠ 0 ∧ c ≠ 10 := by
  have hs : ∀ c ∈ httpSlash, Lexical.isspace c = false ∧ toupper c = c ∧ c ≠ 0 ∧ c ≠ 10 := by decide
  have hd : Lexical.isspace 46 = false ∧ toupper 46 = 46 ∧ (46 : UInt8) ≠ 0 ∧ (46 : UInt8) ≠ 10 := by decide
  intro c hc
  simp only [versionText, Lexical.stringOfInt, List.mem_append, List.mem_singleton] at hc
  rcases hc with ((hc | hc) | rfl) | hc
  · exact hs c hc
  · obtain ⟨h1, h2, h3, h4, _⟩ := number_char c (put_chars _ c hc); exact ⟨h1, h2, h3, h4⟩
  · exact hd
  · obtain ⟨h1, h2, h3, h4, _⟩ := number_char c (put_chars _ c hc); exact ⟨h1, h2, h3, h4⟩

theorem scanVersion_text (v : Int × Int) (h1 : Lexical.Spec.Fits Lexical.int32 v.1) (h2 : Lexical.Spec.Fits Lexical.int32 v.2) :
    scanVersion (versionText v) = .ok v := by
  have hu : (versionText v).map toupper = versionText v := by
    conv => rhs; rw [← List.map_id (versionText v)]
    exact List.map_congr_left fun c hc => (version_chars v c hc).2.1
  have hz : (versionText v).takeWhile (· ≠ 0) = versionText v := by
    have := (Lexical.Lemmas.takeWhile_split (p := fun c => decide (c ≠ 0)) (versionText v) []
      (fun c hc => by simpa using (version_chars v c hc).2.2.1) (by simp)).1
    rwa [List.append_nil] at this
  have hp : httpSlash.isPrefixOf (versionText v) = true := by
    rw [List.isPrefixOf_iff_prefix]
    exact ⟨_, by rw [versionText, List.append_assoc, List.append_assoc]⟩
  have hd : (versionText v).drop 5 = Lexical.put v.1 ++ ([46] ++ Lexical.put v.2) := by
    simp [versionText, httpSlash, Lexical.stringOfInt]
  unfold scanVersion
  dsimp only
  rw [hu, hz, hp, if_neg (by simp), hd, scanD_put v.1 _ (by simp; decide)]
  dsimp only
  have := scanD_put v.2 [] (by simp)
  rw [List.append_nil] at this
  rw [(fits_iff v.1).2 h1, if_neg (by simp), if_neg (by simp), List.cons_append, List.tail_cons, List.nil_append, this]
  dsimp only
  rw [(fits_iff v.2).2 h2, if_neg (by simp)]

/-! ### The URI -/

open Uri.Spec in
theorem coded_chars {p : UInt8 → Prop} {s : Str} (h : Coded p s) : ∀ c ∈ s, p c ∨ c = 37 ∨ Hex c := by
  induction h with
  | nil => simp
  | char c hc _ ih =>
    intro d hd
    rcases List.mem_cons.1 hd with rfl | hd
    · exact .inl hc
    · exact ih d hd
  | pct a b ha hb _ ih =>
    intro d hd
    simp only [List.mem_cons] at hd
    rcases hd with rfl | rfl | rfl | hd
    · exact .inr (.inl rfl)
    · exact .inr (.inr ha)
    · exact .inr (.inr hb)
    · exact ih d hd

/-- Neither white space nor a control character. -/
def Visible (c : UInt8) : Prop := 32 < c

instance (c : UInt8) : Decidable (Visible c) := inferInstanceAs (Decidable (32 < c))

instance (s : String) (c : UInt8) : Decidable (Uri.Spec.In s c) := inferInstanceAs (Decidable (c.toNat ∈ _))

theorem in_visible (c : UInt8) (h : Uri.Spec.In "ABCDEFGHIJKLMNOPQRSTUVWXYZabcdefghijklmnopqrstuvwxyz0123456789-._~!$&'()*+,;=:@/?%#[]" c) : Visible c := by
  revert h; revert c; apply forall_byte; decide +kernel

open Uri.Spec in
theorem sets_visible (c : UInt8) : (Pchar c → Visible c) ∧ (Hex c → Visible c) ∧ (In "/?" c → Visible c) ∧ (In "/" c → Visible c) ∧ (Digit c → Visible c)
    ∧ (Alpha c → Visible c) ∧ (In "+-." c → Visible c) ∧ (Unreserved c → Visible c) ∧ (SubDelim c → Visible c) ∧ (In ":" c → Visible c) := by
  revert c; apply forall_byte
  unfold Pchar Hex Digit Alpha Unreserved SubDelim Alpha Digit
  decide +kernel

theorem visible_plain (c : UInt8) (h : Visible c) : Lexical.isspace c = false ∧ c ≠ 10 := by
  revert h; revert c; apply forall_byte; decide +kernel

open Uri.Spec in
theorem coded_visible {p : UInt8 → Prop} {s : Str} (h : Coded p s) (hp : ∀ c, p c → Visible c) : ∀ c ∈ s, Visible c := by
  intro c hc
  rcases coded_chars h c hc with h | rfl | h
  · exact hp c h
  · decide
  · exact (sets_visible c).2.1 h

open Uri.Spec in
theorem path_visible {s : Str} (h : Coded (fun c => Pchar c ∨ In "/" c) s) : ∀ c ∈ s, Visible c :=
  coded_visible h fun c hc => by
    obtain ⟨h1, _, _, h2, _⟩ := sets_visible c
    exact hc.elim h1 h2

open Uri.Spec in
theorem octet_visible {s : Str} (h : Octet s) : ∀ c ∈ s, Visible c := by
  obtain ⟨n, hn, rfl⟩ := h
  have : ∀ n < 256, ∀ c ∈ (toString n).toList.map ch, Visible c := by decide +kernel
  exact this n hn

theorem mem_sep {a b : Str} {d : UInt8} (ha : ∀ c ∈ a, Visible c) (hd : Visible d) (hb : ∀ c ∈ b, Visible c) : ∀ c ∈ a ++ d :: b, Visible c := by
  intro c hc
  rw [List.mem_append, List.mem_cons] at hc
  rcases hc with hc | rfl | hc
  · exact ha c hc
  · exact hd
  · exact hb c hc

open Uri.Spec in
theorem ipv4_visible {s : Str} (h : Ipv4 s) : ∀ c ∈ s, Visible c := by
  obtain ⟨a, b, c, d, ha, hb, hc, hd, rfl⟩ := h
  have hv : Visible (ch '.') := by decide
  exact mem_sep (octet_visible ha) hv (mem_sep (octet_visible hb) hv (mem_sep (octet_visible hc) hv (octet_visible hd)))

open Uri.Spec in
theorem h16_visible {s : Str} (h : H16 s) : ∀ c ∈ s, Visible c := fun c hc => (sets_visible c).2.1 (h.2.2 c hc)

open Uri.Spec in
theorem groups_visible {n : Nat} {s : Str} (h : Groups n s) : ∀ c ∈ s, Visible c := by
  induction h with
  | zero => simp
  | one h => exact h16_visible h
  | more h _ ih => exact mem_sep (h16_visible h) (by decide) ih

open Uri.Spec in
theorem tail_visible {n : Nat} {s : Str} (h : Tail n s) : ∀ c ∈ s, Visible c := by
  induction h with
  | groups h => exact groups_visible h
  | ipv4 h => exact ipv4_visible h
  | more h _ ih => exact mem_sep (h16_visible h) (by decide) ih

open Uri.Spec in
theorem host_visible {s : Str} (h : Host s) : ∀ c ∈ s, Visible c := by
  rcases h with ⟨t, rfl, h⟩ | h | h
  · have ht : ∀ c ∈ t, Visible c := by
      rcases h with (h | ⟨m, n, a, b, ha, hb, _, rfl⟩) | ⟨a, b, rfl, _, ha, _, hb⟩
      · exact tail_visible h
      · exact mem_sep (groups_visible ha) (by decide) (mem_sep (a := []) (by simp) (by decide) (tail_visible hb))
      · refine mem_sep (a := []) (by simp) (by decide) (mem_sep (fun c hc => (sets_visible c).2.1 (ha c hc)) (by decide) fun c hc => ?_)
        obtain ⟨_, _, _, _, _, _, _, h1, h2, h3⟩ := sets_visible c
        rcases hb c hc with h | h | h
        · exact h1 h
        · exact h2 h
        · exact h3 h
    exact mem_sep (a := []) (by simp) (by decide) (mem_sep ht (by decide) (by simp))
  · exact ipv4_visible h
  · refine coded_visible h fun c hc => ?_
    obtain ⟨_, _, _, _, _, _, _, h1, h2, _⟩ := sets_visible c
    exact hc.elim h1 h2

open Uri.Spec in
theorem compose_visible (u : Split) (h : Valid u) : ∀ c ∈ compose u, Visible c := by
  obtain ⟨h1, h2, h3, h4⟩ := h
  have hs : ∀ c ∈ (match u.scheme with | none => [] | some x => x ++ [ch ':']), Visible c := by
    cases hu : u.scheme with
    | none => simp
    | some x =>
      obtain ⟨a, t, rfl, ha, ht⟩ := h1 x hu
      refine mem_sep (fun c hc => ?_) (by decide) (by simp)
      obtain ⟨_, _, _, _, g1, g2, g3, _⟩ := sets_visible c
      rcases List.mem_cons.1 hc with rfl | hc
      · exact g2 ha
      · rcases ht c hc with h | h | h
        · exact g2 h
        · exact g1 h
        · exact g3 h
  have hq : ∀ s, Query s → ∀ c ∈ s, Visible c := fun s hq => coded_visible hq fun c hc => by
    obtain ⟨g1, _, g2, _⟩ := sets_visible c
    exact hc.elim g1 g2
  have ha : ∀ c ∈ (match u.authority with | none => [] | some x => ch '/' :: ch '/' :: Uri.Spec.authorityText x), Visible c := by
    cases hu : u.authority with
    | none => simp
    | some x =>
      obtain ⟨ui, ho, po⟩ := x
      rw [hu] at h2
      obtain ⟨g1, g2, g3, _⟩ := h2
      refine mem_sep (a := []) (by simp) (by decide) (mem_sep (a := []) (by simp) (by decide) fun c hc => ?_)
      simp only [Uri.Spec.authorityText, List.mem_append] at hc
      rcases hc with (hc | hc) | hc
      · cases ui with
        | none => simp at hc
        | some x =>
          refine mem_sep (coded_visible (g1 x rfl) fun c hc => ?_) (by decide) (by simp) c hc
          obtain ⟨_, _, _, _, _, _, _, k1, k2, k3⟩ := sets_visible c
          rcases hc with h | h | h
          · exact k1 h
          · exact k2 h
          · exact k3 h
      · exact host_visible g2 c hc
      · cases po with
        | none => simp at hc
        | some x => exact mem_sep (a := []) (by simp) (by decide) (fun c hc => (sets_visible c).2.2.2.2.1 (g3 x rfl c hc)) c hc
  have hp : ∀ c ∈ u.path, Visible c := by
    have hroot : ∀ s, PathRootless s → ∀ c ∈ s, Visible c := fun s h => path_visible h.2.2
    cases hu : u.authority with
    | some x =>
      obtain ⟨ui, ho, po⟩ := x
      rw [hu] at h2
      exact path_visible h2.2.2.2.2
    | none =>
      rw [hu] at h2
      rcases h2 with ⟨t, e, _, ht⟩ | h2 | h2
      · rw [e]; exact mem_sep (a := []) (by simp) (by decide) (path_visible ht)
      · split at h2
        · exact hroot _ h2
        · exact hroot _ h2.1
      · rw [h2]; simp
  have hopt : ∀ (o : Option Str) (d : UInt8), Visible d → (∀ s, o = some s → Query s) → ∀ c ∈ (match o with | none => [] | some x => d :: x), Visible c := by
    intro o d hd ho
    cases o with
    | none => simp
    | some x => exact mem_sep (a := []) (by simp) hd (hq x (ho x rfl))
  intro c hc
  unfold compose at hc
  simp only [List.mem_append] at hc
  rcases hc with (((hc | hc) | hc) | hc) | hc
  · exact hs c hc
  · exact ha c hc
  · exact hp c hc
  · exact hopt _ _ (by decide) h3 c hc
  · exact hopt _ _ (by decide) h4 c hc

open Uri.Spec Uri.Lemmas in
theorem print_visible (u : Split) (h : Valid u) (hs : u.scheme.isSome = u.authority.isSome) (hp : u.path ≠ []) :
    Uri.print (parts u) ≠ [] ∧ ∀ c ∈ Uri.print (parts u), Visible c := by
  constructor
  · intro h0
    unfold Uri.print at h0
    simp only [List.append_eq_nil_iff] at h0
    have := h0.1.1.2
    split at this <;> simp_all
  · rw [print_dropEmpty u h hs hp]
    exact compose_visible _ (valid_dropEmpty u h)

end Verif.HttpMsg.Lemmas
