import Verif.Uri.Spec
/-! Auxiliary lemmas on the parser of references: what it accepts (no claims). -/

namespace Verif.Uri.Lemmas
open Verif.Uri Verif.Uri.Spec

instance (set : String) (c : UInt8) : Decidable (In set c) := inferInstanceAs (Decidable (_ ∈ _))
instance (c : UInt8) : Decidable (Alpha c) := inferInstanceAs (Decidable (In _ _))
instance (c : UInt8) : Decidable (Digit c) := inferInstanceAs (Decidable (In _ _))
instance (c : UInt8) : Decidable (Hex c) := inferInstanceAs (Decidable (In _ _))
instance (c : UInt8) : Decidable (Unreserved c) := inferInstanceAs (Decidable (_ ∨ _ ∨ _))
instance (c : UInt8) : Decidable (SubDelim c) := inferInstanceAs (Decidable (In _ _))
instance (c : UInt8) : Decidable (Pchar c) := inferInstanceAs (Decidable (_ ∨ _ ∨ _))

theorem forall_byte {p : UInt8 → Prop} (h : ∀ i : Fin 256, p (UInt8.ofNat i.val)) (c : UInt8) : p c := by
  have := h ⟨c.toNat, c.toNat_lt⟩
  simpa using this

theorem isAlpha_iff (c : UInt8) : isAlpha c = true ↔ Alpha c := by revert c; apply forall_byte; decide +kernel
theorem isDigit_iff (c : UInt8) : isDigit c = true ↔ Digit c := by revert c; apply forall_byte; decide +kernel
theorem isHex_iff (c : UInt8) : isHex c = true ↔ Hex c := by revert c; apply forall_byte; decide +kernel
theorem isUnreserved_iff (c : UInt8) : isUnreserved c = true ↔ Unreserved c := by revert c; apply forall_byte; decide +kernel
theorem isSubDelim_iff (c : UInt8) : isSubDelim c = true ↔ SubDelim c := by revert c; apply forall_byte; decide +kernel

/-- What a parsing function accepts is in the set. -/
def Ok (f : P) (l : Str → Prop) : Prop := ∀ p q, f p = .ok q → ∃ t, p = t ++ q ∧ l t

/-- With a terminator ahead nothing undefined happens, and the terminator stays ahead. -/
def Safe (f : P) : Prop := ∀ p, 0 ∈ p → (∃ q, f p = .ok q ∧ 0 ∈ q) ∨ f p = .error .fail

theorem Ok.mono {f : P} {l m : Str → Prop} (h : Ok f l) (hm : ∀ t, l t → m t) : Ok f m := by
  intro p q e
  obtain ⟨t, h1, h2⟩ := h p q e
  exact ⟨t, h1, hm t h2⟩

theorem ok_one (f : UInt8 → Bool) : Ok (one f) (fun t => ∃ c, t = [c] ∧ f c = true) := by
  intro p q h
  cases p with
  | nil => simp [one] at h
  | cons c p =>
    rw [one] at h
    split at h
    · rename_i hc
      simp only [Except.ok.injEq] at h
      exact ⟨[c], by simp [h], c, rfl, hc⟩
    · cases h

theorem safe_one (f : UInt8 → Bool) (h0 : f 0 = false) : Safe (one f) := by
  intro p h
  cases p with
  | nil => simp at h
  | cons c p =>
    rw [one]
    split
    · rename_i hc
      left
      refine ⟨p, rfl, ?_⟩
      rcases List.mem_cons.mp h with e | e
      · rw [← e, h0] at hc; cases hc
      · exact e
    · right; rfl

theorem ok_skip (f : UInt8 → Bool) : Ok (skip f) (fun t => ∀ c ∈ t, f c = true) := by
  intro p
  induction p with
  | nil => intro q h; simp [skip] at h
  | cons c p ih =>
    intro q h
    rw [skip] at h
    split at h
    · rename_i hc
      obtain ⟨t, rfl, h2⟩ := ih q h
      exact ⟨c :: t, rfl, by simpa [hc] using h2⟩
    · simp only [Except.ok.injEq] at h
      exact ⟨[], by simp [h], by simp⟩

theorem safe_skip (f : UInt8 → Bool) (h0 : f 0 = false) : Safe (skip f) := by
  intro p
  induction p with
  | nil => intro h; simp at h
  | cons c p ih =>
    intro h
    rw [skip]
    split
    · rename_i hc
      apply ih
      rcases List.mem_cons.mp h with e | e
      · rw [← e, h0] at hc; cases hc
      · exact e
    · left; exact ⟨_, rfl, h⟩

theorem ok_seq {f g : P} {l m : Str → Prop} (hf : Ok f l) (hg : Ok g m) : Ok (seq f g) (fun t => ∃ a b, t = a ++ b ∧ l a ∧ m b) := by
  intro p q h
  unfold seq at h
  cases hfp : f p with
  | error e => rw [hfp] at h; cases h
  | ok r =>
    rw [hfp] at h
    obtain ⟨a, rfl, ha⟩ := hf p r hfp
    obtain ⟨b, rfl, hb⟩ := hg r q h
    exact ⟨a ++ b, by simp, a, b, rfl, ha, hb⟩

theorem safe_seq {f g : P} (hf : Safe f) (hg : Safe g) : Safe (seq f g) := by
  intro p h
  unfold seq
  rcases hf p h with ⟨q, e, hq⟩ | e
  · rw [e]; exact hg q hq
  · rw [e]; right; rfl

theorem ok_orElse {f g : P} {l m : Str → Prop} (hf : Ok f l) (hg : Ok g m) : Ok (orElse f g) (fun t => l t ∨ m t) := by
  intro p q h
  unfold orElse at h
  split at h
  · obtain ⟨t, h1, h2⟩ := hg p q h
    exact ⟨t, h1, Or.inr h2⟩
  · obtain ⟨t, h1, h2⟩ := hf p q h
    exact ⟨t, h1, Or.inl h2⟩

theorem safe_orElse {f g : P} (hf : Safe f) (hg : Safe g) : Safe (orElse f g) := by
  intro p h
  unfold orElse
  rcases hf p h with ⟨q, e, hq⟩ | e
  · rw [e]; left; exact ⟨q, rfl, hq⟩
  · rw [e]; exact hg p h

theorem ok_ok : Ok (.ok : P) (fun t => t = []) := by
  intro p q h
  simp only [Except.ok.injEq] at h
  exact ⟨[], by simp [h], rfl⟩

theorem safe_ok : Safe (.ok : P) := fun p h => Or.inl ⟨p, rfl, h⟩

theorem ok_opt {f : P} {l : Str → Prop} (hf : Ok f l) : Ok (opt f) (fun t => l t ∨ t = []) := ok_orElse hf ok_ok

theorem safe_opt {f : P} (hf : Safe f) : Safe (opt f) := safe_orElse hf safe_ok

/-- Repetition. -/
inductive Star (l : Str → Prop) : Str → Prop
  | nil : Star l []
  | cons {a b : Str} : l a → Star l b → Star l (a ++ b)

theorem ok_many {f : P} {l : Str → Prop} (hf : Ok f l) : Ok (many f) (Star l) := by
  intro p
  induction hn : p.length using Nat.strongRecOn generalizing p with
  | _ n ih =>
    intro q h
    rw [many] at h
    split at h
    · rename_i r hr
      split at h
      · rename_i hlt
        obtain ⟨a, rfl, ha⟩ := hf _ _ hr
        obtain ⟨b, rfl, hb⟩ := ih _ (by omega) r rfl q h
        exact ⟨a ++ b, by simp, .cons ha hb⟩
      · cases h
    · simp only [Except.ok.injEq] at h
      exact ⟨[], by simp [h], .nil⟩
    · cases h

theorem safe_many {f : P} {l : Str → Prop} (hf : Ok f l) (hs : Safe f) (hne : ∀ t, l t → t ≠ []) : Safe (many f) := by
  intro p
  induction hn : p.length using Nat.strongRecOn generalizing p with
  | _ n ih =>
    intro h
    rw [many]
    rcases hs p h with ⟨q, e, hq⟩ | e
    · rw [e]
      obtain ⟨a, rfl, ha⟩ := hf _ _ e
      have : a.length ≠ 0 := fun h => hne a ha (List.length_eq_zero_iff.mp h)
      have hlt : q.length < (a ++ q).length := by simp; omega
      simp only [if_pos hlt]
      exact ih _ (by simp at hlt hn; omega) q rfl hq
    · rw [e]; left; exact ⟨p, rfl, h⟩

/-! Character level. -/

/-- An escape. -/
def Esc (t : Str) : Prop := ∃ a b, t = [37, a, b] ∧ Hex a ∧ Hex b

theorem ok_pct : Ok pct Esc := by
  refine (ok_seq (ok_one _) (ok_seq (ok_one _) (ok_one _))).mono ?_
  rintro t ⟨_, _, rfl, ⟨c, rfl, hc⟩, _, _, rfl, ⟨a, rfl, ha⟩, b, rfl, hb⟩
  have : c = 37 := by simpa using hc
  subst this
  exact ⟨a, b, rfl, (isHex_iff a).mp ha, (isHex_iff b).mp hb⟩

theorem safe_pct : Safe pct := safe_seq (safe_one _ rfl) (safe_seq (safe_one _ rfl) (safe_one _ rfl))

/-- One character of a set or an escape. -/
def Unit1 (p : UInt8 → Prop) (t : Str) : Prop := (∃ c, t = [c] ∧ p c) ∨ Esc t

theorem Unit1.ne {p : UInt8 → Prop} {t : Str} (h : Unit1 p t) : t ≠ [] := by
  rcases h with ⟨c, rfl, _⟩ | ⟨a, b, rfl, _⟩ <;> simp

theorem star_coded {p : UInt8 → Prop} {t : Str} (h : Star (Unit1 p) t) : Coded p t := by
  induction h with
  | nil => exact .nil
  | cons ha _ ih =>
    rcases ha with ⟨c, rfl, hc⟩ | ⟨a, b, rfl, h1, h2⟩
    · exact .char c hc ih
    · exact .pct a b h1 h2 ih

theorem coded_append {p : UInt8 → Prop} {s t : Str} (hs : Coded p s) (ht : Coded p t) : Coded p (s ++ t) := by
  induction hs with
  | nil => exact ht
  | char c h _ ih => exact .char c h ih
  | pct a b h1 h2 _ ih => exact .pct a b h1 h2 ih

theorem coded_mono {p q : UInt8 → Prop} (h : ∀ c, p c → q c) {t : Str} (ht : Coded p t) : Coded q t := by
  induction ht with
  | nil => exact .nil
  | char c hc _ ih => exact .char c (h c hc) ih
  | pct a b h1 h2 _ ih => exact .pct a b h1 h2 ih

/-- The characters of a path segment without colon. -/
def PcharNc (c : UInt8) : Prop := Unreserved c ∨ SubDelim c ∨ In "@" c

theorem ok_pchar_true : Ok (pchar true) (Unit1 Pchar) := by
  refine (ok_orElse (ok_one _) (ok_orElse ok_pct (ok_orElse (ok_one _) (ok_orElse (ok_one _) (ok_one _))))).mono ?_
  rintro t (⟨c, rfl, hc⟩ | h | ⟨c, rfl, hc⟩ | ⟨c, rfl, hc⟩ | ⟨c, rfl, hc⟩)
  · exact Or.inl ⟨c, rfl, Or.inl ((isUnreserved_iff c).mp hc)⟩
  · exact Or.inr h
  · exact Or.inl ⟨c, rfl, Or.inr (Or.inl ((isSubDelim_iff c).mp hc))⟩
  · have : c = 58 := by simpa using hc
    subst this
    exact Or.inl ⟨58, rfl, by decide +kernel⟩
  · have : c = 64 := by simpa using hc
    subst this
    exact Or.inl ⟨64, rfl, by decide +kernel⟩

theorem ok_pchar_false : Ok (pchar false) (Unit1 PcharNc) := by
  refine (ok_orElse (ok_one _) (ok_orElse ok_pct (ok_orElse (ok_one _) (ok_orElse (ok_one _) (ok_one _))))).mono ?_
  rintro t (⟨c, rfl, hc⟩ | h | ⟨c, rfl, hc⟩ | ⟨c, rfl, hc⟩ | ⟨c, rfl, hc⟩)
  · exact Or.inl ⟨c, rfl, Or.inl ((isUnreserved_iff c).mp hc)⟩
  · exact Or.inr h
  · exact Or.inl ⟨c, rfl, Or.inr (Or.inl ((isSubDelim_iff c).mp hc))⟩
  · simp at hc
  · have : c = 64 := by simpa using hc
    subst this
    exact Or.inl ⟨64, rfl, Or.inr (Or.inr (by decide +kernel))⟩

theorem safe_pchar (colon : Bool) : Safe (pchar colon) :=
  safe_orElse (safe_one _ (by decide)) (safe_orElse safe_pct (safe_orElse (safe_one _ (by decide))
    (safe_orElse (safe_one _ (by cases colon <;> rfl)) (safe_one _ (by decide)))))

theorem ok_segment : Ok segment (Coded Pchar) := (ok_many ok_pchar_true).mono fun _ => star_coded
theorem safe_segment : Safe segment := safe_many ok_pchar_true (safe_pchar true) fun _ => Unit1.ne

theorem ok_segmentNz : Ok segmentNz (fun t => t ≠ [] ∧ Coded Pchar t) := by
  refine (ok_seq ok_pchar_true ok_segment).mono ?_
  rintro t ⟨a, b, rfl, ha, hb⟩
  refine ⟨by simp [ha.ne], coded_append ?_ hb⟩
  have := star_coded (.cons ha .nil)
  simpa using this
theorem safe_segmentNz : Safe segmentNz := safe_seq (safe_pchar true) safe_segment

theorem ok_segmentNzNc : Ok segmentNzNc (fun t => t ≠ [] ∧ Coded PcharNc t) := by
  refine (ok_seq ok_pchar_false (ok_many ok_pchar_false)).mono ?_
  rintro t ⟨a, b, rfl, ha, hb⟩
  refine ⟨by simp [ha.ne], coded_append ?_ (star_coded hb)⟩
  have := star_coded (.cons ha .nil)
  simpa using this
theorem safe_segmentNzNc : Safe segmentNzNc :=
  safe_seq (safe_pchar false) (safe_many ok_pchar_false (safe_pchar false) fun _ => Unit1.ne)

/-- `"/" segment`. -/
def Slash (t : Str) : Prop := ∃ s, t = 47 :: s ∧ Coded Pchar s

theorem ok_slash : Ok (seq (one (· == 47)) segment) Slash := by
  refine (ok_seq (ok_one _) ok_segment).mono ?_
  rintro t ⟨_, b, rfl, ⟨c, rfl, hc⟩, hb⟩
  have : c = 47 := by simpa using hc
  subst this
  exact ⟨b, rfl, hb⟩

theorem ok_pathAbempty : Ok pathAbempty PathAbempty := by
  refine (ok_many ok_slash).mono ?_
  intro t h
  refine ⟨?_, ?_⟩
  · intro c hc
    cases h with
    | nil => simp at hc
    | cons ha _ =>
      obtain ⟨s, rfl, _⟩ := ha
      simp at hc; rw [← hc]; rfl
  · induction h with
    | nil => exact .nil
    | cons ha _ ih =>
      obtain ⟨s, rfl, hs⟩ := ha
      exact .char 47 (Or.inr (by decide +kernel)) (coded_append (coded_mono (fun c h => Or.inl h) hs) ih)

theorem safe_pathAbempty : Safe pathAbempty := by
  refine safe_many ok_slash (safe_seq (safe_one _ rfl) safe_segment) ?_
  rintro t ⟨s, rfl, _⟩; simp

theorem pchar_not_slash (c : UInt8) (h : Pchar c) : c ≠ ch '/' := by revert h; revert c; apply forall_byte; decide +kernel
instance (c : UInt8) : Decidable (PcharNc c) := inferInstanceAs (Decidable (_ ∨ _ ∨ _))
theorem pcharNc_pchar (c : UInt8) (h : PcharNc c) : Pchar c := by revert h; revert c; apply forall_byte; decide +kernel
theorem pcharNc_not_colon (c : UInt8) (h : PcharNc c) : c ≠ ch ':' := by revert h; revert c; apply forall_byte; decide +kernel
theorem hex_not_colon (c : UInt8) (h : Hex c) : c ≠ ch ':' ∧ c ≠ 0 ∧ c ≠ ch '/' := by
  revert h; revert c; apply forall_byte; decide +kernel

theorem coded_head {p : UInt8 → Prop} {t : Str} (h : Coded p t) (c : UInt8) (hc : t.head? = some c) : p c ∨ c = 37 := by
  cases h with
  | nil => simp at hc
  | char d hd _ => simp at hc; subst hc; exact Or.inl hd
  | pct a b _ _ _ => simp at hc; exact Or.inr hc.symm

theorem coded_mem {p : UInt8 → Prop} {t : Str} (h : Coded p t) (c : UInt8) (hc : c ∈ t) : p c ∨ c = 37 ∨ Hex c := by
  induction h with
  | nil => simp at hc
  | char d hd _ ih =>
    rcases List.mem_cons.mp hc with rfl | hc
    · exact Or.inl hd
    · exact ih hc
  | pct a b ha hb _ ih =>
    simp only [List.mem_cons] at hc
    rcases hc with rfl | rfl | rfl | hc
    · exact Or.inr (Or.inl rfl)
    · exact Or.inr (Or.inr ha)
    · exact Or.inr (Or.inr hb)
    · exact ih hc

theorem rootless_of {a b : Str} (ha : a ≠ []) (hc : Coded Pchar a) (hb : PathAbempty b) : PathRootless (a ++ b) := by
  refine ⟨by simp [ha], ?_, coded_append (coded_mono (fun c h => Or.inl h) hc) hb.2⟩
  intro c h
  obtain ⟨x, a, rfl⟩ := List.exists_cons_of_ne_nil ha
  simp at h; subst h
  rcases coded_head hc x rfl with h | rfl
  · exact pchar_not_slash x h
  · decide +kernel

theorem ok_pathAbsolute : Ok pathAbsolute PathAbsolute := by
  refine (ok_seq (ok_one _) (ok_opt (ok_seq ok_segmentNz ok_pathAbempty))).mono ?_
  rintro t ⟨_, b, rfl, ⟨c, rfl, hc⟩, h⟩
  have : c = 47 := by simpa using hc
  subst this
  rcases h with ⟨a, b, rfl, ⟨h1, h2⟩, h3⟩ | rfl
  · have := rootless_of h1 h2 h3
    exact ⟨a ++ b, rfl, this.2.1, this.2.2⟩
  · exact ⟨[], rfl, by simp, .nil⟩

theorem safe_pathAbsolute : Safe pathAbsolute := safe_seq (safe_one _ rfl) (safe_opt (safe_seq safe_segmentNz safe_pathAbempty))

theorem ok_pathRootless : Ok pathRootless PathRootless := by
  refine (ok_seq ok_segmentNz ok_pathAbempty).mono ?_
  rintro t ⟨a, b, rfl, ⟨h1, h2⟩, h3⟩
  exact rootless_of h1 h2 h3

theorem safe_pathRootless : Safe pathRootless := safe_seq safe_segmentNz safe_pathAbempty

theorem ok_pathNoscheme : Ok pathNoscheme PathNoscheme := by
  refine (ok_seq ok_segmentNzNc ok_pathAbempty).mono ?_
  rintro t ⟨a, b, rfl, ⟨h1, h2⟩, h3⟩
  refine ⟨rootless_of h1 (coded_mono pcharNc_pchar h2) h3, ?_⟩
  intro x y e
  have hna : ch ':' ∉ a := by
    intro hm
    rcases coded_mem h2 _ hm with h | h | h
    · exact pcharNc_not_colon _ h rfl
    · exact absurd h (by decide +kernel)
    · exact (hex_not_colon _ h).1 rfl
  rcases List.append_eq_append_iff.mp e with ⟨z, hz, hy⟩ | ⟨z, hz, hy⟩
  · -- x = a ++ z, b = z ++ ':' :: y
    cases z with
    | nil =>
      exfalso
      simp only [List.nil_append] at hy
      have := h3.1 (ch ':') (by rw [hy]; rfl)
      exact absurd this (by decide +kernel)
    | cons w z =>
      have := h3.1 w (by rw [hy]; rfl)
      rw [hz, this]; simp
  · exfalso
    cases z with
    | nil =>
      simp only [List.nil_append] at hy
      have := h3.1 (ch ':') (by rw [← hy]; rfl)
      exact absurd this (by decide +kernel)
    | cons w z =>
      simp only [List.cons_append, List.cons.injEq] at hy
      apply hna
      rw [hz, hy.1]; simp

theorem safe_pathNoscheme : Safe pathNoscheme := safe_seq safe_segmentNzNc safe_pathAbempty

theorem ok_queryText : Ok queryText Query := by
  refine (ok_many (l := Unit1 (fun c => Pchar c ∨ In "/?" c)) ((ok_orElse ok_pchar_true (ok_one _)).mono ?_)).mono fun _ => star_coded
  rintro t ((⟨c, rfl, hc⟩ | h) | ⟨c, rfl, hc⟩)
  · exact Or.inl ⟨c, rfl, Or.inl hc⟩
  · exact Or.inr h
  · refine Or.inl ⟨c, rfl, Or.inr ?_⟩
    simp only [Bool.or_eq_true, beq_iff_eq] at hc
    rcases hc with rfl | rfl <;> decide +kernel

theorem safe_queryText : Safe queryText := by
  refine safe_many (ok_orElse ok_pchar_true (ok_one _)) (safe_orElse (safe_pchar true) (safe_one _ rfl)) ?_
  rintro t (h | ⟨c, rfl, _⟩)
  · exact h.ne
  · simp

theorem ok_scheme : Ok scheme Scheme := by
  refine (ok_seq (ok_one _) (ok_skip _)).mono ?_
  rintro t ⟨_, b, rfl, ⟨c, rfl, hc⟩, hb⟩
  refine ⟨c, b, rfl, (isAlpha_iff c).mp hc, ?_⟩
  intro d hd
  have := hb d hd
  revert this; clear hd hb hc; revert d; apply forall_byte; decide +kernel

theorem safe_scheme : Safe scheme := safe_seq (safe_one _ (by decide)) (safe_skip _ (by decide))

/-! Hosts. -/

theorem ok_h16 : Ok h16 H16Full := by
  refine (ok_seq (ok_one _) (ok_seq (ok_one _) (ok_seq (ok_one _) (ok_one _)))).mono ?_
  rintro t ⟨_, _, rfl, ⟨a, rfl, ha⟩, _, _, rfl, ⟨b, rfl, hb⟩, _, _, rfl, ⟨c, rfl, hc⟩, d, rfl, hd⟩
  refine ⟨rfl, ?_⟩
  simp [← isHex_iff, ha, hb, hc, hd]

theorem safe_h16 : Safe h16 := safe_seq (safe_one _ (by decide)) (safe_seq (safe_one _ (by decide))
  (safe_seq (safe_one _ (by decide)) (safe_one _ (by decide))))

/-- The octets by shape. -/
theorem octet_iff (t : Str) : Octet t ↔ t ∈ (List.range 256).map (fun n => (toString n).toList.map ch) := by
  unfold Octet
  simp only [List.mem_map, List.mem_range]
  constructor
  · rintro ⟨n, h, e⟩; exact ⟨n, h, e.symm⟩
  · rintro ⟨n, h, e⟩; exact ⟨n, h, e.symm⟩

theorem digit_cases (c : UInt8) (h : isDigit c = true) : c ∈ ([48, 49, 50, 51, 52, 53, 54, 55, 56, 57] : Str) := by
  revert h; revert c; apply forall_byte; decide +kernel

instance (t : Str) : Decidable (Octet t) := decidable_of_iff _ (octet_iff t).symm

/-- The digits. -/
def ds : Str := [48, 49, 50, 51, 52, 53, 54, 55, 56, 57]

theorem octet1 : ∀ a ∈ ds, Octet [a] := by decide +kernel
theorem octet2 : ∀ a ∈ ds, a ≠ 48 → ∀ b ∈ ds, Octet [a, b] := by decide +kernel
theorem octet3 : ∀ b ∈ ds, ∀ c ∈ ds, Octet [49, b, c] ∧ (b ≤ 52 → Octet [50, b, c]) ∧ (c ≤ 53 → Octet [50, 53, c]) := by decide +kernel

theorem digit_of_le (c : UInt8) : (48 ≤ c && c ≤ 53) = true → c ∈ ds ∧ c ≤ 53 := by revert c; apply forall_byte; decide +kernel
theorem digit_of_le2 (c : UInt8) : (48 ≤ c && c ≤ 52) = true → c ∈ ds ∧ c ≤ 52 := by revert c; apply forall_byte; decide +kernel
theorem digit_of_pos (c : UInt8) : (49 ≤ c && c ≤ 57) = true → c ∈ ds ∧ c ≠ 48 := by revert c; apply forall_byte; decide +kernel

theorem ok_decOctet : Ok decOctet Octet := by
  refine (ok_orElse (ok_seq (ok_one _) (ok_seq (ok_one _) (ok_one _))) (ok_orElse (ok_seq (ok_one _) (ok_seq (ok_one _) (ok_one _)))
    (ok_orElse (ok_seq (ok_one _) (ok_seq (ok_one _) (ok_one _))) (ok_orElse (ok_seq (ok_one _) (ok_one _)) (ok_one _))))).mono ?_
  rintro t (⟨_, _, rfl, ⟨a, rfl, ha⟩, _, _, rfl, ⟨b, rfl, hb⟩, c, rfl, hc⟩ | ⟨_, _, rfl, ⟨a, rfl, ha⟩, _, _, rfl, ⟨b, rfl, hb⟩, c, rfl, hc⟩ |
    ⟨_, _, rfl, ⟨a, rfl, ha⟩, _, _, rfl, ⟨b, rfl, hb⟩, c, rfl, hc⟩ | ⟨_, _, rfl, ⟨a, rfl, ha⟩, b, rfl, hb⟩ | ⟨a, rfl, ha⟩)
  · have e1 : a = 50 := by simpa using ha
    have e2 : b = 53 := by simpa using hb
    subst e1; subst e2
    have := digit_of_le c hc
    exact (octet3 53 (by decide) c this.1).2.2 this.2
  · have e1 : a = 50 := by simpa using ha
    subst e1
    have := digit_of_le2 b hb
    exact (octet3 b this.1 c (digit_cases c hc)).2.1 this.2
  · have e1 : a = 49 := by simpa using ha
    subst e1
    exact (octet3 b (digit_cases b hb) c (digit_cases c hc)).1
  · have := digit_of_pos a ha
    exact octet2 a this.1 this.2 b (digit_cases b hb)
  · exact octet1 a (digit_cases a ha)

theorem safe_decOctet : Safe decOctet :=
  safe_orElse (safe_seq (safe_one _ (by decide)) (safe_seq (safe_one _ (by decide)) (safe_one _ (by decide))))
    (safe_orElse (safe_seq (safe_one _ (by decide)) (safe_seq (safe_one _ (by decide)) (safe_one _ (by decide))))
      (safe_orElse (safe_seq (safe_one _ (by decide)) (safe_seq (safe_one _ (by decide)) (safe_one _ (by decide))))
        (safe_orElse (safe_seq (safe_one _ (by decide)) (safe_one _ (by decide))) (safe_one _ (by decide)))))

theorem ok_char (x : UInt8) : Ok (one (· == x)) (fun t => t = [x]) := by
  refine (ok_one _).mono ?_
  rintro t ⟨c, rfl, hc⟩
  have : c = x := by simpa using hc
  rw [this]

theorem ok_ipv4 : Ok ipv4 Ipv4 := by
  refine (ok_seq ok_decOctet (ok_seq (ok_char _) (ok_seq ok_decOctet (ok_seq (ok_char _) (ok_seq ok_decOctet
    (ok_seq (ok_char _) ok_decOctet)))))).mono ?_
  rintro t ⟨a, _, rfl, ha, _, _, rfl, rfl, b, _, rfl, hb, _, _, rfl, rfl, c, _, rfl, hc, _, d, rfl, rfl, hd⟩
  exact ⟨a, b, c, d, ha, hb, hc, hd, rfl⟩

theorem safe_ipv4 : Safe ipv4 :=
  safe_seq safe_decOctet (safe_seq (safe_one _ rfl) (safe_seq safe_decOctet (safe_seq (safe_one _ rfl)
    (safe_seq safe_decOctet (safe_seq (safe_one _ rfl) safe_decOctet)))))

theorem h16_of_full {s : Str} (h : H16Full s) : H16 s := ⟨by rw [h.1]; decide, by rw [h.1]; decide, h.2⟩

theorem fullGroups_groups {n : Nat} {s : Str} (h : FullGroups n s) : Groups n s := by
  induction h with
  | zero => exact .zero
  | one h => exact .one (h16_of_full h)
  | more h _ ih => exact .more (h16_of_full h) ih

theorem fullTail_tail {n : Nat} {s : Str} (h : FullTail n s) : Tail n s := by
  induction h with
  | groups h => exact .groups (fullGroups_groups h)
  | ipv4 h => exact .ipv4 h
  | more h _ ih => exact .more (h16_of_full h) ih

theorem knownIpv6_ipv6 {s : Str} (h : KnownIpv6 s) : Ipv6 s := by
  rcases h with h | ⟨m, n, a, b, h1, h2, h3, _, h5⟩
  · exact Or.inl (fullTail_tail h)
  · exact Or.inr ⟨m, n, a, b, fullGroups_groups h1, fullTail_tail h2, h3, h5⟩

theorem ok_ls32 : Ok ls32 (FullTail 2) := by
  refine (ok_orElse ok_ipv4 (ok_seq ok_h16 (ok_seq (ok_char _) ok_h16))).mono ?_
  rintro t (h | ⟨a, _, rfl, ha, _, b, rfl, rfl, hb⟩)
  · exact .ipv4 h
  · exact .groups (.more ha (.one hb))

theorem safe_ls32 : Safe ls32 := safe_orElse safe_ipv4 (safe_seq safe_h16 (safe_seq (safe_one _ rfl) safe_h16))

/-- `n` times a group and a colon. -/
inductive Colons : Nat → Str → Prop
  | zero : Colons 0 []
  | succ {n : Nat} {s t : Str} (h : H16Full s) : Colons n t → Colons (n + 1) (s ++ ch ':' :: t)

theorem ok_h16Colon (n : Nat) : Ok (h16Colon n) (Colons n) := by
  induction n with
  | zero => exact ok_ok.mono (by rintro t rfl; exact .zero)
  | succ n ih =>
    refine (ok_seq ok_h16 (ok_seq (ok_char _) ih)).mono ?_
    rintro t ⟨a, _, rfl, ha, _, b, rfl, rfl, hb⟩
    exact .succ ha hb

theorem safe_h16Colon (n : Nat) : Safe (h16Colon n) := by
  induction n with
  | zero => exact safe_ok
  | succ n ih => exact safe_seq safe_h16 (safe_seq (safe_one _ rfl) ih)

theorem colons_groups {n : Nat} {a b : Str} (ha : Colons n a) (hb : H16Full b) : FullGroups (n + 1) (a ++ b) := by
  induction ha with
  | zero => exact .one hb
  | succ h _ ih =>
    rw [List.append_assoc, List.cons_append]
    exact .more h ih

theorem colons_tail {n m : Nat} {a b : Str} (ha : Colons n a) (hb : FullTail (m + 1) b) : FullTail (n + m + 1) (a ++ b) := by
  induction ha with
  | zero => simpa using hb
  | succ h _ ih =>
    rw [List.append_assoc, List.cons_append]
    have := FullTail.more h ih
    rw [show ∀ n : Nat, n + 1 + m + 1 = n + m + 2 from fun n => by omega]
    exact this

theorem ok_prefix (n : Nat) : Ok (seq (h16Colon n) h16) (FullGroups (n + 1)) := by
  refine (ok_seq (ok_h16Colon n) ok_h16).mono ?_
  rintro t ⟨a, b, rfl, ha, hb⟩
  exact colons_groups ha hb

theorem ok_suffix (n : Nat) : Ok (seq (h16Colon n) ls32) (FullTail (n + 2)) := by
  refine (ok_seq (ok_h16Colon n) ok_ls32).mono ?_
  rintro t ⟨a, b, rfl, ha, hb⟩
  exact colons_tail ha hb

theorem ok_colons : Ok colons (fun t => t = [ch ':', ch ':']) := by
  refine (ok_seq (ok_char _) (ok_char _)).mono ?_
  rintro t ⟨_, _, rfl, rfl, rfl⟩; rfl

theorem safe_colons : Safe colons := safe_seq (safe_one _ rfl) (safe_one _ rfl)

theorem ok_alt (m n : Nat) (h : m + n = 7) (f g : P) (hf : Ok f (FullGroups m)) (hg : Ok g (FullTail n)) :
    Ok (seq (opt f) (seq colons g)) KnownIpv6 := by
  refine (ok_seq (ok_opt hf) (ok_seq ok_colons hg)).mono ?_
  rintro t ⟨a, _, rfl, ha, _, b, rfl, rfl, hb⟩
  rcases ha with ha | rfl
  · exact Or.inr ⟨m, n, a, b, ha, hb, by omega, Or.inr h, rfl⟩
  · exact Or.inr ⟨0, n, [], b, .zero, hb, by omega, Or.inl rfl, rfl⟩

theorem ok_fail (l : Str → Prop) : Ok (fun _ => .error .fail) l := by intro p q h; cases h

theorem ok_foldr (fs : List P) (l : Str → Prop) (h : ∀ f ∈ fs, Ok f l) : Ok (fs.foldr orElse (fun _ => .error .fail)) l := by
  induction fs with
  | nil => exact ok_fail l
  | cons f fs ih =>
    rw [List.foldr_cons]
    refine (ok_orElse (h f (by simp)) (ih fun g hg => h g (by simp [hg]))).mono ?_
    rintro t (h | h) <;> exact h

theorem safe_foldr (fs : List P) (h : ∀ f ∈ fs, Safe f) : Safe (fs.foldr orElse (fun _ => .error .fail)) := by
  induction fs with
  | nil => exact fun p _ => Or.inr rfl
  | cons f fs ih => exact safe_orElse (h f (by simp)) (ih fun g hg => h g (by simp [hg]))

theorem ok_ipv6 : Ok ipv6 KnownIpv6 := by
  apply ok_foldr
  intro f hf
  simp only [ipv6Alts, List.mem_cons, List.not_mem_nil, or_false] at hf
  rcases hf with rfl | rfl | rfl | rfl | rfl | rfl | rfl | rfl | rfl
  · exact (ok_suffix 6).mono fun t h => Or.inl h
  · refine (ok_seq ok_colons (ok_suffix 5)).mono ?_
    rintro t ⟨_, b, rfl, rfl, hb⟩
    exact Or.inr ⟨0, 7, [], b, .zero, hb, by omega, Or.inl rfl, rfl⟩
  · exact ok_alt 1 6 rfl _ _ (ok_h16.mono fun t h => .one h) (ok_suffix 4)
  · exact ok_alt 2 5 rfl _ _ (ok_prefix 1) (ok_suffix 3)
  · exact ok_alt 3 4 rfl _ _ (ok_prefix 2) (ok_suffix 2)
  · exact ok_alt 4 3 rfl _ _ (ok_prefix 3) (ok_suffix 1)
  · exact ok_alt 5 2 rfl _ _ (ok_prefix 4) ok_ls32
  · exact ok_alt 6 1 rfl _ _ (ok_prefix 5) (ok_h16.mono fun t h => .groups (.one h))
  · refine (ok_seq (ok_opt (ok_prefix 6)) ok_colons).mono ?_
    rintro t ⟨a, _, rfl, ha, rfl⟩
    rcases ha with ha | rfl
    · exact Or.inr ⟨7, 0, a, [], ha, .groups .zero, by omega, Or.inr rfl, rfl⟩
    · exact Or.inr ⟨0, 0, [], [], .zero, .groups .zero, by omega, Or.inl rfl, rfl⟩

theorem safe_ipv6 : Safe ipv6 := by
  apply safe_foldr
  intro f hf
  simp only [ipv6Alts, List.mem_cons, List.not_mem_nil, or_false] at hf
  rcases hf with rfl | rfl | rfl | rfl | rfl | rfl | rfl | rfl | rfl
  · exact safe_seq (safe_h16Colon 6) safe_ls32
  · exact safe_seq safe_colons (safe_seq (safe_h16Colon 5) safe_ls32)
  · exact safe_seq (safe_opt safe_h16) (safe_seq safe_colons (safe_seq (safe_h16Colon 4) safe_ls32))
  · exact safe_seq (safe_opt (safe_seq (safe_h16Colon 1) safe_h16)) (safe_seq safe_colons (safe_seq (safe_h16Colon 3) safe_ls32))
  · exact safe_seq (safe_opt (safe_seq (safe_h16Colon 2) safe_h16)) (safe_seq safe_colons (safe_seq (safe_h16Colon 2) safe_ls32))
  · exact safe_seq (safe_opt (safe_seq (safe_h16Colon 3) safe_h16)) (safe_seq safe_colons (safe_seq (safe_h16Colon 1) safe_ls32))
  · exact safe_seq (safe_opt (safe_seq (safe_h16Colon 4) safe_h16)) (safe_seq safe_colons safe_ls32)
  · exact safe_seq (safe_opt (safe_seq (safe_h16Colon 5) safe_h16)) (safe_seq safe_colons safe_h16)
  · exact safe_seq (safe_opt (safe_seq (safe_h16Colon 6) safe_h16)) safe_colons

/-- The end of `parse_ipvfuture`. -/
def futureEnd (p : Str) : Except Err Str := (deref p).bind fun c =>
  if !isUnreserved c && !isSubDelim c && c != 58 then .error .fail
  else skip (fun c => !isUnreserved c && !isSubDelim c && c != 58) p

/-- Nothing is consumed, and a legal character follows. -/
theorem futureEnd_ok (p q : Str) (h : futureEnd p = .ok q) :
    q = p ∧ ∃ c r, p = c :: r ∧ (isUnreserved c || isSubDelim c || c == 58) = true := by
  cases p with
  | nil => simp [futureEnd, deref, Except.bind] at h
  | cons c p =>
    simp only [futureEnd, deref, Except.bind] at h
    split at h
    · cases h
    · rename_i hc
      rw [skip, if_neg hc] at h
      simp only [Except.ok.injEq] at h
      refine ⟨h.symm, c, p, rfl, ?_⟩
      revert hc
      cases isUnreserved c <;> cases isSubDelim c <;> simp

theorem safe_futureEnd : Safe futureEnd := by
  intro p h
  cases p with
  | nil => simp at h
  | cons c p =>
    simp only [futureEnd, deref, Except.bind]
    split
    · right; rfl
    · rename_i hc
      left
      rw [skip, if_neg hc]
      exact ⟨_, rfl, h⟩

theorem safe_ipvFuture : Safe ipvFuture := by
  refine safe_seq (safe_one _ rfl) (safe_seq (safe_one _ (by decide)) (safe_seq (safe_skip _ (by decide)) (safe_seq (safe_one _ rfl) ?_)))
  exact safe_futureEnd

theorem ipvFuture_end (p q : Str) (h : ipvFuture p = .ok q) : ∃ c r, q = c :: r ∧ c ≠ 93 := by
  have : ∀ p, ipvFuture p = .ok q → ∃ r, futureEnd r = .ok q := by
    intro p h
    unfold ipvFuture seq at h
    cases h1 : one (fun x => x == 118) p with
    | error e => rw [h1] at h; cases h
    | ok p1 =>
      rw [h1] at h
      simp only [Except.bind] at h
      cases h2 : one isHex p1 with
      | error e => rw [h2] at h; cases h
      | ok p2 =>
        rw [h2] at h
        simp only at h
        cases h3 : skip isHex p2 with
        | error e => rw [h3] at h; cases h
        | ok p3 =>
          rw [h3] at h
          simp only at h
          cases h4 : one (fun x => x == 46) p3 with
          | error e => rw [h4] at h; cases h
          | ok p4 =>
            rw [h4] at h
            exact ⟨p4, h⟩
  obtain ⟨r, hr⟩ := this p h
  obtain ⟨rfl, c, r, rfl, hc⟩ := futureEnd_ok _ _ hr
  refine ⟨c, r, rfl, ?_⟩
  rintro rfl
  revert hc; decide

/-- Only IPv6 addresses come through. -/
theorem ok_ipLiteral : Ok ipLiteral (fun s => ∃ t, s = ch '[' :: (t ++ [ch ']']) ∧ KnownIpv6 t) := by
  intro p q h
  unfold ipLiteral seq at h
  cases h1 : one (fun x => x == 91) p with
  | error e => rw [h1] at h; cases h
  | ok p1 =>
    rw [h1] at h
    simp only [Except.bind] at h
    obtain ⟨_, rfl, rfl⟩ := ok_char _ _ _ h1
    cases h2 : orElse ipv6 ipvFuture p1 with
    | error e => rw [h2] at h; cases h
    | ok p2 =>
      rw [h2] at h
      simp only at h
      obtain ⟨_, rfl, rfl⟩ := ok_char _ _ _ h
      unfold orElse at h2
      split at h2
      · obtain ⟨c, r, e, hc⟩ := ipvFuture_end _ _ h2
        simp only [List.cons_append, List.nil_append, List.cons.injEq] at e
        exact absurd e.1.symm hc
      · obtain ⟨t, rfl, ht⟩ := ok_ipv6 _ _ h2
        exact ⟨ch '[' :: (t ++ [ch ']']), by simp [ch], t, rfl, ht⟩

theorem safe_ipLiteral : Safe ipLiteral := safe_seq (safe_one _ rfl) (safe_seq (safe_orElse safe_ipv6 safe_ipvFuture) (safe_one _ rfl))

theorem ok_regName : Ok regName RegName := by
  refine (ok_many (l := Unit1 (fun c => Unreserved c ∨ SubDelim c)) ((ok_orElse (ok_one _) ok_pct).mono ?_)).mono fun _ => star_coded
  rintro t (⟨c, rfl, hc⟩ | h)
  · refine Or.inl ⟨c, rfl, ?_⟩
    rw [Bool.or_eq_true, isUnreserved_iff, isSubDelim_iff] at hc
    exact hc
  · exact Or.inr h

theorem safe_regName : Safe regName := by
  refine safe_many (ok_orElse (ok_one _) ok_pct) (safe_orElse (safe_one _ (by decide)) safe_pct) ?_
  rintro t (⟨c, rfl, _⟩ | ⟨a, b, rfl, _⟩) <;> simp

theorem ok_host : Ok host Host := by
  refine (ok_orElse ok_ipLiteral (ok_orElse ok_ipv4 ok_regName)).mono ?_
  rintro t (⟨s, h, h2⟩ | h)
  · exact Or.inl ⟨s, h, Or.inl (knownIpv6_ipv6 h2)⟩
  · exact Or.inr h

theorem safe_host : Safe host := safe_orElse safe_ipLiteral (safe_orElse safe_ipv4 safe_regName)

theorem ok_port : Ok port Port := (ok_skip _).mono fun _ h c hc => (isDigit_iff c).mp (h c hc)
theorem safe_port : Safe port := safe_skip _ (by decide)

theorem ok_adv (n : Nat) : Ok (adv n) (fun _ => True) := by
  intro p q h
  unfold adv at h
  split at h
  · cases h
  · simp only [Except.ok.injEq] at h
    exact ⟨p.take n, by rw [← h, List.take_append_drop], trivial⟩

theorem ok_userinfo : Ok userinfo (fun _ => True) :=
  (ok_many (ok_orElse (ok_one _) (ok_seq ok_pct (ok_adv 3)))).mono fun _ _ => trivial

/-- Characters of the user information. -/
def infoChar (c : UInt8) : Bool := isUnreserved c || isSubDelim c || c == 58

/-- Without percent signs the loop takes the longest run of legal characters. -/
theorem userinfo_run (a : Str) (ha : ∀ c ∈ a, infoChar c = true) (c : UInt8) (r : Str) (hc : infoChar c = false) (hp : c ≠ 37) :
    userinfo (a ++ c :: r) = .ok (c :: r) := by
  unfold userinfo
  induction a with
  | nil =>
    rw [List.nil_append, many]
    have : orElse (one (fun c => isUnreserved c || isSubDelim c || c == 58)) (seq pct (adv 3)) (c :: r) = .error .fail := by
      have h1 : one (fun c => isUnreserved c || isSubDelim c || c == 58) (c :: r) = .error .fail := by
        rw [one]; exact if_neg (by rw [show (isUnreserved c || isSubDelim c || c == 58) = infoChar c from rfl, hc]; simp)
      have h2 : pct (c :: r) = .error .fail := by
        unfold pct seq
        rw [one, if_neg (by simpa using hp)]; rfl
      unfold orElse
      rw [h1]; simp only
      unfold seq
      rw [h2]; rfl
    rw [this]
  | cons x a ih =>
    rw [List.cons_append, many]
    have h1 : orElse (one (fun c => isUnreserved c || isSubDelim c || c == 58)) (seq pct (adv 3)) (x :: (a ++ c :: r)) = .ok (a ++ c :: r) := by
      unfold orElse
      rw [one, if_pos (by exact ha x (by simp))]
    rw [h1]
    simp only [List.length_cons, Nat.lt_succ_self, if_true]
    exact ih fun y hy => ha y (by simp [hy])

/-- A text with a terminator: the longest run of user information, and what follows it. -/
theorem info_split (p : Str) (h : 0 ∈ p) : ∃ a c r, p = a ++ c :: r ∧ (∀ d ∈ a, infoChar d = true) ∧ infoChar c = false := by
  induction p with
  | nil => simp at h
  | cons x p ih =>
    by_cases hx : infoChar x = true
    · have : 0 ∈ p := by
        rcases List.mem_cons.mp h with e | e
        · rw [← e] at hx; exact absurd hx (by decide)
        · exact e
      obtain ⟨a, c, r, rfl, h1, h2⟩ := ih this
      exact ⟨x :: a, c, r, rfl, by simpa [hx] using h1, h2⟩
    · exact ⟨[], x, p, rfl, by simp, by simpa using hx⟩

theorem upto_append (t q : Str) : upto (t ++ q) q = t := by
  unfold upto
  rw [List.length_append, Nat.add_sub_cancel, List.take_left]

end Verif.Uri.Lemmas
