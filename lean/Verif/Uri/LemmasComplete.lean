import Verif.Uri.LemmasParse
/-! Auxiliary lemmas on the parser of references: legal texts are accepted (no claims). -/

namespace Verif.Uri.Lemmas
open Verif.Uri Verif.Uri.Spec

theorem one_pos {f : UInt8 → Bool} {c : UInt8} (r : Str) (h : f c = true) : one f (c :: r) = .ok r := by rw [one, if_pos h]
theorem one_neg {f : UInt8 → Bool} {c : UInt8} (r : Str) (h : f c = false) : one f (c :: r) = .error .fail := by
  rw [one, if_neg (by simp [h])]
theorem orElse_fail {f g : P} {p : Str} (h : f p = .error .fail) : orElse f g p = g p := by unfold orElse; rw [h]
theorem orElse_ok {f g : P} {p q : Str} (h : f p = .ok q) : orElse f g p = .ok q := by unfold orElse; rw [h]
theorem seq_ok {f g : P} {p q : Str} (h : f p = .ok q) : seq f g p = g q := by unfold seq; rw [h]; rfl
theorem seq_fail {f g : P} {p : Str} (h : f p = .error .fail) : seq f g p = .error .fail := by unfold seq; rw [h]; rfl
theorem pct_ne {c : UInt8} (r : Str) (h : c ≠ 37) : pct (c :: r) = .error .fail := seq_fail (one_neg r (by simpa using h))
theorem pct_ok {a b : UInt8} (r : Str) (ha : Hex a) (hb : Hex b) : pct (37 :: a :: b :: r) = .ok r := by
  unfold pct
  rw [seq_ok (one_pos _ rfl), seq_ok (one_pos _ ((isHex_iff a).mpr ha)), one_pos _ ((isHex_iff b).mpr hb)]

/-- A function that takes one character of the set or an escape. -/
structure Unit (f : P) (p : UInt8 → Prop) : Prop where
  char : ∀ c r, p c → f (c :: r) = .ok r
  esc : ∀ a b r, Hex a → Hex b → f (37 :: a :: b :: r) = .ok r
  stop : ∀ c r, ¬ p c → c ≠ 37 → f (c :: r) = .error .fail

theorem bool_cases {α : Prop} [Decidable α] {b : Bool} (h : b = true ↔ α) : (b = true ∧ α) ∨ (b = false ∧ ¬ α) := by
  cases b
  · right; exact ⟨rfl, fun a => by simpa using h.mpr a⟩
  · left; exact ⟨rfl, h.mp rfl⟩

theorem unit_orElse {f : UInt8 → Bool} {g : P} {p q : UInt8 → Prop} (hf : ∀ c, f c = true ↔ p c) (h37 : f 37 = false) (hg : Unit g q) :
    Unit (orElse (one f) g) (fun c => p c ∨ q c) where
  char c r h := by
    cases hc : f c
    · rw [orElse_fail (one_neg r hc)]
      apply hg.char
      rcases h with h | h
      · rw [(hf c).mpr h] at hc; cases hc
      · exact h
    · exact orElse_ok (one_pos r hc)
  esc a b r ha hb := by
    rw [orElse_fail (one_neg _ h37)]
    exact hg.esc a b r ha hb
  stop c r h h2 := by
    rw [orElse_fail (one_neg r (by
      cases hc : f c
      · rfl
      · exact absurd (Or.inl ((hf c).mp hc)) h))]
    exact hg.stop c r (fun hq => h (Or.inr hq)) h2

theorem unit_orElse' {f : P} {g : UInt8 → Bool} {p q : UInt8 → Prop} (hf : Unit f p) (hg : ∀ c, g c = true ↔ q c) (h37 : ¬ q 37) :
    Unit (orElse f (one g)) (fun c => p c ∨ q c) where
  char c r h := by
    by_cases hp : p c
    · exact orElse_ok (hf.char c r hp)
    · have hq : q c := h.resolve_left hp
      have : c ≠ 37 := fun e => h37 (e ▸ hq)
      rw [orElse_fail (hf.stop c r hp this)]
      exact one_pos r ((hg c).mpr hq)
  esc a b r ha hb := orElse_ok (hf.esc a b r ha hb)
  stop c r h h2 := by
    rw [orElse_fail (hf.stop c r (fun hp => h (Or.inl hp)) h2)]
    apply one_neg
    cases hc : g c
    · rfl
    · exact absurd (Or.inr ((hg c).mp hc)) h

theorem unit_pct : Unit pct (fun _ => False) where
  char _ _ h := h.elim
  esc _ _ r ha hb := pct_ok r ha hb
  stop _ r _ h := pct_ne r h

theorem Unit.congr {f : P} {p q : UInt8 → Prop} (h : Unit f p) (hpq : ∀ c, p c ↔ q c) : Unit f q where
  char c r hq := h.char c r ((hpq c).mpr hq)
  esc := h.esc
  stop c r hq := h.stop c r (fun hp => hq ((hpq c).mp hp))

theorem orElse_assoc (f g h : P) : orElse (orElse f g) h = orElse f (orElse g h) := by
  funext p
  unfold orElse
  cases hf : f p with
  | ok q => simp
  | error e => cases e <;> simp

theorem unit_pchar_true : Unit (pchar true) Pchar := by
  have h1 := unit_orElse (f := isUnreserved) isUnreserved_iff (by decide) unit_pct
  have h2 := unit_orElse' h1 (g := isSubDelim) isSubDelim_iff (by decide +kernel)
  have h3 := unit_orElse' h2 (g := fun c => true && c == 58) (q := fun c => c = 58) (by simp) (by decide)
  have h4 := unit_orElse' h3 (g := (· == 64)) (q := fun c => c = 64) (by simp) (by decide)
  simp only [orElse_assoc] at h4
  refine Unit.congr h4 ?_
  apply forall_byte; decide +kernel

theorem unit_pchar_false : Unit (pchar false) PcharNc := by
  have h1 := unit_orElse (f := isUnreserved) isUnreserved_iff (by decide) unit_pct
  have h2 := unit_orElse' h1 (g := isSubDelim) isSubDelim_iff (by decide +kernel)
  have h3 := unit_orElse' h2 (g := fun c => false && c == 58) (q := fun c => False) (by simp) (by decide)
  have h4 := unit_orElse' h3 (g := (· == 64)) (q := fun c => c = 64) (by simp) (by decide)
  simp only [orElse_assoc] at h4
  refine Unit.congr h4 ?_
  apply forall_byte; decide +kernel

theorem unit_query : Unit (orElse (pchar true) (one (fun c => c == 47 || c == 63))) (fun c => Pchar c ∨ In "/?" c) :=
  unit_orElse' unit_pchar_true (by apply forall_byte; decide +kernel) (by decide +kernel)

theorem unit_reg : Unit (orElse (one (fun c => isUnreserved c || isSubDelim c)) pct) (fun c => Unreserved c ∨ SubDelim c) := by
  have := unit_orElse (f := fun c => isUnreserved c || isSubDelim c) (p := fun c => Unreserved c ∨ SubDelim c)
    (by apply forall_byte; decide +kernel) (by decide) unit_pct
  exact Unit.congr this (by simp)

/-- What follows begins with a character that does not belong to the component. -/
def Stops (p : UInt8 → Prop) (q : Str) : Prop := ∃ c r, q = c :: r ∧ ¬ p c ∧ c ≠ 37

theorem Stops.mono {p p' : UInt8 → Prop} {q : Str} (h : Stops p q) (hp : ∀ c, p' c → p c) : Stops p' q := by
  obtain ⟨c, r, rfl, h1, h2⟩ := h
  exact ⟨c, r, rfl, fun h => h1 (hp c h), h2⟩

theorem Unit.fails {f : P} {p : UInt8 → Prop} (hf : Unit f p) {q : Str} (hq : Stops p q) : f q = .error .fail := by
  obtain ⟨c, r, rfl, h1, h2⟩ := hq
  exact hf.stop c r h1 h2

theorem many_ok {f : P} {p q : Str} (h : f p = .ok q) (hl : q.length < p.length) : many f p = many f q := by
  rw [many, h]; simp only [if_pos hl]

theorem many_fail {f : P} {p : Str} (h : f p = .error .fail) : many f p = .ok p := by rw [many, h]

theorem many_coded {f : P} {p : UInt8 → Prop} (hf : Unit f p) {t : Str} (ht : Coded p t) {q : Str} (hq : Stops p q) :
    many f (t ++ q) = .ok q := by
  induction ht with
  | nil => exact many_fail (hf.fails hq)
  | char c h _ ih =>
    rw [List.cons_append, many_ok (hf.char c _ h) (by simp)]
    exact ih
  | pct a b h1 h2 _ ih =>
    simp only [List.cons_append]
    rw [many_ok (hf.esc a b _ h1 h2) (by simp; omega)]
    exact ih

theorem many1_coded {f : P} {p : UInt8 → Prop} (hf : Unit f p) {t : Str} (ht : Coded p t) (hne : t ≠ []) {q : Str} (hq : Stops p q) :
    seq f (many f) (t ++ q) = .ok q := by
  cases ht with
  | nil => exact absurd rfl hne
  | char c h ht =>
    rw [List.cons_append, seq_ok (hf.char c _ h)]
    exact many_coded hf ht hq
  | pct a b h1 h2 ht =>
    simp only [List.cons_append]
    rw [seq_ok (hf.esc a b _ h1 h2)]
    exact many_coded hf ht hq

/-- Characters of paths. -/
def Pathchar (c : UInt8) : Prop := Pchar c ∨ In "/" c

theorem in_slash (c : UInt8) : In "/" c ↔ c = 47 := by revert c; apply forall_byte; decide +kernel

/-- The first segment. -/
theorem cut {t : Str} (h : Coded Pathchar t) : ∃ a b, t = a ++ b ∧ Coded Pchar a ∧ (∀ c, b.head? = some c → c = 47) ∧ Coded Pathchar b := by
  induction h with
  | nil => exact ⟨[], [], rfl, .nil, by simp, .nil⟩
  | @char c hc t ht ih =>
    rcases hc with hc | hc
    · obtain ⟨a, b, rfl, h1, h2, h3⟩ := ih
      exact ⟨c :: a, b, rfl, .char c hc h1, h2, h3⟩
    · refine ⟨[], c :: t, rfl, .nil, ?_, .char c (Or.inr hc) ht⟩
      intro d hd
      simp at hd
      rw [← hd]; exact (in_slash c).mp hc
  | pct x y hx hy _ ih =>
    obtain ⟨a, b, rfl, h1, h2, h3⟩ := ih
    exact ⟨37 :: x :: y :: a, b, rfl, .pct x y hx hy h1, h2, h3⟩

theorem stops_append {b q : Str} (hb : ∀ c, b.head? = some c → c = 47) (hq : Stops Pathchar q) : Stops Pchar (b ++ q) := by
  cases b with
  | nil => exact hq.mono fun c h => Or.inl h
  | cons c b =>
    have := hb c rfl
    subst this
    exact ⟨47, b ++ q, rfl, by decide +kernel, by decide⟩

theorem abempty_runs {t : Str} (h1 : ∀ c, t.head? = some c → c = 47) (h2 : Coded Pathchar t) {q : Str} (hq : Stops Pathchar q) :
    pathAbempty (t ++ q) = .ok q := by
  induction hn : t.length using Nat.strongRecOn generalizing t with
  | _ n ih =>
    cases t with
    | nil =>
      obtain ⟨c, r, rfl, hc, _⟩ := hq
      apply many_fail
      apply seq_fail
      apply one_neg
      have : c ≠ 47 := fun e => hc (Or.inr ((in_slash c).mpr e))
      simpa using this
    | cons c t =>
      have := h1 c rfl
      subst this
      have h3 : Coded Pathchar t := by cases h2; assumption
      obtain ⟨a, b, rfl, h4, h5, h6⟩ := cut h3
      have hr : seq (one (· == 47)) segment (47 :: (a ++ b) ++ q) = .ok (b ++ q) := by
        rw [List.cons_append, seq_ok (one_pos _ rfl), List.append_assoc]
        exact many_coded unit_pchar_true h4 (stops_append h5 hq)
      unfold pathAbempty
      rw [many_ok hr (by simp; omega)]
      exact ih b.length (by simp at hn; omega) h5 h6 rfl

theorem rootless_runs {t : Str} (h : PathRootless t) {q : Str} (hq : Stops Pathchar q) : pathRootless (t ++ q) = .ok q := by
  obtain ⟨h1, h2, h3⟩ := h
  obtain ⟨a, b, rfl, h4, h5, h6⟩ := cut h3
  have ha : a ≠ [] := by
    rintro rfl
    cases b with
    | nil => exact h1 rfl
    | cons c b => exact h2 c rfl (h5 c rfl)
  unfold pathRootless segmentNz segment
  rw [List.append_assoc, seq_ok (many1_coded unit_pchar_true h4 ha (stops_append h5 hq))]
  exact abempty_runs h5 h6 hq

theorem pchar_nc (c : UInt8) : Pchar c → c ≠ 58 → PcharNc c := by revert c; apply forall_byte; decide +kernel

theorem coded_nc {t : Str} (h : Coded Pchar t) (hc : 58 ∉ t) : Coded PcharNc t := by
  induction h with
  | nil => exact .nil
  | char c h _ ih =>
    simp only [List.mem_cons, not_or] at hc
    exact .char c (pchar_nc c h (fun e => hc.1 e.symm)) (ih hc.2)
  | pct a b h1 h2 _ ih =>
    simp only [List.mem_cons, not_or] at hc
    exact .pct a b h1 h2 (ih hc.2.2.2)

theorem noscheme_runs {t : Str} (h : PathNoscheme t) {q : Str} (hq : Stops Pathchar q) : pathNoscheme (t ++ q) = .ok q := by
  obtain ⟨⟨h1, h2, h3⟩, h0⟩ := h
  obtain ⟨a, b, rfl, h4, h5, h6⟩ := cut h3
  have ha : a ≠ [] := by
    rintro rfl
    cases b with
    | nil => exact h1 rfl
    | cons c b => exact h2 c rfl (h5 c rfl)
  have hnc : Coded PcharNc a := by
    apply coded_nc h4
    intro hm
    obtain ⟨x, y, rfl⟩ := List.append_of_mem hm
    have := h0 x (y ++ b) (by simp [ch])
    rcases coded_mem h4 (ch '/') (by simp [this]) with h | h | h
    · exact pchar_not_slash _ h rfl
    · exact absurd h (by decide +kernel)
    · exact (hex_not_colon _ h).2.2 rfl
  unfold pathNoscheme segmentNzNc
  rw [List.append_assoc, seq_ok (many1_coded unit_pchar_false hnc ha ((stops_append h5 hq).mono pcharNc_pchar))]
  exact abempty_runs h5 h6 hq

theorem segmentNz_fails {q : Str} (hq : Stops Pchar q) : segmentNz q = .error .fail := seq_fail (unit_pchar_true.fails hq)

theorem absolute_runs {t : Str} (h : PathAbsolute t) {q : Str} (hq : Stops Pathchar q) : pathAbsolute (t ++ q) = .ok q := by
  obtain ⟨t, rfl, h2, h3⟩ := h
  unfold pathAbsolute opt
  rw [List.cons_append, seq_ok (one_pos _ (by decide +kernel))]
  by_cases ht : t = []
  · subst ht
    exact orElse_fail (seq_fail (segmentNz_fails (hq.mono fun c h => Or.inl h)))
  · exact orElse_ok (rootless_runs ⟨ht, h2, h3⟩ hq)

/-! Hosts. -/

theorem h16_runs {s : Str} (h : H16Full s) (q : Str) : h16 (s ++ q) = .ok q := by
  obtain ⟨h1, h2⟩ := h
  match s, h1 with
  | [a, b, c, d], _ =>
    simp only [List.mem_cons, List.not_mem_nil, or_false, forall_eq_or_imp, forall_eq, ← isHex_iff] at h2
    unfold h16
    simp only [List.cons_append, List.nil_append]
    rw [seq_ok (one_pos _ h2.1), seq_ok (one_pos _ h2.2.1), seq_ok (one_pos _ h2.2.2.1), one_pos _ h2.2.2.2]

theorem h16_not {c : UInt8} (r : Str) (h : isHex c = false) : h16 (c :: r) = .error .fail := seq_fail (one_neg r h)

theorem octet_shape : ∀ n < 256, 1 ≤ ((toString n).toList.map ch).length ∧ ((toString n).toList.map ch).length ≤ 3 ∧
    ∀ c ∈ (toString n).toList.map ch, isDigit c = true := by decide +kernel

theorem octet_digits {t : Str} (h : Octet t) : 1 ≤ t.length ∧ t.length ≤ 3 ∧ ∀ c ∈ t, isDigit c = true := by
  obtain ⟨n, hn, rfl⟩ := h
  exact octet_shape n hn

/-- The five forms of an octet. -/
def shape : Str → Bool
  | [a] => isDigit a
  | [a, b] => (49 ≤ a && a ≤ 57) && isDigit b
  | [a, b, c] => (a == 49 && isDigit b && isDigit c) || (a == 50 && (48 ≤ b && b ≤ 52) && isDigit c) || (a == 50 && b == 53 && (48 ≤ c && c ≤ 53))
  | _ => false

theorem octet_shape2 : ∀ n < 256, shape ((toString n).toList.map ch) = true := by decide +kernel

theorem byte_le_not (b : UInt8) : (48 ≤ b && b ≤ 52) = true → (b == 53) = false := by revert b; apply forall_byte; decide +kernel

theorem decOctet_runs {t : Str} (h : Octet t) {c : UInt8} (r : Str) (hc : isDigit c = false) : decOctet (t ++ c :: r) = .ok (c :: r) := by
  obtain ⟨n, hn, rfl⟩ := h
  have hs := octet_shape2 n hn
  generalize (toString n).toList.map ch = t at hs
  unfold decOctet
  have hc2 : (48 ≤ c && c ≤ 53) = false ∧ (48 ≤ c && c ≤ 52) = false := by
    revert hc; revert c; apply forall_byte; decide +kernel
  -- a failing sequence of three tests: whichever fails first
  have f3 : ∀ (f g k : UInt8 → Bool) (a b c : UInt8) (r : Str), (f a && g b && k c) = false →
      seq (one f) (seq (one g) (one k)) (a :: b :: c :: r) = .error .fail := by
    intro f g k a b c r h
    cases h1 : f a
    · exact seq_fail (one_neg _ h1)
    · rw [seq_ok (one_pos _ h1)]
      cases h2 : g b
      · exact seq_fail (one_neg _ h2)
      · rw [seq_ok (one_pos _ h2)]
        apply one_neg
        simpa [h1, h2] using h
  have f2 : ∀ (f g k : UInt8 → Bool) (a b : UInt8) (r : Str), (f a && g b) = false →
      seq (one f) (seq (one g) (one k)) (a :: b :: r) = .error .fail := by
    intro f g k a b r h
    cases h1 : f a
    · exact seq_fail (one_neg _ h1)
    · rw [seq_ok (one_pos _ h1)]
      apply seq_fail
      apply one_neg
      simpa [h1] using h
  match t, hs with
  | [a], hs =>
    simp only [shape] at hs
    simp only [List.cons_append, List.nil_append]
    rw [orElse_fail (f2 _ _ _ _ _ _ ?_), orElse_fail (f2 _ _ _ _ _ _ ?_), orElse_fail (f2 _ _ _ _ _ _ ?_), orElse_fail ?_, one_pos _ hs]
    · cases h1 : (decide (49 ≤ a) && decide (a ≤ 57))
      · exact seq_fail (one_neg _ h1)
      · rw [seq_ok (one_pos _ h1)]
        exact one_neg _ hc
    · simp [hc]
    · simp only [hc2.2, Bool.and_false]
    · have : (c == 53) = false := by revert hc; clear hc2; revert c; apply forall_byte; decide +kernel
      simp only [this, Bool.and_false]
  | [a, b], hs =>
    simp only [shape, Bool.and_eq_true] at hs
    simp only [List.cons_append, List.nil_append]
    rw [orElse_fail (f3 _ _ _ _ _ _ _ ?_), orElse_fail (f3 _ _ _ _ _ _ _ ?_), orElse_fail (f3 _ _ _ _ _ _ _ ?_), orElse_ok]
    · rw [seq_ok (one_pos _ (by simpa using hs.1)), one_pos _ hs.2]
    · simp [hc]
    · simp [hc]
    · simp only [hc2.1, Bool.and_false]
  | [a, b, d], hs =>
    simp only [shape, Bool.or_eq_true] at hs
    simp only [List.cons_append, List.nil_append]
    rcases hs with (hs | hs) | hs
    · simp only [Bool.and_eq_true] at hs
      obtain ⟨⟨h1, h2⟩, h3⟩ := hs
      have h1' : a = 49 := by simpa using h1
      subst h1'
      rw [orElse_fail (f3 _ _ _ _ _ _ _ rfl), orElse_fail (f3 _ _ _ _ _ _ _ rfl), orElse_ok]
      rw [seq_ok (one_pos _ rfl), seq_ok (one_pos _ h2), one_pos _ h3]
    · simp only [Bool.and_eq_true] at hs
      obtain ⟨⟨h1, h2⟩, h3⟩ := hs
      have h1' : a = 50 := by simpa using h1
      subst h1'
      have h4 := byte_le_not b (by simpa using h2)
      rw [orElse_fail (f3 _ _ _ _ _ _ _ (by simp [h4])), orElse_ok]
      rw [seq_ok (one_pos _ rfl), seq_ok (one_pos _ (by simpa using h2)), one_pos _ h3]
    · simp only [Bool.and_eq_true] at hs
      obtain ⟨⟨h1, h2⟩, h3⟩ := hs
      have h1' : a = 50 := by simpa using h1
      have h2' : b = 53 := by simpa using h2
      subst h1'; subst h2'
      rw [orElse_ok]
      rw [seq_ok (one_pos _ rfl), seq_ok (one_pos _ rfl), one_pos _ (by simpa using h3)]

theorem ipv4_runs {t : Str} (h : Ipv4 t) {c : UInt8} (r : Str) (hc : isDigit c = false) : ipv4 (t ++ c :: r) = .ok (c :: r) := by
  obtain ⟨a, b, x, d, h1, h2, h3, h4, rfl⟩ := h
  have hd : isDigit (ch '.') = false := by decide +kernel
  have e : ∀ r, one (fun y => y == 46) (ch '.' :: r) = .ok r := fun r => one_pos r (by decide +kernel)
  unfold ipv4
  simp only [List.append_assoc, List.cons_append]
  rw [seq_ok (decOctet_runs h1 _ hd), seq_ok (e _), seq_ok (decOctet_runs h2 _ hd), seq_ok (e _),
    seq_ok (decOctet_runs h3 _ hd), seq_ok (e _), decOctet_runs h4 _ hc]

theorem ipv4_chars {t : Str} (h : Ipv4 t) : ∀ c ∈ t, isDigit c = true ∨ c = 46 := by
  obtain ⟨a, b, x, d, h1, h2, h3, h4, rfl⟩ := h
  intro c hc
  have e : ch '.' = 46 := by decide +kernel
  simp only [List.mem_append, List.mem_cons, e] at hc
  rcases hc with hc | hc | hc | hc | hc | hc | hc
  · exact Or.inl ((octet_digits h1).2.2 c hc)
  · exact Or.inr hc
  · exact Or.inl ((octet_digits h2).2.2 c hc)
  · exact Or.inr hc
  · exact Or.inl ((octet_digits h3).2.2 c hc)
  · exact Or.inr hc
  · exact Or.inl ((octet_digits h4).2.2 c hc)

theorem digit_hex (c : UInt8) (h : isDigit c = true) : isHex c = true := by unfold isHex; simp [h]

/-- Four hexadecimal digits do not begin an IPv4 address. -/
theorem ipv4_not_h16 {s : Str} (h : H16Full s) (r : Str) (h0 : 0 ∈ s ++ r) : ipv4 (s ++ r) = .error .fail := by
  rcases safe_ipv4 _ h0 with ⟨q, e, _⟩ | e
  · exfalso
    obtain ⟨t, e1, a, b, x, d, h1, _, _, _, rfl⟩ := ok_ipv4 _ _ e
    have ha := octet_digits h1
    have := congrArg (fun l => l[a.length]?) e1
    simp only [List.append_assoc] at this
    rw [List.getElem?_append_right (Nat.le_refl _), List.getElem?_append_left (by rw [h.1]; omega)] at this
    simp at this
    have hm : ch '.' ∈ s := List.mem_of_getElem? this
    exact absurd ((isHex_iff _).mpr (h.2 _ hm)) (by decide +kernel)
  · exact e

/-- An IPv4 address does not begin with four hexadecimal digits. -/
theorem h16_not_ipv4 {t : Str} (h : Ipv4 t) (r : Str) (h0 : 0 ∈ t ++ r) : h16 (t ++ r) = .error .fail := by
  rcases safe_h16 _ h0 with ⟨q, e, _⟩ | e
  · exfalso
    obtain ⟨s, e1, hs⟩ := ok_h16 _ _ e
    obtain ⟨a, b, x, d, h1, _, _, _, rfl⟩ := h
    have ha := octet_digits h1
    have := congrArg (fun l => l[a.length]?) e1
    simp only [List.append_assoc] at this
    rw [List.getElem?_append_right (Nat.le_refl _), List.getElem?_append_left (l₁ := s) (by rw [hs.1]; omega)] at this
    simp at this
    have hm : ch '.' ∈ s := List.mem_of_getElem? this.symm
    exact absurd ((isHex_iff _).mpr (hs.2 _ hm)) (by decide +kernel)
  · exact e

theorem h16Colon_succ (n : Nat) : h16Colon (n + 1) = seq h16 (seq (one (· == 58)) (h16Colon n)) := rfl

theorem h16Colon_step {s : Str} (h : H16Full s) (n : Nat) (r : Str) : h16Colon (n + 1) (s ++ ch ':' :: r) = h16Colon n r := by
  rw [h16Colon_succ, seq_ok (h16_runs h _), seq_ok (one_pos _ (by decide +kernel))]

theorem step {s : Str} (h : H16Full s) (n : Nat) (g : P) (r : Str) :
    seq (h16Colon (n + 1)) g (s ++ ch ':' :: r) = seq (h16Colon n) g r := by
  unfold seq; rw [h16Colon_step h]

theorem h16Colon_not {s : Str} (h : H16Full s) (n : Nat) {c : UInt8} (r : Str) (hc : c ≠ 58) : h16Colon (n + 1) (s ++ c :: r) = .error .fail := by
  rw [h16Colon_succ, seq_ok (h16_runs h _)]
  exact seq_fail (one_neg _ (by simpa using hc))

theorem groups_runs {m : Nat} {a : Str} (h : FullGroups (m + 1) a) (q : Str) : seq (h16Colon m) h16 (a ++ q) = .ok q := by
  induction m generalizing a with
  | zero =>
    cases h with
    | one h => exact h16_runs h q
  | succ m ih =>
    cases h with
    | more h ht =>
      rw [List.append_assoc, List.cons_append, step h]
      exact ih ht

/-- Asking for fewer groups stops at a single colon. -/
theorem groups_few {m k : Nat} (hk : k < m) {a : Str} (h : FullGroups (m + 1) a) (q : Str) :
    ∃ c r, seq (h16Colon k) h16 (a ++ q) = .ok (58 :: c :: r) ∧ c ≠ 58 := by
  induction m generalizing a k with
  | zero => omega
  | succ m ih =>
    cases h with
    | @more _ s t h ht =>
      rw [List.append_assoc, List.cons_append]
      cases k with
      | zero =>
        have : ∃ c r, t ++ q = c :: r ∧ c ≠ 58 := by
          have hh : ∃ s r, t = s ++ r ∧ H16Full s := by
            cases ht with
            | one h => exact ⟨_, [], by simp, h⟩
            | more h _ => exact ⟨_, _, rfl, h⟩
          obtain ⟨s, r, rfl, hs⟩ := hh
          match s, hs with
          | c :: s, hs =>
            refine ⟨c, s ++ r ++ q, by simp, ?_⟩
            have := hs.2 c (by simp)
            exact fun e => (hex_not_colon c this).1 (by rw [e]; decide +kernel)
        obtain ⟨c, r, e, hc⟩ := this
        refine ⟨c, r, ?_, hc⟩
        rw [show seq (h16Colon 0) h16 = h16 from rfl, h16_runs h, ← e]
        rfl
      | succ k =>
        rw [step h]
        exact ih (by omega) ht

theorem full_len {s : Str} (h : H16Full s) : ∃ c r, s = c :: r ∧ isHex c = true := by
  match s, h with
  | c :: s, h => exact ⟨c, s, rfl, (isHex_iff c).mpr (h.2 c (by simp))⟩

/-- Before a double colon there are not enough groups for the first form. -/
theorem groups_first {m : Nat} {a : Str} (h : FullGroups m a) (k : Nat) (hm : m ≤ k + 1) (r : Str) (h0 : 0 ∈ r) :
    seq (h16Colon k) ls32 (a ++ 58 :: 58 :: r) = .error .fail := by
  have hx : isHex 58 = false := by decide
  have hcol : ls32 (58 :: 58 :: r) = .error .fail ∧ ls32 (58 :: r) = .error .fail := by
    have : ∀ r, ls32 (58 :: r) = .error .fail := by
      intro r
      unfold ls32
      have : decOctet (58 :: r) = .error .fail := by
        unfold decOctet
        rw [orElse_fail (seq_fail (one_neg _ rfl)), orElse_fail (seq_fail (one_neg _ rfl)), orElse_fail (seq_fail (one_neg _ rfl)),
          orElse_fail (seq_fail (one_neg _ rfl)), one_neg _ rfl]
      rw [orElse_fail (show ipv4 _ = _ from seq_fail this), seq_fail (h16_not r hx)]
    exact ⟨this _, this _⟩
  induction k generalizing m a with
  | zero =>
    cases h with
    | zero => exact hcol.1
    | one h =>
      show ls32 (a ++ 58 :: 58 :: r) = _
      unfold ls32
      rw [orElse_fail (ipv4_not_h16 h _ (by simp [h0])), seq_ok (h16_runs h _), seq_ok (one_pos _ rfl), h16_not r hx]
    | more => omega
  | succ k ih =>
    cases h with
    | zero => exact seq_fail (seq_fail (h16_not _ hx))
    | one h =>
      rw [show (58 : UInt8) :: 58 :: r = ch ':' :: 58 :: r by rfl, step h]
      cases k with
      | zero => exact hcol.2
      | succ k => exact seq_fail (seq_fail (h16_not _ hx))
    | more h ht =>
      rw [List.append_assoc, List.cons_append, step h]
      exact ih ht (by omega)

/-- The right number of groups behind the double colon. -/
theorem tail_runs {n : Nat} {b : Str} (h : FullTail (n + 2) b) (r : Str) (h0 : 0 ∈ r) :
    seq (h16Colon n) ls32 (b ++ 93 :: r) = .ok (93 :: r) := by
  have hd : isDigit 93 = false := by decide
  induction n generalizing b with
  | zero =>
    show ls32 (b ++ 93 :: r) = _
    unfold ls32
    have two : ∀ {s t : Str}, H16Full s → H16Full t →
        orElse ipv4 (seq h16 (seq (one (· == 58)) h16)) (s ++ ch ':' :: t ++ 93 :: r) = .ok (93 :: r) := by
      intro s t hs ht
      rw [List.append_assoc, orElse_fail (ipv4_not_h16 hs _ (by simp [h0])), seq_ok (h16_runs hs _), List.cons_append,
        seq_ok (one_pos _ (by decide +kernel)), h16_runs ht]
    cases h with
    | groups h =>
      cases h with
      | more hs ht => cases ht with | one ht => exact two hs ht
    | ipv4 h => exact orElse_ok (ipv4_runs h r hd)
    | more hs ht =>
      cases ht with
      | groups ht => cases ht with | one ht => exact two hs ht
  | succ n ih =>
    cases h with
    | groups h =>
      cases h with
      | more hs ht =>
        rw [List.append_assoc, List.cons_append, step hs]
        exact ih (.groups ht)
    | more hs ht =>
      rw [List.append_assoc, List.cons_append, step hs]
      exact ih ht

/-- Asking for more groups than there are before the bracket fails. -/
theorem tail_many {n : Nat} {b : Str} (h : FullTail n b) (k : Nat) (hk : n < k + 2) (r : Str) (h0 : 0 ∈ r) :
    seq (h16Colon k) ls32 (b ++ 93 :: r) = .error .fail := by
  have hx : isHex 93 = false := by decide
  have hb : ls32 (93 :: r) = .error .fail := by
    unfold ls32
    have : decOctet (93 :: r) = .error .fail := by
      unfold decOctet
      rw [orElse_fail (seq_fail (one_neg _ rfl)), orElse_fail (seq_fail (one_neg _ rfl)), orElse_fail (seq_fail (one_neg _ rfl)),
        orElse_fail (seq_fail (one_neg _ rfl)), one_neg _ rfl]
    rw [orElse_fail (show ipv4 _ = _ from seq_fail this), seq_fail (h16_not r hx)]
  have hone : ∀ {s : Str}, H16Full s → ∀ k, seq (h16Colon k) ls32 (s ++ 93 :: r) = .error .fail := by
    intro s h k
    cases k with
    | zero =>
      show ls32 (s ++ 93 :: r) = _
      unfold ls32
      rw [orElse_fail (ipv4_not_h16 h _ (by simp [h0])), seq_ok (h16_runs h _), seq_fail (one_neg _ rfl)]
    | succ k => exact seq_fail (h16Colon_not h k r (by decide))
  induction k generalizing n b with
  | zero =>
    cases h with
    | groups h =>
      cases h with
      | zero => exact hb
      | one h => exact hone h 0
      | more => omega
    | ipv4 => omega
    | more => omega
  | succ k ih =>
    cases h with
    | groups h =>
      cases h with
      | zero => exact seq_fail (seq_fail (h16_not _ hx))
      | one h => exact hone h (k + 1)
      | more hs ht =>
        rw [List.append_assoc, List.cons_append, step hs]
        exact ih (.groups ht) (by omega)
    | ipv4 h => exact seq_fail (seq_fail (h16_not_ipv4 h _ (by simp [h0])))
    | more hs ht =>
      rw [List.append_assoc, List.cons_append, step hs]
      exact ih ht (by omega)

theorem colons_runs (r : Str) : colons (58 :: 58 :: r) = .ok r := by
  unfold colons; rw [seq_ok (one_pos _ rfl), one_pos _ rfl]

theorem opt_fail {f : P} {p : Str} (h : f p = .error .fail) : opt f p = .ok p := orElse_fail h
theorem opt_runs {f : P} {p q : Str} (h : f p = .ok q) : opt f p = .ok q := orElse_ok h

/-- An alternative whose front part takes too few groups. -/
theorem alt_few {m k : Nat} (hk : k < m) {a : Str} (h : FullGroups (m + 1) a) (g : P) (q : Str) :
    seq (opt (seq (h16Colon k) h16)) (seq colons g) (a ++ q) = .error .fail := by
  obtain ⟨c, r, e, hc⟩ := groups_few hk h q
  rw [seq_ok (opt_runs e)]
  apply seq_fail
  unfold colons
  rw [seq_ok (one_pos _ rfl), one_neg _ (by simpa using hc)]

/-- An alternative whose front part takes all groups. -/
theorem alt_all {m : Nat} {a : Str} (h : FullGroups (m + 1) a) (g : P) (r : Str) :
    seq (opt (seq (h16Colon m) h16)) (seq colons g) (a ++ 58 :: 58 :: r) = g r := by
  rw [seq_ok (opt_runs (groups_runs h _)), seq_ok (colons_runs r)]

/-- An alternative without front part. -/
theorem alt_none (f g : P) (r : Str) (hf : f (58 :: 58 :: r) = .error .fail) : seq (opt f) (seq colons g) (58 :: 58 :: r) = g r := by
  rw [seq_ok (opt_fail hf), seq_ok (colons_runs r)]

theorem h16Colon_colon (k : Nat) (r : Str) : seq (h16Colon k) h16 (58 :: r) = .error .fail := by
  cases k with
  | zero => exact h16_not (c := 58) r (by decide)
  | succ k => exact seq_fail (seq_fail (h16_not (c := 58) r (by decide)))

theorem ipv6_eq (p : Str) : ipv6 p =
    orElse (seq (h16Colon 6) ls32) (orElse (seq colons (seq (h16Colon 5) ls32))
      (orElse (seq (opt (seq (h16Colon 0) h16)) (seq colons (seq (h16Colon 4) ls32)))
        (orElse (seq (opt (seq (h16Colon 1) h16)) (seq colons (seq (h16Colon 3) ls32)))
          (orElse (seq (opt (seq (h16Colon 2) h16)) (seq colons (seq (h16Colon 2) ls32)))
            (orElse (seq (opt (seq (h16Colon 3) h16)) (seq colons (seq (h16Colon 1) ls32)))
              (orElse (seq (opt (seq (h16Colon 4) h16)) (seq colons (seq (h16Colon 0) ls32)))
                (orElse (seq (opt (seq (h16Colon 5) h16)) (seq colons h16))
                  (orElse (seq (opt (seq (h16Colon 6) h16)) (seq colons .ok)) (fun _ => .error .fail))))))))) p := by
  have : seq colons (.ok : P) = colons := by
    funext p; unfold seq; cases colons p <;> rfl
  rw [this]
  rfl

theorem ipv6_runs {t : Str} (h : KnownIpv6 t) (r : Str) (h0 : 0 ∈ r) : ipv6 (t ++ 93 :: r) = .ok (93 :: r) := by
  rw [ipv6_eq]
  rcases h with h | ⟨m, n, a, b, h1, h2, h3, h4, rfl⟩
  · exact orElse_ok (tail_runs h r h0)
  · have hr0 : 0 ∈ b ++ 93 :: r := by simp [h0]
    simp only [List.append_assoc, List.cons_append]
    rw [show ch ':' = 58 by rfl, orElse_fail (groups_first h1 6 (by omega) _ hr0)]
    cases m with
    | zero =>
      cases h1
      rw [List.nil_append]
      have hm : ∀ k, n < k + 2 → seq (h16Colon k) ls32 (b ++ 93 :: r) = .error .fail := fun k hk => tail_many h2 k hk r h0
      have hn : ∀ k, n = k + 2 → seq (h16Colon k) ls32 (b ++ 93 :: r) = .ok (93 :: r) := by
        rintro k rfl; exact tail_runs h2 r h0
      have e1 : seq colons (seq (h16Colon 5) ls32) (58 :: 58 :: (b ++ 93 :: r)) = seq (h16Colon 5) ls32 (b ++ 93 :: r) := by
        rw [seq_ok (colons_runs _)]
      have e2 : ∀ k g, seq (opt (seq (h16Colon k) h16)) (seq colons g) (58 :: 58 :: (b ++ 93 :: r)) = g (b ++ 93 :: r) :=
        fun k g => alt_none _ g _ (h16Colon_colon k _)
      by_cases h7 : n = 7
      · rw [orElse_ok (e1.trans (hn 5 h7))]
      rw [orElse_fail (e1.trans (hm 5 (by omega)))]
      by_cases h6 : n = 6
      · rw [orElse_ok ((e2 0 _).trans (hn 4 h6))]
      rw [orElse_fail ((e2 0 _).trans (hm 4 (by omega)))]
      by_cases h5 : n = 5
      · rw [orElse_ok ((e2 1 _).trans (hn 3 h5))]
      rw [orElse_fail ((e2 1 _).trans (hm 3 (by omega)))]
      by_cases h4 : n = 4
      · rw [orElse_ok ((e2 2 _).trans (hn 2 h4))]
      rw [orElse_fail ((e2 2 _).trans (hm 2 (by omega)))]
      by_cases h3 : n = 3
      · rw [orElse_ok ((e2 3 _).trans (hn 1 h3))]
      rw [orElse_fail ((e2 3 _).trans (hm 1 (by omega)))]
      by_cases h2' : n = 2
      · rw [orElse_ok ((e2 4 _).trans (hn 0 h2'))]
      rw [orElse_fail ((e2 4 _).trans (hm 0 (by omega)))]
      by_cases h1' : n = 1
      · subst h1'
        have : h16 (b ++ 93 :: r) = .ok (93 :: r) := by
          cases h2 with
          | groups h => cases h with | one h => exact h16_runs h _
        rw [orElse_ok ((e2 5 _).trans this)]
      · have : n = 0 := by omega
        subst this
        have hb : b = [] := by
          cases h2 with
          | groups h => cases h; rfl
        subst hb
        rw [orElse_fail ((e2 5 _).trans (h16_not (c := 93) r (by decide)))]
        rw [orElse_ok (e2 6 _)]; rfl
    | succ m =>
      have hmn : m + 1 + n = 7 := by omega
      have hc : seq colons (seq (h16Colon 5) ls32) (a ++ 58 :: 58 :: (b ++ 93 :: r)) = .error .fail := by
        have : ∃ c s, a = c :: s ∧ isHex c = true := by
          cases h1 with
          | one h => exact full_len h
          | more h _ =>
            obtain ⟨c, s, rfl, hc⟩ := full_len h
            exact ⟨c, _, rfl, hc⟩
        obtain ⟨c, s, rfl, hc⟩ := this
        apply seq_fail
        apply seq_fail
        rw [List.cons_append]
        apply one_neg
        have : c ≠ 58 := by rintro rfl; revert hc; decide
        simpa using this
      rw [orElse_fail hc]
      have hf : ∀ k g, k < m → seq (opt (seq (h16Colon k) h16)) (seq colons g) (a ++ 58 :: 58 :: (b ++ 93 :: r)) = .error .fail :=
        fun k g hk => alt_few hk h1 g _
      have ha : ∀ k g, k = m → g (b ++ 93 :: r) = .ok (93 :: r) →
          seq (opt (seq (h16Colon k) h16)) (seq colons g) (a ++ 58 :: 58 :: (b ++ 93 :: r)) = .ok (93 :: r) := by
        rintro k g rfl hg; rw [alt_all h1, hg]
      have hn : ∀ k, n = k + 2 → seq (h16Colon k) ls32 (b ++ 93 :: r) = .ok (93 :: r) := by
        rintro k rfl; exact tail_runs h2 r h0
      by_cases m0 : m = 0
      · rw [orElse_ok (ha 0 _ m0.symm (hn 4 (by omega)))]
      rw [orElse_fail (hf 0 _ (by omega))]
      by_cases m1 : m = 1
      · rw [orElse_ok (ha 1 _ m1.symm (hn 3 (by omega)))]
      rw [orElse_fail (hf 1 _ (by omega))]
      by_cases m2 : m = 2
      · rw [orElse_ok (ha 2 _ m2.symm (hn 2 (by omega)))]
      rw [orElse_fail (hf 2 _ (by omega))]
      by_cases m3 : m = 3
      · rw [orElse_ok (ha 3 _ m3.symm (hn 1 (by omega)))]
      rw [orElse_fail (hf 3 _ (by omega))]
      by_cases m4 : m = 4
      · rw [orElse_ok (ha 4 _ m4.symm (hn 0 (by omega)))]
      rw [orElse_fail (hf 4 _ (by omega))]
      by_cases m5 : m = 5
      · have : n = 1 := by omega
        subst this
        have : h16 (b ++ 93 :: r) = .ok (93 :: r) := by
          cases h2 with
          | groups h => cases h with | one h => exact h16_runs h _
        rw [orElse_ok (ha 5 _ m5.symm this)]
      · have : n = 0 := by omega
        subst this
        have hb : b = [] := by
          cases h2 with
          | groups h => cases h; rfl
        subst hb
        rw [orElse_fail (hf 5 _ (by omega)), orElse_ok (ha 6 _ (by omega) rfl)]

theorem ipLiteral_runs {t : Str} (h : KnownIpv6 t) (r : Str) (h0 : 0 ∈ r) : ipLiteral (91 :: (t ++ 93 :: r)) = .ok r := by
  unfold ipLiteral
  rw [seq_ok (one_pos _ rfl), seq_ok (orElse_ok (ipv6_runs h r h0)), one_pos _ rfl]

/-- The characters that can follow a host. -/
def AfterHost (c : UInt8) : Prop := c = 58 ∨ c = 47 ∨ c = 63 ∨ c = 35 ∨ c = 0
instance (c : UInt8) : Decidable (AfterHost c) := inferInstanceAs (Decidable (_ ∨ _ ∨ _ ∨ _ ∨ _))

theorem afterHost (c : UInt8) (h : AfterHost c) : isDigit c = false ∧ c ≠ 46 ∧ c ≠ 91 ∧ c ≠ 37 ∧ ¬ (Unreserved c ∨ SubDelim c) := by
  revert h; revert c; apply forall_byte; decide +kernel

theorem reg_not_bracket (c : UInt8) (h : Unreserved c ∨ SubDelim c) : c ≠ 91 := by revert h; revert c; apply forall_byte; decide +kernel
theorem digit_or_dot (c : UInt8) (h : isDigit c = true ∨ c = 46) : Unreserved c ∧ c ≠ 91 := by revert h; revert c; apply forall_byte; decide +kernel

theorem prefix_of {a b x : Str} {c : UInt8} {r : Str} (h : a ++ c :: r = x ++ b) (hc : c ∉ x) : ∃ y, a = x ++ y := by
  rcases List.append_eq_append_iff.mp h with ⟨z, hz, hy⟩ | ⟨z, hz, hy⟩
  · cases z with
    | nil => exact ⟨[], by simpa using hz.symm⟩
    | cons w z =>
      exfalso
      simp only [List.cons_append, List.cons.injEq] at hy
      apply hc
      rw [hz, hy.1]; simp
  · exact ⟨z, hz⟩

theorem host_runs {h : Str} (hh : KnownHost h) {c : UInt8} (hc : AfterHost c) (r : Str) (h0 : 0 ∈ c :: r) : host (h ++ c :: r) = .ok (c :: r) := by
  obtain ⟨hd, hdot, hbr, hpct, hreg⟩ := afterHost c hc
  unfold host
  rcases hh with ⟨t, rfl, ht⟩ | h4 | ⟨h5, h6⟩
  · apply orElse_ok
    simp only [List.cons_append, List.append_assoc, List.nil_append]
    exact ipLiteral_runs ht _ h0
  · have hlit : ipLiteral (h ++ c :: r) = .error .fail := by
      have hne := ipv4_chars h4
      cases h with
      | nil =>
        apply seq_fail
        exact one_neg _ (by simpa using hbr)
      | cons x h =>
        apply seq_fail
        exact one_neg _ (by simpa using (digit_or_dot x (hne x (by simp))).2)
    rw [orElse_fail hlit, orElse_ok (ipv4_runs h4 r hd)]
  · have hlit : ipLiteral (h ++ c :: r) = .error .fail := by
      cases h with
      | nil => exact seq_fail (one_neg _ (by simpa using hbr))
      | cons x h =>
        apply seq_fail
        apply one_neg
        have : x ≠ 91 := by
          rcases coded_head h5 x rfl with h | h
          · exact reg_not_bracket x h
          · rw [h]; decide
        simpa using this
    have h4 : ipv4 (h ++ c :: r) = .error .fail := by
      rcases safe_ipv4 (h ++ c :: r) (by simp only [List.mem_append]; exact Or.inr h0) with ⟨q, e, _⟩ | e
      · exfalso
        obtain ⟨t, e1, ht⟩ := ok_ipv4 _ _ e
        obtain ⟨y, hy⟩ := prefix_of e1 (fun hm => by
          rcases ipv4_chars ht c hm with h | h
          · rw [hd] at h; cases h
          · exact hdot h)
        exact h6 t y hy ht
      · exact e
    rw [orElse_fail hlit, orElse_fail h4]
    exact many_coded unit_reg h5 ⟨c, r, rfl, hreg, hpct⟩

/-! The authority. -/

theorem skip_runs {f : UInt8 → Bool} {t : Str} (ht : ∀ c ∈ t, f c = true) {c : UInt8} (hc : f c = false) (r : Str) :
    skip f (t ++ c :: r) = .ok (c :: r) := by
  induction t with
  | nil => rw [List.nil_append, skip, if_neg (by simp [hc])]
  | cons x t ih =>
    rw [List.cons_append, skip, if_pos (ht x (by simp))]
    exact ih fun y hy => ht y (by simp [hy])

/-- The characters that can follow an authority. -/
def AfterAuth (c : UInt8) : Prop := c = 47 ∨ c = 63 ∨ c = 35 ∨ c = 0
instance (c : UInt8) : Decidable (AfterAuth c) := inferInstanceAs (Decidable (_ ∨ _ ∨ _ ∨ _))

theorem afterAuth (c : UInt8) (h : AfterAuth c) : isDigit c = false ∧ infoChar c = false ∧ c ≠ 37 ∧ c ≠ 64 ∧ c ≠ 58 := by
  revert h; revert c; apply forall_byte; decide +kernel

theorem portPart_runs (po : Option Str) (hp : ∀ s, po = some s → Port s) {c : UInt8} (hc : AfterAuth c) (r : Str) :
    portPart (after (ch ':') po ++ c :: r) = .ok (po.getD [], c :: r) := by
  obtain ⟨h1, _, _, _, h5⟩ := afterAuth c hc
  cases po with
  | none =>
    unfold portPart
    simp only [after, List.nil_append, deref, Except.bind]
    rw [if_neg (by simpa using h5)]; rfl
  | some s =>
    unfold portPart
    have e : skip isDigit (s ++ c :: r) = .ok (c :: r) := skip_runs (fun x hx => (isDigit_iff x).mpr (hp s rfl x hx)) h1 r
    simp only [after, List.cons_append, deref, Except.bind, List.tail_cons, port]
    rw [if_pos (by decide +kernel), e]
    simp only [upto_append, Option.getD_some]

theorem infoChar_not_at : infoChar 64 = false ∧ infoChar 91 = false := by decide

theorem coded_no_pct {p : UInt8 → Prop} {t : Str} (h : Coded p t) (hn : 37 ∉ t) : ∀ c ∈ t, p c := by
  induction h with
  | nil => simp
  | char c hc _ ih =>
    simp only [List.mem_cons, not_or] at hn
    intro d hd
    rcases List.mem_cons.mp hd with rfl | hd
    · exact hc
    · exact ih hn.2 d hd
  | pct a b _ _ _ _ => simp at hn

theorem reg_info (c : UInt8) (h : Unreserved c ∨ SubDelim c) : infoChar c = true := by revert h; revert c; apply forall_byte; decide +kernel
theorem digit_info (c : UInt8) (h : isDigit c = true ∨ c = 46 ∨ c = 58) : infoChar c = true := by revert h; revert c; apply forall_byte; decide +kernel

theorem userinfoPart_none {a : Str} (ha : ∀ c ∈ a, infoChar c = true) {c : UInt8} (h1 : infoChar c = false) (h2 : c ≠ 37) (h3 : c ≠ 64)
    (r : Str) : userinfoPart (a ++ c :: r) = .ok ([], a ++ c :: r) := by
  unfold userinfoPart seq
  rw [userinfo_run a ha c r h1 h2]
  simp only [Except.bind, deref]
  rw [if_neg (by simpa using h3)]

theorem userinfoPart_some {a : Str} (ha : ∀ c ∈ a, infoChar c = true) (r : Str) : userinfoPart (a ++ 64 :: r) = .ok (a, r) := by
  unfold userinfoPart seq
  rw [userinfo_run a ha 64 r infoChar_not_at.1 (by decide)]
  simp only [Except.bind, deref]
  rw [if_pos (by decide)]
  simp only [upto_append, List.tail_cons]

theorem authority_runs (u : Parts) (ui : Option Str) (h : Str) (po : Option Str) (h1 : ∀ s, ui = some s → Userinfo s) (h2 : KnownHost h)
    (h3 : ∀ s, po = some s → Port s) (hp : ch '%' ∉ Spec.authorityText (ui, h, po)) {c : UInt8} (hc : AfterAuth c) (r : Str)
    (h0 : 0 ∈ c :: r) :
    authority u (Spec.authorityText (ui, h, po) ++ c :: r) = .ok ({ u with userinfo := ui.getD [], host := h, port := po.getD [] }, c :: r) := by
  have hca := afterAuth c hc
  -- what follows the host
  have hq : ∃ d q, after (ch ':') po ++ c :: r = d :: q ∧ AfterHost d := by
    cases po with
    | none => exact ⟨c, r, rfl, Or.inr hc⟩
    | some s => exact ⟨ch ':', s ++ c :: r, rfl, by decide +kernel⟩
  obtain ⟨d, q, hdq, hd⟩ := hq
  have h0q : 0 ∈ d :: q := by rw [← hdq]; simp only [List.mem_append]; exact Or.inr h0
  have hui : userinfoPart (Spec.authorityText (ui, h, po) ++ c :: r) = .ok (ui.getD [], h ++ d :: q) := by
    rw [← hdq]
    cases ui with
    | some s =>
      have e : Spec.authorityText (some s, h, po) ++ c :: r = s ++ 64 :: (h ++ (after (ch ':') po ++ c :: r)) := by
        cases po <;> simp [Spec.authorityText, after, ch]
      have hs : ∀ x ∈ s, infoChar x = true := by
        intro x hx
        refine (infoChar_iff x).mpr (coded_no_pct (h1 s rfl) ?_ x hx)
        intro hm
        apply hp
        simp only [Spec.authorityText, List.mem_append]
        exact Or.inl (Or.inl (Or.inl hm))
      rw [e, userinfoPart_some hs]; rfl
    | none =>
      have e : Spec.authorityText (none, h, po) ++ c :: r = h ++ (after (ch ':') po ++ c :: r) := by
        cases po <;> simp [Spec.authorityText, after]
      rw [e]
      have hpo : ∀ x ∈ after (ch ':') po, infoChar x = true := by
        intro x hx
        cases po with
        | none => simp [after] at hx
        | some s =>
          simp only [after, List.mem_cons] at hx
          rcases hx with rfl | hx
          · exact digit_info _ (by decide +kernel)
          · exact digit_info _ (Or.inl ((isDigit_iff x).mpr (h3 s rfl x hx)))
      rcases h2 with ⟨t, rfl, _⟩ | h4 | ⟨h5, _⟩
      · have := userinfoPart_none (a := []) (by simp) (c := 91) infoChar_not_at.2 (by decide) (by decide) (t ++ 93 :: (after (ch ':') po ++ c :: r))
        simpa [ch] using this
      · have := userinfoPart_none (a := h ++ after (ch ':') po) (by
          intro x hx
          rcases List.mem_append.mp hx with hx | hx
          · refine digit_info x ?_
            rcases ipv4_chars h4 x hx with h | h
            · exact Or.inl h
            · exact Or.inr (Or.inl h)
          · exact hpo x hx) (c := c) hca.2.1 hca.2.2.1 hca.2.2.2.1 r
        simpa using this
      · have := userinfoPart_none (a := h ++ after (ch ':') po) (by
          intro x hx
          rcases List.mem_append.mp hx with hx | hx
          · refine reg_info x (coded_no_pct h5 ?_ x hx)
            intro hm
            apply hp
            simp only [Spec.authorityText, List.mem_append]
            exact Or.inl (Or.inr hm)
          · exact hpo x hx) (c := c) hca.2.1 hca.2.2.1 hca.2.2.2.1 r
        simpa using this
  unfold authority
  rw [hui]
  simp only [Except.bind]
  rw [host_runs h2 hd q h0q]
  simp only
  rw [← hdq, portPart_runs po h3 hc r]
  simp only [upto_append]

/-! The whole text. -/

theorem optPart_none {c d : UInt8} (r : Str) (h : d ≠ c) : optPart c (d :: r) = .ok ([], d :: r) := by
  unfold optPart
  simp only [deref, Except.bind]
  rw [if_neg (by simpa using h)]

theorem optPart_some {c : UInt8} {t q : Str} (ht : Query t) (hq : Stops (fun c => Pchar c ∨ In "/?" c) q) :
    optPart c (c :: (t ++ q)) = .ok (t, q) := by
  unfold optPart
  simp only [deref, Except.bind, List.tail_cons]
  rw [if_pos (by simp)]
  have : queryText (t ++ q) = .ok q := many_coded unit_query ht hq
  rw [this]
  simp only [upto_append]

theorem tailParts_runs (u : Parts) (qu fr : Option Str) (h1 : ∀ s, qu = some s → Query s) (h2 : ∀ s, fr = some s → Query s) :
    tailParts u (after (ch '?') qu ++ (after (ch '#') fr ++ [0])) = .ok { u with query := qu.getD [], fragment := fr.getD [] } := by
  have e35 : ch '#' = 35 := by decide +kernel
  have e63 : ch '?' = 63 := by decide +kernel
  rw [e35, e63, tailParts_eq]
  have hs : ∀ c, c = 35 ∨ c = 0 → ∀ r, Stops (fun c => Pchar c ∨ In "/?" c) (c :: r) := by
    rintro c (rfl | rfl) r
    · exact ⟨35, r, rfl, by decide +kernel, by decide⟩
    · exact ⟨0, r, rfl, by decide +kernel, by decide⟩
  have hf : optPart 35 (after 35 fr ++ [0]) = .ok (fr.getD [], [0]) := by
    cases fr with
    | none => exact optPart_none _ (by decide)
    | some s => exact optPart_some (h2 s rfl) (hs 0 (Or.inr rfl) _)
  have hqp : optPart 63 (after 63 qu ++ (after 35 fr ++ [0])) = .ok (qu.getD [], after 35 fr ++ [0]) := by
    cases qu with
    | none =>
      cases fr with
      | none => exact optPart_none _ (by decide)
      | some s => exact optPart_none _ (by decide)
    | some s =>
      apply optPart_some (h1 s rfl)
      cases fr with
      | none => exact hs 0 (Or.inr rfl) _
      | some s => exact hs 35 (Or.inl rfl) _
  rw [hqp]
  simp only [Except.bind]
  rw [hf]
  rfl

/-- The text behind the path. -/
def behind (u : Split) : Str := after (ch '?') u.query ++ (after (ch '#') u.fragment ++ [0])

theorem behind_head (u : Split) : ∃ c r, behind u = c :: r ∧ (c = 63 ∨ c = 35 ∨ c = 0) := by
  unfold behind
  cases u.query with
  | some s => exact ⟨_, _, rfl, Or.inl (by decide +kernel)⟩
  | none =>
    cases u.fragment with
    | some s => exact ⟨_, _, rfl, Or.inr (Or.inl (by decide +kernel))⟩
    | none => exact ⟨_, _, rfl, Or.inr (Or.inr rfl)⟩

theorem behind_stops (u : Split) : Stops Pathchar (behind u) := by
  obtain ⟨c, r, e, h⟩ := behind_head u
  refine ⟨c, r, e, ?_⟩
  rcases h with rfl | rfl | rfl <;> refine ⟨?_, by decide⟩
  all_goals
    rintro (h | h)
    · revert h; decide +kernel
    · revert h; decide +kernel

theorem behind_zero (u : Split) : 0 ∈ behind u := by simp [behind]

/-- The text behind the scheme. -/
def hierText (u : Split) : Str := (match u.authority with | none => [] | some x => ch '/' :: ch '/' :: Spec.authorityText x) ++ (u.path ++ behind u)

theorem compose_zero (u : Split) : compose u ++ [0] = (match u.scheme with | none => [] | some x => x ++ [ch ':']) ++ hierText u := by
  obtain ⟨sc, au, pa, qu, fr⟩ := u
  cases sc <;> cases au <;> cases qu <;> cases fr <;> simp [compose, hierText, behind, after]

theorem slashes_fail {c : UInt8} (r : Str) (h : c ≠ 47) : slashes (c :: r) = .error .fail := seq_fail (one_neg _ (by simpa using h))
theorem slashes_fail2 {c : UInt8} (r : Str) (h : c ≠ 47) : slashes (47 :: c :: r) = .error .fail := by
  unfold slashes; rw [seq_ok (one_pos _ rfl), one_neg _ (by simpa using h)]
theorem slashes_runs (r : Str) : slashes (47 :: 47 :: r) = .ok r := by
  unfold slashes; rw [seq_ok (one_pos _ rfl), one_pos _ rfl]

theorem hier_runs (other : P) (l : Str → Prop) (hr : ∀ t, l t → ∀ q, Stops Pathchar q → other (t ++ q) = .ok q)
    (hl : ∀ t, l t → PathRootless t) (hf : ∀ q, Stops Pathchar q → other q = .error .fail) (v : Parts) (u : Split)
    (ha : ∀ ui h po, u.authority = some (ui, h, po) → (∀ s, ui = some s → Userinfo s) ∧ KnownHost h ∧ (∀ s, po = some s → Port s) ∧
      ch '%' ∉ Spec.authorityText (ui, h, po) ∧ PathAbempty u.path)
    (hn : u.authority = none → PathAbsolute u.path ∨ l u.path ∨ u.path = [])
    (hv : u.authority = none → v.userinfo = [] ∧ v.host = [] ∧ v.port = []) :
    hierPart other v (hierText u) = .ok ({ v with userinfo := (parts u).userinfo, host := (parts u).host, port := (parts u).port, path := u.path }, behind u) := by
  have hst := behind_stops u
  have e47 : ch '/' = 47 := by decide +kernel
  unfold hierPart hierText
  cases hau : u.authority with
  | some a =>
    obtain ⟨ui, h, po⟩ := a
    obtain ⟨h1, h2, h3, h4, h5⟩ := ha ui h po hau
    simp only [List.cons_append, e47, slashes_runs]
    have hq : ∃ c r, u.path ++ behind u = c :: r ∧ AfterAuth c := by
      have h51 := h5.1
      cases hp : u.path with
      | nil =>
        obtain ⟨c, r, e, h⟩ := behind_head u
        exact ⟨c, r, by rw [List.nil_append, e], Or.inr h⟩
      | cons c t =>
        rw [hp] at h51
        exact ⟨c, t ++ behind u, rfl, Or.inl (by rw [h51 c rfl]; exact e47)⟩
    obtain ⟨c, r, e, hc⟩ := hq
    rw [e, authority_runs v ui h po h1 h2 h3 h4 hc r (by rw [← e]; simp only [List.mem_append]; exact Or.inr (behind_zero u))]
    simp only [Except.bind]
    rw [← e, abempty_runs (by rw [← e47]; exact h5.1) h5.2 hst]
    simp only [upto_append, parts, hau, Option.bind_some, Option.map_some, Option.getD_some]
  | none =>
    simp only [List.nil_append]
    have hsl : slashes (u.path ++ behind u) = .error .fail ∧ orElse pathAbsolute (orElse other .ok) (u.path ++ behind u) = .ok (behind u) := by
      obtain ⟨c, r, e, h⟩ := behind_head u
      have hc : c ≠ 47 := by rcases h with rfl | rfl | rfl <;> decide
      rcases hn hau with h | h | h
      · refine ⟨?_, orElse_ok (absolute_runs h hst)⟩
        obtain ⟨t, e2, h2, _⟩ := h
        rw [e2]
        cases t with
        | nil => rw [e, e47]; exact slashes_fail2 _ hc
        | cons x t => rw [e47]; exact slashes_fail2 _ (by rw [← e47]; exact h2 x rfl)
      · obtain ⟨h1, h2, h3⟩ := hl _ h
        obtain ⟨x, t, e2⟩ := List.exists_cons_of_ne_nil h1
        have hx : x ≠ 47 := by rw [← e47]; exact h2 x (by rw [e2]; rfl)
        refine ⟨by rw [e2]; exact slashes_fail _ hx, ?_⟩
        rw [orElse_fail, orElse_ok (hr _ h _ hst)]
        rw [e2]; exact seq_fail (one_neg _ (by simpa using hx))
      · rw [h, List.nil_append]
        refine ⟨by rw [e]; exact slashes_fail _ hc, ?_⟩
        rw [orElse_fail (by rw [e]; exact seq_fail (one_neg _ (by simpa using hc))), orElse_fail (hf _ hst)]
    rw [hsl.1]
    simp only
    rw [hsl.2]
    obtain ⟨h1, h2, h3⟩ := hv hau
    simp only [Except.bind, upto_append, parts, hau, Option.bind_none, Option.map_none, Option.getD_none]
    simp only [h1, h2, h3]

theorem scheme_iff (c : UInt8) : (isAlnum c || c == 43 || c == 45 || c == 46) = true ↔ (Alpha c ∨ Digit c ∨ In "+-." c) := by
  revert c; apply forall_byte; decide +kernel

theorem scheme_runs {t : Str} (h : Scheme t) (r : Str) : scheme (t ++ 58 :: r) = .ok (58 :: r) := by
  obtain ⟨c, t, rfl, hc, ht⟩ := h
  unfold scheme
  rw [List.cons_append, seq_ok (one_pos _ ((isAlpha_iff c).mpr hc))]
  exact skip_runs (fun x hx => (scheme_iff x).mpr (ht x hx)) (by decide) r

theorem parse_runs (u : Split) (hu : Valid u)
    (ha : ∀ ui h po, u.authority = some (ui, h, po) → KnownHost h ∧ ch '%' ∉ Spec.authorityText (ui, h, po)) :
    parse (compose u) = .ok (parts u) := by
  obtain ⟨h1, h2, h3, h4⟩ := hu
  have hauth : ∀ ui h po, u.authority = some (ui, h, po) → (∀ s, ui = some s → Userinfo s) ∧ KnownHost h ∧ (∀ s, po = some s → Port s) ∧
      ch '%' ∉ Spec.authorityText (ui, h, po) ∧ PathAbempty u.path := by
    intro ui h po e
    rw [e] at h2
    obtain ⟨a, b, c, d⟩ := h2
    exact ⟨a, (ha ui h po e).1, c, (ha ui h po e).2, d⟩
  have e58 : ch ':' = 58 := by decide +kernel
  unfold parse
  rw [compose_zero]
  cases hs : u.scheme with
  | some sc =>
    have hn : u.authority = none → PathAbsolute u.path ∨ PathRootless u.path ∨ u.path = [] := by
      intro e
      rw [e, hs] at h2
      simpa using h2
    have hh := hier_runs pathRootless PathRootless (fun t h q hq => rootless_runs h hq) (fun t h => h)
      (fun q hq => seq_fail (segmentNz_fails (hq.mono fun c h => Or.inl h))) { scheme := sc } u hauth hn (fun _ => ⟨rfl, rfl, rfl⟩)
    have : parseUri ((match some sc with | none => [] | some x => x ++ [ch ':']) ++ hierText u) = .ok (parts u) := by
      simp only [List.append_assoc, List.cons_append, List.nil_append, e58]
      unfold parseUri
      rw [scheme_runs (h1 sc hs)]
      simp only [Except.bind]
      rw [one_pos _ rfl]
      simp only [upto_append]
      rw [hh]
      simp only [behind]
      rw [tailParts_runs _ _ _ h3 h4]
      simp only [parts, hs, Option.getD_some]
    rw [this]
  | none =>
    have hn : u.authority = none → PathAbsolute u.path ∨ PathNoscheme u.path ∨ u.path = [] := by
      intro e
      rw [e, hs] at h2
      simpa using h2
    have hh := hier_runs pathNoscheme PathNoscheme (fun t h q hq => noscheme_runs h hq) (fun t h => h.1)
      (fun q hq => seq_fail (seq_fail (unit_pchar_false.fails (hq.mono fun c h => Or.inl (pcharNc_pchar c h))))) {} u hauth hn (fun _ => ⟨rfl, rfl, rfl⟩)
    have hz : 0 ∈ hierText u := by simp [hierText, behind_zero]
    have hno : ∀ sc r, Scheme sc → hierText u ≠ sc ++ 58 :: r := by
      intro sc r hsc e
      have hsc2 := scheme_no_slash sc hsc
      obtain ⟨c, t, rfl, hc, _⟩ := hsc
      have hfirst : ∀ d q, hierText u = d :: q → d ≠ 47 ∧ d ≠ 63 ∧ d ≠ 35 ∧ d ≠ 0 := by
        intro d q e2
        rw [e2, List.cons_append, List.cons.injEq] at e
        rw [e.1]
        revert hc; clear hsc2 e e2
        revert c; apply forall_byte; decide +kernel
      cases hau : u.authority with
      | some a =>
        exact (hfirst 47 (ch '/' :: Spec.authorityText a ++ (u.path ++ behind u)) (by simp [hierText, hau, ch])).1 rfl
      | none =>
        have ht : hierText u = u.path ++ behind u := by simp [hierText, hau]
        obtain ⟨d, q, eb, hd⟩ := behind_head u
        rcases hn hau with h | h | h
        · obtain ⟨p, hp, _⟩ := h
          exact (hfirst 47 (p ++ behind u) (by rw [ht, hp]; rfl)).1 rfl
        · rw [ht, eb] at e
          have e' : u.path ++ d :: q = (c :: t ++ [58]) ++ r := by rw [e]; simp
          obtain ⟨y, hy⟩ := prefix_of e' (by
            intro hm
            rcases List.mem_append.mp hm with hm | hm
            · have := hsc2 d hm
              rcases hd with rfl | rfl | rfl
              · exact this.1 (by decide +kernel)
              · exact this.1 (by decide +kernel)
              · exact this.2 rfl
            · rw [List.mem_singleton.mp hm] at hd
              revert hd; decide)
          have := h.2 (c :: t) y (by rw [hy]; simp [ch])
          exact (hsc2 _ this).1 (by decide +kernel)
        · have := hfirst d q (by rw [ht, h, eb]; rfl)
          rcases hd with rfl | rfl | rfl
          · exact this.2.1 rfl
          · exact this.2.2.1 rfl
          · exact this.2.2.2 rfl
    have hfail : parseUri (hierText u) = .error .fail := by
      unfold parseUri
      rcases safe_scheme _ hz with ⟨q, e, hq⟩ | e
      · rw [e]
        simp only [Except.bind]
        rcases safe_one (· == 58) rfl q hq with ⟨r, e2, _⟩ | e2
        · exfalso
          obtain ⟨sc, e3, hsc⟩ := ok_scheme _ _ e
          obtain ⟨_, rfl, rfl⟩ := ok_char _ _ _ e2
          exact hno sc r hsc e3
        · rw [e2]
      · rw [e]; rfl
    simp only [List.nil_append]
    rw [hfail]
    simp only
    unfold parseRelative
    rw [hh]
    simp only [Except.bind, behind]
    rw [tailParts_runs _ _ _ h3 h4]
    simp only [parts, hs, Option.getD_none]

end Verif.Uri.Lemmas
