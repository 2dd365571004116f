import Verif.Uri.Lemmas
/-! Auxiliary lemmas on the parser of references: the whole text (no claims). -/

namespace Verif.Uri.Lemmas
open Verif.Uri Verif.Uri.Spec

/-- The text of an optional component. -/
def after (c : UInt8) : Option Str → Str
  | none => []
  | some x => c :: x

theorem userinfoPart_ok (p : Str) (x q : Str) (h : userinfoPart p = .ok (x, q)) :
    ∃ ui : Option Str, p = (match ui with | none => [] | some x => x ++ [ch '@']) ++ q ∧ ui.getD [] = x ∧
      ∀ s, ui = some s → userinfo p = .ok (64 :: q) ∧ p = s ++ 64 :: q := by
  unfold userinfoPart at h
  split at h
  · rename_i r hr
    simp only [Except.ok.injEq, Prod.mk.injEq] at h
    obtain ⟨h1, h2⟩ := h
    unfold seq at hr
    cases hu : userinfo p with
    | error e => rw [hu] at hr; cases hr
    | ok r' =>
      rw [hu] at hr
      simp only [Except.bind] at hr
      cases r' with
      | nil => simp [deref] at hr
      | cons c r' =>
        simp only [deref] at hr
        split at hr
        · rename_i hc
          have hc : c = 64 := by simpa using hc
          simp only [Except.ok.injEq] at hr
          subst hr; subst hc
          simp only [List.tail_cons] at h2
          subst h2
          obtain ⟨t, rfl, _⟩ := ok_userinfo _ _ hu
          rw [upto_append] at h1
          subst h1
          exact ⟨some t, by simp [ch], rfl, by rintro s ⟨⟩; exact ⟨rfl, rfl⟩⟩
        · cases hr
  · simp only [Except.ok.injEq, Prod.mk.injEq] at h
    exact ⟨none, by simp [h.2], by simp [h.1], by simp⟩
  · cases h

theorem portPart_ok (p : Str) (x q : Str) (h : portPart p = .ok (x, q)) :
    ∃ po : Option Str, p = after (ch ':') po ++ q ∧ po.getD [] = x ∧ ∀ s, po = some s → Port s := by
  unfold portPart at h
  cases p with
  | nil => simp [deref, Except.bind] at h
  | cons c p =>
    simp only [deref, Except.bind, List.tail_cons] at h
    split at h
    · rename_i hc
      have hc : c = 58 := by simpa using hc
      subst hc
      cases hp : port p with
      | error e => rw [hp] at h; cases h
      | ok r =>
        rw [hp] at h
        simp only [Except.ok.injEq, Prod.mk.injEq] at h
        obtain ⟨h1, rfl⟩ := h
        obtain ⟨t, rfl, ht⟩ := ok_port _ _ hp
        rw [upto_append] at h1
        subst h1
        exact ⟨some t, rfl, rfl, by rintro s ⟨⟩; exact ht⟩
    · simp only [Except.ok.injEq, Prod.mk.injEq] at h
      exact ⟨none, by simp [after, h.2], by simp [h.1], by simp⟩

theorem authority_ok (u : Parts) (p : Str) (v : Parts) (q : Str) (h : authority u p = .ok (v, q)) :
    ∃ ui h po, p = Spec.authorityText (ui, h, po) ++ q ∧ v = { u with userinfo := ui.getD [], host := h, port := po.getD [] } ∧
      Host h ∧ (∀ s, po = some s → Port s) ∧ ∀ s, ui = some s → ∃ r, userinfo p = .ok (64 :: r) ∧ p = s ++ 64 :: r := by
  unfold authority at h
  cases h1 : userinfoPart p with
  | error e => rw [h1] at h; cases h
  | ok x =>
    obtain ⟨x, p1⟩ := x
    rw [h1] at h
    simp only [Except.bind] at h
    cases h2 : host p1 with
    | error e => rw [h2] at h; cases h
    | ok p2 =>
      rw [h2] at h
      simp only at h
      cases h3 : portPart p2 with
      | error e => rw [h3] at h; cases h
      | ok y =>
        obtain ⟨y, p3⟩ := y
        rw [h3] at h
        simp only [Except.ok.injEq, Prod.mk.injEq] at h
        obtain ⟨h4, rfl⟩ := h
        obtain ⟨ui, e1, e2, e3⟩ := userinfoPart_ok _ _ _ h1
        obtain ⟨po, e4, e5, e6⟩ := portPart_ok _ _ _ h3
        obtain ⟨ho, e7, e8⟩ := ok_host _ _ h2
        subst e7
        rw [upto_append] at h4
        refine ⟨ui, ho, po, ?_, ?_, e8, e6, ?_⟩
        · rw [e1, e4]
          cases ui <;> cases po <;> simp [Spec.authorityText, after]
        · rw [← h4, e2, e5]
        · intro s hs
          exact ⟨_, e3 s hs⟩

/-- Path and authority, as `hierPart` reads them. -/
theorem hierPart_ok (other : P) (l : Str → Prop) (ho : Ok other l) (u : Parts) (p : Str) (v : Parts) (q : Str)
    (h : hierPart other u p = .ok (v, q)) :
    (∃ ui h po path, p = ch '/' :: ch '/' :: (Spec.authorityText (ui, h, po) ++ (path ++ q)) ∧
      v = { u with userinfo := ui.getD [], host := h, port := po.getD [], path := path } ∧
      Host h ∧ (∀ s, po = some s → Port s) ∧ PathAbempty path ∧
      ∀ s, ui = some s → ∃ r, userinfo (Spec.authorityText (ui, h, po) ++ (path ++ q)) = .ok (64 :: r) ∧
        Spec.authorityText (ui, h, po) ++ (path ++ q) = s ++ 64 :: r) ∨
    (∃ path, p = path ++ q ∧ v = { u with path := path } ∧ (PathAbsolute path ∨ l path ∨ path = [])) := by
  unfold hierPart at h
  split at h
  · left
    rename_i p1 hp1
    have hsl : p = 47 :: 47 :: p1 := by
      obtain ⟨t, rfl, _, _, rfl, rfl, rfl⟩ := ok_seq (ok_char 47) (ok_char 47) _ _ hp1
      rfl
    subst hsl
    cases h1 : authority u p1 with
    | error e => rw [h1] at h; cases h
    | ok x =>
      obtain ⟨w, p2⟩ := x
      rw [h1] at h
      simp only [Except.bind] at h
      cases h2 : pathAbempty p2 with
      | error e => rw [h2] at h; cases h
      | ok p3 =>
        rw [h2] at h
        simp only [Except.ok.injEq, Prod.mk.injEq] at h
        obtain ⟨h3, rfl⟩ := h
        obtain ⟨path, rfl, hpath⟩ := ok_pathAbempty _ _ h2
        rw [upto_append] at h3
        obtain ⟨ui, ho, po, rfl, e2, e3, e4, e5⟩ := authority_ok _ _ _ _ h1
        exact ⟨ui, ho, po, path, rfl, by rw [← h3, e2], e3, e4, hpath, e5⟩
  · right
    cases h1 : orElse pathAbsolute (orElse other .ok) p with
    | error e => rw [h1] at h; cases h
    | ok r =>
      rw [h1] at h
      simp only [Except.bind, Except.ok.injEq, Prod.mk.injEq] at h
      obtain ⟨h2, rfl⟩ := h
      obtain ⟨path, rfl, hpath⟩ := ok_orElse ok_pathAbsolute (ok_orElse ho ok_ok) _ _ h1
      rw [upto_append] at h2
      exact ⟨path, rfl, h2.symm, hpath⟩
  · cases h

theorem opt_ok (c : UInt8) (p x q : Str)
    (h : (deref p).bind (fun d => if d == c then (queryText p.tail).bind fun q => .ok (upto p.tail q, q) else .ok ([], p)) = .ok (x, q)) :
    ∃ y : Option Str, p = after c y ++ q ∧ y.getD [] = x ∧ ∀ s, y = some s → Query s := by
  cases p with
  | nil => simp [deref, Except.bind] at h
  | cons d p =>
    simp only [deref, Except.bind, List.tail_cons] at h
    split at h
    · rename_i hc
      have hc : d = c := by simpa using hc
      subst hc
      cases hp : queryText p with
      | error e => rw [hp] at h; cases h
      | ok r =>
        rw [hp] at h
        simp only [Except.ok.injEq, Prod.mk.injEq] at h
        obtain ⟨h1, rfl⟩ := h
        obtain ⟨t, rfl, ht⟩ := ok_queryText _ _ hp
        rw [upto_append] at h1
        subst h1
        exact ⟨some t, rfl, rfl, by rintro s ⟨⟩; exact ht⟩
    · simp only [Except.ok.injEq, Prod.mk.injEq] at h
      exact ⟨none, by simp [after, h.2], by simp [h.1], by simp⟩

/-- The optional part after a mark. -/
def optPart (c : UInt8) (p : Str) : Except Err (Str × Str) :=
  (deref p).bind fun d => if d == c then (queryText p.tail).bind fun q => .ok (upto p.tail q, q) else .ok ([], p)

theorem bind_assoc' {α β γ : Type} (x : Except Err α) (f : α → Except Err β) (g : β → Except Err γ) :
    (x.bind f).bind g = x.bind fun a => (f a).bind g := by cases x <;> rfl

theorem tailParts_eq (u : Parts) (p : Str) : tailParts u p = (optPart 63 p).bind fun (qu, p) => (optPart 35 p).bind fun (fr, p) =>
    (deref p).bind fun c => if c != 0 then .error .fail else .ok { u with query := qu, fragment := fr } := by
  unfold tailParts optPart
  simp only [bind_assoc']

theorem tailParts_ok (u : Parts) (p : Str) (v : Parts) (h : tailParts u p = .ok v) :
    ∃ qu fr q, p = after (ch '?') qu ++ (after (ch '#') fr ++ 0 :: q) ∧ v = { u with query := qu.getD [], fragment := fr.getD [] } ∧
      (∀ s, qu = some s → Query s) ∧ ∀ s, fr = some s → Query s := by
  rw [tailParts_eq] at h
  cases h1 : optPart 63 p with
  | error e => rw [h1] at h; cases h
  | ok x =>
    obtain ⟨x, p1⟩ := x
    rw [h1] at h
    simp only [Except.bind] at h
    cases h2 : optPart 35 p1 with
    | error e => rw [h2] at h; cases h
    | ok y =>
      obtain ⟨y, p2⟩ := y
      rw [h2] at h
      simp only at h
      obtain ⟨qu, e1, e2, e3⟩ := opt_ok _ _ _ _ h1
      obtain ⟨fr, e4, e5, e6⟩ := opt_ok _ _ _ _ h2
      cases p2 with
      | nil => simp [deref] at h
      | cons c p2 =>
        simp only [deref] at h
        split at h
        · cases h
        · rename_i hc
          have hc : c = 0 := by simpa using hc
          subst hc
          simp only [Except.ok.injEq] at h
          refine ⟨qu, fr, p2, ?_, ?_, e3, e6⟩
          · rw [e1, e4]; rfl
          · rw [← h, e2, e5]

/-- The condition of the loop on escapes in the user information, seen from the text. -/
def InfoOk (s : Str) (info : Str → Prop) : Prop :=
  ∀ pre p x r, s = pre ++ ch '/' :: ch '/' :: p → (∀ c ∈ pre, ¬ In "/?#" c) → userinfo p = .ok (64 :: r) → p = x ++ 64 :: r → info x

theorem compose_eq (u : Split) : compose u = (match u.scheme with | none => [] | some x => x ++ [ch ':']) ++
    ((match u.authority with | none => [] | some x => ch '/' :: ch '/' :: Spec.authorityText x) ++
      (u.path ++ (after (ch '?') u.query ++ after (ch '#') u.fragment))) := by
  obtain ⟨sc, au, pa, qu, fr⟩ := u
  cases sc <;> cases au <;> cases qu <;> cases fr <;> simp [compose, after]

theorem parse_rest (other : P) (l : Str → Prop) (ho : Ok other l) (sch : Option Str) (s : Str) (u : Parts) (info : Str → Prop)
    (hs : ∀ x, sch = some x → Scheme x)
    (hl : ∀ p, l p → if sch.isSome then PathRootless p else PathNoscheme p)
    (hi : ∀ p x r, s = ch '/' :: ch '/' :: p → userinfo p = .ok (64 :: r) → p = x ++ 64 :: r → info x)
    (h : (hierPart other { scheme := sch.getD [] } s).bind (fun (u, t) => tailParts u t) = .ok u) :
    ∃ sp junk, sp.scheme = sch ∧ ValidWith info sp ∧ parts sp = u ∧
      (match sch with | none => [] | some x => x ++ [ch ':']) ++ s = compose sp ++ 0 :: junk := by
  cases h1 : hierPart other { scheme := sch.getD [] } s with
  | error e => rw [h1] at h; cases h
  | ok x =>
    obtain ⟨v, t⟩ := x
    rw [h1] at h
    simp only [Except.bind] at h
    obtain ⟨qu, fr, q, rfl, rfl, e3, e4⟩ := tailParts_ok _ _ _ h
    rcases hierPart_ok _ l ho _ _ _ _ h1 with ⟨ui, ho, po, path, e5, rfl, e7, e8, e9, e10⟩ | ⟨path, e5, rfl, e7⟩
    · refine ⟨⟨sch, some (ui, ho, po), path, qu, fr⟩, q, rfl, ⟨hs, ⟨?_, e7, e8, e9⟩, e3, e4⟩, rfl, ?_⟩
      · intro x hx
        obtain ⟨r, h2, h3⟩ := e10 x hx
        exact hi _ x r e5 h2 h3
      · rw [compose_eq, e5]; simp
    · refine ⟨⟨sch, none, path, qu, fr⟩, q, rfl, ⟨hs, ?_, e3, e4⟩, rfl, ?_⟩
      · rcases e7 with h | h | h
        · exact Or.inl h
        · exact Or.inr (Or.inl (hl _ h))
        · exact Or.inr (Or.inr h)
      · rw [compose_eq, e5]; simp

theorem scheme_no_slash (t : Str) (h : Scheme t) : ∀ c ∈ t, ¬ In "/?#" c ∧ c ≠ 0 := by
  obtain ⟨c, t, rfl, hc, ht⟩ := h
  intro d hd
  have : Alpha d ∨ Digit d ∨ In "+-." d := by
    rcases List.mem_cons.mp hd with rfl | hd
    · exact Or.inl hc
    · exact ht d hd
  revert this; clear hd; revert d; apply forall_byte; decide +kernel

theorem parse_ok (s : Str) (u : Parts) (info : Str → Prop) (hi : InfoOk (s ++ [0]) info) (h : parse s = .ok u) :
    ∃ sp junk, ValidWith info sp ∧ parts sp = u ∧ s ++ [0] = compose sp ++ 0 :: junk := by
  unfold parse at h
  split at h
  · obtain ⟨sp, junk, _, h1, h2, h3⟩ := parse_rest pathNoscheme PathNoscheme ok_pathNoscheme none (s ++ [0]) u info (by simp)
      (fun p hp => by simpa using hp) (fun p x r e h1 h2 => hi [] p x r e (by simp) h1 h2) h
    exact ⟨sp, junk, h1, h2, h3⟩
  · unfold parseUri at h
    cases h1 : scheme (s ++ [0]) with
    | error e => rw [h1] at h; cases h
    | ok q =>
      rw [h1] at h
      simp only [Except.bind] at h
      cases h2 : one (fun x => x == 58) q with
      | error e => rw [h2] at h; cases h
      | ok r =>
        rw [h2] at h
        simp only at h
        obtain ⟨sc, e1, e2⟩ := ok_scheme _ _ h1
        obtain ⟨_, rfl, rfl⟩ := ok_char _ _ _ h2
        rw [e1, upto_append] at h
        obtain ⟨sp, junk, _, h1, h2, h3⟩ := parse_rest pathRootless PathRootless ok_pathRootless (some sc) r u info
          (by rintro x ⟨⟩; exact e2) (fun p hp => by simpa using hp)
          (fun p x r' e h1 h2 => hi (sc ++ [ch ':']) p x r' (by rw [e1, e]; simp [ch]) (by
            intro c hc
            rcases List.mem_append.mp hc with hc | hc
            · exact (scheme_no_slash sc e2 c hc).1
            · rw [List.mem_singleton.mp hc]; decide +kernel) h1 h2) h
        exact ⟨sp, junk, h1, h2, by rw [e1, ← h3]; simp [ch]⟩

theorem infoOk_true (s : Str) : InfoOk s (fun _ => True) := fun _ _ _ _ _ _ _ _ => trivial

theorem infoChar_iff (c : UInt8) : infoChar c = true ↔ (Unreserved c ∨ SubDelim c ∨ In ":" c) := by
  revert c; apply forall_byte; decide +kernel

theorem infoChar_not_mark (c : UInt8) (h : infoChar c = true) : ¬ In "/?#" c ∧ c ≠ 0 ∧ c ≠ 37 ∧ c ≠ 64 := by
  revert h; revert c; apply forall_byte; decide +kernel

theorem userinfo_plain {p : Str} (h0 : 0 ∈ p) (hpl : ∀ a rest, p = a ++ rest → (∀ c ∈ a, ¬ In "/?#" c) → ch '%' ∉ a) :
    ∃ a c r, p = a ++ c :: r ∧ (∀ d ∈ a, infoChar d = true) ∧ infoChar c = false ∧ userinfo p = .ok (c :: r) := by
  obtain ⟨a, c, r, rfl, h1, h2⟩ := info_split p h0
  refine ⟨a, c, r, rfl, h1, h2, userinfo_run a h1 c r h2 ?_⟩
  rintro rfl
  refine hpl (a ++ [37]) r (by simp) ?_ (by simp [ch])
  intro d hd
  rcases List.mem_append.mp hd with hd | hd
  · exact (infoChar_not_mark d (h1 d hd)).1
  · rw [List.mem_singleton.mp hd]; decide +kernel

theorem coded_of_all {p : UInt8 → Prop} {t : Str} (h : ∀ c ∈ t, p c) : Coded p t := by
  induction t with
  | nil => exact .nil
  | cons c t ih => exact .char c (h c (by simp)) (ih fun d hd => h d (by simp [hd]))

theorem plain_suffix {s pre p : Str} (hp : PlainAuthority s) (e : s ++ [0] = pre ++ ch '/' :: ch '/' :: p)
    (hpre : ∀ c ∈ pre, ¬ In "/?#" c) (a rest : Str) (e2 : p = a ++ rest) (ha : ∀ c ∈ a, ¬ In "/?#" c) : ch '%' ∉ a := by
  rcases List.eq_nil_or_concat rest with rfl | ⟨rest, x, rfl⟩
  · rw [List.append_nil] at e2
    subst e2
    rcases List.eq_nil_or_concat p with rfl | ⟨p, x, rfl⟩
    · simp
    · rw [List.concat_eq_append] at e ha ⊢
      have e' : s ++ [0] = (pre ++ ch '/' :: ch '/' :: p) ++ [x] := by simp [e]
      obtain ⟨e3, e4⟩ := List.append_inj' e' rfl
      simp only [List.cons.injEq, and_true] at e4
      have := hp pre p [] (by simp [e3]) hpre (fun c hc => ha c (by simp [hc]))
      simp only [List.mem_append, List.mem_singleton, not_or]
      refine ⟨this, ?_⟩
      rw [← e4]; decide +kernel
  · rw [e2, List.concat_eq_append] at e
    have e' : s ++ [0] = (pre ++ ch '/' :: ch '/' :: (a ++ rest)) ++ [x] := by simp [e]
    obtain ⟨e3, _⟩ := List.append_inj' e' rfl
    exact hp pre a rest e3 hpre ha

theorem suffix_zero {s pre p : Str} (e : s ++ [0] = pre ++ ch '/' :: ch '/' :: p) : 0 ∈ p := by
  rcases List.eq_nil_or_concat p with rfl | ⟨p, x, rfl⟩
  · exfalso
    have e' : s ++ [0] = (pre ++ [ch '/']) ++ [ch '/'] := by simp [e]
    obtain ⟨_, e4⟩ := List.append_inj' e' rfl
    exact absurd e4 (by decide +kernel)
  · rw [List.concat_eq_append] at e
    have e' : s ++ [0] = (pre ++ ch '/' :: ch '/' :: p) ++ [x] := by simp [e]
    obtain ⟨_, e4⟩ := List.append_inj' e' rfl
    simp only [List.cons.injEq, and_true] at e4
    rw [List.concat_eq_append, e4]; simp

theorem infoOk_plain (s : Str) (hp : PlainAuthority s) : InfoOk (s ++ [0]) Userinfo := by
  intro pre p x r e hpre h1 h2
  obtain ⟨a, c, r', e1, e2, e3, e4⟩ := userinfo_plain (suffix_zero e) (plain_suffix hp e hpre)
  rw [e4] at h1
  simp only [Except.ok.injEq, List.cons.injEq] at h1
  obtain ⟨rfl, rfl⟩ := h1
  rw [e1] at h2
  have := List.append_cancel_right h2
  subst this
  exact coded_of_all fun d hd => (infoChar_iff d).mp (e2 d hd)

/-! Nothing undefined. -/

/-- The same as `Safe` for the larger functions. -/
def SafeP (x : Except Err (Parts × Str)) : Prop := (∃ u q, x = .ok (u, q) ∧ 0 ∈ q) ∨ x = .error .fail

theorem safe_portPart (p : Str) (h : 0 ∈ p) : (∃ x q, portPart p = .ok (x, q) ∧ 0 ∈ q) ∨ portPart p = .error .fail := by
  cases p with
  | nil => simp at h
  | cons c p =>
    simp only [portPart, deref, Except.bind, List.tail_cons]
    split
    · rename_i hc
      have hc : c = 58 := by simpa using hc
      subst hc
      have h : 0 ∈ p := by simpa using h
      rcases safe_port p h with ⟨q, e, hq⟩ | e
      · rw [e]; left; exact ⟨_, _, rfl, hq⟩
      · rw [e]; right; rfl
    · left; exact ⟨_, _, rfl, h⟩

theorem safe_userinfoPart (p : Str) (h : 0 ∈ p) (hpl : ∀ a rest, p = a ++ rest → (∀ c ∈ a, ¬ In "/?#" c) → ch '%' ∉ a) :
    ∃ x q, userinfoPart p = .ok (x, q) ∧ 0 ∈ q := by
  obtain ⟨a, c, r, rfl, h1, h2, h3⟩ := userinfo_plain h hpl
  unfold userinfoPart seq
  rw [h3]
  simp only [Except.bind, deref]
  by_cases hc : (c == 64) = true
  · rw [if_pos hc]
    refine ⟨_, _, rfl, ?_⟩
    rcases List.mem_append.mp h with h | h
    · exact absurd rfl (infoChar_not_mark 0 (h1 0 h)).2.1
    · have hc : c = 64 := by simpa using hc
      subst hc
      simpa using h
  · rw [if_neg hc]
    exact ⟨_, _, rfl, h⟩

theorem safe_authority (u : Parts) (p : Str) (h : 0 ∈ p)
    (hpl : ∀ a rest, p = a ++ rest → (∀ c ∈ a, ¬ In "/?#" c) → ch '%' ∉ a) : SafeP (authority u p) := by
  obtain ⟨x, q, e, hq⟩ := safe_userinfoPart p h hpl
  unfold authority
  rw [e]
  simp only [Except.bind]
  rcases safe_host q hq with ⟨r, e, hr⟩ | e
  · rw [e]
    simp only
    rcases safe_portPart r hr with ⟨y, t, e, ht⟩ | e
    · rw [e]; left; exact ⟨_, _, rfl, ht⟩
    · rw [e]; right; rfl
  · rw [e]; right; rfl

theorem safe_hierPart (other : P) (ho : Safe other) (u : Parts) (p : Str) (h : 0 ∈ p)
    (hpl : ∀ q, p = ch '/' :: ch '/' :: q → ∀ a rest, q = a ++ rest → (∀ c ∈ a, ¬ In "/?#" c) → ch '%' ∉ a) :
    SafeP (hierPart other u p) := by
  unfold hierPart
  rcases safe_seq (safe_one (· == 47) rfl) (safe_one (· == 47) rfl) p h with ⟨q, e, hq⟩ | e
  · obtain ⟨t, rfl, _, _, rfl, rfl, rfl⟩ := ok_seq (ok_char 47) (ok_char 47) _ _ e
    rw [slashes, e]
    simp only
    rcases safe_authority u q hq (hpl q rfl) with ⟨v, r, e, hr⟩ | e
    · rw [e]
      simp only [Except.bind]
      rcases safe_pathAbempty r hr with ⟨t, e, ht⟩ | e
      · rw [e]; left; exact ⟨_, _, rfl, ht⟩
      · rw [e]; right; rfl
    · rw [e]; right; rfl
  · rw [slashes, e]
    simp only
    rcases safe_orElse safe_pathAbsolute (safe_orElse ho safe_ok) p h with ⟨t, e, ht⟩ | e
    · rw [e]; left; exact ⟨_, _, rfl, ht⟩
    · rw [e]; right; rfl

theorem safe_optPart (c : UInt8) (hc0 : c ≠ 0) (p : Str) (h : 0 ∈ p) :
    (∃ x q, optPart c p = .ok (x, q) ∧ 0 ∈ q) ∨ optPart c p = .error .fail := by
  cases p with
  | nil => simp at h
  | cons d p =>
    simp only [optPart, deref, Except.bind, List.tail_cons]
    split
    · rename_i hc
      have hc : d = c := by simpa using hc
      subst hc
      have h : 0 ∈ p := by
        rcases List.mem_cons.mp h with h | h
        · exact absurd h.symm hc0
        · exact h
      rcases safe_queryText p h with ⟨q, e, hq⟩ | e
      · rw [e]; left; exact ⟨_, _, rfl, hq⟩
      · rw [e]; right; rfl
    · left; exact ⟨_, _, rfl, h⟩

theorem safe_tailParts (u : Parts) (p : Str) (h : 0 ∈ p) : (∃ v, tailParts u p = .ok v) ∨ tailParts u p = .error .fail := by
  rw [tailParts_eq]
  rcases safe_optPart 63 (by decide) p h with ⟨x, q, e, hq⟩ | e
  · rw [e]
    simp only [Except.bind]
    rcases safe_optPart 35 (by decide) q hq with ⟨y, r, e, hr⟩ | e
    · rw [e]
      simp only
      cases r with
      | nil => simp at hr
      | cons c r =>
        simp only [deref]
        split
        · right; rfl
        · left; exact ⟨_, rfl⟩
    · rw [e]; right; rfl
  · rw [e]; right; rfl

theorem safe_rest (other : P) (ho : Safe other) (u : Parts) (p : Str) (h : 0 ∈ p)
    (hpl : ∀ q, p = ch '/' :: ch '/' :: q → ∀ a rest, q = a ++ rest → (∀ c ∈ a, ¬ In "/?#" c) → ch '%' ∉ a) :
    (∃ v, (hierPart other u p).bind (fun (u, t) => tailParts u t) = .ok v) ∨
      (hierPart other u p).bind (fun (u, t) => tailParts u t) = .error .fail := by
  rcases safe_hierPart other ho u p h hpl with ⟨v, q, e, hq⟩ | e
  · rw [e]; exact safe_tailParts v q hq
  · rw [e]; right; rfl

theorem safe_parse (s : Str) (hp : PlainAuthority s) : (∃ v, parse s = .ok v) ∨ parse s = .error .fail := by
  have h2 : (∃ v, parseUri (s ++ [0]) = .ok v) ∨ parseUri (s ++ [0]) = .error .fail := by
    unfold parseUri
    rcases safe_scheme (s ++ [0]) (by simp) with ⟨q, e, hq⟩ | e
    · rw [e]
      simp only [Except.bind]
      rcases safe_one (· == 58) rfl q hq with ⟨r, e2, hr⟩ | e2
      · rw [e2]
        simp only
        obtain ⟨sc, e1, e3⟩ := ok_scheme _ _ e
        obtain ⟨_, rfl, rfl⟩ := ok_char _ _ _ e2
        apply safe_rest _ safe_pathRootless _ _ hr
        intro t ht
        subst ht
        refine plain_suffix hp (pre := sc ++ [ch ':']) (by rw [e1]; simp [ch]) ?_
        intro c hc
        rcases List.mem_append.mp hc with hc | hc
        · exact (scheme_no_slash sc e3 c hc).1
        · rw [List.mem_singleton.mp hc]; decide +kernel
      · rw [e2]; right; rfl
    · rw [e]; right; rfl
  unfold parse
  rcases h2 with ⟨v, e⟩ | e
  · rw [e]; left; exact ⟨v, rfl⟩
  · rw [e]
    exact safe_rest _ safe_pathNoscheme _ _ (by simp) fun t ht => plain_suffix hp (pre := []) ht (by simp)

/-! Every loop ends. -/

/-- No endless loop. -/
def Ends (f : P) : Prop := ∀ p, f p ≠ .error .loop

theorem ends_one (f : UInt8 → Bool) : Ends (one f) := by
  intro p; cases p with
  | nil => simp [one]
  | cons c p => rw [one]; split <;> simp

theorem ends_skip (f : UInt8 → Bool) : Ends (skip f) := by
  intro p
  induction p with
  | nil => simp [skip]
  | cons c p ih =>
    rw [skip]; split
    · exact ih
    · simp

theorem ends_bind {α β : Type} (x : Except Err α) (f : α → Except Err β) (hx : x ≠ .error .loop) (hf : ∀ a, x = .ok a → f a ≠ .error .loop) :
    x.bind f ≠ .error .loop := by
  cases x with
  | error e =>
    simp only [Except.bind]
    intro h; apply hx
    simp only [Except.error.injEq] at h
    rw [h]
  | ok a => exact hf a rfl

theorem ends_seq {f g : P} (hf : Ends f) (hg : Ends g) : Ends (seq f g) := fun p => ends_bind _ _ (hf p) fun a _ => hg a

theorem ends_orElse {f g : P} (hf : Ends f) (hg : Ends g) : Ends (orElse f g) := by
  intro p
  unfold orElse
  split
  · exact hg p
  · exact hf p

theorem ends_ok : Ends (.ok : P) := fun p => by simp

theorem ends_many {f : P} {l : Str → Prop} (hf : Ok f l) (he : Ends f) (hne : ∀ t, l t → t ≠ []) : Ends (many f) := by
  intro p
  induction hn : p.length using Nat.strongRecOn generalizing p with
  | _ n ih =>
    rw [many]
    split
    · rename_i q e
      obtain ⟨a, rfl, ha⟩ := hf _ _ e
      have : a.length ≠ 0 := fun h => hne a ha (List.length_eq_zero_iff.mp h)
      have hlt : q.length < (a ++ q).length := by simp; omega
      rw [if_pos hlt]
      exact ih _ (by simp at hlt hn; omega) q rfl
    · simp
    · rename_i e h1 h2
      intro h
      apply he p
      rw [h2]
      simp only [Except.error.injEq] at h
      rw [h]

theorem ends_pct : Ends pct := ends_seq (ends_one _) (ends_seq (ends_one _) (ends_one _))
theorem ends_pchar (b : Bool) : Ends (pchar b) :=
  ends_orElse (ends_one _) (ends_orElse ends_pct (ends_orElse (ends_one _) (ends_orElse (ends_one _) (ends_one _))))
theorem ends_segment : Ends segment := ends_many ok_pchar_true (ends_pchar _) fun _ => Unit1.ne
theorem ends_segmentNz : Ends segmentNz := ends_seq (ends_pchar _) ends_segment
theorem ends_segmentNzNc : Ends segmentNzNc := ends_seq (ends_pchar _) (ends_many ok_pchar_false (ends_pchar _) fun _ => Unit1.ne)
theorem ends_pathAbempty : Ends pathAbempty := by
  refine ends_many ok_slash (ends_seq (ends_one _) ends_segment) ?_
  rintro t ⟨s, rfl, _⟩; simp
theorem ends_pathAbsolute : Ends pathAbsolute := ends_seq (ends_one _) (ends_orElse (ends_seq ends_segmentNz ends_pathAbempty) ends_ok)
theorem ends_pathRootless : Ends pathRootless := ends_seq ends_segmentNz ends_pathAbempty
theorem ends_pathNoscheme : Ends pathNoscheme := ends_seq ends_segmentNzNc ends_pathAbempty
theorem ends_queryText : Ends queryText := by
  refine ends_many (ok_orElse ok_pchar_true (ok_one _)) (ends_orElse (ends_pchar _) (ends_one _)) ?_
  rintro t (h | ⟨c, rfl, _⟩)
  · exact h.ne
  · simp
theorem ends_adv (n : Nat) : Ends (adv n) := by
  intro p; unfold adv; split <;> simp
theorem ends_userinfo : Ends userinfo := by
  refine ends_many (ok_orElse (ok_one _) (ok_seq ok_pct (ok_adv 3))) (ends_orElse (ends_one _) (ends_seq ends_pct (ends_adv 3))) ?_
  rintro t (⟨c, rfl, _⟩ | ⟨a, b, rfl, ⟨x, y, rfl, _⟩, _⟩) <;> simp
theorem ends_h16 : Ends h16 := ends_seq (ends_one _) (ends_seq (ends_one _) (ends_seq (ends_one _) (ends_one _)))
theorem ends_decOctet : Ends decOctet :=
  ends_orElse (ends_seq (ends_one _) (ends_seq (ends_one _) (ends_one _))) (ends_orElse (ends_seq (ends_one _) (ends_seq (ends_one _) (ends_one _)))
    (ends_orElse (ends_seq (ends_one _) (ends_seq (ends_one _) (ends_one _))) (ends_orElse (ends_seq (ends_one _) (ends_one _)) (ends_one _))))
theorem ends_ipv4 : Ends ipv4 := ends_seq ends_decOctet (ends_seq (ends_one _) (ends_seq ends_decOctet (ends_seq (ends_one _)
  (ends_seq ends_decOctet (ends_seq (ends_one _) ends_decOctet)))))
theorem ends_ls32 : Ends ls32 := ends_orElse ends_ipv4 (ends_seq ends_h16 (ends_seq (ends_one _) ends_h16))
theorem ends_h16Colon (n : Nat) : Ends (h16Colon n) := by
  induction n with
  | zero => exact ends_ok
  | succ n ih => exact ends_seq ends_h16 (ends_seq (ends_one _) ih)
theorem ends_colons : Ends colons := ends_seq (ends_one _) (ends_one _)
theorem ends_foldr (fs : List P) (h : ∀ f ∈ fs, Ends f) : Ends (fs.foldr orElse (fun _ => .error .fail)) := by
  induction fs with
  | nil => intro p; simp
  | cons f fs ih => exact ends_orElse (h f (by simp)) (ih fun g hg => h g (by simp [hg]))
theorem ends_ipv6 : Ends ipv6 := by
  apply ends_foldr
  intro f hf
  have hp : ∀ n, Ends (opt (seq (h16Colon n) h16)) := fun n => ends_orElse (ends_seq (ends_h16Colon n) ends_h16) ends_ok
  have hs : ∀ n, Ends (seq (h16Colon n) ls32) := fun n => ends_seq (ends_h16Colon n) ends_ls32
  simp only [ipv6Alts, List.mem_cons, List.not_mem_nil, or_false] at hf
  rcases hf with rfl | rfl | rfl | rfl | rfl | rfl | rfl | rfl | rfl
  · exact hs 6
  · exact ends_seq ends_colons (hs 5)
  · exact ends_seq (ends_orElse ends_h16 ends_ok) (ends_seq ends_colons (hs 4))
  · exact ends_seq (hp 1) (ends_seq ends_colons (hs 3))
  · exact ends_seq (hp 2) (ends_seq ends_colons (hs 2))
  · exact ends_seq (hp 3) (ends_seq ends_colons (hs 1))
  · exact ends_seq (hp 4) (ends_seq ends_colons ends_ls32)
  · exact ends_seq (hp 5) (ends_seq ends_colons ends_h16)
  · exact ends_seq (hp 6) ends_colons
theorem ends_ipvFuture : Ends ipvFuture := by
  refine ends_seq (ends_one _) (ends_seq (ends_one _) (ends_seq (ends_skip _) (ends_seq (ends_one _) ?_)))
  intro p
  cases p with
  | nil => simp [deref, Except.bind]
  | cons c p =>
    simp only [deref, Except.bind]
    split
    · simp
    · exact ends_skip _ _
theorem ends_host : Ends host :=
  ends_orElse (ends_seq (ends_one _) (ends_seq (ends_orElse ends_ipv6 ends_ipvFuture) (ends_one _)))
    (ends_orElse ends_ipv4 (by
      refine ends_many (ok_orElse (ok_one _) ok_pct) (ends_orElse (ends_one _) ends_pct) ?_
      rintro t (⟨c, rfl, _⟩ | ⟨a, b, rfl, _⟩) <;> simp))

theorem ends_deref (p : Str) : deref p ≠ .error .loop := by cases p <;> simp [deref]

theorem ends_authority (u : Parts) (p : Str) : authority u p ≠ .error .loop := by
  refine ends_bind _ _ ?_ fun x _ => ends_bind _ _ (ends_host _) fun q _ => ends_bind _ _ ?_ fun y _ => by simp
  · unfold userinfoPart
    have := ends_seq ends_userinfo (g := fun q => (deref q).bind fun c => if c == 64 then .ok q else .error .fail)
      (fun q => ends_bind _ _ (ends_deref q) fun c _ => by split <;> simp) p
    split
    · simp
    · simp
    · rename_i e _ h
      rw [h] at this
      simpa using this
  · refine ends_bind _ _ (ends_deref q) fun c _ => ?_
    split
    · exact ends_bind _ _ (ends_skip _ _) fun r _ => by simp
    · simp

theorem ends_hierPart (other : P) (ho : Ends other) (u : Parts) (p : Str) : hierPart other u p ≠ .error .loop := by
  unfold hierPart
  split
  · exact ends_bind _ _ (ends_authority _ _) fun x _ => ends_bind _ _ (ends_pathAbempty _) fun r _ => by simp
  · exact ends_bind _ _ (ends_orElse ends_pathAbsolute (ends_orElse ho ends_ok) _) fun x _ => by simp
  · rename_i e _ h
    have := ends_seq (ends_one (· == 47)) (ends_one (· == 47)) p
    rw [show seq (one (· == 47)) (one (· == 47)) p = slashes p from rfl, h] at this
    simpa using this

theorem ends_optPart (c : UInt8) (p : Str) : optPart c p ≠ .error .loop := by
  refine ends_bind _ _ (ends_deref p) fun d _ => ?_
  split
  · exact ends_bind _ _ (ends_queryText _) fun r _ => by simp
  · simp

theorem ends_tailParts (u : Parts) (p : Str) : tailParts u p ≠ .error .loop := by
  rw [tailParts_eq]
  refine ends_bind _ _ (ends_optPart _ _) fun x _ => ends_bind _ _ (ends_optPart _ _) fun y _ => ends_bind _ _ (ends_deref _) fun c _ => ?_
  split <;> simp

theorem ends_parse (s : Str) : parse s ≠ .error .loop := by
  unfold parse
  split
  · exact ends_bind _ _ (ends_hierPart _ ends_pathNoscheme _ _) fun x _ => ends_tailParts _ _
  · exact ends_bind _ _ (ends_seq (ends_one _) (ends_skip _) _) fun q _ => ends_bind _ _ (ends_one _ _) fun r _ =>
      ends_bind _ _ (ends_hierPart _ ends_pathRootless _ _) fun x _ => ends_tailParts _ _

end Verif.Uri.Lemmas
