import Verif.Json.Lemmas
/-! Auxiliary lemmas on numbers (no claims). -/

namespace Verif.Json.Lemmas
open Verif.Json Verif.Json.Spec Verif.Ustring Verif.Ustring.Spec

variable {F : Type}

/-- The first character, if any, is not a digit. -/
def NoDigit (r : List Nat) : Prop := ∀ c, r.head? = some c → ¬ Digit c

theorem digitsU_app (ds r : List Nat) (hd : ∀ c ∈ ds, Digit c) (hr : NoDigit r) : digitsU (ds ++ r) = (ds, loaded r) := by
  induction ds with
  | nil =>
    cases r with
    | nil => rfl
    | cons c tl =>
      have h : ¬ isDigit c = true := fun h => hr c rfl ((isDigit_iff c).mp h)
      simp only [List.nil_append, digitsU, h]; rfl
  | cons c ds ih =>
    have h := (isDigit_iff c).mpr (hd c (by simp))
    simp only [List.cons_append, digitsU, h, if_true]
    rw [ih (fun x hx => hd x (by simp [hx]))]

theorem digitsU_spec (us : List Nat) : ∃ ds r, us = ds ++ r ∧ (∀ c ∈ ds, Digit c) ∧ NoDigit r ∧ digitsU us = (ds, loaded r) := by
  induction us with
  | nil => exact ⟨[], [], rfl, by simp, by intro c h; simp at h, rfl⟩
  | cons c tl ih =>
    by_cases h : isDigit c = true
    · obtain ⟨ds, r, e, h1, h2, _⟩ := ih
      have h1' : ∀ x ∈ c :: ds, Digit x := by
        intro x hx
        rcases List.mem_cons.mp hx with rfl | hx
        · exact (isDigit_iff _).mp h
        · exact h1 x hx
      refine ⟨c :: ds, r, by rw [e]; rfl, h1', h2, ?_⟩
      rw [e, ← List.cons_append, digitsU_app _ _ h1' h2]
    · have h2 : NoDigit (c :: tl) := by
        intro x hx hd; simp at hx; subst hx; exact h ((isDigit_iff _).mpr hd)
      exact ⟨[], c :: tl, rfl, by simp, h2, digitsU_app [] _ (by simp) h2⟩

theorem digitsA_eq (s : S) : digitsA s = digitsU (view s) := by
  obtain ⟨cb, r⟩ := s
  cases cb with
  | none => rfl
  | some c => rfl

theorem digitsB_none (us : List Nat) : digitsB ⟨none, us⟩ = digitsU us := rfl

theorem digitsB_some (c : Nat) (us : List Nat) (h : us ≠ []) : digitsB ⟨some c, us⟩ = digitsU (c :: us) := by
  simp only [digitsB, h, if_false, digitsU]

theorem digitsB_loaded (r : List Nat) (h : NoDigit r) : digitsB (loaded r) = ([], loaded r) := by
  cases r with
  | nil => rfl
  | cons c tl =>
    have h : ¬ isDigit c = true := fun h' => h c rfl ((isDigit_iff c).mp h')
    simp [loaded, digitsB, h]

theorem digitsB_spec (s : S) : view s = (digitsB s).1 ++ view (digitsB s).2 ∧ ∀ c ∈ (digitsB s).1, Digit c := by
  obtain ⟨cb, us⟩ := s
  have key : ∀ us, us = (digitsU us).1 ++ view (digitsU us).2 ∧ ∀ c ∈ (digitsU us).1, Digit c := by
    intro us
    obtain ⟨ds, r, e, h1, _, h2⟩ := digitsU_spec us
    rw [h2, view_loaded]
    exact ⟨e, h1⟩
  cases cb with
  | none => rw [digitsB_none]; exact key us
  | some c =>
    by_cases h : us = []
    · subst h; simp [digitsB]
    · rw [digitsB_some c us h, view_some]; exact key (c :: us)

theorem look_none (p : Nat → Bool) (r : List Nat) (h : r.length ≤ 1) : look p (loaded r) = .ok (false, loaded r) := by
  match r, h with
  | [], _ => rfl
  | [c], _ => rfl

theorem look_cons (p : Nat → Bool) (c d : Nat) (tl : List Nat) :
    look p (loaded (c :: d :: tl)) = .ok (p c, loaded (c :: d :: tl)) := by
  rw [look, if_neg (by simp [loaded])]
  rfl

theorem fracPart_none (r : List Nat) (h : r.length ≤ 1 ∨ r.head? ≠ some 46) : fracPart (loaded r) = .ok (([], false), loaded r) := by
  match r with
  | [] => rfl
  | [c] => rfl
  | c :: d :: tl =>
    have hc : (c == 46) = false := by
      rcases h with h | h
      · simp at h
      · simpa using h
    rw [fracPart, look_cons, ok_bind]
    simp only [hc]
    rfl

theorem fracPart_some (ds r : List Nat) (hne : ds ++ r ≠ []) (hd : ∀ c ∈ ds, Digit c) (hr : NoDigit r) :
    fracPart (loaded (46 :: (ds ++ r))) = .ok ((46 :: ds, true), loaded r) := by
  obtain ⟨d, tl, e⟩ : ∃ d tl, ds ++ r = d :: tl := by
    cases h : ds ++ r with
    | nil => exact absurd h hne
    | cons d tl => exact ⟨d, tl, rfl⟩
  have h := digitsU_app ds r hd hr
  rw [e] at h ⊢
  rw [fracPart, look_cons, ok_bind]
  simp only [beq_self_eq_true, if_true]
  rw [incr_cons (view_loaded _), ok_bind]
  simp only [digitsB_none, h]

theorem frac_spec (r : List Nat) : ∃ fr f r', r = fr ++ r' ∧ fracPart (loaded r) = .ok ((fr, f), loaded r') ∧
    ((fr = [] ∧ f = false) ∨ (∃ ds, fr = 46 :: ds ∧ (∀ c ∈ ds, Digit c) ∧ f = true ∧ NoDigit r')) := by
  by_cases h : r.length ≤ 1 ∨ r.head? ≠ some 46
  · exact ⟨[], false, r, rfl, fracPart_none r h, .inl ⟨rfl, rfl⟩⟩
  · match r with
    | [] => simp at h
    | [c] => simp at h
    | c :: d :: tl =>
      have hc : c = 46 := by
        by_contra hc
        exact h (.inr (by simpa using hc))
      subst hc
      obtain ⟨ds, r', e, h1, h2, _⟩ := digitsU_spec (d :: tl)
      refine ⟨46 :: ds, true, r', by rw [e]; rfl, ?_, .inr ⟨ds, rfl, h1, rfl, h2⟩⟩
      rw [e, fracPart_some ds r' (by rw [← e]; simp) h1 h2]

theorem expPart_none (r : List Nat) (h : r.length ≤ 1 ∨ (r.head? ≠ some 101 ∧ r.head? ≠ some 69)) :
    expPart (loaded r) = .ok (([], false), loaded r) := by
  match r with
  | [] => rfl
  | [c] => rfl
  | c :: d :: tl =>
    have hc : (c == 101 || c == 69) = false := by
      rcases h with h | h
      · simp at h
      · simpa using h
    rw [expPart, look_cons, ok_bind]
    simp only [hc]
    rfl

theorem expPart_some (e d : Nat) (tl : List Nat) (he : e = 101 ∨ e = 69) :
    expPart (loaded (e :: d :: tl)) = if d = 43 ∨ d = 45 then .ok (([e, d], true), ⟨none, tl⟩)
      else .ok (([e], true), ⟨some d, tl⟩) := by
  have hc : (e == 101 || e == 69) = true := by simpa using he
  rw [expPart, look_cons, ok_bind]
  simp only [hc, if_true]
  rw [incr_cons (view_loaded _), ok_bind]
  dsimp only
  rw [if_neg (by simp), peek_cons (view_none (d :: tl)), ok_bind]
  dsimp only
  rw [incr_cons (view_some d tl)]
  rfl

theorem exp_spec (r : List Nat) : ∃ ex f s', r = ex ++ view s' ∧ expPart (loaded r) = .ok ((ex, f), s') ∧
    ((ex = [] ∧ f = false ∧ s' = loaded r) ∨
      (∃ e sg, ex = e :: sg ∧ (e = 101 ∨ e = 69) ∧ (sg = [] ∨ sg = [43] ∨ sg = [45]) ∧ f = true)) := by
  by_cases h : r.length ≤ 1 ∨ (r.head? ≠ some 101 ∧ r.head? ≠ some 69)
  · exact ⟨[], false, loaded r, by simp, expPart_none r h, .inl ⟨rfl, rfl, rfl⟩⟩
  · match r with
    | [] => simp at h
    | [c] => simp at h
    | e :: d :: tl =>
      have he : e = 101 ∨ e = 69 := by
        by_contra hc
        rw [not_or] at hc
        exact h (.inr (by simpa using hc))
      rw [expPart_some e d tl he]
      by_cases hd : d = 43 ∨ d = 45
      · rw [if_pos hd]
        exact ⟨[e, d], true, _, rfl, rfl, .inr ⟨e, [d], rfl, he, by rcases hd with rfl | rfl <;> simp, rfl⟩⟩
      · rw [if_neg hd]
        exact ⟨[e], true, _, rfl, rfl, .inr ⟨e, [], rfl, he, .inl rfl, rfl⟩⟩

theorem natOf_eq (ds : List Nat) : natOf ds = decVal ds := by
  unfold natOf decVal
  congr 1
  funext n d
  omega

theorem signedVal_eq (sg ip : List Nat) (hs : sg = [] ∨ sg = [45]) (hd : ∀ c ∈ ip, Digit c) :
    signedVal (sg ++ ip) = (if sg = [] then (decVal ip : Int) else - (decVal ip : Int)) := by
  rcases hs with rfl | rfl
  · rw [if_pos rfl, List.nil_append]
    cases ip with
    | nil => rfl
    | cons c ip =>
      have hc := hd c (by simp)
      rw [signedVal, if_neg (by unfold Digit at hc; omega), natOf_eq]
  · rw [if_neg (by simp), List.singleton_append, signedVal, if_pos rfl, natOf_eq]

theorem strtoll_eq (sg ip : List Nat) (hs : sg = [] ∨ sg = [45]) (hd : ∀ c ∈ ip, Digit c) (n : Int) :
    strtoll (sg ++ ip) = some n ↔ IsInt64 n ∧ n = (if sg = [] then (decVal ip : Int) else - (decVal ip : Int)) := by
  rw [strtoll, signedVal_eq sg ip hs hd]
  generalize (if sg = [] then (decVal ip : Int) else - (decVal ip : Int)) = v
  unfold IsInt64
  by_cases h : -9223372036854775808 ≤ v ∧ v ≤ 9223372036854775807
  · rw [if_pos h]
    constructor
    · intro h'; simp only [Option.some.injEq] at h'; subst h'; exact ⟨by omega, rfl⟩
    · rintro ⟨_, rfl⟩; rfl
  · rw [if_neg h]
    constructor
    · intro h'; cases h'
    · rintro ⟨_, rfl⟩; omega

/-- The event of a number. -/
def numEvent : Value F → Option (Event F)
  | .int n => some (.int n)
  | .flt x => some (.num x)
  | _ => none

theorem convNum_iff (strtod : List Nat → Option F) (sg ip fr ex : List Nat) (f : Bool) (hs : sg = [] ∨ sg = [45]) (hd : ∀ c ∈ ip, Digit c)
    (hf : f = false ↔ fr = [] ∧ ex = []) (ev : Event F) :
    convNum strtod (sg ++ ip ++ fr ++ ex) f = .ok ev ↔ ∃ v, NumVal strtod sg ip fr ex v ∧ numEvent v = some ev := by
  unfold convNum NumVal
  cases f with
  | false =>
    obtain ⟨rfl, rfl⟩ := hf.mp rfl
    simp only [List.append_nil, and_self, if_true, Bool.false_eq_true, if_false]
    cases h : strtoll (sg ++ ip) with
    | none =>
      simp only [reduceCtorEq, false_iff]
      rintro ⟨v, ⟨n, h1, h2, rfl⟩, _⟩
      rw [(strtoll_eq sg ip hs hd n).mpr ⟨h1, h2⟩] at h
      cases h
    | some n =>
      obtain ⟨h1, h2⟩ := (strtoll_eq sg ip hs hd n).mp h
      constructor
      · intro h'; cases h'
        exact ⟨.int n, ⟨n, h1, h2, rfl⟩, rfl⟩
      · rintro ⟨v, ⟨m, _, h4, rfl⟩, h5⟩
        cases h5
        rw [h4, ← h2]
  | true =>
    have : ¬ (fr = [] ∧ ex = []) := fun h => by simpa using hf.mpr h
    simp only [this, if_true, if_false]
    cases h : strtod (sg ++ ip ++ fr ++ ex) with
    | none =>
      simp only [reduceCtorEq, false_iff]
      rintro ⟨v, ⟨x, h1, rfl⟩, _⟩
      cases h1
    | some x =>
      constructor
      · intro h'; cases h'
        exact ⟨.flt x, ⟨x, rfl, rfl⟩, rfl⟩
      · rintro ⟨v, ⟨y, h4, rfl⟩, h5⟩
        cases h4; cases h5; rfl

theorem convNum_ne_stuck (strtod : List Nat → Option F) (src : List Nat) (f : Bool) : convNum strtod src f ≠ .error .stuck := by
  unfold convNum
  repeat' split
  all_goals exact nofun

theorem signPart_neg {s : S} {tl : List Nat} (h : view s = 45 :: tl) : signPart s = .ok ([45], ⟨none, tl⟩) := by
  rw [signPart, peek_cons h, ok_bind]
  simp only [if_true]
  rw [incr_cons (view_some 45 tl)]
  rfl

theorem signPart_pos {s : S} {c : Nat} {tl : List Nat} (h : view s = c :: tl) (hc : c ≠ 45) : signPart s = .ok ([], ⟨some c, tl⟩) := by
  rw [signPart, peek_cons h, ok_bind]
  simp only [hc, if_false]

theorem parseNumber_run (strtod : List Nat → Option F) {s s0 s1 s2 s3 s4 : S} {sg ip fr ex ds : List Nat} {f1 f2 : Bool}
    (h0 : signPart s = .ok (sg, s0)) (h1 : digitsA s0 = (ip, s1)) (h2 : fracPart s1 = .ok ((fr, f1), s2))
    (h3 : expPart s2 = .ok ((ex, f2), s3)) (h4 : digitsB s3 = (ds, s4)) :
    parseNumber strtod s = (convNum strtod (sg ++ ip ++ fr ++ (ex ++ ds)) (f1 || f2)).map (·, s4) := by
  rw [parseNumber, h0, ok_bind]
  simp only [h1]
  rw [h2, ok_bind]
  simp only
  rw [h3, ok_bind]
  simp only [h4, List.append_assoc]
  cases convNum strtod (sg ++ (ip ++ (fr ++ (ex ++ ds)))) (f1 || f2) <;> rfl

/-- The parser reads an RFC number up to a character that cannot continue it. -/
theorem parseNumber_complete (strtod : List Nat → Option F) {t rest : List Nat} {v : Value F} {s : S} (h : Num strtod t v)
    (hv : view s = t ++ rest) (he : Ends rest) (hse : rest = [] → ¬ ShortExp t) :
    ∃ ev, numEvent v = some ev ∧ parseNumber strtod s = .ok (ev, loaded rest) := by
  obtain ⟨sg, ip, fr, ex, rfl, hsg, hip, hfr, hex, hval⟩ := h
  have hipd : ∀ c ∈ ip, Digit c := by
    rcases hip with rfl | ⟨d, ds, rfl, h1, _, h2⟩
    · simp [Digit]
    · intro c hc
      rcases List.mem_cons.mp hc with rfl | hc
      · exact h1
      · exact h2 c hc
  have hipn : ip ≠ [] := by
    rcases hip with rfl | ⟨d, ds, rfl, _⟩ <;> simp
  -- sign
  obtain ⟨s0, hs0, hv0⟩ : ∃ s0, signPart s = .ok (sg, s0) ∧ view s0 = ip ++ (fr ++ (ex ++ rest)) := by
    rcases hsg with rfl | rfl
    · cases ip with
      | nil => exact absurd rfl hipn
      | cons c tl =>
        have hc : c ≠ 45 := by have := hipd c (by simp); unfold Digit at this; omega
        have hv' : view s = c :: (tl ++ (fr ++ (ex ++ rest))) := by rw [hv]; simp
        exact ⟨_, signPart_pos hv' hc, by simp⟩
    · have hv' : view s = 45 :: (ip ++ (fr ++ (ex ++ rest))) := by rw [hv]; simp
      exact ⟨_, signPart_neg hv', by simp⟩
  have hnr : NoDigit rest := fun c hc => (he c hc).1
  have hne : NoDigit (ex ++ rest) := by
    rcases hex with rfl | ⟨e, s', ds, rfl, h1, _⟩
    · exact hnr
    · intro c hc; simp at hc; subst hc; unfold Digit; omega
  have hnf : NoDigit (fr ++ (ex ++ rest)) := by
    rcases hfr with rfl | ⟨ds, rfl, _⟩
    · exact hne
    · intro c hc; simp at hc; subst hc; unfold Digit; omega
  have hA : digitsA s0 = (ip, loaded (fr ++ (ex ++ rest))) := by
    rw [digitsA_eq, hv0, digitsU_app ip _ hipd hnf]
  -- fraction
  obtain ⟨f1, hF, hf1⟩ : ∃ f1, fracPart (loaded (fr ++ (ex ++ rest))) = .ok ((fr, f1), loaded (ex ++ rest)) ∧
      (f1 = false ↔ fr = []) := by
    rcases hfr with rfl | ⟨ds, rfl, h1, h2⟩
    · refine ⟨false, fracPart_none _ (.inr ?_), by simp⟩
      intro h46
      rcases hex with rfl | ⟨e, s', ds, rfl, h1, _⟩
      · exact (he 46 h46).2.1 rfl
      · simp at h46; omega
    · exact ⟨true, fracPart_some ds (ex ++ rest) (by simp [h1]) h2 hne, by simp⟩
  -- exponent
  rcases hex with rfl | ⟨e, s', ds, rfl, h1, h2, h3, h4⟩
  · have hE : expPart (loaded ([] ++ rest)) = .ok (([], false), loaded rest) := by
      refine expPart_none _ (.inr ⟨?_, ?_⟩)
      · intro h; exact (he _ h).2.2.1 rfl
      · intro h; exact (he _ h).2.2.2 rfl
    have hrun := parseNumber_run strtod hs0 hA hF hE (digitsB_loaded rest hnr)
    have hc : convNum strtod (sg ++ ip ++ fr ++ ([] ++ [])) (f1 || false) = .ok ((numEvent v).getD .null) ∧
        (numEvent v).isSome := by
      have hv' : (numEvent v).isSome := by
        unfold NumVal at hval
        split at hval
        · obtain ⟨n, _, _, rfl⟩ := hval; rfl
        · obtain ⟨x, _, rfl⟩ := hval; rfl
      refine ⟨(convNum_iff strtod sg ip fr [] (f1 || false) hsg hipd (by simpa using hf1) _).mpr ⟨v, hval, ?_⟩, hv'⟩
      rw [Option.isSome_iff_exists] at hv'
      obtain ⟨ev, hev⟩ := hv'
      rw [hev]; rfl
    obtain ⟨ev, hev⟩ := Option.isSome_iff_exists.mp hc.2
    refine ⟨ev, hev, ?_⟩
    rw [hrun, hc.1, hev]
    rfl
  · obtain ⟨d, ds', rfl⟩ : ∃ d ds', ds = d :: ds' := by
      cases ds with
      | nil => exact absurd rfl h3
      | cons d ds' => exact ⟨d, ds', rfl⟩
    have hd := h4 d (by simp)
    obtain ⟨s3, hE, hB⟩ : ∃ s3, expPart (loaded (e :: (s' ++ d :: ds') ++ rest)) = .ok ((e :: s', true), s3) ∧
        digitsB s3 = (d :: ds', loaded rest) := by
      have hU := digitsU_app (d :: ds') rest h4 hnr
      have hsign : ∀ g, g = 43 ∨ g = 45 → ∃ s3, expPart (loaded (e :: ([g] ++ d :: ds') ++ rest)) = .ok (([e, g], true), s3) ∧
          digitsB s3 = (d :: ds', loaded rest) := by
        intro g hg
        refine ⟨⟨none, d :: ds' ++ rest⟩, ?_, by rw [digitsB_none, hU]⟩
        have := expPart_some e g (d :: ds' ++ rest) h1
        rw [if_pos hg] at this
        exact this
      rcases h2 with rfl | rfl | rfl
      · refine ⟨⟨some d, ds' ++ rest⟩, ?_, ?_⟩
        · have := expPart_some e d (ds' ++ rest) h1
          rw [if_neg (by unfold Digit at hd; omega)] at this
          exact this
        · rw [digitsB_some, ← List.cons_append, hU]
          intro hnil
          rw [List.append_eq_nil_iff] at hnil
          obtain ⟨rfl, rfl⟩ := hnil
          exact hse rfl ⟨sg ++ ip ++ fr, e, d, by simp, h1, hd⟩
      · exact hsign 43 (.inl rfl)
      · exact hsign 45 (.inr rfl)
    have hrun := parseNumber_run strtod hs0 hA hF hE hB
    have hv' : (numEvent v).isSome := by
      unfold NumVal at hval
      split at hval
      · obtain ⟨n, _, _, rfl⟩ := hval; rfl
      · obtain ⟨x, _, rfl⟩ := hval; rfl
    obtain ⟨ev, hev⟩ := Option.isSome_iff_exists.mp hv'
    have hc : convNum strtod (sg ++ ip ++ fr ++ (e :: (s' ++ d :: ds'))) (f1 || true) = .ok ev :=
      (convNum_iff strtod sg ip fr _ (f1 || true) hsg hipd (by simp) _).mpr ⟨v, hval, hev⟩
    refine ⟨ev, hev, ?_⟩
    rw [hrun]
    have e' : e :: s' ++ d :: ds' = e :: (s' ++ d :: ds') := rfl
    rw [e', hc]
    rfl

theorem parseNumber_sound (strtod : List Nat → Option F) {s s' : S} {c : Nat} {tl : List Nat} {ev : Event F} (hv : view s = c :: tl)
    (hc : Digit c ∨ c = 45) (h : parseNumber strtod s = .ok (ev, s')) :
    ∃ t v, view s = t ++ view s' ∧ t ≠ [] ∧ LaxNum strtod t v ∧ numEvent v = some ev := by
  obtain ⟨sg, s0, hs0, hsg, hv0⟩ : ∃ sg s0, signPart s = .ok (sg, s0) ∧ (sg = [45] ∨ (sg = [] ∧ Digit c ∧ view s0 = c :: tl)) ∧
      view s = sg ++ view s0 := by
    by_cases h45 : c = 45
    · subst h45
      exact ⟨[45], _, signPart_neg hv, .inl rfl, by rw [hv]; rfl⟩
    · have hd : Digit c := by rcases hc with h | h; exact h; exact absurd h h45
      exact ⟨[], _, signPart_pos hv h45, .inr ⟨rfl, hd, rfl⟩, by rw [hv]; rfl⟩
  obtain ⟨ip, r1, e1, hip, hn1, hU⟩ := digitsU_spec (view s0)
  have hA : digitsA s0 = (ip, loaded r1) := by rw [digitsA_eq, hU]
  obtain ⟨fr, f1, r2, e2, hF, hfr⟩ := frac_spec r1
  obtain ⟨ex, f2, s3, e3, hE, hex⟩ := exp_spec r2
  obtain ⟨e4, hds⟩ := digitsB_spec s3
  have hB : digitsB s3 = ((digitsB s3).1, (digitsB s3).2) := rfl
  have hrun := parseNumber_run strtod hs0 hA hF hE hB
  rw [hrun] at h
  have hsg' : sg = [] ∨ sg = [45] := by
    rcases hsg with h | ⟨h, _⟩
    · exact .inr h
    · exact .inl h
  have hn2 : NoDigit r2 := by
    rcases hfr with ⟨rfl, _⟩ | ⟨_, _, _, _, h⟩
    · rw [List.nil_append] at e2; exact e2 ▸ hn1
    · exact h
  have hex' : (ex ++ (digitsB s3).1 = [] ∧ f2 = false) ∨ (∃ e g ds, ex ++ (digitsB s3).1 = e :: (g ++ ds) ∧ (e = 101 ∨ e = 69) ∧
      (g = [] ∨ g = [43] ∨ g = [45]) ∧ (∀ c ∈ ds, Digit c) ∧ f2 = true) := by
    rcases hex with ⟨rfl, rfl, rfl⟩ | ⟨e, g, rfl, h1, h2, rfl⟩
    · left
      rw [digitsB_loaded r2 hn2]
      exact ⟨rfl, rfl⟩
    · right
      exact ⟨e, g, (digitsB s3).1, rfl, h1, h2, hds, rfl⟩
  cases hcv : convNum strtod (sg ++ ip ++ fr ++ (ex ++ (digitsB s3).1)) (f1 || f2) with
  | error e => rw [hcv] at h; cases h
  | ok ev' =>
    rw [hcv] at h
    cases h
    have hff : (f1 || f2) = false ↔ fr = [] ∧ ex ++ (digitsB s3).1 = [] := by
      rw [Bool.or_eq_false_iff]
      rcases hfr with ⟨rfl, rfl⟩ | ⟨ds, rfl, _, rfl, _⟩ <;> rcases hex' with ⟨h1, rfl⟩ | ⟨e, g, ds', h1, _, _, _, rfl⟩ <;> simp [h1]
    obtain ⟨v, hval, hev⟩ := (convNum_iff strtod sg ip fr _ _ hsg' hip hff ev).mp hcv
    have hne : sg = [45] ∨ sg = [] ∧ ip ≠ [] := by
      rcases hsg with h | ⟨h1, h2, h3⟩
      · exact .inl h
      · refine .inr ⟨h1, ?_⟩
        rintro rfl
        rw [h3] at e1
        exact hn1 c (by rw [List.nil_append] at e1; rw [← e1]; rfl) h2
    refine ⟨sg ++ ip ++ fr ++ (ex ++ (digitsB s3).1), v, ?_, ?_, ⟨sg, ip, fr, _, rfl, hne, hip, ?_, ?_, hval⟩, hev⟩
    · rw [hv0, e1, e2, e3, e4]; simp
    · rcases hne with rfl | ⟨rfl, h⟩
      · simp
      · simp [h]
    · rcases hfr with ⟨h1, _⟩ | ⟨ds, h1, h2, _⟩
      · exact .inl h1
      · exact .inr ⟨ds, h1, h2⟩
    · rcases hex' with ⟨h1, _⟩ | ⟨e, g, ds, h1, h2, h3, h4, _⟩
      · exact .inl h1
      · exact .inr ⟨e, g, ds, h1, h2, h3, h4⟩

theorem parseNumber_ne_stuck (strtod : List Nat → Option F) (s : S) : parseNumber strtod s ≠ .error .stuck := by
  cases hv : view s with
  | nil => rw [parseNumber, signPart, peek_nil hv]; exact nofun
  | cons c tl =>
    obtain ⟨sg, s0, hs0⟩ : ∃ sg s0, signPart s = .ok (sg, s0) := by
      by_cases h45 : c = 45
      · subst h45; exact ⟨_, _, signPart_neg hv⟩
      · exact ⟨_, _, signPart_pos hv h45⟩
    obtain ⟨ip, r1, e1, hip, hn1, hU⟩ := digitsU_spec (view s0)
    have hA : digitsA s0 = (ip, loaded r1) := by rw [digitsA_eq, hU]
    obtain ⟨fr, f1, r2, e2, hF, hfr⟩ := frac_spec r1
    obtain ⟨ex, f2, s3, e3, hE, hex⟩ := exp_spec r2
    have hB : digitsB s3 = ((digitsB s3).1, (digitsB s3).2) := rfl
    rw [parseNumber_run strtod hs0 hA hF hE hB]
    have := convNum_ne_stuck strtod (sg ++ ip ++ fr ++ (ex ++ (digitsB s3).1)) (f1 || f2)
    cases hcv : convNum strtod (sg ++ ip ++ fr ++ (ex ++ (digitsB s3).1)) (f1 || f2) with
    | ok _ => exact nofun
    | error e => rw [hcv] at this; intro h; cases h; exact this rfl

end Verif.Json.Lemmas
