import Verif.Json.Model
import Verif.Json.Spec
import Verif.Ustring.Lemmas
import Mathlib.Tactic.ByContra
/-! Auxiliary lemmas on the JSON parser (no claims). -/

namespace Verif.Json.Lemmas
open Verif.Json Verif.Json.Spec Verif.Ustring Verif.Ustring.Spec

variable {F : Type}

/-- The characters in front of the parser. -/
def view (s : S) : List Nat := s.cbuf.toList ++ s.rest

theorem bind_ok {ε α β : Type} {x : Except ε α} {f : α → Except ε β} {r : β} :
    (x >>= f) = .ok r ↔ ∃ a, x = .ok a ∧ f a = .ok r := by
  cases x <;> simp [bind, Except.bind]

theorem ok_bind {ε α β : Type} (a : α) (f : α → Except ε β) : ((Except.ok a : Except ε α) >>= f) = f a := rfl
theorem err_bind {ε α β : Type} (e : ε) (f : α → Except ε β) : ((Except.error e : Except ε α) >>= f) = .error e := rfl

theorem peek_cons {s : S} {c : Nat} {tl : List Nat} (h : view s = c :: tl) : peek s = .ok (c, ⟨some c, tl⟩) := by
  obtain ⟨cb, r⟩ := s
  cases cb with
  | none => simp only [view, Option.toList_none, List.nil_append] at h; subst h; rfl
  | some d =>
    simp only [view, Option.toList_some, List.singleton_append, List.cons.injEq] at h
    obtain ⟨rfl, rfl⟩ := h; rfl

theorem peek_nil {s : S} (h : view s = []) : peek s = .error .eod := by
  obtain ⟨cb, r⟩ := s
  cases cb with
  | none => simp only [view, Option.toList_none, List.nil_append] at h; subst h; rfl
  | some d => simp [view] at h

theorem peek_ok {s s' : S} {c : Nat} (h : peek s = .ok (c, s')) : ∃ tl, view s = c :: tl ∧ s' = ⟨some c, tl⟩ := by
  cases hv : view s with
  | nil => rw [peek_nil hv] at h; cases h
  | cons d tl => rw [peek_cons hv] at h; cases h; exact ⟨tl, rfl, rfl⟩

theorem incr_cons {s : S} {c : Nat} {tl : List Nat} (h : view s = c :: tl) : incr s = .ok (c, ⟨none, tl⟩) := by
  rw [incr, peek_cons h]; rfl

theorem incr_nil {s : S} (h : view s = []) : incr s = .error .eod := by
  rw [incr, peek_nil h]; rfl

theorem incr_ok {s s' : S} {c : Nat} (h : incr s = .ok (c, s')) : ∃ tl, view s = c :: tl ∧ s' = ⟨none, tl⟩ := by
  cases hv : view s with
  | nil => rw [incr_nil hv] at h; cases h
  | cons d tl => rw [incr_cons hv] at h; cases h; exact ⟨tl, rfl, rfl⟩

@[simp] theorem view_some (c : Nat) (tl : List Nat) : view ⟨some c, tl⟩ = c :: tl := rfl
@[simp] theorem view_none (tl : List Nat) : view ⟨none, tl⟩ = tl := rfl

theorem mtch_cons {s : S} {c : Nat} {tl : List Nat} (h : view s = c :: tl) : mtch c s = .ok ⟨none, tl⟩ := by
  rw [mtch, peek_cons h]; simp [incr, peek, bind, Except.bind]

theorem mtch_ok {s s' : S} {c : Nat} (h : mtch c s = .ok s') : ∃ tl, view s = c :: tl ∧ s' = ⟨none, tl⟩ := by
  rw [mtch, bind_ok] at h
  obtain ⟨⟨d, s1⟩, h1, h⟩ := h
  obtain ⟨tl, h2, rfl⟩ := peek_ok h1
  dsimp only at h
  split at h
  · cases h
  · rename_i hc
    simp only [ne_eq, Decidable.not_not] at hc
    subst hc
    rw [incr_cons (view_some d tl)] at h
    cases h
    exact ⟨tl, h2, rfl⟩

theorem mtch_ne_stuck {s : S} {c : Nat} : mtch c s ≠ .error .stuck := by
  rw [mtch]
  cases hv : view s with
  | nil => rw [peek_nil hv]; exact nofun
  | cons d tl =>
    rw [peek_cons hv, ok_bind]
    dsimp only
    split
    · exact nofun
    · rw [incr_cons (view_some d tl)]; exact nofun

theorem isSpace_iff (c : Nat) : isSpace c = true ↔ LaxWs c := by
  unfold isSpace LaxWs; simp

theorem isDigit_iff (c : Nat) : isDigit c = true ↔ Digit c := by
  unfold isDigit Digit; simp

theorem ws_lax {c : Nat} (h : Ws c) : LaxWs c := by unfold Ws at h; unfold LaxWs; omega

/-- The state after skipping: a first character has been loaded. -/
def loaded : List Nat → S
  | [] => ⟨none, []⟩
  | c :: tl => ⟨some c, tl⟩

@[simp] theorem view_loaded (us : List Nat) : view (loaded us) = us := by cases us <;> rfl

theorem ssU_app (w : List Nat) (us : List Nat) (hw : ∀ c ∈ w, LaxWs c) (hu : ∀ c, us.head? = some c → ¬ LaxWs c) :
    ssU (w ++ us) = loaded us := by
  induction w with
  | nil =>
    cases us with
    | nil => rfl
    | cons c tl =>
      have := hu c rfl
      rw [← isSpace_iff] at this
      simp only [List.nil_append, ssU, this]; rfl
  | cons c w ih =>
    have h1 := (isSpace_iff c).mpr (hw c (by simp))
    simp only [List.cons_append, ssU, h1, if_true]
    exact ih (fun x hx => hw x (by simp [hx]))

theorem ss_skip {s : S} {w : List Nat} {c : Nat} {tl : List Nat} (hv : view s = w ++ c :: tl) (hw : ∀ c ∈ w, LaxWs c)
    (hc : ¬ LaxWs c) : ss s = ⟨some c, tl⟩ := by
  obtain ⟨cb, r⟩ := s
  have hh : ∀ x, (c :: tl).head? = some x → ¬ LaxWs x := by intro x hx; simp at hx; exact hx ▸ hc
  cases cb with
  | none =>
    simp only [view_none] at hv
    subst hv
    exact ssU_app w (c :: tl) hw hh
  | some d =>
    simp only [view_some] at hv
    cases w with
    | nil =>
      simp only [List.nil_append, List.cons.injEq] at hv
      obtain ⟨rfl, rfl⟩ := hv
      rw [← isSpace_iff] at hc
      simp [ss, hc]
    | cons e w =>
      simp only [List.cons_append, List.cons.injEq] at hv
      obtain ⟨rfl, rfl⟩ := hv
      have h1 := (isSpace_iff d).mpr (hw d (by simp))
      have h2 : w ++ c :: tl ≠ [] := by simp
      simp only [ss, h1, h2, if_false, if_true]
      exact ssU_app w (c :: tl) (fun x hx => hw x (by simp [hx])) hh

theorem ssU_spec (us : List Nat) : ∃ w, (∀ c ∈ w, LaxWs c) ∧ us = w ++ view (ssU us) := by
  induction us with
  | nil => exact ⟨[], by simp, rfl⟩
  | cons c tl ih =>
    rw [ssU]
    split
    · rename_i h
      obtain ⟨w, h1, h2⟩ := ih
      refine ⟨c :: w, ?_, by rw [List.cons_append, ← h2]⟩
      intro x hx
      rcases List.mem_cons.mp hx with rfl | hx
      · exact (isSpace_iff x).mp h
      · exact h1 x hx
    · exact ⟨[], by simp, rfl⟩

theorem ss_spec (s : S) : ∃ w, (∀ c ∈ w, LaxWs c) ∧ view s = w ++ view (ss s) := by
  obtain ⟨cb, r⟩ := s
  cases cb with
  | none => exact ssU_spec r
  | some d =>
    rw [ss]
    dsimp only
    split
    · exact ⟨[], by simp, rfl⟩
    · split
      · rename_i h
        obtain ⟨w, h1, h2⟩ := ssU_spec r
        refine ⟨d :: w, ?_, by rw [List.cons_append, view_some, ← h2]⟩
        intro x hx
        rcases List.mem_cons.mp hx with rfl | hx
        · exact (isSpace_iff x).mp h
        · exact h1 x hx
      · exact ⟨[], by simp, rfl⟩

theorem smatch_skip {s : S} {w : List Nat} {c : Nat} {tl : List Nat} (hv : view s = w ++ c :: tl) (hw : ∀ c ∈ w, LaxWs c)
    (hc : ¬ LaxWs c) : smatch c s = .ok ⟨none, tl⟩ := by
  rw [smatch, ss_skip hv hw hc, mtch_cons (view_some c tl)]

theorem speek_skip {s : S} {w : List Nat} {c : Nat} {tl : List Nat} (hv : view s = w ++ c :: tl) (hw : ∀ c ∈ w, LaxWs c)
    (hc : ¬ LaxWs c) : speek s = .ok (c, ⟨some c, tl⟩) := by
  rw [speek, ss_skip hv hw hc, peek_cons (view_some c tl)]

theorem smatch_ok {s s' : S} {c : Nat} (h : smatch c s = .ok s') :
    ∃ w tl, (∀ c ∈ w, LaxWs c) ∧ view s = w ++ c :: tl ∧ s' = ⟨none, tl⟩ := by
  obtain ⟨tl, h1, h2⟩ := mtch_ok h
  obtain ⟨w, h3, h4⟩ := ss_spec s
  exact ⟨w, tl, h3, by rw [h4, h1], h2⟩

theorem speek_ok {s s' : S} {c : Nat} (h : speek s = .ok (c, s')) :
    ∃ w tl, (∀ c ∈ w, LaxWs c) ∧ view s = w ++ c :: tl ∧ s' = ⟨some c, tl⟩ := by
  obtain ⟨tl, h1, h2⟩ := peek_ok h
  obtain ⟨w, h3, h4⟩ := ss_spec s
  exact ⟨w, tl, h3, by rw [h4, h1], h2⟩

/-! Strings -/

theorem parseHex_cons (c : Nat) (us : List Nat) :
    parseHex (c :: us) = match hexVal c with | some x => .ok (x, us) | none => .error .parse := by
  have hd : isDigit c = true ↔ (48 ≤ c ∧ c ≤ 57) := isDigit_iff c
  rw [parseHex]
  unfold hexVal
  by_cases h1 : 48 ≤ c ∧ c ≤ 57
  · rw [if_pos (hd.mpr h1), if_pos h1]
  · rw [if_neg (fun h => h1 (hd.mp h)), if_neg h1]
    by_cases h2 : 65 ≤ c ∧ c ≤ 70
    · rw [if_pos h2, if_pos h2]
      have : c - 65 + 10 = c - 55 := by omega
      rw [this]
    · rw [if_neg h2, if_neg h2]
      by_cases h3 : 97 ≤ c ∧ c ≤ 102
      · rw [if_pos h3, if_pos h3]
        have : c - 97 + 10 = c - 87 := by omega
        rw [this]
      · rw [if_neg h3, if_neg h3]

theorem hexVal_lt {c x : Nat} (h : hexVal c = some x) : x < 16 := by
  unfold hexVal at h
  repeat' split at h
  all_goals first | (cases h; omega) | cases h

theorem or_shift (a b k : Nat) (h : b < 2 ^ k) : (a <<< k) ||| b = a * 2 ^ k + b := by
  rw [← Nat.shiftLeft_add_eq_or_of_lt h, Nat.shiftLeft_eq]

theorem hex_bits (x y z w : Nat) (hy : y < 16) (hz : z < 16) (hw : w < 16) :
    (x <<< 12) ||| (y <<< 8) ||| (z <<< 4) ||| w = 4096 * x + 256 * y + 16 * z + w := by
  have e1 : (x <<< 12) ||| (y <<< 8) = ((x <<< 4) ||| y) <<< 8 := by
    rw [Nat.shiftLeft_or_distrib, ← Nat.shiftLeft_add]
  have e2 : ∀ p : Nat, (p <<< 8) ||| (z <<< 4) = ((p <<< 4) ||| z) <<< 4 := by
    intro p
    rw [Nat.shiftLeft_or_distrib, ← Nat.shiftLeft_add]
  rw [e1, e2, or_shift x y 4 (by omega), or_shift _ z 4 (by omega), or_shift _ w 4 (by omega)]
  omega

theorem parseHex4_app {h : List Nat} {u : Nat} (hh : Hex4 h u) (us : List Nat) : parseHex4 (h ++ us) = .ok (u, us) := by
  obtain ⟨a, b, c, d, x, y, z, w, rfl, h1, h2, h3, h4, rfl⟩ := hh
  simp only [parseHex4, List.cons_append, List.nil_append, parseHex_cons, h1, h2, h3, h4, ok_bind,
    hex_bits x y z w (hexVal_lt h2) (hexVal_lt h3) (hexVal_lt h4)]

theorem parseHex_ok {us us' : List Nat} {x : Nat} (h : parseHex us = .ok (x, us')) : ∃ c, us = c :: us' ∧ hexVal c = some x := by
  cases us with
  | nil => cases h
  | cons c us =>
    rw [parseHex_cons] at h
    split at h
    · cases h; rename_i hx; exact ⟨c, rfl, hx⟩
    · cases h

theorem parseHex4_ok {us us' : List Nat} {u : Nat} (h : parseHex4 us = .ok (u, us')) : ∃ g, us = g ++ us' ∧ Hex4 g u := by
  simp only [parseHex4, bind_ok] at h
  obtain ⟨⟨a, u1⟩, h1, ⟨b, u2⟩, h2, ⟨c, u3⟩, h3, ⟨d, u4⟩, h4, h⟩ := h
  dsimp only at h h2 h3 h4
  obtain ⟨a', rfl, e1⟩ := parseHex_ok h1
  obtain ⟨b', rfl, e2⟩ := parseHex_ok h2
  obtain ⟨c', rfl, e3⟩ := parseHex_ok h3
  obtain ⟨d', rfl, e4⟩ := parseHex_ok h4
  cases h
  exact ⟨[a', b', c', d'], rfl, a', b', c', d', a, b, c, d, rfl, e1, e2, e3, e4,
    (hex_bits a b c d (hexVal_lt e2) (hexVal_lt e3) (hexVal_lt e4))⟩

theorem parseHex_ne_stuck (us : List Nat) : parseHex us ≠ .error .stuck := by
  cases us with
  | nil => exact nofun
  | cons c us =>
    rw [parseHex_cons]
    split <;> exact nofun

theorem bind_ne_stuck {α β : Type} {x : Except Err α} {f : α → Except Err β} (h : x ≠ .error .stuck)
    (hf : ∀ a, x = .ok a → f a ≠ .error .stuck) : (x >>= f) ≠ .error .stuck := by
  cases x with
  | error e => simp only [err_bind]; intro h'; cases h'; exact h rfl
  | ok a => exact hf a rfl

theorem parseHex4_ne_stuck (us : List Nat) : parseHex4 us ≠ .error .stuck := by
  unfold parseHex4
  refine bind_ne_stuck (parseHex_ne_stuck _) fun _ _ => ?_
  refine bind_ne_stuck (parseHex_ne_stuck _) fun _ _ => ?_
  refine bind_ne_stuck (parseHex_ne_stuck _) fun _ _ => ?_
  refine bind_ne_stuck (parseHex_ne_stuck _) fun _ _ => ?_
  exact nofun

theorem utf8_eq {c : Nat} (h : Scalar c) : ucharToChars c = utf8 c := ucharToChars_eq c h

theorem hex4_lt {h : List Nat} {u : Nat} (hh : Hex4 h u) : u < 65536 := by
  obtain ⟨a, b, c, d, x, y, z, w, _, h1, h2, h3, h4, rfl⟩ := hh
  have := hexVal_lt h1; have := hexVal_lt h2; have := hexVal_lt h3; have := hexVal_lt h4
  omega

theorem simpleEscape_iff (e : Nat) (b : UInt8) : simpleEscape e = some b ↔ (e, b) ∈ escapes := by
  unfold simpleEscape escapes
  simp only [List.mem_cons, Prod.mk.injEq, List.not_mem_nil, or_false]
  constructor
  · intro h
    repeat' split at h
    all_goals first | (cases h; simp_all) | cases h
  · rintro (⟨rfl, rfl⟩ | ⟨rfl, rfl⟩ | ⟨rfl, rfl⟩ | ⟨rfl, rfl⟩ | ⟨rfl, rfl⟩ | ⟨rfl, rfl⟩ | ⟨rfl, rfl⟩ | ⟨rfl, rfl⟩) <;> rfl

theorem esc_ne_u {e : Nat} {b : UInt8} (h : (e, b) ∈ escapes) : e ≠ 117 := by
  rintro rfl
  rw [← simpleEscape_iff] at h
  cases h

theorem mtchU_ok {us us' : List Nat} {c : Nat} (h : mtchU c us = .ok us') : us = c :: us' := by
  cases us with
  | nil => cases h
  | cons d us =>
    rw [mtchU] at h
    split at h
    · cases h
    · rename_i hd
      simp only [ne_eq, Decidable.not_not] at hd
      cases h; rw [hd]

theorem mtchU_ne_stuck (c : Nat) (us : List Nat) : mtchU c us ≠ .error .stuck := by
  cases us with
  | nil => exact nofun
  | cons d us => rw [mtchU]; split <;> exact nofun

theorem parseU_ok {us us' : List Nat} {bs : Str} (h : parseU us = .ok (bs, us')) :
    (∃ g u, us = g ++ us' ∧ Hex4 g u ∧ Scalar u ∧ bs = utf8 u) ∨
    (∃ g u l v, us = g ++ 92 :: 117 :: (l ++ us') ∧ Hex4 g u ∧ Hex4 l v ∧ 0xD800 ≤ u ∧ u ≤ 0xDBFF ∧ 0xDC00 ≤ v ∧ v ≤ 0xDFFF ∧
      bs = utf8 (0x10000 + (u - 0xD800) * 0x400 + (v - 0xDC00))) := by
  rw [parseU, bind_ok] at h
  obtain ⟨⟨u, u1⟩, h1, h⟩ := h
  obtain ⟨g, rfl, hg⟩ := parseHex4_ok h1
  dsimp only at h
  split at h
  · cases h
  · rename_i n1
    split at h
    · rename_i n2
      rw [bind_ok] at h
      obtain ⟨u2, h2, h⟩ := h
      rw [bind_ok] at h
      obtain ⟨u3, h3, h⟩ := h
      rw [bind_ok] at h
      obtain ⟨⟨v, u4⟩, h4, h⟩ := h
      obtain ⟨l, rfl, hl⟩ := parseHex4_ok h4
      rw [mtchU_ok h2, mtchU_ok h3]
      dsimp only at h
      split at h
      · cases h
      · rename_i n3
        simp only [not_or, Nat.not_lt] at n3
        simp only [Except.ok.injEq, Prod.mk.injEq] at h
        obtain ⟨rfl, rfl⟩ := h
        refine .inr ⟨g, u, l, v, rfl, hg, hl, n2.1, n2.2, n3.1, n3.2, utf8_eq ?_⟩
        unfold Scalar; omega
    · rename_i n2
      cases h
      have hu := hex4_lt hg
      have hs : Scalar u := by unfold Scalar; omega
      exact .inl ⟨g, u, rfl, hg, hs, utf8_eq hs⟩

theorem parseU_ne_stuck (us : List Nat) : parseU us ≠ .error .stuck := by
  unfold parseU
  refine bind_ne_stuck (parseHex4_ne_stuck _) fun _ _ => ?_
  dsimp only
  split
  · exact nofun
  · split
    · refine bind_ne_stuck (mtchU_ne_stuck _ _) fun _ _ => ?_
      refine bind_ne_stuck (mtchU_ne_stuck _ _) fun _ _ => ?_
      refine bind_ne_stuck (parseHex4_ne_stuck _) fun _ _ => ?_
      split <;> exact nofun
    · exact nofun

theorem strStep_ne_stuck (us : List Nat) : strStep us ≠ .error .stuck := by
  unfold strStep
  split
  · exact nofun
  · split
    · split
      · exact nofun
      · split
        · exact parseU_ne_stuck _
        · split <;> exact nofun
    · split <;> exact nofun

/-- One turn of the loop adds one item of the string body. -/
theorem strStep_sound {c : Nat} {us us' : List Nat} {bs : Str} (hc : c ≠ 34) (hs : ∀ x ∈ c :: us, Scalar x)
    (h : strStep (c :: us) = .ok (bs, us')) :
    ∃ p, c :: us = p ++ us' ∧ p ≠ [] ∧ ∀ t s, StrBody t s → StrBody (p ++ t) (bs ++ s) := by
  unfold strStep at h
  dsimp only at h
  split at h
  · rename_i h92
    subst h92
    split at h
    · cases h
    · rename_i e us1
      split at h
      · rename_i he
        subst he
        rcases parseU_ok h with ⟨g, u, rfl, hg, hu, rfl⟩ | ⟨g, u, l, v, hus, hg, hl, a1, a2, a3, a4, hb⟩
        · exact ⟨92 :: 117 :: g, by simp, by simp, fun t s hts => .uni g u t s hg hu hts⟩
        · refine ⟨92 :: 117 :: (g ++ 92 :: 117 :: l), by rw [hus]; simp, by simp, fun t s hts => ?_⟩
          have := StrBody.pair g u l v t s hg hl a1 a2 a3 a4 hts
          rw [hb]
          have e : 92 :: 117 :: (g ++ 92 :: 117 :: l) ++ t = 92 :: 117 :: (g ++ 92 :: 117 :: (l ++ t)) := by simp
          rw [e]; exact this
      · split at h
        · rename_i b hb
          cases h
          exact ⟨[92, e], rfl, by simp, fun t s hts => .esc e b t s ((simpleEscape_iff _ _).mp hb) hts⟩
        · cases h
  · rename_i h92
    split at h
    · rename_i hr
      cases h
      have hsc := hs c (by simp)
      refine ⟨[c], rfl, by simp, fun t s hts => ?_⟩
      rw [utf8_eq hsc]
      exact .raw c t s hsc (by omega) hc h92 hts
    · cases h

theorem strLoop_sound (n : Nat) (us us' : List Nat) (out : Str) (hs : ∀ x ∈ us, Scalar x) (h : strLoop n us = .ok (out, us')) :
    ∃ t, us = t ++ 34 :: us' ∧ StrBody t out := by
  induction n generalizing us out with
  | zero => cases h
  | succ n ih =>
    cases us with
    | nil => cases h
    | cons c us =>
      rw [strLoop] at h
      split at h
      · rename_i hc; cases h; exact ⟨[], by rw [hc]; rfl, .nil⟩
      · rename_i hc
        rw [bind_ok] at h
        obtain ⟨⟨bs, u1⟩, h1, h⟩ := h
        rw [bind_ok] at h
        obtain ⟨⟨out', u2⟩, h2, h⟩ := h
        cases h
        obtain ⟨p, e1, _, e2⟩ := strStep_sound hc hs h1
        obtain ⟨t, rfl, ht⟩ := ih u1 out' (fun x hx => hs x (by rw [e1]; simp [hx])) h2
        exact ⟨p ++ t, by rw [e1]; simp, e2 t out' ht⟩

theorem strLoop_ne_stuck (n : Nat) (us : List Nat) (hs : ∀ x ∈ us, Scalar x) (hn : us.length < n) : strLoop n us ≠ .error .stuck := by
  induction n generalizing us with
  | zero => omega
  | succ n ih =>
    cases us with
    | nil => exact nofun
    | cons c us =>
      rw [strLoop]
      split
      · exact nofun
      · rename_i hc
        refine bind_ne_stuck (strStep_ne_stuck _) ?_
        rintro ⟨bs, u1⟩ h1
        obtain ⟨p, e1, e0, _⟩ := strStep_sound hc hs h1
        have hl : u1.length < n := by
          have := congrArg List.length e1
          have := List.length_pos_iff.mpr e0
          simp only [List.length_cons, List.length_append] at *
          omega
        refine bind_ne_stuck (ih u1 (fun x hx => hs x (by rw [e1]; simp [hx])) hl) ?_
        intro _ _; exact nofun

theorem strStep_raw (c : Nat) (us : List Nat) (hs : Scalar c) (h1 : 0x20 ≤ c) (h2 : c ≠ 34) (h3 : c ≠ 92) :
    strStep (c :: us) = .ok (utf8 c, us) := by
  have : (0x20 ≤ c ∧ c ≤ 0x21) ∨ (0x23 ≤ c ∧ c ≤ 0x5B) ∨ (0x5D ≤ c ∧ c ≤ 0x10FFFF) := by unfold Scalar at hs; omega
  simp only [strStep, h3, if_false, this, if_true, utf8_eq hs]

theorem strStep_esc (e : Nat) (b : UInt8) (us : List Nat) (h : (e, b) ∈ escapes) : strStep (92 :: e :: us) = .ok ([b], us) := by
  simp only [strStep, if_true, esc_ne_u h, if_false, (simpleEscape_iff e b).mpr h]

theorem strStep_uni (g : List Nat) (u : Nat) (us : List Nat) (h : Hex4 g u) (hs : Scalar u) :
    strStep (92 :: 117 :: (g ++ us)) = .ok (utf8 u, us) := by
  have h1 : ¬ (0xDC00 ≤ u ∧ u ≤ 0xDFFF) := by unfold Scalar at hs; omega
  have h2 : ¬ (0xD800 ≤ u ∧ u ≤ 0xDBFF) := by unfold Scalar at hs; omega
  simp only [strStep, if_true, parseU, parseHex4_app h, ok_bind, h1, h2, if_false, utf8_eq hs]

theorem strStep_pair (g : List Nat) (u : Nat) (l : List Nat) (v : Nat) (us : List Nat) (hg : Hex4 g u) (hl : Hex4 l v)
    (a1 : 0xD800 ≤ u) (a2 : u ≤ 0xDBFF) (a3 : 0xDC00 ≤ v) (a4 : v ≤ 0xDFFF) :
    strStep (92 :: 117 :: (g ++ 92 :: 117 :: (l ++ us))) =
      .ok (utf8 (0x10000 + (u - 0xD800) * 0x400 + (v - 0xDC00)), us) := by
  have h1 : ¬ (0xDC00 ≤ u ∧ u ≤ 0xDFFF) := by omega
  have h2 : (0xD800 ≤ u ∧ u ≤ 0xDBFF) := by omega
  have h3 : ¬ (v < 0xDC00 ∨ 0xDFFF < v) := by omega
  have hs : Scalar (0x10000 + (u - 0xD800) * 0x400 + (v - 0xDC00)) := by unfold Scalar; omega
  simp only [strStep, if_true, parseU, parseHex4_app hg, parseHex4_app hl, ok_bind, h1, if_false, h2, and_self,
    mtchU, ne_eq, not_true, h3, utf8_eq hs]

theorem strLoop_complete {t : List Nat} {s : Str} (h : StrBody t s) (n : Nat) (hn : t.length < n) (rest : List Nat) :
    strLoop n (t ++ 34 :: rest) = .ok (s, rest) := by
  induction h generalizing n with
  | nil =>
    cases n with
    | zero => simp at hn
    | succ n => simp [strLoop]
  | raw c t s h1 h2 h3 h4 _ ih =>
    cases n with
    | zero => simp at hn
    | succ n =>
      simp only [List.cons_append, strLoop, h3, if_false, strStep_raw c _ h1 h2 h3 h4, ok_bind]
      rw [ih n (by simp at hn; omega)]; rfl
  | esc e b t s h1 _ ih =>
    cases n with
    | zero => simp at hn
    | succ n =>
      simp only [List.cons_append, strLoop, strStep_esc e b _ h1, ok_bind]
      rw [if_neg (by decide), ih n (by simp at hn; omega)]; rfl
  | uni g u t s h1 h2 _ ih =>
    cases n with
    | zero => simp at hn
    | succ n =>
      simp only [List.cons_append, List.append_assoc, strLoop, strStep_uni g u _ h1 h2, ok_bind]
      rw [if_neg (by decide), ih n (by simp at hn; omega)]; rfl
  | pair g u l v t s h1 h2 a1 a2 a3 a4 _ ih =>
    cases n with
    | zero => simp at hn
    | succ n =>
      simp only [List.cons_append, List.append_assoc, strLoop, strStep_pair g u l v _ h1 h2 a1 a2 a3 a4, ok_bind]
      rw [if_neg (by decide), ih n (by simp at hn; omega)]; rfl

theorem parseStringPrim_complete {t : List Nat} {k : Str} (h : StrBody t k) {s : S} {rest : List Nat}
    (hv : view s = 34 :: (t ++ 34 :: rest)) : parseStringPrim s = .ok (k, ⟨none, rest⟩) := by
  rw [parseStringPrim, mtch_cons hv, ok_bind]
  dsimp only
  rw [strLoop_complete h _ (by simp; omega)]
  rfl

theorem parseStringPrim_sound {s s' : S} {k : Str} (hs : ∀ x ∈ view s, Scalar x) (h : parseStringPrim s = .ok (k, s')) :
    ∃ t, view s = 34 :: (t ++ 34 :: view s') ∧ StrBody t k := by
  rw [parseStringPrim, bind_ok] at h
  obtain ⟨s1, h1, h⟩ := h
  obtain ⟨tl, e1, rfl⟩ := mtch_ok h1
  rw [bind_ok] at h
  obtain ⟨⟨out, us⟩, h2, h⟩ := h
  cases h
  obtain ⟨t, e2, ht⟩ := strLoop_sound _ _ _ _ (fun x hx => hs x (by rw [e1]; exact List.mem_cons_of_mem _ hx)) h2
  dsimp only at e2
  exact ⟨t, by rw [e1, e2]; rfl, ht⟩

theorem parseStringPrim_ne_stuck {s : S} (hs : ∀ x ∈ view s, Scalar x) : parseStringPrim s ≠ .error .stuck := by
  rw [parseStringPrim]
  refine bind_ne_stuck mtch_ne_stuck ?_
  intro s1 h1
  obtain ⟨tl, e1, rfl⟩ := mtch_ok h1
  refine bind_ne_stuck (strLoop_ne_stuck _ _ (fun x hx => hs x (by rw [e1]; exact List.mem_cons_of_mem _ hx)) (by simp)) ?_
  intro _ _; exact nofun

end Verif.Json.Lemmas
