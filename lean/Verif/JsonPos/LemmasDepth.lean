import Verif.JsonPos.LemmasRun
import Verif.JsonPos.LemmasCalm
/-! How many calls of `parse_impl` there are at a time. -/

namespace Verif.JsonPos.Lemmas
open Verif.JsonPos Verif.JsonPos.Spec
open Verif.Json (Str Event S Value isSpace isDigit simpleEscape strtoll)
open Verif.Json.Spec (events eventsL eventsM)

variable {F α β : Type}

/-- What holds of every exception here. -/
def Exc (Q : Ex → P F → Prop) (f : M F α) (p : P F) : Prop := ∀ e q, f p = .exc e q → Q e q

theorem nd_bind {Q : Ex → P F → Prop} {f : M F α} {g : α → M F β} {p : P F} (hf : Exc Q f p) (hg : ∀ a q, f p = .ok a q → Exc Q (g a) q) : Exc Q (f >>= g) p := by
  intro e q
  rw [bind_def]
  cases h : f p with
  | exc e' r => rintro ⟨⟩; exact hf _ _ h
  | ok a r => exact hg a r h e q

theorem nd_ite {Q : Ex → P F → Prop} {c : Prop} [Decidable c] {f g : M F α} {p : P F} (hf : c → Exc Q f p) (hg : ¬ c → Exc Q g p) : Exc Q (if c then f else g) p := by
  split
  · exact hf ‹_›
  · exact hg ‹_›

/-- Holds of what the small functions throw. -/
def Lawful (Q : Ex → P F → Prop) : Prop := (∀ l c m q, Q (.parse l c m) q) ∧ (∀ q, Q .stuck q) ∧ ∀ q, pend q = [] → Q .eod q

section
variable {Q : Ex → P F → Prop} (hQ : Lawful Q)
include hQ

omit hQ in
theorem nd_pure (a : α) (p : P F) : Exc Q (pure a : M F α) p := fun _ _ => nofun
theorem nd_error (m : Str) (p : P F) : Exc Q (error m : M F α) p := by
  rintro e q ⟨⟩
  exact hQ.1 _ _ _ _
theorem nd_stuck (p : P F) : Exc Q (throw .stuck : M F α) p := by
  rintro e q ⟨⟩
  exact hQ.2.1 _
omit hQ in
theorem nd_emit (e : Event F) (p : P F) : Exc Q (emit e) p := fun _ _ => nofun
omit hQ in
theorem nd_more (p : P F) : Exc Q (more : M F Bool) p := fun _ _ => nofun
omit hQ in
theorem nd_loadedC (p : P F) : Exc Q (loadedC : M F Bool) p := fun _ _ => nofun
theorem nd_peek (p : P F) : Exc Q (peek : M F Nat) p := by
  obtain ⟨cb, rest, l, k, evs⟩ := p
  intro e q h
  cases cb with
  | some d => cases h
  | none => cases rest with
    | nil => cases h; exact hQ.2.2 _ rfl
    | cons c tl => cases h
theorem nd_incr (p : P F) : Exc Q (incr : M F Nat) p := nd_bind (nd_peek hQ p) fun _ _ _ _ _ => nofun
theorem nd_ssF (n : Nat) (p : P F) : Exc Q (ssF n : M F Unit) p := by
  induction n generalizing p with
  | zero => exact nd_stuck hQ p
  | succ n ih =>
    exact nd_bind (nd_more p) fun _ q _ => nd_ite (fun _ => nd_pure _ _) fun _ => nd_bind (nd_peek hQ q) fun _ r _ =>
      nd_ite (fun _ => nd_bind (nd_incr hQ r) fun _ t _ => ih t) fun _ => nd_pure _ _
theorem nd_ss (p : P F) : Exc Q (ss : M F Unit) p := nd_ssF hQ _ p
theorem nd_mtch (c : Nat) (p : P F) : Exc Q (mtch c : M F Unit) p := by
  refine nd_bind (nd_peek hQ p) fun d q _ => ?_
  by_cases h : d ≠ c
  · simp only [if_pos h]; exact nd_bind (nd_error hQ _ _) fun _ r _ => nd_bind (nd_incr hQ r) fun _ _ _ => nd_pure _ _
  · simp only [if_neg h]; exact nd_bind (nd_incr hQ _) fun _ _ _ => nd_pure _ _
theorem nd_smatch (c : Nat) (p : P F) : Exc Q (smatch c : M F Unit) p := nd_bind (nd_ss hQ p) fun _ q _ => nd_mtch hQ c q
theorem nd_speek (p : P F) : Exc Q (speek : M F Nat) p := nd_bind (nd_ss hQ p) fun _ q _ => nd_peek hQ q
theorem nd_comma (b : Bool) (p : P F) : Exc Q (comma b : M F Unit) p := nd_ite (fun _ => nd_pure _ _) fun _ => nd_smatch hQ 44 p
theorem nd_mtchAll (cs : List Nat) (p : P F) : Exc Q (mtchAll cs : M F Unit) p := by
  induction cs generalizing p with
  | nil => exact nd_pure _ _
  | cons c cs ih => exact nd_bind (nd_mtch hQ c p) fun _ q _ => ih q
theorem nd_parseHex (p : P F) : Exc Q (parseHex : M F Nat) p :=
  nd_bind (nd_incr hQ p) fun _ _ _ => nd_ite (fun _ => nd_pure _ _) fun _ => nd_ite (fun _ => nd_pure _ _) fun _ =>
    nd_ite (fun _ => nd_pure _ _) fun _ => nd_error hQ _ _
theorem nd_parseHex4 (p : P F) : Exc Q (parseHex4 : M F Nat) p :=
  nd_bind (nd_parseHex hQ p) fun _ q _ => nd_bind (nd_parseHex hQ q) fun _ q _ => nd_bind (nd_parseHex hQ q) fun _ q _ =>
    nd_bind (nd_parseHex hQ q) fun _ _ _ => nd_pure _ _
theorem nd_parseU (p : P F) : Exc Q (parseU : M F Str) p :=
  nd_bind (nd_parseHex4 hQ p) fun _ q _ => nd_ite (fun _ => nd_error hQ _ _) fun _ => nd_ite (fun _ => nd_bind (nd_mtch hQ _ q) fun _ q _ =>
    nd_bind (nd_mtch hQ _ q) fun _ q _ => nd_bind (nd_parseHex4 hQ q) fun _ _ _ => nd_ite (fun _ => nd_error hQ _ _) fun _ => nd_pure _ _) fun _ => nd_pure _ _
theorem nd_strStep (p : P F) : Exc Q (strStep : M F Str) p := by
  refine nd_bind (nd_peek hQ p) fun c q _ => nd_ite (fun _ => nd_bind (nd_incr hQ q) fun _ q _ => nd_bind (nd_incr hQ q) fun d r _ =>
    nd_ite (fun _ => nd_parseU hQ r) fun _ => ?_) fun _ => nd_bind (nd_incr hQ q) fun _ _ _ => nd_ite (fun _ => nd_pure _ _) fun _ => nd_error hQ _ _
  cases simpleEscape d with
  | none => exact nd_error hQ _ _
  | some b => exact nd_pure _ _
theorem nd_strLoop (n : Nat) (p : P F) : Exc Q (strLoop n : M F Str) p := by
  induction n generalizing p with
  | zero => exact nd_stuck hQ p
  | succ n ih =>
    exact nd_bind (nd_peek hQ p) fun _ q _ => nd_ite (fun _ => nd_pure _ _) fun _ => nd_bind (nd_strStep hQ q) fun _ r _ =>
      nd_bind (ih r) fun _ _ _ => nd_pure _ _
theorem nd_parseStringPrim (p : P F) : Exc Q (parseStringPrim : M F Str) p :=
  nd_bind (nd_mtch hQ _ p) fun _ q _ => nd_bind (fun e r => nd_strLoop hQ _ q e r) fun _ q _ => nd_bind (nd_mtch hQ _ q) fun _ _ _ => nd_pure _ _
theorem nd_digitsAF (n : Nat) (p : P F) : Exc Q (digitsAF n : M F (List Nat)) p := by
  induction n generalizing p with
  | zero => exact nd_stuck hQ p
  | succ n ih =>
    exact nd_bind (nd_loadedC p) fun _ q _ => nd_bind (nd_more q) fun _ q _ => nd_ite (fun _ => nd_pure _ _) fun _ =>
      nd_bind (nd_peek hQ q) fun _ r _ => nd_ite (fun _ => nd_bind (nd_incr hQ r) fun _ t _ => nd_bind (ih t) fun _ _ _ => nd_pure _ _) fun _ => nd_pure _ _
theorem nd_digitsBF (n : Nat) (p : P F) : Exc Q (digitsBF n : M F (List Nat)) p := by
  induction n generalizing p with
  | zero => exact nd_stuck hQ p
  | succ n ih =>
    exact nd_bind (nd_more p) fun _ q _ => nd_ite (fun _ => nd_pure _ _) fun _ =>
      nd_bind (nd_peek hQ q) fun _ r _ => nd_ite (fun _ => nd_bind (nd_incr hQ r) fun _ t _ => nd_bind (ih t) fun _ _ _ => nd_pure _ _) fun _ => nd_pure _ _
theorem nd_digitsA (p : P F) : Exc Q (digitsA : M F (List Nat)) p := nd_digitsAF hQ _ p
theorem nd_digitsB (p : P F) : Exc Q (digitsB : M F (List Nat)) p := nd_digitsBF hQ _ p
theorem nd_signPart (p : P F) : Exc Q (signPart : M F (List Nat)) p :=
  nd_bind (nd_peek hQ p) fun _ q _ => nd_ite (fun _ => nd_bind (nd_incr hQ q) fun _ _ _ => nd_pure _ _) fun _ => nd_pure _ _
theorem nd_fracPart (p : P F) : Exc Q (fracPart : M F (List Nat × Bool)) p :=
  nd_bind (nd_more p) fun _ q _ => nd_ite (fun _ => nd_pure _ _) fun _ => nd_bind (nd_peek hQ q) fun _ q _ => nd_ite (fun _ =>
    nd_bind (nd_incr hQ q) fun _ q _ => nd_bind (nd_digitsB hQ q) fun _ _ _ => nd_pure _ _) fun _ => nd_pure _ _
theorem nd_expPart (p : P F) : Exc Q (expPart : M F (List Nat × Bool)) p :=
  nd_bind (nd_more p) fun _ q _ => nd_ite (fun _ => nd_pure _ _) fun _ => nd_bind (nd_peek hQ q) fun _ q _ => nd_ite (fun _ =>
    nd_bind (nd_incr hQ q) fun _ q _ => nd_bind (nd_more q) fun _ q _ => nd_ite (fun _ => nd_bind (nd_error hQ _ _) fun _ q _ => nd_bind (nd_peek hQ q) fun _ q _ =>
      nd_ite (fun _ => nd_bind (nd_incr hQ q) fun _ _ _ => nd_pure _ _) fun _ => nd_pure _ _) fun _ => nd_bind (nd_peek hQ q) fun _ q _ =>
      nd_ite (fun _ => nd_bind (nd_incr hQ q) fun _ _ _ => nd_pure _ _) fun _ => nd_pure _ _) fun _ => nd_pure _ _
theorem nd_convNum (lib : Lib F) (src : List Nat) (b : Bool) (p : P F) : Exc Q (convNum lib src b) p := by
  unfold convNum
  cases b
  · cases strtoll src with
    | none => exact nd_error hQ _ _
    | some n => exact nd_emit _ _
  · cases lib.strtod src with
    | none => exact nd_error hQ _ _
    | some n => exact nd_emit _ _
theorem nd_parseNumber (lib : Lib F) (p : P F) : Exc Q (parseNumber lib) p :=
  nd_bind (nd_signPart hQ p) fun _ q _ => nd_bind (nd_digitsA hQ q) fun _ q _ => nd_bind (nd_fracPart hQ q) fun _ q _ => nd_bind (nd_expPart hQ q) fun _ q _ =>
    nd_bind (nd_digitsB hQ q) fun _ q _ => nd_convNum hQ lib _ _ q

theorem nd_impl (hd : ∀ q, Q .deep q) (lib : Lib F) (n : Nat) : (∀ d p, Exc Q (parseImpl lib d n) p) ∧
    (∀ d b p, Exc Q (arrLoop lib d n b) p) ∧ (∀ d b p, Exc Q (objLoop lib d n b) p) := by
  have nd_deep : ∀ p, Exc Q (throw .deep : M F Unit) p := by
    rintro p e q ⟨⟩
    exact hd _
  induction n with
  | zero =>
    refine ⟨fun d p => ?_, fun d b p => by rw [arrLoop]; exact nd_stuck hQ p, fun d b p => by rw [objLoop]; exact nd_stuck hQ p⟩
    cases d with
    | zero => rw [parseImpl]; exact nd_deep p
    | succ d => rw [parseImpl]; exact nd_stuck hQ p
  | succ n ih =>
    obtain ⟨ihV, ihA, ihO⟩ := ih
    refine ⟨fun d p => ?_, fun d b p => ?_, fun d b p => ?_⟩
    · cases d with
      | zero => rw [parseImpl]; exact nd_deep p
      | succ d =>
        rw [parseImpl]
        refine nd_bind (nd_ss hQ p) fun _ r1 h1 => nd_bind (nd_peek hQ r1) fun c r h2 => ?_
        refine nd_ite (fun _ => ?_) fun _ => nd_ite (fun _ => ?_) fun _ => nd_ite (fun _ => nd_parseNumber hQ lib r) fun _ =>
          nd_ite (fun _ => nd_bind (nd_parseStringPrim hQ r) fun _ q _ => nd_emit _ q) fun _ =>
          nd_ite (fun _ => nd_bind (nd_mtchAll hQ _ r) fun _ q _ => nd_emit _ q) fun _ =>
          nd_ite (fun _ => nd_bind (nd_mtchAll hQ _ r) fun _ q _ => nd_emit _ q) fun _ =>
          nd_ite (fun _ => nd_bind (nd_mtchAll hQ _ r) fun _ q _ => nd_emit _ q) fun _ => nd_error hQ _ r
        · exact nd_bind (nd_emit _ r) fun _ r3 h3 => nd_bind (nd_smatch hQ _ r3) fun _ r4 h4 =>
            nd_bind (ihO d true r4) fun _ r5 _ => nd_bind (nd_smatch hQ _ r5) fun _ r6 _ => nd_emit _ r6
        · exact nd_bind (nd_emit _ r) fun _ r3 h3 => nd_bind (nd_smatch hQ _ r3) fun _ r4 h4 =>
            nd_bind (ihA d true r4) fun _ r5 _ => nd_bind (nd_smatch hQ _ r5) fun _ r6 _ => nd_emit _ r6
    · rw [arrLoop]
      exact nd_bind (nd_speek hQ p) fun c r1 h1 => nd_ite (fun _ => nd_pure _ r1) fun _ => nd_bind (nd_comma hQ b r1) fun _ r2 h2 =>
        nd_bind (ihV d r2) fun _ r3 h3 => ihA d false r3
    · rw [objLoop]
      exact nd_bind (nd_speek hQ p) fun c r1 h1 => nd_ite (fun _ => nd_pure _ r1) fun _ => nd_bind (nd_comma hQ b r1) fun _ r2 h2 =>
        nd_bind (nd_ss hQ r2) fun _ r3 h3 => nd_bind (nd_parseStringPrim hQ r3) fun k r4 h4 => nd_bind (nd_emit _ r4) fun _ r5 h5 =>
        nd_bind (nd_smatch hQ _ r5) fun _ r6 h6 => nd_bind (ihV d r6) fun _ r7 h7 => ihO d false r7

end

/-- The end of the data is reported when nothing is left. -/
theorem eod_parseStream (lib : Lib F) (room : Nat) (p : P F) : Exc (fun e q => e = .eod → pend q = []) (parseStream lib room) p := by
  have hQ : Lawful (fun (e : Ex) (q : P F) => e = .eod → pend q = []) := ⟨nofun, nofun, fun _ h _ => h⟩
  refine nd_bind (nd_ss hQ p) fun _ q h1 => nd_bind (nd_loadedC q) fun a r h2 => ?_
  cases h2
  refine nd_bind (nd_more _) fun b r h3 => ?_
  cases h3
  refine nd_ite (fun h => nd_bind ?_ fun _ _ h => by cases h) fun _ => (nd_impl hQ (fun _ => nofun) lib _).1 room q
  rintro e r ⟨⟩ -
  simp only [Bool.not_eq_true', Bool.or_eq_false_iff, decide_eq_false_iff_not, Decidable.not_not, ne_eq, Option.isSome_eq_false_iff, Option.isNone_iff_eq_none] at h
  simp [pend, h.1, h.2]

/-! Never too deep if there are few opening brackets -/

theorem good_opens {f : M F α} (hf : Good f) {p q : P F} {a : α} (h : f p = .ok a q) : opens (pend q) ≤ opens (pend p) := by
  obtain ⟨u, x, h1, -⟩ := hf p
  rw [h] at h1
  rw [h1, opens, opens, List.countP_append]
  exact Nat.le_add_left _ _

theorem mtch_opens {c : Nat} (hc : c = 91 ∨ c = 123) {p q : P F} {a : Unit} (h : mtch c p = .ok a q) : opens (pend q) < opens (pend p) := by
  obtain ⟨v, e, k⟩ : ∃ v, pend p = v ++ pend q ∧ v = [c] := by
    obtain ⟨d, r, h1, h2⟩ := bind_ok h
    have hp : pend r = pend p ∧ r.cbuf = some d := by
      obtain ⟨cb, rest, l, k, evs⟩ := p
      cases cb with
      | some d => cases h1; exact ⟨rfl, rfl⟩
      | none => cases rest with
        | nil => cases h1
        | cons d tl => cases h1; exact ⟨rfl, rfl⟩
    by_cases hd : d ≠ c
    · simp only [if_pos hd] at h2
      obtain ⟨_, r2, h3, h4⟩ := bind_ok h2
      cases h3
    · simp only [if_neg hd] at h2
      obtain ⟨_, r2, h3, h4⟩ := bind_ok h2
      cases h4
      refine ⟨[c], ?_, rfl⟩
      rw [← hp.1]
      obtain ⟨cb, rest, l, k, evs⟩ := r
      obtain ⟨-, hp⟩ := hp
      dsimp only at hp
      subst hp
      rw [incr_some] at h3
      cases h3
      have : d = c := Decidable.not_not.mp hd
      subst this
      simp [pend, count_rest, count_cbuf]
  subst k
  rw [e, opens, opens, List.countP_append]
  rcases hc with rfl | rfl <;> simp

theorem smatch_opens {c : Nat} (hc : c = 91 ∨ c = 123) {p q : P F} {a : Unit} (h : smatch c p = .ok a q) : opens (pend q) < opens (pend p) := by
  obtain ⟨_, r, h1, h2⟩ := bind_ok h
  exact Nat.lt_of_lt_of_le (mtch_opens hc h2) (good_opens good_ss h1)

theorem nd_all (lib : Lib F) (n : Nat) : (∀ d p, opens (pend p) < d → Exc (fun e _ => e ≠ .deep) (parseImpl lib d n) p) ∧
    (∀ d b p, opens (pend p) < d → Exc (fun e _ => e ≠ .deep) (arrLoop lib d n b) p) ∧ (∀ d b p, opens (pend p) < d → Exc (fun e _ => e ≠ .deep) (objLoop lib d n b) p) := by
  have hQ : Lawful (fun (e : Ex) (_ : P F) => e ≠ .deep) := ⟨nofun, nofun, nofun⟩
  induction n with
  | zero =>
    refine ⟨fun d p h => ?_, fun d b p _ => by rw [arrLoop]; exact nd_stuck hQ p, fun d b p _ => by rw [objLoop]; exact nd_stuck hQ p⟩
    cases d with
    | zero => omega
    | succ d => rw [parseImpl]; exact nd_stuck hQ p
  | succ n ih =>
    obtain ⟨ihV, ihA, ihO⟩ := ih
    refine ⟨fun d p hp => ?_, fun d b p hp => ?_, fun d b p hp => ?_⟩
    · cases d with
      | zero => omega
      | succ d =>
        rw [parseImpl]
        refine nd_bind (nd_ss hQ p) fun _ r1 h1 => nd_bind (nd_peek hQ r1) fun c r h2 => ?_
        have e1 := good_opens good_ss h1
        have e2 := good_opens good_peek h2
        refine nd_ite (fun _ => ?_) fun _ => nd_ite (fun _ => ?_) fun _ => nd_ite (fun _ => nd_parseNumber hQ lib r) fun _ =>
          nd_ite (fun _ => nd_bind (nd_parseStringPrim hQ r) fun _ q _ => nd_emit _ q) fun _ =>
          nd_ite (fun _ => nd_bind (nd_mtchAll hQ _ r) fun _ q _ => nd_emit _ q) fun _ =>
          nd_ite (fun _ => nd_bind (nd_mtchAll hQ _ r) fun _ q _ => nd_emit _ q) fun _ =>
          nd_ite (fun _ => nd_bind (nd_mtchAll hQ _ r) fun _ q _ => nd_emit _ q) fun _ => nd_error hQ _ r
        · refine nd_bind (nd_emit _ r) fun _ r3 h3 => nd_bind (nd_smatch hQ _ r3) fun _ r4 h4 => ?_
          have e3 := good_opens (good_emit _) h3
          have e4 := smatch_opens (.inr rfl) h4
          exact nd_bind (ihO d true r4 (by omega)) fun _ r5 _ => nd_bind (nd_smatch hQ _ r5) fun _ r6 _ => nd_emit _ r6
        · refine nd_bind (nd_emit _ r) fun _ r3 h3 => nd_bind (nd_smatch hQ _ r3) fun _ r4 h4 => ?_
          have e3 := good_opens (good_emit _) h3
          have e4 := smatch_opens (.inl rfl) h4
          exact nd_bind (ihA d true r4 (by omega)) fun _ r5 _ => nd_bind (nd_smatch hQ _ r5) fun _ r6 _ => nd_emit _ r6
    · rw [arrLoop]
      refine nd_bind (nd_speek hQ p) fun c r1 h1 => nd_ite (fun _ => nd_pure _ r1) fun _ => nd_bind (nd_comma hQ b r1) fun _ r2 h2 => ?_
      have e1 := good_opens good_speek h1
      have e2 := good_opens (good_comma b) h2
      refine nd_bind (ihV d r2 (by omega)) fun _ r3 h3 => ?_
      have e3 := good_opens ((good_all lib n).1 d) h3
      exact ihA d false r3 (by omega)
    · rw [objLoop]
      refine nd_bind (nd_speek hQ p) fun c r1 h1 => nd_ite (fun _ => nd_pure _ r1) fun _ => nd_bind (nd_comma hQ b r1) fun _ r2 h2 =>
        nd_bind (nd_ss hQ r2) fun _ r3 h3 => nd_bind (nd_parseStringPrim hQ r3) fun k r4 h4 => nd_bind (nd_emit _ r4) fun _ r5 h5 =>
        nd_bind (nd_smatch hQ _ r5) fun _ r6 h6 => ?_
      have e1 := good_opens good_speek h1
      have e2 := good_opens (good_comma b) h2
      have e3 := good_opens good_ss h3
      have e4 := good_opens good_parseStringPrim h4
      have e5 := good_opens (good_emit _) h5
      have e6 := good_opens (good_smatch 58) h6
      refine nd_bind (ihV d r6 (by omega)) fun _ r7 h7 => ?_
      have e7 := good_opens ((good_all lib n).1 d) h7
      exact ihO d false r7 (by omega)

theorem nd_parseStream (lib : Lib F) (room : Nat) (p : P F) (h : opens (pend p) < room) : Exc (fun e _ => e ≠ .deep) (parseStream lib room) p := by
  have hQ : Lawful (fun (e : Ex) (_ : P F) => e ≠ .deep) := ⟨nofun, nofun, nofun⟩
  refine nd_bind (nd_ss hQ p) fun _ q h1 => nd_bind (nd_loadedC q) fun a r h2 => ?_
  cases h2
  refine nd_bind (nd_more _) fun b r h3 => ?_
  cases h3
  have e1 := good_opens good_ss h1
  refine nd_ite (fun _ => nd_bind (by rintro e q ⟨⟩; exact nofun) fun _ _ h => by cases h) fun _ => ?_
  exact (nd_all lib _).1 room q (by omega)

/-! The calls in terms of the callbacks -/

/-- The largest number of calls at a time, `k` of them before. -/
def peak : Nat → List (Event F) → Nat
  | _, [] => 0
  | k, .startObj :: es => max (k + 1) (peak (k + 1) es)
  | k, .startArr :: es => max (k + 1) (peak (k + 1) es)
  | k, .endObj :: es => peak (k - 1) es
  | k, .endArr :: es => peak (k - 1) es
  | k, .key _ :: es => peak k es
  | k, _ :: es => max (k + 1) (peak k es)

/-- Complete values: their calls are independent of what is around. -/
def Flat (h : Nat) (es : List (Event F)) : Prop := ∀ k es', peak k (es ++ es') = max (if h = 0 then 0 else k + h) (peak k es')

theorem flat_nil : Flat 0 ([] : List (Event F)) := by
  intro k es'
  simp

theorem flat_app {h h' : Nat} {es es' : List (Event F)} (a : Flat h es) (b : Flat h' es') : Flat (max h h') (es ++ es') := by
  intro k r
  rw [List.append_assoc, a, b]
  repeat' split
  all_goals omega

theorem flat_inj {h h' : Nat} {es : List (Event F)} (a : Flat h es) (b : Flat h' es) : h = h' := by
  have e := (a 0 []).symm.trans (b 0 [])
  simp only [peak] at e
  repeat' split at e
  all_goals omega

theorem flat_key (s : Str) : Flat 0 [(.key s : Event F)] := by
  intro k r
  simp [peak]

theorem flat_scalar {e : Event F} (he : ∀ k es, peak k (e :: es) = max (k + 1) (peak k es)) : Flat 1 [e] := by
  intro k r
  simp [he]

theorem flat_arr {h : Nat} {es : List (Event F)} (a : Flat h es) : Flat (1 + h) (.startArr :: (es ++ [.endArr])) := by
  intro k r
  have : (.startArr :: (es ++ [.endArr])) ++ r = (.startArr :: (es ++ (.endArr :: r)) : List (Event F)) := by simp
  rw [this, peak, a, peak]
  simp only [Nat.add_sub_cancel]
  repeat' split
  all_goals omega

theorem flat_obj {h : Nat} {es : List (Event F)} (a : Flat h es) : Flat (1 + h) (.startObj :: (es ++ [.endObj])) := by
  intro k r
  have : (.startObj :: (es ++ [.endObj])) ++ r = (.startObj :: (es ++ (.endObj :: r)) : List (Event F)) := by simp
  rw [this, peak, a, peak]
  simp only [Nat.add_sub_cancel]
  repeat' split
  all_goals omega

mutual
theorem flat_events : (v : Value F) → Flat (height v) (events v)
  | .null => by simp only [height, events]; exact flat_scalar fun _ _ => rfl
  | .int n => by simp only [height, events]; exact flat_scalar fun _ _ => rfl
  | .flt n => by simp only [height, events]; exact flat_scalar fun _ _ => rfl
  | .bool n => by simp only [height, events]; exact flat_scalar fun _ _ => rfl
  | .str n => by simp only [height, events]; exact flat_scalar fun _ _ => rfl
  | .arr vs => by rw [height, events]; exact flat_arr (flat_eventsL vs)
  | .obj ms => by rw [height, events]; exact flat_obj (flat_eventsM ms)
theorem flat_eventsL : (vs : List (Value F)) → Flat (heightL vs) (eventsL vs)
  | [] => by rw [heightL, eventsL]; exact flat_nil
  | v :: vs => by rw [heightL, eventsL]; exact flat_app (flat_events v) (flat_eventsL vs)
theorem flat_eventsM : (ms : List (Str × Value F)) → Flat (heightM ms) (eventsM ms)
  | [] => by rw [heightM, eventsM]; exact flat_nil
  | (k, v) :: ms => by
    rw [heightM, eventsM]
    have := flat_app (flat_key (F := F) k) (flat_app (flat_events v) (flat_eventsM ms))
    rw [Nat.zero_max] at this
    exact this
end

/-- Two runs of the same code with different room: the same outcome, or too deep with the first; and the callbacks of a success. -/
def Calls (f g : M F Unit) (T : List (Event F) → Prop → Prop) (p : P F) : Prop :=
  (f p = g p ∨ ∃ r, f p = .exc .deep r) ∧
  (∀ a q, g p = .ok a q → ∃ es, q.evs = p.evs ++ es ∧ T es (∃ r, f p = .exc .deep r))

theorem calls_silent {x : M F α} {f g : α → M F Unit} {T : List (Event F) → Prop → Prop} {p : P F} (hx : ∀ a q, x p = .ok a q → q.evs = p.evs)
    (h : ∀ a q, x p = .ok a q → Calls (f a) (g a) T q) : Calls (x >>= f) (x >>= g) T p := by
  unfold Calls
  rw [bind_def, bind_def]
  cases h1 : x p with
  | exc e q => exact ⟨.inl rfl, fun _ _ h => by cases h⟩
  | ok a q =>
    dsimp only
    rw [← hx a q h1]
    exact h a q h1

theorem calls_emit {e : Event F} {f g : M F Unit} {T : List (Event F) → Prop → Prop} {p : P F}
    (h : ∀ q, q.evs = p.evs ++ [e] → Calls f g (fun es D => T (e :: es) D) q) : Calls (emit e >>= fun _ => f) (emit e >>= fun _ => g) T p := by
  obtain ⟨h1, h2⟩ := h { p with evs := p.evs ++ [e] } rfl
  refine ⟨h1, fun a q hq => ?_⟩
  obtain ⟨es, k1, k2⟩ := h2 a q hq
  exact ⟨e :: es, by rw [k1]; simp, k2⟩

theorem calls_seq {f f' g g' : M F Unit} {T T1 T2 : List (Event F) → Prop → Prop} {p : P F} (h1 : Calls f g T1 p)
    (h2 : ∀ a q, g p = .ok a q → Calls f' g' T2 q)
    (h3 : ∀ es1 es2 D1 D2 D, T1 es1 D1 → T2 es2 D2 → (D → D1 ∨ D2) → T (es1 ++ es2) D) :
    Calls (f >>= fun _ => f') (g >>= fun _ => g') T p := by
  obtain ⟨a1, a2⟩ := h1
  unfold Calls
  rw [bind_def, bind_def]
  cases hg : g p with
  | exc e q =>
    refine ⟨?_, fun _ _ h => by cases h⟩
    rcases a1 with a1 | ⟨r, hr⟩
    · rw [a1, hg]; exact .inl rfl
    · rw [hr]; exact .inr ⟨r, rfl⟩
  | ok a q =>
    obtain ⟨es1, k1, k2⟩ := a2 a q hg
    obtain ⟨b1, b2⟩ := h2 a q hg
    dsimp only
    rcases a1 with a1 | ⟨r, hr⟩
    · rw [a1, hg] at k2 ⊢
      refine ⟨b1, fun a' q' hq' => ?_⟩
      obtain ⟨es2, k3, k4⟩ := b2 a' q' hq'
      exact ⟨es1 ++ es2, by rw [k3, k1, List.append_assoc], h3 _ _ _ _ _ k2 k4 .inr⟩
    · rw [hr] at k2 ⊢
      refine ⟨.inr ⟨r, rfl⟩, fun a' q' hq' => ?_⟩
      obtain ⟨es2, k3, k4⟩ := b2 a' q' hq'
      exact ⟨es1 ++ es2, by rw [k3, k1, List.append_assoc], h3 _ _ _ _ _ k2 k4 fun _ => .inl ⟨r, rfl⟩⟩

theorem calls_same {f : M F Unit} {T : List (Event F) → Prop → Prop} {p : P F}
    (h : ∀ a q, f p = .ok a q → ∃ es, q.evs = p.evs ++ es ∧ T es (∃ r, f p = .exc .deep r)) : Calls f f T p := ⟨.inl rfl, h⟩

/-- Silent code and a callback. -/
theorem calls_leaf {x : M F α} {e : α → Event F} {T : List (Event F) → Prop → Prop} {p : P F} (hx : ∀ a q, x p = .ok a q → q.evs = p.evs)
    (h : ∀ a D, ¬ D → T [e a] D) : Calls (x >>= fun a => emit (e a)) (x >>= fun a => emit (e a)) T p := by
  refine calls_silent hx fun a q _ => calls_same fun b r hr => ?_
  cases hr
  exact ⟨_, rfl, h a _ (by rintro ⟨r, hr⟩; cases hr)⟩

/-- What is said about values. -/
def TV (d e : Nat) (es : List (Event F)) (D : Prop) : Prop := ∃ h, Flat h es ∧ 0 < h ∧ h ≤ e ∧ (D → d < h)

/-- The same for elements and members. -/
def TL (d e : Nat) (es : List (Event F)) (D : Prop) : Prop := ∃ h, Flat h es ∧ h ≤ e ∧ (D → d < h)

theorem tv_leaf {d e : Nat} {ev : Event F} (he : ∀ k es, peak k (ev :: es) = max (k + 1) (peak k es)) (D : Prop) (hD : ¬ D) : TV d (e + 1) [ev] D :=
  ⟨1, flat_scalar he, by omega, by omega, fun h => absurd h hD⟩

theorem er_silent {f : M F α} {J : S → Except Verif.Json.Err (α × S)} (h : Er f J) (p : P F) : ∀ a q, f p = .ok a q → q.evs = p.evs := by
  intro a q hq
  have := (h p).2
  rw [hq] at this
  exact this

theorem convNum_calls (lib : Lib F) (src : List Nat) (b : Bool) (d e : Nat) (p : P F) : Calls (convNum lib src b) (convNum lib src b) (TV d (e + 1)) p := by
  refine calls_same fun a q hq => ?_
  unfold convNum at hq ⊢
  cases b
  · cases h : strtoll src with
    | none => rw [h] at hq; cases hq
    | some n =>
      rw [h] at hq
      cases hq
      exact ⟨_, rfl, tv_leaf (fun _ _ => rfl) _ (by rintro ⟨r, hr⟩; cases hr)⟩
  · cases h : lib.strtod src with
    | none => simp only [if_true, h] at hq; cases hq
    | some n =>
      simp only [if_true, h] at hq
      cases hq
      exact ⟨_, rfl, tv_leaf (fun _ _ => rfl) _ (by rintro ⟨r, hr⟩; simp only [if_true] at hr; cases hr)⟩

theorem parseNumber_calls (lib : Lib F) (d e : Nat) (p : P F) : Calls (parseNumber lib) (parseNumber lib) (TV d (e + 1)) p :=
  calls_silent (er_silent er_signPart p) fun _ q _ => calls_silent (er_silent er_digitsA q) fun _ q _ => calls_silent (er_silent er_fracPart q) fun _ q _ =>
    calls_silent (er_silent er_expPart q) fun _ q _ => calls_silent (er_silent er_digitsB q) fun _ q _ => convNum_calls lib _ _ d e q

theorem calls_ite {c : Prop} [Decidable c] {f f' g g' : M F Unit} {T : List (Event F) → Prop → Prop} {p : P F} (hf : Calls f g T p)
    (hg : Calls f' g' T p) : Calls (if c then f else f') (if c then g else g') T p := by
  split <;> assumption

theorem tl_seq {d e : Nat} (es1 es2 : List (Event F)) (D1 D2 D : Prop) (h1 : TV d e es1 D1) (h2 : TL d e es2 D2) (hD : D → D1 ∨ D2) :
    TL d e (es1 ++ es2) D := by
  obtain ⟨a, a1, a2, a3, a4⟩ := h1
  obtain ⟨b, b1, b2, b3⟩ := h2
  refine ⟨max a b, flat_app a1 b1, by omega, fun h => ?_⟩
  rcases hD h with h | h
  · have := a4 h; omega
  · have := b3 h; omega

/-- The end of an array or an object. -/
theorem calls_close {f g : M F Unit} {d e c : Nat} {o cl : Event F} {p : P F} (h : Calls f g (TL d e) p)
    (hc : ∀ {h : Nat} {es : List (Event F)}, Flat h es → Flat (1 + h) (o :: (es ++ [cl]))) :
    Calls (f >>= fun _ => smatch c >>= fun _ => emit cl) (g >>= fun _ => smatch c >>= fun _ => emit cl) (fun es D => TV (d + 1) (e + 1) (o :: es) D) p := by
  refine calls_seq h (T2 := fun es D => es = [cl] ∧ ¬ D) (fun _ q _ => calls_leaf (er_silent (er_smatch c) q) fun _ D hD => ⟨rfl, hD⟩) ?_
  rintro es1 es2 D1 D2 D ⟨h, k1, k2, k3⟩ ⟨rfl, hD2⟩ hD
  refine ⟨1 + h, hc k1, by omega, by omega, fun hd => ?_⟩
  rcases hD hd with h' | h'
  · have := k3 h'; omega
  · exact absurd h' hD2

theorem calls_all (lib : Lib F) (n : Nat) : (∀ d e, d ≤ e → ∀ p, Calls (parseImpl lib d n) (parseImpl lib e n) (TV d e) p) ∧
    (∀ d e, d ≤ e → ∀ b p, Calls (arrLoop lib d n b) (arrLoop lib e n b) (TL d e) p) ∧
    (∀ d e, d ≤ e → ∀ b p, Calls (objLoop lib d n b) (objLoop lib e n b) (TL d e) p) := by
  induction n with
  | zero =>
    refine ⟨fun d e he p => ?_, fun d e he b p => ?_, fun d e he b p => ?_⟩
    · cases d with
      | zero =>
        rw [parseImpl]
        refine ⟨.inr ⟨p, rfl⟩, fun _ _ h => ?_⟩
        cases e <;> rw [parseImpl] at h <;> cases h
      | succ d =>
        obtain ⟨e, rfl⟩ : ∃ e', e = e' + 1 := ⟨e - 1, by omega⟩
        rw [parseImpl, parseImpl]
        exact ⟨.inl rfl, fun _ _ h => by cases h⟩
    · rw [arrLoop, arrLoop]; exact ⟨.inl rfl, fun _ _ h => by cases h⟩
    · rw [objLoop, objLoop]; exact ⟨.inl rfl, fun _ _ h => by cases h⟩
  | succ n ih =>
    obtain ⟨ihV, ihA, ihO⟩ := ih
    have key : ∀ d e, d ≤ e → ∀ p, Calls (parseImpl lib (d + 1) (n + 1)) (parseImpl lib (e + 1) (n + 1)) (TV (d + 1) (e + 1)) p := by
      intro d e he p
      rw [parseImpl, parseImpl]
      refine calls_silent (er_silent er_ss p) fun _ q _ => calls_silent (er_silent er_peek q) fun c q _ => ?_
      refine calls_ite ?_ (calls_ite ?_ (calls_ite (parseNumber_calls lib _ _ q) (calls_ite ?_ (calls_ite ?_ (calls_ite ?_ (calls_ite ?_ ?_))))))
      · exact calls_emit fun q _ => calls_silent (er_silent (er_smatch _) q) fun _ q _ => calls_close (ihO d e he true q) flat_obj
      · exact calls_emit fun q _ => calls_silent (er_silent (er_smatch _) q) fun _ q _ => calls_close (ihA d e he true q) flat_arr
      · exact calls_leaf (er_silent er_parseStringPrim q) fun _ D hD => tv_leaf (fun _ _ => rfl) D hD
      · exact calls_leaf (er_silent (er_mtchAll _) q) fun _ D hD => tv_leaf (fun _ _ => rfl) D hD
      · exact calls_leaf (er_silent (er_mtchAll _) q) fun _ D hD => tv_leaf (fun _ _ => rfl) D hD
      · exact calls_leaf (er_silent (er_mtchAll _) q) fun _ D hD => tv_leaf (fun _ _ => rfl) D hD
      · exact calls_same fun _ _ h => by cases h
    refine ⟨fun d e he p => ?_, fun d e he b p => ?_, fun d e he b p => ?_⟩
    · cases d with
      | zero =>
        refine ⟨.inr ⟨p, by rw [parseImpl]; rfl⟩, fun a q h => ?_⟩
        cases e with
        | zero => rw [parseImpl] at h; cases h
        | succ e =>
          obtain ⟨es, k1, h', k2, k3, k4, k5⟩ := (key e e (Nat.le_refl _) p).2 a q h
          exact ⟨es, k1, h', k2, k3, k4, fun _ => k3⟩
      | succ d =>
        obtain ⟨e, rfl⟩ : ∃ e', e = e' + 1 := ⟨e - 1, by omega⟩
        exact key d e (by omega) p
    · rw [arrLoop, arrLoop]
      refine calls_silent (er_silent er_speek p) fun c q _ => calls_ite (calls_same fun _ _ h => ?_) ?_
      · cases h
        exact ⟨[], by simp, 0, flat_nil, by omega, by rintro ⟨r, hr⟩; cases hr⟩
      · exact calls_silent (er_silent (er_comma b) q) fun _ q _ => calls_seq (ihV d e he q) (fun _ q _ => ihA d e he false q) tl_seq
    · rw [objLoop, objLoop]
      refine calls_silent (er_silent er_speek p) fun c q _ => calls_ite (calls_same fun _ _ h => ?_) ?_
      · cases h
        exact ⟨[], by simp, 0, flat_nil, by omega, by rintro ⟨r, hr⟩; cases hr⟩
      · refine calls_silent (er_silent (er_comma b) q) fun _ q _ => calls_silent (er_silent er_ss q) fun _ q _ =>
          calls_silent (er_silent er_parseStringPrim q) fun k q _ => calls_emit fun q _ => calls_silent (er_silent (er_smatch _) q) fun _ q _ =>
          calls_seq (ihV d e he q) (fun _ q _ => ihO d e he false q) ?_
        intro es1 es2 D1 D2 D h1 h2 hD
        obtain ⟨h, k1, k2, k3⟩ := tl_seq es1 es2 D1 D2 D h1 h2 hD
        have := flat_app (flat_key (F := F) k) k1
        rw [Nat.zero_max] at this
        exact ⟨h, this, k2, k3⟩

theorem calls_parseStream (lib : Lib F) (d e : Nat) (h : d ≤ e) (p : P F) : Calls (parseStream lib d) (parseStream lib e) (TV d e) p := by
  refine calls_silent (er_silent er_ss p) fun _ q _ => calls_silent (er_silent er_loadedC q) fun a q _ => calls_silent (er_silent er_more q) fun b q _ => ?_
  by_cases hb : (!(a || b)) = true
  · simp only [if_pos hb]
    exact ⟨.inl rfl, fun _ _ h => by cases h⟩
  · simp only [if_neg hb]
    exact (calls_all lib _).1 d e h q

/-! Too deep -/

theorem ss_at {p : P F} {c : Nat} {t : List Nat} (hp : pend p = c :: t) (hc : isSpace c = false) :
    ∃ q, ss p = .ok () q ∧ toS q = ⟨some c, t⟩ ∧ q.evs = p.evs := by
  have h := (er_ss p).1
  have h2 := (er_ss p).2
  cases hs : ss p with
  | exc e q => rw [hs] at h; cases h
  | ok a q =>
    rw [hs] at h h2
    refine ⟨q, rfl, ?_, h2⟩
    simp only [er, Except.ok.injEq, Prod.mk.injEq] at h
    rw [h.2]
    refine Verif.Json.Lemmas.ss_skip (w := []) (s := toS p) hp (by simp) ?_
    rw [← Verif.Json.Lemmas.isSpace_iff, hc]
    decide

theorem smatch_at {p : P F} {c : Nat} {t : List Nat} (hp : pend p = c :: t) (hc : isSpace c = false) :
    ∃ q, smatch c p = .ok () q ∧ toS q = ⟨none, t⟩ ∧ q.evs = p.evs := by
  have h := (er_smatch c p).1
  have h2 := (er_smatch c p).2
  have e : Verif.Json.smatch c (toS p) = .ok ⟨none, t⟩ := Verif.Json.Lemmas.smatch_skip (w := []) hp (by simp) (by
    rw [← Verif.Json.Lemmas.isSpace_iff, hc]; decide)
  dsimp only at h
  rw [e] at h
  cases hs : smatch c p with
  | exc e q => rw [hs] at h; cases h
  | ok a q =>
    rw [hs] at h h2
    refine ⟨q, rfl, ?_, h2⟩
    exact (Prod.mk.inj (Except.ok.inj h)).2

theorem deep_brackets (lib : Lib F) (d n : Nat) (p : P F) (t : List Nat) (hp : pend p = List.replicate (d + 1) 91 ++ t) (hn : 2 * d + 1 ≤ n) :
    ∃ q, parseImpl lib d n p = .exc .deep q ∧ q.evs = p.evs ++ List.replicate d .startArr := by
  induction d generalizing n p with
  | zero => exact ⟨p, by rw [parseImpl]; rfl, by simp⟩
  | succ d ih =>
    obtain ⟨n, rfl⟩ : ∃ m, n = m + 2 := ⟨n - 2, by omega⟩
    obtain ⟨q, h1, h2, h3⟩ := ss_at (c := 91) (t := List.replicate (d + 1) 91 ++ t) (p := p) (by rw [hp]; rfl) rfl
    have hq : q.cbuf = some 91 := congrArg S.cbuf h2
    have hpk : peek q = .ok 91 q := by rw [peek, hq]
    obtain ⟨q2, k1, k2, k3⟩ := smatch_at (c := 91) (t := List.replicate (d + 1) 91 ++ t) (p := { q with evs := q.evs ++ [.startArr] })
      (show pend q = _ from congrArg (fun s : S => s.cbuf.toList ++ s.rest) h2) rfl
    have hq2 : pend q2 = List.replicate (d + 1) 91 ++ t := congrArg (fun s : S => s.cbuf.toList ++ s.rest) k2
    obtain ⟨q3, m1, m2, m3⟩ := ss_at (c := 91) (t := List.replicate d 91 ++ t) (p := q2) (by rw [hq2]; rfl) rfl
    have hq3 : q3.cbuf = some 91 := congrArg S.cbuf m2
    have hpk3 : peek q3 = .ok 91 q3 := by rw [peek, hq3]
    have hsp : speek q2 = .ok 91 q3 := by
      rw [speek, bind_def, m1]
      exact hpk3
    obtain ⟨r, r1, r2⟩ := ih (n := n) (p := q3) (congrArg (fun s : S => s.cbuf.toList ++ s.rest) m2) (by omega)
    refine ⟨r, ?_, ?_⟩
    · rw [parseImpl, bind_def, h1]
      dsimp only
      rw [bind_def, hpk]
      simp only [Nat.reduceEqDiff, if_false, if_true]
      rw [bind_def, emit]
      dsimp only
      rw [bind_def, k1]
      dsimp only
      rw [arrLoop, bind_def, bind_def, hsp]
      simp only [Nat.reduceEqDiff, if_false, comma, if_true]
      rw [bind_def]
      have : (pure () : M F Unit) q3 = .ok () q3 := rfl
      rw [this]
      dsimp only
      rw [bind_def, r1]
    · rw [r2, m3, k3, h3]
      simp [List.replicate_succ]

end Verif.JsonPos.Lemmas
