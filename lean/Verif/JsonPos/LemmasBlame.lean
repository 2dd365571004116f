import Verif.JsonPos.LemmasMsg
import Verif.JsonPos.LemmasCalm
/-! Every message fits the place where the parser stands. -/

namespace Verif.JsonPos.Lemmas
open Verif.JsonPos Verif.JsonPos.Spec
open Verif.Json (Str Event S isSpace isDigit simpleEscape strtoll)
open Verif.Json.Spec (utf8 hexVal Hex4 Digit decVal IsInt64 escapes)
open Verif.Json.Lemmas (hex_bits hexVal_lt hex4_lt simpleEscape_iff isDigit_iff strtoll_eq)
open Verif.Ustring.Spec (Scalar)

variable {F α β : Type}

theorem fits_prefix {lib : Lib F} {m : Str} {w r : List Nat} (v : List Nat) (h : Fits lib m w r) : Fits lib m (v ++ w) r := by
  cases h with
  | required w r x c hx h => exact .required _ _ _ _ hx h
  | invalid w r c h hn hh => exact .invalid _ _ _ _ hn hh
  | hex w r c hn => rw [← List.append_assoc]; exact .hex _ _ _ hn
  | escape w r c h hn hh => rw [← List.append_assoc]; exact .escape _ _ _ _ hn hh
  | control w r c h hn hh => rw [← List.append_assoc]; exact .control _ _ _ _ hn hh
  | low w r g u h hg hl hh => rw [← List.append_assoc]; exact .low _ _ _ _ _ hg hl hh
  | pair w r g g' u l h h' hg hu hg' hl hh hh' =>
    have := Fits.pair (lib := lib) (v ++ w) r g g' u l h h' hg hu hg' hl hh hh'
    simpa only [List.append_assoc] using this
  | exponent w e he => rw [← List.append_assoc]; exact .exponent _ _ he
  | integer w r sg ds hs hd hr => rw [← List.append_assoc]; exact .integer _ _ _ _ hs hd hr
  | double w r sg ip fr ex hs hd hf he hn ht => rw [← List.append_assoc]; exact .double _ _ _ _ _ _ hs hd hf he hn ht

/-- What `f` gives here, and what it reads. -/
def Yields (K : α → List Nat → Prop) (f : M F α) (p : P F) : Prop := ∀ a q, f p = .ok a q → ∃ v, pend p = v ++ pend q ∧ K a v

/-- After `w`, every error here is placed and described rightly. -/
def Blame (lib : Lib F) (w : List Nat) (f : M F α) (p : P F) : Prop := (∀ x ∈ pend p, Scalar x) → ∀ l c m q,
  f p = .exc (.parse l c m) q → (l, c) = pl q ∧ ∃ v, pend p = v ++ pend q ∧ Fits lib m (w ++ v) (pend q)

/-- Everywhere. -/
def Blames (lib : Lib F) (f : M F α) : Prop := ∀ p w, Blame lib w f p

theorem yields_pure {K : α → List Nat → Prop} {a : α} {p : P F} (h : K a []) : Yields K (pure a : M F α) p := by
  intro b q hq
  cases hq
  exact ⟨[], rfl, h⟩

theorem yields_error {K : α → List Nat → Prop} (m : Str) (p : P F) : Yields K (error m : M F α) p := by
  intro b q hq
  cases hq

theorem yields_bind {K : α → List Nat → Prop} {K' : β → List Nat → Prop} {f : M F α} {g : α → M F β} {p : P F} (hf : Yields K f p)
    (hg : ∀ a q v, K a v → f p = .ok a q → Yields (fun b v' => K' b (v ++ v')) (g a) q) : Yields K' (f >>= g) p := by
  intro b r hr
  obtain ⟨a, q, h1, h2⟩ := bind_ok hr
  obtain ⟨v, e1, k1⟩ := hf a q h1
  obtain ⟨v', e2, k2⟩ := hg a q v k1 h1 b r h2
  exact ⟨v ++ v', by rw [e1, e2, List.append_assoc], k2⟩

theorem yields_good {f : M F α} (hf : Good f) (p : P F) : Yields (fun _ _ => True) f p := by
  intro a q h
  obtain ⟨u, x, h1, -⟩ := hf p
  rw [h] at h1
  exact ⟨u, h1, trivial⟩

theorem peek_pend {p q : P F} {c : Nat} (h : peek p = .ok c q) : pend q = pend p ∧ q.cbuf = some c := by
  obtain ⟨cb, rest, l, k, evs⟩ := p
  cases cb with
  | some d => cases h; exact ⟨rfl, rfl⟩
  | none => cases rest with
    | nil => cases h
    | cons d tl => cases h; exact ⟨rfl, rfl⟩

theorem incr_pend {p q : P F} {c : Nat} (h : incr p = .ok c q) : pend p = c :: pend q := by
  obtain ⟨cb, rest, l, k, evs⟩ := p
  cases cb with
  | some d =>
    rw [incr_some] at h
    cases h
    simp [pend, count_rest, count_cbuf]
  | none => cases rest with
    | nil => cases h
    | cons d tl =>
      rw [incr_cons] at h
      cases h
      simp [pend, count_rest, count_cbuf]

theorem pend_some {p : P F} {c : Nat} (h : p.cbuf = some c) : pend p = c :: p.rest := by simp [pend, h]

theorem yields_peek {K : β → List Nat → Prop} {g : Nat → M F β} {p : P F} (h : ∀ c q, q.cbuf = some c → Yields K (g c) q) :
    Yields K (peek >>= g) p := by
  intro b r hr
  obtain ⟨c, q, h1, h2⟩ := bind_ok hr
  obtain ⟨e1, e2⟩ := peek_pend h1
  rw [← e1]
  exact h c q e2 b r h2

theorem yields_incr {K : β → List Nat → Prop} {g : Nat → M F β} {p : P F}
    (h : ∀ c q, pend p = c :: pend q → Yields (fun b v => K b (c :: v)) (g c) q) : Yields K (incr >>= g) p := by
  intro b r hr
  obtain ⟨c, q, h1, h2⟩ := bind_ok hr
  have e1 := incr_pend h1
  obtain ⟨v, e2, k⟩ := h c q e1 b r h2
  exact ⟨c :: v, by rw [e1, e2, List.cons_append], k⟩

theorem yields_incr_some {K : β → List Nat → Prop} {g : Nat → M F β} {p : P F} {c : Nat} (hc : p.cbuf = some c)
    (h : ∀ q, Yields (fun b v => K b (c :: v)) (g c) q) : Yields K (incr >>= g) p := by
  refine yields_incr fun c' q e => ?_
  rw [pend_some hc] at e
  have := (List.cons.inj e).1
  subst this
  exact h q

theorem yields_ite {K : α → List Nat → Prop} {c : Prop} [Decidable c] {f g : M F α} {p : P F} (hf : c → Yields K f p) (hg : ¬ c → Yields K g p) :
    Yields K (if c then f else g) p := by
  split
  · exact hf ‹_›
  · exact hg ‹_›

theorem yields_imp {K K' : α → List Nat → Prop} {f : M F α} {p : P F} (h : Yields K f p) (hk : ∀ a v, K a v → K' a v) : Yields K' f p := by
  intro a q hq
  obtain ⟨v, e, k⟩ := h a q hq
  exact ⟨v, e, hk a v k⟩

theorem yields_skip {K : β → List Nat → Prop} {f : M F α} {g : α → M F β} {p : P F} (hf : ∀ a q, f p = .ok a q → q = p)
    (hg : ∀ a, f p = .ok a p → Yields K (g a) p) : Yields K (f >>= g) p := by
  intro b r hr
  obtain ⟨a, q, h1, h2⟩ := bind_ok hr
  have := hf a q h1
  subst this
  exact hg a h1 b r h2

theorem more_same {p q : P F} {a : Bool} (h : more p = .ok a q) : q = p := by cases h; rfl
theorem loadedC_same {p q : P F} {a : Bool} (h : loadedC p = .ok a q) : q = p := by cases h; rfl

theorem yields_parseHex (p : P F) : Yields (fun a v => ∃ c, v = [c] ∧ hexVal c = some a) parseHex p := by
  refine yields_incr fun c q _ => yields_ite (fun h => yields_pure ⟨c, rfl, ?_⟩) fun h1 => yields_ite (fun h => yields_pure ⟨c, rfl, ?_⟩) fun h2 =>
    yields_ite (fun h => yields_pure ⟨c, rfl, ?_⟩) fun h3 => yields_error _ _
  · rw [isDigit_iff] at h
    unfold Digit at h
    rw [hexVal, if_pos h]
  · rw [hexVal, if_neg (by omega), if_pos h]
    congr 1
    omega
  · rw [hexVal, if_neg (by omega), if_neg (by omega), if_pos h]
    congr 1
    omega

theorem yields_parseHex4 (p : P F) : Yields (fun u v => Hex4 v u) parseHex4 p := by
  refine yields_bind (yields_parseHex p) fun a q _ => ?_
  rintro ⟨a', rfl, ha⟩ -
  refine yields_bind (yields_parseHex q) fun b q _ => ?_
  rintro ⟨b', rfl, hb⟩ -
  refine yields_bind (yields_parseHex q) fun c q _ => ?_
  rintro ⟨c', rfl, hc⟩ -
  refine yields_bind (yields_parseHex q) fun d q _ => ?_
  rintro ⟨d', rfl, hd⟩ -
  refine yields_pure ?_
  exact ⟨a', b', c', d', a, b, c, d, rfl, ha, hb, hc, hd, hex_bits a b c d (hexVal_lt hb) (hexVal_lt hc) (hexVal_lt hd)⟩

/-- The digits that were read. -/
def Digs (a v : List Nat) : Prop := a = v ∧ ∀ c ∈ v, Digit c

theorem yields_digitsAF (n : Nat) (p : P F) : Yields Digs (digitsAF n) p := by
  induction n generalizing p with
  | zero => intro a q h; cases h
  | succ n ih =>
    refine yields_skip (fun _ _ => loadedC_same) fun a _ => yields_skip (fun _ _ => more_same) fun b _ =>
      yields_ite (fun _ => yields_pure ⟨rfl, by simp⟩) fun _ => yields_peek fun c q hq => yields_ite (fun hc => ?_) fun _ => yields_pure ⟨rfl, by simp⟩
    refine yields_incr_some hq fun q => yields_bind (ih q) fun ds q v => ?_
    rintro ⟨rfl, hv⟩ -
    refine yields_pure ⟨by simp, ?_⟩
    intro x hx
    simp only [List.append_nil, List.mem_cons] at hx
    rcases hx with rfl | hx
    · exact (isDigit_iff _).mp hc
    · exact hv x hx

theorem yields_digitsBF (n : Nat) (p : P F) : Yields Digs (digitsBF n) p := by
  induction n generalizing p with
  | zero => intro a q h; cases h
  | succ n ih =>
    refine yields_skip (fun _ _ => more_same) fun b _ =>
      yields_ite (fun _ => yields_pure ⟨rfl, by simp⟩) fun _ => yields_peek fun c q hq => yields_ite (fun hc => ?_) fun _ => yields_pure ⟨rfl, by simp⟩
    refine yields_incr_some hq fun q => yields_bind (ih q) fun ds q v => ?_
    rintro ⟨rfl, hv⟩ -
    refine yields_pure ⟨by simp, ?_⟩
    intro x hx
    simp only [List.append_nil, List.mem_cons] at hx
    rcases hx with rfl | hx
    · exact (isDigit_iff _).mp hc
    · exact hv x hx

theorem yields_digitsA (p : P F) : Yields Digs digitsA p := fun a q h => yields_digitsAF _ p a q h
theorem yields_digitsB (p : P F) : Yields Digs digitsB p := fun a q h => yields_digitsBF _ p a q h

theorem yields_signPart (p : P F) : Yields (fun a v => a = v ∧ (v = [] ∨ v = [45])) signPart p := by
  refine yields_peek fun c q hq => yields_ite (fun hc => ?_) fun _ => yields_pure ⟨rfl, .inl rfl⟩
  subst hc
  exact yields_incr_some hq fun q => yields_pure ⟨rfl, .inr rfl⟩

theorem yields_fracPart (p : P F) :
    Yields (fun a v => a.1 = v ∧ (v = [] ∧ a.2 = false ∨ a.2 = true ∧ ∃ ds, v = 46 :: ds ∧ ∀ c ∈ ds, Digit c)) fracPart p := by
  refine yields_skip (fun _ _ => more_same) fun b _ => yields_ite (fun _ => yields_pure ⟨rfl, .inl ⟨rfl, rfl⟩⟩) fun _ =>
    yields_peek fun c q hq => yields_ite (fun hc => ?_) fun _ => yields_pure ⟨rfl, .inl ⟨rfl, rfl⟩⟩
  subst hc
  refine yields_incr_some hq fun q => yields_bind (yields_digitsB q) fun ds q v => ?_
  rintro ⟨rfl, hv⟩ -
  exact yields_pure ⟨by simp, .inr ⟨rfl, ds, by simp, hv⟩⟩

theorem yields_expPart (p : P F) : Yields (fun a v => a.1 = v ∧ (v = [] ∧ a.2 = false ∨
    a.2 = true ∧ ∃ e s, v = e :: s ∧ (e = 101 ∨ e = 69) ∧ (s = [] ∨ s = [43] ∨ s = [45]))) expPart p := by
  refine yields_skip (fun _ _ => more_same) fun b _ => yields_ite (fun _ => yields_pure ⟨rfl, .inl ⟨rfl, rfl⟩⟩) fun _ =>
    yields_peek fun e q hq => yields_ite (fun he => ?_) fun _ => yields_pure ⟨rfl, .inl ⟨rfl, rfl⟩⟩
  refine yields_incr_some hq fun q => yields_skip (fun _ _ => more_same) fun b _ => yields_ite (fun _ => ?_) fun _ => ?_
  · exact yields_bind (K := fun _ _ => True) (yields_error _ _) fun _ _ _ _ h => by cases h
  · refine yields_peek fun d q hq => yields_ite (fun hd => ?_) fun _ => yields_pure ⟨rfl, .inr ⟨rfl, e, [], rfl, he, .inl rfl⟩⟩
    refine yields_incr_some hq fun q => yields_pure ⟨rfl, .inr ⟨rfl, e, [d], rfl, he, .inr ?_⟩⟩
    rcases hd with rfl | rfl
    · exact .inl rfl
    · exact .inr rfl

/-! Errors -/

theorem blame_pure (lib : Lib F) (w : List Nat) (a : α) (p : P F) : Blame lib w (pure a : M F α) p := by
  intro _ l c m q h
  cases h

theorem blame_error {lib : Lib F} {w : List Nat} {m : Str} {p : P F} (h : (∀ x ∈ pend p, Scalar x) → Fits lib m w (pend p)) :
    Blame lib w (error m : M F α) p := by
  intro hs l c m' q hq
  cases hq
  exact ⟨rfl, [], rfl, by rw [List.append_nil]; exact h hs⟩

theorem blame_throw (lib : Lib F) (w : List Nat) (p : P F) {e : Ex} (he : ∀ l c m, e ≠ .parse l c m) : Blame lib w (throw e : M F α) p := by
  intro _ l c m q h
  cases h
  exact absurd rfl (he _ _ _)

theorem scalar_tail {p q : P F} {v : List Nat} (h : pend p = v ++ pend q) (hs : ∀ x ∈ pend p, Scalar x) : ∀ x ∈ pend q, Scalar x :=
  fun x hx => hs x (by rw [h]; exact List.mem_append_right _ hx)

theorem blame_bind {lib : Lib F} {w : List Nat} {K : α → List Nat → Prop} {f : M F α} {g : α → M F β} {p : P F} (hb : Blame lib w f p)
    (hf : Yields K f p) (hg : ∀ a q v, K a v → f p = .ok a q → pend p = v ++ pend q → Blame lib (w ++ v) (g a) q) :
    Blame lib w (f >>= g) p := by
  intro hs l c m r hr
  rw [bind_def] at hr
  cases h1 : f p with
  | exc e q => rw [h1] at hr; cases hr; exact hb hs _ _ _ _ h1
  | ok a q =>
    rw [h1] at hr
    obtain ⟨v, e1, k⟩ := hf a q h1
    obtain ⟨e2, v', e3, k2⟩ := hg a q v k h1 e1 (scalar_tail e1 hs) l c m r hr
    exact ⟨e2, v ++ v', by rw [e1, e3, List.append_assoc], by rw [← List.append_assoc]; exact k2⟩

theorem blames_bind {lib : Lib F} {f : M F α} {g : α → M F β} (hG : Good f) (hf : Blames lib f) (hg : ∀ a, Blames lib (g a)) :
    Blames lib (f >>= g) := fun p w => blame_bind (hf p w) (yields_good hG p) fun a q v _ _ _ => hg a q (w ++ v)

theorem blame_ite {lib : Lib F} {w : List Nat} {c : Prop} [Decidable c] {f g : M F α} {p : P F} (hf : c → Blame lib w f p) (hg : ¬ c → Blame lib w g p) :
    Blame lib w (if c then f else g) p := by
  split
  · exact hf ‹_›
  · exact hg ‹_›

theorem blame_peek {lib : Lib F} {w : List Nat} {g : Nat → M F β} {p : P F} (h : ∀ c q, q.cbuf = some c → Blame lib w (g c) q) :
    Blame lib w (peek >>= g) p := by
  intro hs l c m r hr
  rw [bind_def] at hr
  cases h1 : peek p with
  | exc e q =>
    rw [h1] at hr
    cases hr
    obtain ⟨cb, rest, l, k, evs⟩ := p
    cases cb with
    | some d => cases h1
    | none => cases rest <;> cases h1
  | ok c q =>
    rw [h1] at hr
    obtain ⟨e1, e2⟩ := peek_pend h1
    have := h c q e2 (by rw [e1]; exact hs) _ _ _ _ hr
    rw [e1] at this
    exact this

theorem blame_incr {lib : Lib F} {w : List Nat} {g : Nat → M F β} {p : P F}
    (h : ∀ c q, Scalar c → pend p = c :: pend q → Blame lib (w ++ [c]) (g c) q) : Blame lib w (incr >>= g) p := by
  intro hs l c m r hr
  rw [bind_def] at hr
  cases h1 : incr p with
  | exc e q =>
    rw [h1] at hr
    cases hr
    obtain ⟨cb, rest, l, k, evs⟩ := p
    cases cb with
    | some d => rw [incr_some] at h1; cases h1
    | none => cases rest with
      | nil => cases h1
      | cons d tl => rw [incr_cons] at h1; cases h1
  | ok c q =>
    rw [h1] at hr
    have e1 := incr_pend h1
    obtain ⟨e2, v, e3, k⟩ := h c q (hs c (by rw [e1]; simp)) e1 (scalar_tail (v := [c]) e1 hs) _ _ _ _ hr
    exact ⟨e2, c :: v, by rw [e1, e3, List.cons_append], by simpa using k⟩

theorem blame_incr_some {lib : Lib F} {w : List Nat} {g : Nat → M F β} {p : P F} {c : Nat} (hc : p.cbuf = some c)
    (h : ∀ q, Scalar c → Blame lib (w ++ [c]) (g c) q) : Blame lib w (incr >>= g) p := by
  refine blame_incr fun c' q hs e => ?_
  rw [pend_some hc] at e
  have := (List.cons.inj e).1
  subst this
  exact h q hs

theorem blame_skip {lib : Lib F} {w : List Nat} {f : M F α} {g : α → M F β} {p : P F} (hb : ∃ a, f p = .ok a p)
    (hg : ∀ a, f p = .ok a p → Blame lib w (g a) p) : Blame lib w (f >>= g) p := by
  obtain ⟨a, ha⟩ := hb
  intro hs l c m r hr
  rw [bind_def, ha] at hr
  exact hg a ha hs _ _ _ _ hr

theorem er_ok_blames {lib : Lib F} {f : M F α} {J : S → α × S} (h : Er f (fun s => .ok (J s))) : Blames lib f := by
  intro p w _ l c m q hq
  have := (h p).1
  rw [hq] at this
  cases this

theorem blames_ss (lib : Lib F) : Blames lib ss := er_ok_blames er_ss
theorem blames_digitsA (lib : Lib F) : Blames lib digitsA := er_ok_blames er_digitsA
theorem blames_digitsB (lib : Lib F) : Blames lib digitsB := er_ok_blames er_digitsB
theorem blames_emit (lib : Lib F) (e : Event F) : Blames lib (emit e) := by
  intro p w _ l c m q hq
  cases hq
theorem blames_pure (lib : Lib F) (a : α) : Blames lib (pure a : M F α) := fun p w => blame_pure lib w a p

theorem blames_peek (lib : Lib F) : Blames lib (peek : M F Nat) := by
  rintro ⟨cb, rest, l, k, evs⟩ w hs _ _ _ _ h
  cases cb with
  | some d => cases h
  | none => cases rest <;> cases h

theorem blames_incr (lib : Lib F) : Blames lib (incr : M F Nat) := by
  rintro ⟨cb, rest, l, k, evs⟩ w hs _ _ _ _ h
  cases cb with
  | some d => rw [incr_some] at h; cases h
  | none => cases rest with
    | nil => cases h
    | cons d tl => rw [incr_cons] at h; cases h

theorem blames_mtch (lib : Lib F) (x : Nat) (hx : x < 128) : Blames lib (mtch x) := by
  intro p w
  refine blame_peek fun d q hq => ?_
  by_cases hd : d ≠ x
  · simp only [if_pos hd]
    refine blame_bind (K := fun _ _ => True) (blame_error fun _ => ?_) (yields_error _ _) fun _ _ _ _ h => by cases h
    rw [pend_some hq, requiredMsg_eq x d hx]
    exact .required _ _ _ _ hx hd
  · simp only [if_neg hd]
    exact blame_incr fun _ _ _ _ => blame_pure _ _ _ _

theorem blames_smatch (lib : Lib F) (x : Nat) (hx : x < 128) : Blames lib (smatch x) := blames_bind good_ss (blames_ss lib) fun _ => blames_mtch lib x hx
theorem blames_speek (lib : Lib F) : Blames lib (speek : M F Nat) := blames_bind good_ss (blames_ss lib) fun _ => blames_peek lib
theorem blames_comma (lib : Lib F) (b : Bool) : Blames lib (comma b) := fun p w =>
  blame_ite (fun _ => blame_pure _ _ _ _) fun _ => blames_smatch lib 44 (by omega) p w

theorem blames_mtchAll (lib : Lib F) (cs : List Nat) (h : ∀ c ∈ cs, c < 128) : Blames lib (mtchAll cs) := by
  induction cs with
  | nil => exact blames_pure lib _
  | cons c cs ih => exact blames_bind (good_mtch c) (blames_mtch lib c (h c (by simp))) fun _ => ih fun x hx => h x (by simp [hx])

theorem blames_parseHex (lib : Lib F) : Blames lib parseHex := by
  intro p w
  refine blame_incr fun c q hc _ => blame_ite (fun _ => blame_pure _ _ _ _) fun h1 => blame_ite (fun _ => blame_pure _ _ _ _) fun h2 =>
    blame_ite (fun _ => blame_pure _ _ _ _) fun h3 => blame_error fun _ => ?_
  rw [hexMsg_eq]
  refine .hex _ _ _ ?_
  rw [isDigit_iff] at h1
  unfold Digit at h1
  rw [hexVal, if_neg h1, if_neg h2, if_neg h3]

theorem blames_parseHex4 (lib : Lib F) : Blames lib parseHex4 :=
  blames_bind good_parseHex (blames_parseHex lib) fun _ => blames_bind good_parseHex (blames_parseHex lib) fun _ =>
    blames_bind good_parseHex (blames_parseHex lib) fun _ => blames_bind good_parseHex (blames_parseHex lib) fun _ => blames_pure lib _

theorem yields_mtch (x : Nat) (p : P F) : Yields (fun _ v => v = [x]) (mtch x) p := by
  refine yields_peek fun d q hq => ?_
  by_cases hd : d ≠ x
  · simp only [if_pos hd]
    exact yields_bind (K := fun _ _ => True) (yields_error _ _) fun _ _ _ _ h => by cases h
  · simp only [if_neg hd]
    have : d = x := Decidable.not_not.mp hd
    subst this
    exact yields_incr_some hq fun _ => yields_pure rfl

theorem blames_parseU (lib : Lib F) : Blames lib parseU := by
  intro p w
  refine blame_bind (blames_parseHex4 lib p w) (yields_parseHex4 p) fun u q g hg _ _ => ?_
  have hu := hex4_lt hg
  refine blame_ite (fun h1 => blame_error fun _ => ?_) fun h1 => blame_ite (fun h2 => ?_) fun _ => blame_pure _ _ _ _
  · rw [lowMsg_eq u hu]
    exact .low _ _ _ _ _ hg h1 (hexPad_code u)
  · refine blame_bind (blames_mtch lib 92 (by omega) q _) (yields_mtch 92 q) fun _ q v hv _ _ => ?_
    subst hv
    refine blame_bind (blames_mtch lib 117 (by omega) q _) (yields_mtch 117 q) fun _ q v hv _ _ => ?_
    subst hv
    refine blame_bind (blames_parseHex4 lib q _) (yields_parseHex4 q) fun l q g' hg' _ _ => ?_
    have hl := hex4_lt hg'
    refine blame_ite (fun h3 => blame_error fun _ => ?_) fun _ => blame_pure _ _ _ _
    rw [pairMsg_eq l u hl hu]
    have := Fits.pair (lib := lib) w (pend q) g g' u l _ _ hg h2 hg' h3 (hexPad_code u) (hexPad_code l)
    simpa only [List.append_assoc, List.cons_append, List.nil_append] using this

theorem blame_peek_some {lib : Lib F} {w : List Nat} {g : Nat → M F β} {p : P F} {c : Nat} (hc : p.cbuf = some c) (h : Blame lib w (g c) p) :
    Blame lib w (peek >>= g) p := blame_skip ⟨c, by rw [peek, hc]⟩ fun a ha => by
  rw [peek, hc] at ha
  cases ha
  exact h

theorem blame_strStep (lib : Lib F) (w : List Nat) (p : P F) (c : Nat) (hp : p.cbuf = some c) (hc : c ≠ 34) : Blame lib w strStep p := by
  refine blame_peek_some hp (blame_ite (fun h => ?_) fun h => ?_)
  · subst h
    refine blame_incr_some hp fun q _ => blame_incr fun d r hd _ => blame_ite (fun _ => blames_parseU lib _ _) fun h117 => ?_
    cases he : simpleEscape d with
    | some b => exact blame_pure _ _ _ _
    | none =>
      refine blame_error fun _ => ?_
      rw [unescapedMsg_eq d hd]
      have := Fits.escape (lib := lib) w (pend r) d _ ⟨h117, fun b hb => by rw [← simpleEscape_iff, he] at hb; cases hb⟩ (hexPad_code d)
      simpa only [List.append_assoc, List.cons_append, List.nil_append] using this
  · refine blame_incr_some hp fun q hs => blame_ite (fun _ => blame_pure _ _ _ _) fun h2 => blame_error fun _ => ?_
    rw [unescapedMsg_eq c hs]
    unfold Scalar at hs
    exact .control _ _ _ _ (by omega) (hexPad_code c)

theorem blames_strLoop (lib : Lib F) (n : Nat) : Blames lib (strLoop n) := by
  induction n with
  | zero => exact fun p w => blame_throw lib w p (fun _ _ _ => nofun)
  | succ n ih =>
    intro p w
    refine blame_peek fun c q hq => blame_ite (fun _ => blame_pure _ _ _ _) fun hc => ?_
    exact blame_bind (blame_strStep lib w q c hq hc) (yields_good good_strStep q) fun _ r v _ _ _ =>
      blame_bind (ih r _) (yields_good (good_strLoop n) r) fun _ _ _ _ _ _ => blame_pure _ _ _ _

theorem blames_parseStringPrim (lib : Lib F) : Blames lib parseStringPrim :=
  blames_bind (good_mtch _) (blames_mtch lib 34 (by omega)) fun _ => blames_bind good_strAll (fun p w => blames_strLoop lib _ p w) fun _ =>
    blames_bind (good_mtch _) (blames_mtch lib 34 (by omega)) fun _ => blames_pure lib _

theorem blames_signPart (lib : Lib F) : Blames lib signPart := fun _ _ =>
  blame_peek fun _ _ _ => blame_ite (fun _ => blame_incr fun _ _ _ _ => blame_pure _ _ _ _) fun _ => blame_pure _ _ _ _

theorem blames_fracPart (lib : Lib F) : Blames lib fracPart := fun _ _ =>
  blame_skip ⟨_, rfl⟩ fun _ _ => blame_ite (fun _ => blame_pure _ _ _ _) fun _ => blame_peek fun _ _ _ => blame_ite (fun _ =>
    blame_incr fun _ q _ _ => blame_bind (blames_digitsB lib q _) (yields_digitsB q) fun _ _ _ _ _ _ => blame_pure _ _ _ _) fun _ => blame_pure _ _ _ _

theorem blames_expPart (lib : Lib F) : Blames lib expPart := by
  intro p w
  refine blame_skip ⟨_, rfl⟩ fun _ _ => blame_ite (fun _ => blame_pure _ _ _ _) fun _ => blame_peek fun e q hq =>
    blame_ite (fun he => ?_) fun _ => blame_pure _ _ _ _
  intro hs l c m r hr
  rw [bind_def] at hr
  have hi : incr q = .ok e (count e q) := by
    obtain ⟨cb, rest, l, k, evs⟩ := q
    dsimp only at hq
    subst hq
    rw [incr_some]
  rw [hi] at hr
  dsimp only at hr
  have key : Blame lib (w ++ [e]) (more >>= fun b => if (!b) = true then (error expMsg : M F Unit) >>= fun _ => peek >>= fun d => if d = 43 ∨ d = 45 then
      incr >>= fun _ => pure ([e, d], true) else pure ([e], true) else peek >>= fun d => if d = 43 ∨ d = 45 then
      incr >>= fun _ => pure ([e, d], true) else pure ([e], true)) (count e q) := by
    refine blame_skip ⟨_, rfl⟩ fun b hb => blame_ite (fun hb' => ?_) fun _ => blame_peek fun _ _ _ => blame_ite (fun _ =>
      blame_incr fun _ _ _ _ => blame_pure _ _ _ _) fun _ => blame_pure _ _ _ _
    refine blame_bind (K := fun _ _ => True) (blame_error fun _ => ?_) (yields_error _ _) fun _ _ _ _ h => by cases h
    have : pend (count e q) = [] := by
      cases hb
      simp only [Bool.not_eq_true', decide_eq_false_iff_not, Decidable.not_not, ne_eq] at hb'
      simp [pend, hb', count_cbuf]
    rw [this]
    exact .exponent _ _ he
  have e1 : pend q = [e] ++ pend (count e q) := incr_pend hi
  obtain ⟨k1, v, k2, k3⟩ := key (scalar_tail e1 hs) l c m r hr
  exact ⟨k1, e :: v, by rw [e1, k2]; rfl, by simpa using k3⟩

theorem blames_parseNumber (lib : Lib F) : Blames lib (parseNumber lib) := by
  intro p w
  refine blame_bind (blames_signPart lib p w) (yields_signPart p) fun sg q v1 => ?_
  rintro ⟨rfl, hsg⟩ - -
  refine blame_bind (blames_digitsA lib q _) (yields_digitsA q) fun ip q v2 => ?_
  rintro ⟨rfl, hip⟩ - -
  refine blame_bind (blames_fracPart lib q _) (yields_fracPart q) fun fr q v3 => ?_
  obtain ⟨fr, f1⟩ := fr
  dsimp only
  rintro ⟨rfl, hfr⟩ - -
  refine blame_bind (blames_expPart lib q _) (yields_expPart q) fun ex q v4 => ?_
  obtain ⟨ex, f2⟩ := ex
  dsimp only
  rintro ⟨rfl, hex⟩ - -
  refine blame_bind (blames_digitsB lib q _) (yields_digitsB q) fun ds q v5 => ?_
  rintro ⟨rfl, hds⟩ - -
  have happ : ∀ {a b : List Nat}, (∀ c ∈ a, Digit c) → (∀ c ∈ b, Digit c) → ∀ c ∈ a ++ b, Digit c := by
    intro a b ha hb c hc
    rcases List.mem_append.mp hc with h | h
    · exact ha c h
    · exact hb c h
  unfold convNum
  cases hf : (f1 || f2) with
  | false =>
    simp only [Bool.or_eq_false_iff] at hf
    obtain ⟨rfl, rfl⟩ := hf
    have e3 : fr = [] := by
      rcases hfr with h | h
      · exact h.1
      · exact absurd h.1 (by decide)
    have e4 : ex = [] := by
      rcases hex with h | h
      · exact h.1
      · exact absurd h.1 (by decide)
    subst e3
    subst e4
    simp only [Bool.false_eq_true, if_false]
    cases hn : strtoll (sg ++ ip ++ [] ++ [] ++ ds) with
    | some n => exact blames_emit lib _ _ _
    | none =>
      refine blame_error fun _ => ?_
      have := Fits.integer (lib := lib) w (pend q) sg (ip ++ ds) hsg (happ hip hds) (by
        intro hi
        have := (strtoll_eq sg (ip ++ ds) hsg (happ hip hds) _).mpr ⟨hi, rfl⟩
        simp only [List.append_nil, List.append_assoc] at hn
        rw [hn] at this
        cases this)
      simpa only [intMsg, List.append_assoc, List.append_nil] using this
  | true =>
    simp only [if_true]
    cases hn : lib.strtod (sg ++ ip ++ fr ++ ex ++ ds) with
    | some n => exact blames_emit lib _ _ _
    | none =>
      refine blame_error fun _ => ?_
      have hm : rangeMsg = outOfRange := by funext r; cases r <;> rfl
      rw [hm]
      rcases hex with ⟨rfl, rfl⟩ | ⟨_, e, s, rfl, he, hs⟩
      · rcases hfr with ⟨rfl, rfl⟩ | ⟨_, d, rfl, hd⟩
        · cases hf
        · have := Fits.double (lib := lib) w (pend q) sg ip (46 :: (d ++ ds)) [] hsg hip (.inr ⟨_, rfl, happ hd hds⟩) (.inl rfl) (.inl (by simp))
            (by simpa using hn)
          simpa using this
      · have := Fits.double (lib := lib) w (pend q) sg ip fr (e :: (s ++ ds)) hsg hip (by
            rcases hfr with h | h
            · exact .inl h.1
            · exact .inr h.2) (.inr ⟨e, s, ds, rfl, he, hs, hds⟩) (.inr (by simp)) (by simpa using hn)
        simpa using this

theorem blames_all (lib : Lib F) (n : Nat) : (∀ d, Blames lib (parseImpl lib d n)) ∧ (∀ d b, Blames lib (arrLoop lib d n b)) ∧
    (∀ d b, Blames lib (objLoop lib d n b)) := by
  induction n with
  | zero =>
    refine ⟨fun d p w => ?_, fun d b p w => ?_, fun d b p w => ?_⟩
    · cases d <;> rw [parseImpl] <;> exact blame_throw lib w p (fun _ _ _ => nofun)
    · rw [arrLoop]; exact blame_throw lib w p (fun _ _ _ => nofun)
    · rw [objLoop]; exact blame_throw lib w p (fun _ _ _ => nofun)
  | succ n ih =>
    obtain ⟨ihV, ihA, ihO⟩ := ih
    obtain ⟨gV, gA, gO⟩ := good_all lib n
    refine ⟨fun d p w => ?_, fun d b => ?_, fun d b => ?_⟩
    · cases d with
      | zero => rw [parseImpl]; exact blame_throw lib w p (fun _ _ _ => nofun)
      | succ d =>
        rw [parseImpl]
        refine blame_bind (blames_ss lib p w) (yields_good good_ss p) fun _ q v _ _ _ => blame_peek fun c q hq => ?_
        refine blame_ite (fun _ => ?_) fun h1 => blame_ite (fun _ => ?_) fun h2 => blame_ite (fun _ => blames_parseNumber lib _ _) fun h3 =>
          blame_ite (fun _ => ?_) fun h4 => blame_ite (fun _ => ?_) fun h5 => blame_ite (fun _ => ?_) fun h6 => blame_ite (fun _ => ?_) fun h7 =>
          blame_error fun hs => ?_
        · exact blames_bind (good_emit _) (blames_emit lib _) (fun _ => blames_bind (good_smatch _) (blames_smatch lib 123 (by omega)) fun _ =>
            blames_bind (gO d true) (ihO d true) fun _ => blames_bind (good_smatch _) (blames_smatch lib 125 (by omega)) fun _ => blames_emit lib _) _ _
        · exact blames_bind (good_emit _) (blames_emit lib _) (fun _ => blames_bind (good_smatch _) (blames_smatch lib 91 (by omega)) fun _ =>
            blames_bind (gA d true) (ihA d true) fun _ => blames_bind (good_smatch _) (blames_smatch lib 93 (by omega)) fun _ => blames_emit lib _) _ _
        · exact blames_bind good_parseStringPrim (blames_parseStringPrim lib) (fun _ => blames_emit lib _) _ _
        · exact blames_bind (good_mtchAll _) (blames_mtchAll lib _ (by decide)) (fun _ => blames_emit lib _) _ _
        · exact blames_bind (good_mtchAll _) (blames_mtchAll lib _ (by decide)) (fun _ => blames_emit lib _) _ _
        · exact blames_bind (good_mtchAll _) (blames_mtchAll lib _ (by decide)) (fun _ => blames_emit lib _) _ _
        · rw [pend_some hq] at hs ⊢
          rw [invalidMsg_eq c (hs c (by simp))]
          refine .invalid _ _ _ _ ⟨fun h => h3 (.inl ((isDigit_iff c).mpr h)), ?_⟩ (hexPad_code c)
          simp only [List.mem_cons, List.not_mem_nil, or_false]
          omega
    · rw [arrLoop]
      exact blames_bind good_speek (blames_speek lib) fun c p w => blame_ite (fun _ => blame_pure _ _ _ _) fun _ =>
        blames_bind (good_comma b) (blames_comma lib b) (fun _ => blames_bind (gV d) (ihV d) fun _ => ihA d false) p w
    · rw [objLoop]
      exact blames_bind good_speek (blames_speek lib) fun c p w => blame_ite (fun _ => blame_pure _ _ _ _) fun _ =>
        blames_bind (good_comma b) (blames_comma lib b) (fun _ => blames_bind good_ss (blames_ss lib) fun _ =>
          blames_bind good_parseStringPrim (blames_parseStringPrim lib) fun _ => blames_bind (good_emit _) (blames_emit lib _) fun _ =>
          blames_bind (good_smatch _) (blames_smatch lib 58 (by omega)) fun _ => blames_bind (gV d) (ihV d) fun _ => ihO d false) p w

theorem blames_parseStream (lib : Lib F) (room : Nat) : Blames lib (parseStream lib room) := by
  have hA : Blames lib (parseAll lib room) := fun p w => (blames_all lib _).1 room p w
  exact blames_bind good_ss (blames_ss lib) fun _ p w => blame_skip ⟨_, rfl⟩ fun a _ => blame_skip ⟨_, rfl⟩ fun b _ => blame_ite (fun _ =>
    blame_bind (K := fun _ _ => True) (blame_throw lib w p (fun _ _ _ => nofun)) (fun _ _ h => by cases h) fun _ _ _ _ h => by cases h) fun _ => hA p w

/-- The counters are the line and the column. -/
theorem advs_line (u : List Nat) : advs (1, 1) u = (line u, column u) := by
  suffices ∀ v : List Nat, advs (1, 1) v.reverse = (line v.reverse, column v.reverse) by simpa using this u.reverse
  intro v
  induction v with
  | nil => rfl
  | cons c v ih =>
    rw [List.reverse_cons, advs_append, ih]
    by_cases h : c = 10
    · subst h
      simp [advs, adv, line, column]
    · simp [advs, adv, line, column, h]

end Verif.JsonPos.Lemmas
