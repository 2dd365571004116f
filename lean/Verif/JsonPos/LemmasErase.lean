import Verif.JsonPos.Lemmas
/-! Without lines, columns and messages the parser is that of `Verif.Json`. -/

namespace Verif.JsonPos.Lemmas
open Verif.JsonPos Verif.JsonPos.Spec
open Verif.Json (Str Event S Err isSpace isDigit simpleEscape strtoll)
open Verif.Ustring (ucharToChars)

variable {F α β : Type}

/-- The input of the other model. -/
def toS (p : P F) : S := ⟨p.cbuf, p.rest⟩

/-- The exception of the other model. -/
def cls : Ex → Err
  | .eod => .eod
  | .parse _ _ _ => .parse
  | .deep => .stuck
  | .stuck => .stuck

/-- The outcome in the other model. -/
def er : R F α → Except Err (α × S)
  | .ok a q => .ok (a, toS q)
  | .exc e _ => .error (cls e)

/-- `f` is the function `J` of the other model, and makes no callbacks. -/
def Er (f : M F α) (J : S → Except Err (α × S)) : Prop := ∀ p, er (f p) = J (toS p) ∧ (st (f p)).evs = p.evs

theorem er_pure (a : α) : Er (pure a : M F α) (fun s => .ok (a, s)) := fun _ => ⟨rfl, rfl⟩

theorem er_bind {f : M F α} {g : α → M F β} {J : S → Except Err (α × S)} {K : α → S → Except Err (β × S)} (hf : Er f J) (hg : ∀ a, Er (g a) (K a)) :
    Er (f >>= g) (fun s => J s >>= fun r => K r.1 r.2) := by
  intro p
  obtain ⟨h1, h2⟩ := hf p
  dsimp only
  rw [bind_def, ← h1]
  cases hr : f p with
  | exc e q => rw [hr] at h2; exact ⟨rfl, h2⟩
  | ok a q =>
    rw [hr] at h2
    exact ⟨(hg a q).1, (hg a q).2.trans h2⟩

theorem er_congr {f : M F α} {J K : S → Except Err (α × S)} (hf : Er f J) (h : ∀ s, J s = K s) : Er f K := fun p => (h (toS p)) ▸ hf p

theorem er_peek : Er (peek : M F Nat) Json.peek := by
  rintro ⟨cb, rest, l, k, evs⟩
  cases cb with
  | some d => exact ⟨rfl, rfl⟩
  | none => cases rest <;> exact ⟨rfl, rfl⟩

theorem er_incr : Er (incr : M F Nat) Json.incr := by
  rintro ⟨cb, rest, l, k, evs⟩
  cases cb with
  | some d =>
    rw [incr_some]
    exact ⟨by simp only [er, toS, count_cbuf, count_rest]; rfl, by simp only [st, count_evs]⟩
  | none =>
    cases rest with
    | nil => exact ⟨rfl, rfl⟩
    | cons d tl =>
      rw [incr_cons]
      exact ⟨by simp only [er, toS, count_cbuf, count_rest]; rfl, by simp only [st, count_evs]⟩

/-- `J` with a result of no interest. -/
def noRes (x : Except Err S) : Except Err (Unit × S) := x >>= fun s => .ok ((), s)

theorem er_error (m : Str) : Er (error m : M F α) (fun _ => .error .parse) := fun _ => ⟨rfl, rfl⟩

theorem er_mtch (c : Nat) : Er (mtch c : M F Unit) (fun s => noRes (Json.mtch c s)) := by
  refine er_congr (er_bind er_peek (fun d => ?_) (K := fun d s => if d ≠ c then .error .parse else (Json.incr s >>= fun r => .ok ((), r.2)))) ?_
  · by_cases h : d ≠ c
    · simp only [if_pos h]
      exact fun p => ⟨rfl, rfl⟩
    · simp only [if_neg h]
      exact er_bind er_incr (fun a => er_pure ())
  · intro s
    unfold Json.mtch noRes
    cases Json.peek s with
    | error e => rfl
    | ok r =>
      obtain ⟨d, s'⟩ := r
      by_cases h : d = c
      · simp only [Json.Lemmas.ok_bind, h, ne_eq, not_true_eq_false, if_false]
        cases Json.incr s' <;> rfl
      · simp only [Json.Lemmas.ok_bind, h, ne_eq, not_false_eq_true, if_true]
        rfl

theorem ssF_none (n : Nat) (rest : List Nat) (l k : Nat) (evs : List (Event F)) (h : rest.length < n) :
    er (ssF n ⟨none, rest, l, k, evs⟩) = .ok ((), Json.ssU rest) ∧ (st (ssF n ⟨none, rest, l, k, evs⟩)).evs = evs := by
  induction n generalizing rest l k with
  | zero => omega
  | succ n ih =>
    cases rest with
    | nil => exact ⟨rfl, rfl⟩
    | cons c tl =>
      have e : ssF (n + 1) ⟨none, c :: tl, l, k, evs⟩ =
          if isSpace c then ssF n (count c ⟨some c, tl, l, k, evs⟩) else .ok () ⟨some c, tl, l, k, evs⟩ := by
        by_cases hc : isSpace c
        · simp only [hc, if_true]
          simp [ssF, bind_def, more, peek, incr_some, hc]
        · simp [ssF, bind_def, more, peek, hc]; rfl
      rw [e]
      by_cases hc : isSpace c
      · simp only [hc, if_true, Json.ssU]
        have e2 : count c ⟨some c, tl, l, k, evs⟩ = ⟨none, tl, (count c ⟨some c, tl, l, k, evs⟩).line, (count c ⟨some c, tl, l, k, evs⟩).col, evs⟩ := by
          unfold count; split <;> rfl
        rw [e2]
        exact ih _ _ _ (by simp at h; omega)
      · simp only [hc, Json.ssU]
        exact ⟨rfl, rfl⟩

theorem er_ss : Er (ss : M F Unit) (fun s => .ok ((), Json.ss s)) := by
  rintro ⟨cb, rest, l, k, evs⟩
  cases cb with
  | none => exact ssF_none _ _ _ _ _ (by simp)
  | some c =>
    cases rest with
    | nil => exact ⟨rfl, rfl⟩
    | cons d tl =>
      have e : ss ⟨some c, d :: tl, l, k, evs⟩ =
          if isSpace c then ssF (tl.length + 2) (count c ⟨some c, d :: tl, l, k, evs⟩) else .ok () ⟨some c, d :: tl, l, k, evs⟩ := by
        unfold ss
        show ssF ((tl.length + 2) + 1) _ = _
        generalize tl.length + 2 = n
        by_cases hc : isSpace c
        · simp only [hc, if_true]
          simp [ssF, bind_def, more, peek, incr_some, hc]
        · simp [ssF, bind_def, more, peek, hc]; rfl
      rw [e]
      have hs : Json.ss (toS ⟨some c, d :: tl, l, k, evs⟩) = if isSpace c then Json.ssU (d :: tl) else ⟨some c, d :: tl⟩ := by
        simp [Json.ss, toS]
      dsimp only
      rw [hs]
      by_cases hc : isSpace c
      · simp only [hc, if_true]
        have e2 : count c ⟨some c, d :: tl, l, k, evs⟩ =
            ⟨none, d :: tl, (count c ⟨some c, d :: tl, l, k, evs⟩).line, (count c ⟨some c, d :: tl, l, k, evs⟩).col, evs⟩ := by
          unfold count; split <;> rfl
        rw [e2]
        exact ssF_none _ _ _ _ _ (by simp)
      · simp only [hc]
        exact ⟨rfl, rfl⟩

theorem er_speek : Er (speek : M F Nat) Json.speek := er_congr (er_bind er_ss (fun _ => er_peek)) (fun _ => rfl)

theorem er_smatch (c : Nat) : Er (smatch c : M F Unit) (fun s => noRes (Json.smatch c s)) :=
  er_congr (er_bind er_ss (fun _ => er_mtch c)) (fun _ => rfl)

theorem er_comma (b : Bool) : Er (comma b : M F Unit) (fun s => noRes (Json.comma b s)) := by
  cases b
  · exact er_smatch 44
  · exact er_pure ()

theorem er_mtchAll (cs : List Nat) : Er (mtchAll cs : M F Unit) (fun s => noRes (Json.mtchAll cs s)) := by
  induction cs with
  | nil => exact er_pure ()
  | cons c cs ih =>
    refine er_congr (er_bind (er_mtch c) (fun _ => ih)) ?_
    intro s
    simp only [Json.mtchAll, noRes]
    cases Json.mtch c s <;> rfl

/-! Strings: the other model has them on plain lists. -/

/-- The outcome of a function on the characters after an empty `cbuf`. -/
def lift (x : Except Err (α × List Nat)) : Except Err (α × S) := x >>= fun r => .ok (r.1, ⟨none, r.2⟩)

/-- `f`, begun with an empty `cbuf`, is `J`, and ends with an empty `cbuf`. -/
def ErU (f : M F α) (J : List Nat → Except Err (α × List Nat)) : Prop :=
  ∀ p, p.cbuf = none → er (f p) = lift (J p.rest) ∧ (st (f p)).evs = p.evs

theorem erU_pure (a : α) : ErU (pure a : M F α) (fun us => .ok (a, us)) := by
  rintro ⟨cb, rest, l, k, evs⟩ rfl
  exact ⟨rfl, rfl⟩

theorem erU_error (m : Str) : ErU (error m : M F α) (fun _ => .error .parse) := fun _ _ => ⟨rfl, rfl⟩

theorem erU_bind {f : M F α} {g : α → M F β} {J : List Nat → Except Err (α × List Nat)} {K : α → List Nat → Except Err (β × List Nat)} (hf : ErU f J) (hg : ∀ a, ErU (g a) (K a)) :
    ErU (f >>= g) (fun us => J us >>= fun r => K r.1 r.2) := by
  intro p hp
  obtain ⟨h1, h2⟩ := hf p hp
  dsimp only
  rw [bind_def]
  cases hr : f p with
  | exc e q =>
    rw [hr] at h1 h2
    cases hj : J p.rest with
    | error e' =>
      rw [hj] at h1
      simp only [er, lift, Json.Lemmas.err_bind, Except.error.injEq] at h1
      subst h1
      exact ⟨rfl, h2⟩
    | ok r => rw [hj] at h1; cases h1
  | ok a q =>
    rw [hr] at h1 h2
    cases hj : J p.rest with
    | error e' => rw [hj] at h1; cases h1
    | ok r =>
      rw [hj] at h1
      obtain ⟨a', us⟩ := r
      simp only [er, lift, Json.Lemmas.ok_bind, Except.ok.injEq, Prod.mk.injEq, toS, S.mk.injEq] at h1
      obtain ⟨rfl, hc, rfl⟩ := h1
      exact ⟨(hg a q hc).1, (hg a q hc).2.trans h2⟩

theorem erU_congr {f : M F α} {J K : List Nat → Except Err (α × List Nat)} (hf : ErU f J) (h : ∀ s, J s = K s) : ErU f K := fun p hp => (h p.rest) ▸ hf p hp

/-- `incr` on a list. -/
def incrU : List Nat → Except Err (Nat × List Nat)
  | [] => .error .eod
  | c :: us => .ok (c, us)

theorem erU_incr : ErU (incr : M F Nat) incrU := by
  rintro ⟨cb, rest, l, k, evs⟩ rfl
  obtain ⟨h1, h2⟩ := er_incr ⟨none, rest, l, k, evs⟩
  refine ⟨h1.trans ?_, h2⟩
  cases rest <;> rfl

theorem erU_mtch (c : Nat) : ErU (mtch c : M F Unit) (fun us => Json.mtchU c us >>= fun us => .ok ((), us)) := by
  rintro ⟨cb, rest, l, k, evs⟩ rfl
  obtain ⟨h1, h2⟩ := er_mtch c ⟨none, rest, l, k, evs⟩
  refine ⟨h1.trans ?_, h2⟩
  cases rest with
  | nil => rfl
  | cons d tl =>
    by_cases h : d = c
    · subst h
      simp [Json.mtch, Json.mtchU, noRes, toS, Json.peek, lift, Json.Lemmas.ok_bind, Json.incr]
    · simp [Json.mtch, Json.mtchU, noRes, toS, Json.peek, lift, Json.Lemmas.ok_bind, Json.Lemmas.err_bind, h]

theorem erU_parseHex : ErU (parseHex : M F Nat) Json.parseHex := by
  refine erU_congr (erU_bind erU_incr (K := fun c us =>
    if isDigit c then .ok (c - 48, us) else if 65 ≤ c ∧ c ≤ 70 then .ok (c - 65 + 10, us)
    else if 97 ≤ c ∧ c ≤ 102 then .ok (c - 97 + 10, us) else .error .parse) (fun c => ?_)) ?_
  · by_cases h1 : isDigit c
    · simp only [h1, if_true]; exact erU_pure _
    · by_cases h2 : 65 ≤ c ∧ c ≤ 70
      · simp only [h1, h2]; exact erU_pure _
      · by_cases h3 : 97 ≤ c ∧ c ≤ 102
        · simp only [h1, if_neg h2, h3]; exact erU_pure _
        · simp only [h1, if_neg h2, if_neg h3]; exact erU_error _
  · intro us
    cases us <;> rfl

theorem erU_parseHex4 : ErU (parseHex4 : M F Nat) Json.parseHex4 :=
  erU_bind erU_parseHex fun _ => erU_bind erU_parseHex fun _ => erU_bind erU_parseHex fun _ => erU_bind erU_parseHex fun _ => erU_pure _

theorem erU_parseU : ErU (parseU : M F Str) Json.parseU := by
  refine erU_congr (erU_bind erU_parseHex4 (K := fun u us => if 0xDC00 ≤ u ∧ u ≤ 0xDFFF then .error .parse
      else if 0xD800 ≤ u ∧ u ≤ 0xDBFF then (do
        let us ← Json.mtchU 92 us
        let us ← Json.mtchU 117 us
        let (l, us) ← Json.parseHex4 us
        if l < 0xDC00 ∨ 0xDFFF < l then .error .parse
        else .ok (ucharToChars (0x10000 + (u - 0xD800) * 0x400 + (l - 0xDC00)), us))
      else .ok (ucharToChars u, us)) (fun u => ?_)) (fun us => rfl)
  by_cases h1 : 0xDC00 ≤ u ∧ u ≤ 0xDFFF
  · simp only [h1]; exact erU_error _
  · by_cases h2 : 0xD800 ≤ u ∧ u ≤ 0xDBFF
    · simp only [if_neg h1, if_pos h2]
      refine erU_congr (erU_bind (erU_mtch 92) fun _ => erU_bind (erU_mtch 117) fun _ => erU_bind erU_parseHex4
          (K := fun l us => if l < 0xDC00 ∨ 0xDFFF < l then .error .parse
            else .ok (ucharToChars (0x10000 + (u - 0xD800) * 0x400 + (l - 0xDC00)), us)) fun l => ?_)
        (K := fun us => (do
          let us ← Json.mtchU 92 us
          let us ← Json.mtchU 117 us
          let (l, us) ← Json.parseHex4 us
          if l < 0xDC00 ∨ 0xDFFF < l then .error .parse
          else .ok (ucharToChars (0x10000 + (u - 0xD800) * 0x400 + (l - 0xDC00)), us)))
        (J := fun us => ((Json.mtchU 92 us >>= fun us => .ok ((), us)) >>= fun r => (Json.mtchU 117 r.2 >>= fun us => .ok ((), us)) >>= fun r =>
          Json.parseHex4 r.2 >>= fun r => if r.1 < 0xDC00 ∨ 0xDFFF < r.1 then .error .parse
            else .ok (ucharToChars (0x10000 + (u - 0xD800) * 0x400 + (r.1 - 0xDC00)), r.2))) ?_
      · by_cases h3 : l < 0xDC00 ∨ 0xDFFF < l
        · simp only [if_pos h3]; exact erU_error _
        · simp only [if_neg h3]; exact erU_pure _
      · intro us
        cases Json.mtchU 92 us with
        | error e => rfl
        | ok us =>
          simp only [Json.Lemmas.ok_bind]
          cases Json.mtchU 117 us with
          | error e => rfl
          | ok us => rfl
    · simp only [if_neg h1, if_neg h2]; exact erU_pure _

theorem er_strStep (c : Nat) (us : List Nat) (l k : Nat) (evs : List (Event F)) :
    er (strStep ⟨some c, us, l, k, evs⟩) = lift (Json.strStep (c :: us)) ∧ (st (strStep ⟨some c, us, l, k, evs⟩)).evs = evs := by
  have e1 : strStep ⟨some c, us, l, k, evs⟩ = (do
      let c ← incr
      if c = 92 then
        let d ← incr
        if d = 117 then parseU
        else match simpleEscape d with
          | some b => return [b]
          | none => error (unescapedMsg d)
      else if (0x20 ≤ c ∧ c ≤ 0x21) ∨ (0x23 ≤ c ∧ c ≤ 0x5B) ∨ (0x5D ≤ c ∧ c ≤ 0x10FFFF) then return ucharToChars c
      else error (unescapedMsg c)) (⟨none, c :: us, l, k, evs⟩ : P F) := by
    by_cases hc : c = 92
    · subst hc
      rfl
    · simp only [strStep, bind_def, peek, incr_cons, incr_some, if_neg hc]
  have e2 : Json.strStep (c :: us) = (incrU (c :: us) >>= fun r => if r.1 = 92 then incrU r.2 >>= fun r =>
      if r.1 = 117 then Json.parseU r.2 else match simpleEscape r.1 with
        | some b => .ok ([b], r.2)
        | none => .error .parse
      else if (0x20 ≤ r.1 ∧ r.1 ≤ 0x21) ∨ (0x23 ≤ r.1 ∧ r.1 ≤ 0x5B) ∨ (0x5D ≤ r.1 ∧ r.1 ≤ 0x10FFFF) then .ok (ucharToChars r.1, r.2)
      else .error .parse) := by
    unfold Json.strStep
    by_cases hc : c = 92
    · subst hc
      cases us with
      | nil => rfl
      | cons e us => rfl
    · simp only [incrU, Json.Lemmas.ok_bind, if_neg hc]
  rw [e1, e2]
  refine erU_bind (K := fun c us => if c = 92 then incrU us >>= fun r =>
      if r.1 = 117 then Json.parseU r.2 else match simpleEscape r.1 with
        | some b => .ok ([b], r.2)
        | none => .error .parse
      else if (0x20 ≤ c ∧ c ≤ 0x21) ∨ (0x23 ≤ c ∧ c ≤ 0x5B) ∨ (0x5D ≤ c ∧ c ≤ 0x10FFFF) then .ok (ucharToChars c, us)
      else .error .parse) erU_incr (fun c => ?_) ⟨none, c :: us, l, k, evs⟩ rfl
  by_cases hc : c = 92
  · simp only [hc, if_true]
    refine erU_bind (K := fun d us => if d = 117 then Json.parseU us else match simpleEscape d with
        | some b => .ok ([b], us)
        | none => .error .parse) erU_incr (fun d => ?_)
    by_cases hd : d = 117
    · simp only [hd, if_true]; exact erU_parseU
    · simp only [if_neg hd]
      cases simpleEscape d with
      | none => exact erU_error _
      | some b => exact erU_pure _
  · simp only [if_neg hc]
    by_cases h : (0x20 ≤ c ∧ c ≤ 0x21) ∨ (0x23 ≤ c ∧ c ≤ 0x5B) ∨ (0x5D ≤ c ∧ c ≤ 0x10FFFF)
    · simp only [if_pos h]; exact erU_pure _
    · simp only [if_neg h]; exact erU_error _

/-- The loop with the closing quote. -/
def strBody (n : Nat) : M F Str := strLoop n >>= fun out => mtch 34 >>= fun _ => pure out

theorem erU_strBody (n : Nat) : ErU (strBody n : M F Str) (Json.strLoop n) := by
  induction n with
  | zero => exact fun p _ => ⟨rfl, rfl⟩
  | succ n ih =>
    rintro ⟨cb, rest, l, k, evs⟩ rfl
    cases rest with
    | nil => exact ⟨rfl, rfl⟩
    | cons c us =>
      by_cases hc : c = 34
      · subst hc
        have e : strBody (n + 1) (⟨none, 34 :: us, l, k, evs⟩ : P F) = .ok [] ⟨none, us, l, k + 1, evs⟩ := rfl
        rw [e]
        exact ⟨rfl, rfl⟩
      · have e : strBody (n + 1) (⟨none, c :: us, l, k, evs⟩ : P F) =
            (strStep >>= fun bs => strBody n >>= fun out => pure (bs ++ out)) ⟨some c, us, l, k, evs⟩ := by
          simp only [strBody, strLoop, bind_def, peek, if_neg hc]
          cases strStep (⟨some c, us, l, k, evs⟩ : P F) with
          | exc e q => rfl
          | ok bs q =>
            dsimp only
            cases strLoop n q with
            | exc e q => rfl
            | ok out q =>
              show (mtch 34 >>= fun _ => pure (bs ++ out)) q = _
              simp only [bind_def]
              cases mtch 34 q <;> rfl
        rw [e, bind_def]
        obtain ⟨h1, h2⟩ := er_strStep c us l k evs
        have e3 : Json.strLoop (n + 1) (c :: us) = (Json.strStep (c :: us) >>= fun r => Json.strLoop n r.2 >>= fun r' => .ok (r.1 ++ r'.1, r'.2)) := by
          rw [Json.strLoop, if_neg hc]
        rw [e3]
        cases hr : strStep (⟨some c, us, l, k, evs⟩ : P F) with
        | exc e q =>
          rw [hr] at h1 h2
          cases hj : Json.strStep (c :: us) with
          | error e' => rw [hj] at h1; exact ⟨h1, h2⟩
          | ok r => rw [hj] at h1; cases h1
        | ok bs q =>
          rw [hr] at h1 h2
          cases hj : Json.strStep (c :: us) with
          | error e' => rw [hj] at h1; cases h1
          | ok r =>
            rw [hj] at h1
            obtain ⟨a', us'⟩ := r
            simp only [er, lift, Json.Lemmas.ok_bind, Except.ok.injEq, Prod.mk.injEq, toS, S.mk.injEq] at h1
            obtain ⟨rfl, hcq, rfl⟩ := h1
            obtain ⟨k1, k2⟩ := erU_bind (f := strBody n) (g := fun out => pure (bs ++ out)) ih (K := fun out us => .ok (bs ++ out, us)) (fun out => erU_pure _) q hcq
            exact ⟨k1, k2.trans h2⟩

theorem er_parseStringPrim : Er (parseStringPrim : M F Str) Json.parseStringPrim := by
  intro p
  obtain ⟨h1, h2⟩ := er_mtch 34 p
  dsimp only at h1
  have e : parseStringPrim p = (mtch 34 >>= fun _ => strAll >>= fun out => mtch 34 >>= fun _ => pure out) p := rfl
  rw [e, bind_def]
  unfold Json.parseStringPrim
  cases hr : mtch 34 p with
  | exc e q =>
    rw [hr] at h1 h2
    cases hj : Json.mtch 34 (toS p) with
    | error e' =>
      rw [hj] at h1
      simp only [er, noRes, Json.Lemmas.err_bind, Except.error.injEq] at h1
      subst h1
      exact ⟨rfl, h2⟩
    | ok r => rw [hj] at h1; cases h1
  | ok a q =>
    rw [hr] at h1 h2
    cases hj : Json.mtch 34 (toS p) with
    | error e' => rw [hj] at h1; cases h1
    | ok s =>
      rw [hj] at h1
      simp only [er, noRes, Json.Lemmas.ok_bind, Except.ok.injEq, Prod.mk.injEq, true_and] at h1
      subst h1
      have hn : q.cbuf = none := by
        obtain ⟨tl, -, h⟩ := Json.Lemmas.mtch_ok hj
        exact congrArg S.cbuf h
      obtain ⟨k1, k2⟩ := erU_strBody (q.rest.length + 1) q hn
      have e4 : (strAll >>= fun out => mtch 34 >>= fun _ => pure out) q = strBody (q.rest.length + 1) q := by
        unfold strBody
        rw [bind_def, bind_def, strAll, hn]
        simp
      dsimp only
      rw [e4]
      exact ⟨k1, k2.trans h2⟩

/-! Numbers. -/

theorem count_some (c : Nat) (tl : List Nat) (l k : Nat) (evs : List (Event F)) : count c ⟨some c, tl, l, k, evs⟩ =
    ⟨none, tl, (count c ⟨some c, tl, l, k, evs⟩ : P F).line, (count c ⟨some c, tl, l, k, evs⟩ : P F).col, evs⟩ := by
  unfold count
  split <;> rfl

theorem digitsAF_some (n c : Nat) (tl : List Nat) (l k : Nat) (evs : List (Event F)) : digitsAF (n + 1) ⟨some c, tl, l, k, evs⟩ =
    if isDigit c then (digitsAF n >>= fun ds => pure (c :: ds)) (count c ⟨some c, tl, l, k, evs⟩) else .ok [] ⟨some c, tl, l, k, evs⟩ := by
  by_cases hc : isDigit c
  · simp [digitsAF, bind_def, loadedC, more, peek, incr_some, hc]
  · simp [digitsAF, bind_def, loadedC, more, peek, hc]; rfl

theorem digitsAF_cons (n c : Nat) (tl : List Nat) (l k : Nat) (evs : List (Event F)) :
    digitsAF (n + 1) ⟨none, c :: tl, l, k, evs⟩ = digitsAF (n + 1) ⟨some c, tl, l, k, evs⟩ := by
  by_cases hc : isDigit c
  · simp [digitsAF, bind_def, loadedC, more, peek, hc]
  · simp [digitsAF, bind_def, loadedC, more, peek, hc]

theorem digitsBF_some (n c d : Nat) (tl : List Nat) (l k : Nat) (evs : List (Event F)) : digitsBF (n + 1) ⟨some c, d :: tl, l, k, evs⟩ =
    if isDigit c then (digitsBF n >>= fun ds => pure (c :: ds)) (count c ⟨some c, d :: tl, l, k, evs⟩) else .ok [] ⟨some c, d :: tl, l, k, evs⟩ := by
  by_cases hc : isDigit c
  · simp [digitsBF, bind_def, more, peek, incr_some, hc]
  · simp [digitsBF, bind_def, more, peek, hc]; rfl

theorem digitsBF_cons (n c : Nat) (tl : List Nat) (l k : Nat) (evs : List (Event F)) : digitsBF (n + 1) ⟨none, c :: tl, l, k, evs⟩ =
    if isDigit c then (digitsBF n >>= fun ds => pure (c :: ds)) (count c ⟨some c, tl, l, k, evs⟩) else .ok [] ⟨some c, tl, l, k, evs⟩ := by
  by_cases hc : isDigit c
  · simp [digitsBF, bind_def, more, peek, incr_some, hc]
  · simp [digitsBF, bind_def, more, peek, hc]; rfl

theorem er_cons {f : M F (List Nat)} {p : P F} {r : List Nat × S} {evs : List (Event F)} (c : Nat)
    (h : er (f p) = .ok r ∧ (st (f p)).evs = evs) :
    er ((f >>= fun ds => pure (c :: ds)) p) = .ok (c :: r.1, r.2) ∧ (st ((f >>= fun ds => pure (c :: ds)) p)).evs = evs := by
  rw [bind_def]
  cases hf : f p with
  | exc e q => rw [hf] at h; cases h.1
  | ok a q =>
    rw [hf] at h
    obtain ⟨h1, h2⟩ := h
    simp only [er, Except.ok.injEq] at h1
    subst h1
    exact ⟨rfl, h2⟩

theorem digitsAF_none (n : Nat) (rest : List Nat) (l k : Nat) (evs : List (Event F)) (h : rest.length < n) :
    er (digitsAF n ⟨none, rest, l, k, evs⟩) = .ok (Json.digitsU rest) ∧ (st (digitsAF n ⟨none, rest, l, k, evs⟩)).evs = evs := by
  induction n generalizing rest l k with
  | zero => omega
  | succ n ih =>
    cases rest with
    | nil => exact ⟨rfl, rfl⟩
    | cons c tl =>
      rw [digitsAF_cons, digitsAF_some]
      by_cases hc : isDigit c
      · simp only [hc, if_true, Json.digitsU]
        rw [count_some]
        exact er_cons c (ih _ _ _ (by simp at h; omega))
      · simp only [hc, Json.digitsU]
        exact ⟨rfl, rfl⟩

theorem digitsBF_none (n : Nat) (rest : List Nat) (l k : Nat) (evs : List (Event F)) (h : rest.length < n) :
    er (digitsBF n ⟨none, rest, l, k, evs⟩) = .ok (Json.digitsU rest) ∧ (st (digitsBF n ⟨none, rest, l, k, evs⟩)).evs = evs := by
  induction n generalizing rest l k with
  | zero => omega
  | succ n ih =>
    cases rest with
    | nil => exact ⟨rfl, rfl⟩
    | cons c tl =>
      rw [digitsBF_cons]
      by_cases hc : isDigit c
      · simp only [hc, if_true, Json.digitsU]
        rw [count_some]
        exact er_cons c (ih _ _ _ (by simp at h; omega))
      · simp only [hc, Json.digitsU]
        exact ⟨rfl, rfl⟩

theorem er_digitsA : Er (digitsA : M F (List Nat)) (fun s => .ok (Json.digitsA s)) := by
  rintro ⟨cb, rest, l, k, evs⟩
  cases cb with
  | none => exact digitsAF_none _ _ _ _ _ (by simp)
  | some c =>
    show er (digitsAF ((rest.length + 1) + 1) _) = _ ∧ (st (digitsAF ((rest.length + 1) + 1) _)).evs = _
    rw [digitsAF_some]
    by_cases hc : isDigit c
    · simp only [hc, if_true, Json.digitsA, toS]
      rw [count_some]
      exact er_cons c (digitsAF_none _ _ _ _ _ (by simp))
    · simp only [hc, Json.digitsA, toS]
      exact ⟨rfl, rfl⟩

theorem er_digitsB : Er (digitsB : M F (List Nat)) (fun s => .ok (Json.digitsB s)) := by
  rintro ⟨cb, rest, l, k, evs⟩
  cases cb with
  | none => exact digitsBF_none _ _ _ _ _ (by simp)
  | some c =>
    cases rest with
    | nil => exact ⟨rfl, rfl⟩
    | cons d tl =>
      show er (digitsBF ((tl.length + 2) + 1) _) = _ ∧ (st (digitsBF ((tl.length + 2) + 1) _)).evs = _
      rw [digitsBF_some]
      by_cases hc : isDigit c
      · simp only [hc, if_true, Json.digitsB, toS]
        rw [count_some, if_neg (by simp)]
        exact er_cons c (digitsBF_none _ _ _ _ _ (by simp))
      · simp only [hc, Json.digitsB, toS]
        exact ⟨rfl, rfl⟩

theorem er_signPart : Er (signPart : M F (List Nat)) Json.signPart := by
  refine er_congr (er_bind er_peek (K := fun c s => if c = 45 then (Json.incr s >>= fun r => .ok ([45], r.2)) else .ok ([], s)) (fun c => ?_))
    (fun s => rfl)
  by_cases h : c = 45
  · simp only [h, if_true]
    exact er_bind er_incr fun _ => er_pure _
  · simp only [if_neg h]
    exact er_pure _

/-- `it != end` in the other model. -/
def moreS (s : S) : Except Err (Bool × S) := .ok (decide (s.rest ≠ []), s)

theorem er_more : Er (more : M F Bool) moreS := fun _ => ⟨rfl, rfl⟩

theorem er_fracPart : Er (fracPart : M F (List Nat × Bool)) Json.fracPart := by
  refine er_congr (er_bind er_more (K := fun b s => if b = true then (Json.peek s >>= fun r => if r.1 = 46 then
      (Json.incr r.2 >>= fun r => .ok ((46 :: (Json.digitsB r.2).1, true), (Json.digitsB r.2).2)) else .ok (([], false), r.2))
      else .ok (([], false), s)) (fun b => ?_)) (fun s => ?_)
  · cases b
    · exact er_pure _
    · refine er_bind er_peek (K := fun c s => if c = 46 then (Json.incr s >>= fun r => .ok ((46 :: (Json.digitsB r.2).1, true),
          (Json.digitsB r.2).2)) else .ok (([], false), s)) (fun c => ?_)
      by_cases h : c = 46
      · simp only [h, if_true]
        exact er_bind (K := fun _ s => .ok ((46 :: (Json.digitsB s).1, true), (Json.digitsB s).2)) er_incr fun _ =>
          er_congr (er_bind er_digitsB (K := fun ds s => .ok ((46 :: ds, true), s)) fun _ => er_pure _) (fun s => rfl)
      · simp only [if_neg h]
        exact er_pure _
  · unfold Json.fracPart Json.look moreS
    by_cases h : s.rest = []
    · simp [h, Json.Lemmas.ok_bind]
    · simp only [h, if_false, Json.Lemmas.ok_bind, ne_eq, not_false_eq_true, decide_true, if_true]
      cases Json.peek s with
      | error e => rfl
      | ok r =>
        obtain ⟨c, s'⟩ := r
        simp only [Json.Lemmas.ok_bind, beq_iff_eq]

theorem er_expPart : Er (expPart : M F (List Nat × Bool)) Json.expPart := by
  refine er_congr (er_bind er_more (K := fun b s => if b = true then (Json.peek s >>= fun r => if r.1 = 101 ∨ r.1 = 69 then
      (Json.incr r.2 >>= fun t => moreS t.2 >>= fun b => if b.1 = true then (Json.peek b.2 >>= fun d => if d.1 = 43 ∨ d.1 = 45 then
        (Json.incr d.2 >>= fun x => .ok (([r.1, d.1], true), x.2)) else .ok (([r.1], true), d.2)) else .error .parse)
      else .ok (([], false), r.2)) else .ok (([], false), s)) (fun b => ?_)) (fun s => ?_)
  · cases b
    · exact er_pure _
    · refine er_bind er_peek (K := fun c s => if c = 101 ∨ c = 69 then
        (Json.incr s >>= fun t => moreS t.2 >>= fun b => if b.1 = true then (Json.peek b.2 >>= fun d => if d.1 = 43 ∨ d.1 = 45 then
          (Json.incr d.2 >>= fun x => .ok (([c, d.1], true), x.2)) else .ok (([c], true), d.2)) else .error .parse)
        else .ok (([], false), s)) (fun c => ?_)
      by_cases h : c = 101 ∨ c = 69
      · simp only [h, if_true]
        refine er_bind er_incr fun _ => er_bind (K := fun b s => if b = true then (Json.peek s >>= fun d => if d.1 = 43 ∨ d.1 = 45 then
          (Json.incr d.2 >>= fun x => .ok (([c, d.1], true), x.2)) else .ok (([c], true), d.2)) else .error .parse) er_more fun b => ?_
        cases b
        · exact fun p => ⟨rfl, rfl⟩
        · refine er_bind er_peek (K := fun d s => if d = 43 ∨ d = 45 then (Json.incr s >>= fun x => .ok (([c, d], true), x.2))
            else .ok (([c], true), s)) (fun d => ?_)
          by_cases hd : d = 43 ∨ d = 45
          · simp only [hd, if_true]
            exact er_bind er_incr fun _ => er_pure _
          · simp only [if_neg hd]
            exact er_pure _
      · simp only [if_neg h]
        exact er_pure _
  · unfold Json.expPart Json.look moreS
    by_cases h : s.rest = []
    · simp [h, Json.Lemmas.ok_bind]
    · simp only [h, if_false, Json.Lemmas.ok_bind, ne_eq, not_false_eq_true, decide_true, if_true]
      cases hp : Json.peek s with
      | error e => rfl
      | ok r =>
        obtain ⟨c, s'⟩ := r
        simp only [Json.Lemmas.ok_bind, Bool.or_eq_true, beq_iff_eq]
        obtain ⟨tl, -, rfl⟩ := Json.Lemmas.peek_ok hp
        have hi : Json.incr ⟨some c, tl⟩ = .ok (c, ⟨none, tl⟩) := rfl
        rw [hi]
        by_cases hc : c = 101 ∨ c = 69
        · simp only [if_pos hc, Json.Lemmas.ok_bind]
          by_cases ht : tl = []
          · simp [ht]
          · simp only [ht, not_false_eq_true, decide_true, if_true, if_false]
        · simp only [if_neg hc]

end Verif.JsonPos.Lemmas
