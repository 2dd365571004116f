import Verif.JsonPos.LemmasErase
/-! The same for the functions that make callbacks. -/

namespace Verif.JsonPos.Lemmas
open Verif.JsonPos Verif.JsonPos.Spec
open Verif.Json (Str Event S Err isSpace isDigit simpleEscape strtoll)

variable {F α β : Type}

/-- `f` is the function `J` of the other model: it makes the callbacks that `J` lists. -/
def ErE (f : M F Unit) (J : S → Except Err (List (Event F) × S)) : Prop := ∀ p, match f p with
  | .ok _ q => ∃ es, J (toS p) = .ok (es, toS q) ∧ q.evs = p.evs ++ es
  | .exc e q => (e = .deep ∨ J (toS p) = .error (cls e)) ∧ ∃ es, q.evs = p.evs ++ es

theorem erE_congr {f : M F Unit} {J K : S → Except Err (List (Event F) × S)} (hf : ErE f J) (h : ∀ s, J s = K s) : ErE f K :=
  fun p => (h (toS p)) ▸ hf p

theorem erE_emit (e : Event F) : ErE (emit e) (fun s => .ok ([e], s)) := fun _ => ⟨_, rfl, rfl⟩

theorem erE_error (m : Str) : ErE (error m : M F Unit) (fun _ => .error .parse) := fun _ => ⟨.inr rfl, [], by simp⟩

theorem erE_skip : ErE (pure () : M F Unit) (fun s => .ok ([], s)) := fun _ => ⟨_, rfl, by simp⟩

theorem er_bindE {f : M F α} {g : α → M F Unit} {J : S → Except Err (α × S)} {K : α → S → Except Err (List (Event F) × S)}
    (hf : Er f J) (hg : ∀ a, ErE (g a) (K a)) : ErE (f >>= g) (fun s => J s >>= fun r => K r.1 r.2) := by
  intro p
  obtain ⟨h1, h2⟩ := hf p
  dsimp only
  rw [bind_def]
  cases hr : f p with
  | exc e q =>
    rw [hr] at h1 h2
    exact ⟨.inr (by rw [← h1]; rfl), [], by rw [List.append_nil]; exact h2⟩
  | ok a q =>
    rw [hr] at h1 h2
    have := hg a q
    dsimp only [st] at h2
    rw [h2] at this
    dsimp only
    rw [← h1]
    exact this

theorem erE_bind {f g : M F Unit} {J K : S → Except Err (List (Event F) × S)} (hf : ErE f J) (hg : ErE g K) :
    ErE (f >>= fun _ => g) (fun s => J s >>= fun r => K r.2 >>= fun t => .ok (r.1 ++ t.1, t.2)) := by
  intro p
  have h := hf p
  rw [bind_def]
  cases hr : f p with
  | exc e q =>
    rw [hr] at h
    obtain ⟨h1, h2⟩ := h
    refine ⟨?_, h2⟩
    rcases h1 with h1 | h1
    · exact .inl h1
    · exact .inr (by dsimp only; rw [h1]; rfl)
  | ok a q =>
    rw [hr] at h
    obtain ⟨es, h1, h2⟩ := h
    have h' := hg q
    dsimp only
    cases hs : g q with
    | exc e r =>
      rw [hs] at h'
      obtain ⟨k1, es', k2⟩ := h'
      refine ⟨?_, es ++ es', by rw [k2, h2, List.append_assoc]⟩
      rcases k1 with k1 | k1
      · exact .inl k1
      · exact .inr (by rw [h1, Json.Lemmas.ok_bind, k1]; rfl)
    | ok b r =>
      rw [hs] at h'
      obtain ⟨es', k1, k2⟩ := h'
      refine ⟨es ++ es', ?_, by rw [k2, h2, List.append_assoc]⟩
      rw [h1, Json.Lemmas.ok_bind, k1]
      rfl

theorem erE_convNum (lib : Lib F) (src : List Nat) (b : Bool) :
    ErE (convNum lib src b) (fun s => Json.convNum lib.strtod src b >>= fun e => .ok ([e], s)) := by
  unfold convNum Json.convNum
  cases b
  · cases strtoll src with
    | none => exact erE_error _
    | some n => exact erE_emit _
  · cases lib.strtod src with
    | none => exact erE_error _
    | some n => exact erE_emit _

theorem erE_parseNumber (lib : Lib F) : ErE (parseNumber lib) (fun s => Json.parseNumber lib.strtod s >>= fun r => .ok ([r.1], r.2)) := by
  refine erE_congr (er_bindE er_signPart fun sg => er_bindE er_digitsA fun ip => er_bindE er_fracPart fun x => er_bindE er_expPart fun y =>
    er_bindE er_digitsB fun ds => erE_convNum lib _ _) (fun s => ?_)
  unfold Json.parseNumber
  cases Json.signPart s with
  | error e => rfl
  | ok r =>
    simp only [Json.Lemmas.ok_bind]
    cases Json.fracPart (Json.digitsA r.2).2 with
    | error e => rfl
    | ok r1 =>
      simp only [Json.Lemmas.ok_bind]
      cases Json.expPart r1.2 with
      | error e => rfl
      | ok r2 =>
        simp only [Json.Lemmas.ok_bind]
        cases Json.convNum lib.strtod (r.1 ++ (Json.digitsA r.2).1 ++ r1.1.1 ++ r2.1.1 ++ (Json.digitsB r2.2).1) (r1.1.2 || r2.1.2) <;> rfl

theorem noRes_bind (x : Except Err S) (g : Unit × S → Except Err β) : (noRes x >>= g) = (x >>= fun s => g ((), s)) := by
  cases x <;> rfl

/-- `parse_impl` of the other model after its first two statements. -/
def bodyJ (strtod : List Nat → Option F) (n c : Nat) (s : S) : Except Err (List (Event F) × S) :=
  if c = 123 then do
    let s ← Json.smatch 123 s
    let (evs, s) ← Json.objLoop strtod n true s
    let s ← Json.smatch 125 s
    .ok (.startObj :: evs ++ [.endObj], s)
  else if c = 91 then do
    let s ← Json.smatch 91 s
    let (evs, s) ← Json.arrLoop strtod n true s
    let s ← Json.smatch 93 s
    .ok (.startArr :: evs ++ [.endArr], s)
  else if isDigit c ∨ c = 45 then do
    let (ev, s) ← Json.parseNumber strtod s
    .ok ([ev], s)
  else if c = 34 then do
    let (t, s) ← Json.parseStringPrim s
    .ok ([.str t], s)
  else if c = 102 then do
    let s ← Json.mtchAll [102, 97, 108, 115, 101] s
    .ok ([.bool false], s)
  else if c = 110 then do
    let s ← Json.mtchAll [110, 117, 108, 108] s
    .ok ([.null], s)
  else if c = 116 then do
    let s ← Json.mtchAll [116, 114, 117, 101] s
    .ok ([.bool true], s)
  else .error .parse

theorem erE_unit {f : M F Unit} {J : S → Except Err S} (hf : Er f (fun s => noRes (J s))) : ErE f (fun s => J s >>= fun s => .ok ([], s)) := by
  intro p
  obtain ⟨h1, h2⟩ := hf p
  dsimp only at h1 ⊢
  cases hr : f p with
  | exc e q =>
    rw [hr] at h1 h2
    cases hj : J (toS p) with
    | ok r => rw [hj] at h1; cases h1
    | error e' =>
      rw [hj] at h1
      simp only [er, noRes, Json.Lemmas.err_bind, Except.error.injEq] at h1
      subst h1
      exact ⟨.inr rfl, [], by rw [List.append_nil]; exact h2⟩
  | ok a q =>
    rw [hr] at h1 h2
    cases hj : J (toS p) with
    | error r => rw [hj] at h1; cases h1
    | ok r =>
      rw [hj] at h1
      simp only [er, noRes, Json.Lemmas.ok_bind, Except.ok.injEq, Prod.mk.injEq, true_and] at h1
      subst h1
      exact ⟨[], rfl, by rw [List.append_nil]; exact h2⟩

theorem erE_wrap {f : M F Unit} {J : S → Except Err (List (Event F) × S)} (a b : Event F) (x y : Nat) (hf : ErE f J) :
    ErE (emit a >>= fun _ => smatch x >>= fun _ => f >>= fun _ => smatch y >>= fun _ => emit b) (fun s => do
      let s ← Json.smatch x s
      let (evs, s) ← J s
      let s ← Json.smatch y s
      .ok (a :: evs ++ [b], s)) := by
  refine erE_congr (erE_bind (erE_emit a) (erE_bind (erE_unit (er_smatch x)) (erE_bind hf (erE_bind (erE_unit (er_smatch y)) (erE_emit b))))) (fun s => ?_)
  simp only [Json.Lemmas.ok_bind]
  cases Json.smatch x s with
  | error e => rfl
  | ok s =>
    simp only [Json.Lemmas.ok_bind]
    cases J s with
    | error e => rfl
    | ok r =>
      simp only [Json.Lemmas.ok_bind]
      cases Json.smatch y r.2 <;> rfl

theorem erE_word (cs : List Nat) (e : Event F) :
    ErE (mtchAll cs >>= fun _ => emit e) (fun s => Json.mtchAll cs s >>= fun s => .ok ([e], s)) := by
  refine erE_congr (erE_bind (erE_unit (er_mtchAll cs)) (erE_emit e)) (fun s => ?_)
  cases Json.mtchAll cs s <;> rfl

theorem erE_all (lib : Lib F) (n : Nat) :
    (∀ d, ErE (parseImpl lib d n) (Json.parseImpl lib.strtod n)) ∧
    (∀ d b, ErE (arrLoop lib d n b) (Json.arrLoop lib.strtod n b)) ∧
    (∀ d b, ErE (objLoop lib d n b) (Json.objLoop lib.strtod n b)) := by
  induction n with
  | zero =>
    refine ⟨fun d => ?_, fun d b p => ?_, fun d b p => ?_⟩
    · cases d with
      | zero => exact fun p => by rw [parseImpl]; exact ⟨.inl rfl, [], by simp⟩
      | succ d => exact fun p => by rw [parseImpl, Json.parseImpl]; exact ⟨.inr rfl, [], by simp⟩
    · rw [arrLoop, Json.arrLoop]; exact ⟨.inr rfl, [], by simp⟩
    · rw [objLoop, Json.objLoop]; exact ⟨.inr rfl, [], by simp⟩
  | succ n ih =>
    obtain ⟨ihV, ihA, ihO⟩ := ih
    refine ⟨fun d => ?_, fun d b => ?_, fun d b => ?_⟩
    · cases d with
      | zero => exact fun p => by rw [parseImpl]; exact ⟨.inl rfl, [], by simp⟩
      | succ d =>
        rw [parseImpl]
        refine erE_congr (er_bindE er_ss fun _ => er_bindE er_peek (K := bodyJ lib.strtod n) fun c => ?_)
          (fun s => (Json.Lemmas.parseImpl_succ ..).symm)
        unfold bodyJ
        by_cases h1 : c = 123
        · simp only [if_pos h1]
          exact erE_wrap .startObj .endObj 123 125 (ihO d true)
        simp only [if_neg h1]
        by_cases h2 : c = 91
        · simp only [if_pos h2]
          exact erE_wrap .startArr .endArr 91 93 (ihA d true)
        simp only [if_neg h2]
        by_cases h3 : isDigit c ∨ c = 45
        · simp only [if_pos h3]
          exact erE_parseNumber lib
        simp only [if_neg h3]
        by_cases h4 : c = 34
        · simp only [if_pos h4]
          exact er_bindE er_parseStringPrim fun t => erE_emit _
        simp only [if_neg h4]
        by_cases h5 : c = 102
        · simp only [if_pos h5]
          exact erE_word _ _
        simp only [if_neg h5]
        by_cases h6 : c = 110
        · simp only [if_pos h6]
          exact erE_word _ _
        simp only [if_neg h6]
        by_cases h7 : c = 116
        · simp only [if_pos h7]
          exact erE_word _ _
        simp only [if_neg h7]
        exact erE_error _
    · rw [arrLoop]
      refine erE_congr (er_bindE er_speek (K := fun c s => if c = 93 then .ok ([], s) else (Json.comma b s >>= fun s =>
        Json.parseImpl lib.strtod n s >>= fun r => Json.arrLoop lib.strtod n false r.2 >>= fun t => .ok (r.1 ++ t.1, t.2))) fun c => ?_)
        (fun s => (Json.Lemmas.arrLoop_succ ..).symm)
      by_cases hc : c = 93
      · simp only [hc, if_true]; exact erE_skip
      · simp only [if_neg hc]
        exact erE_congr (er_bindE (er_comma b) fun _ => erE_bind (ihV d) (ihA d false)) (fun s => noRes_bind ..)
    · rw [objLoop]
      refine erE_congr (er_bindE er_speek (K := fun c s => if c = 125 then .ok ([], s) else (do
        let s ← Json.comma b s
        let (k, s) ← Json.parseStringPrim (Json.ss s)
        let s ← Json.smatch 58 s
        let (evs, s) ← Json.parseImpl lib.strtod n s
        let (more, s) ← Json.objLoop lib.strtod n false s
        .ok (.key k :: evs ++ more, s))) fun c => ?_)
        (fun s => (Json.Lemmas.objLoop_succ ..).symm)
      by_cases hc : c = 125
      · simp only [hc, if_true]; exact erE_skip
      · simp only [if_neg hc]
        refine erE_congr (er_bindE (er_comma b) fun _ => er_bindE er_ss fun _ => er_bindE er_parseStringPrim fun k =>
          erE_bind (erE_emit (.key k)) (erE_bind (erE_unit (er_smatch 58)) (erE_bind (ihV d) (ihO d false)))) (fun s => ?_)
        rw [noRes_bind]
        cases Json.comma b s with
        | error e => rfl
        | ok s =>
          simp only [Json.Lemmas.ok_bind]
          cases Json.parseStringPrim (Json.ss s) with
          | error e => rfl
          | ok r =>
            simp only [Json.Lemmas.ok_bind]
            cases Json.smatch 58 r.2 with
            | error e => rfl
            | ok s =>
              simp only [Json.Lemmas.ok_bind]
              cases Json.parseImpl lib.strtod n s with
              | error e => rfl
              | ok t =>
                simp only [Json.Lemmas.ok_bind]
                cases Json.objLoop lib.strtod n false t.2 <;> rfl

theorem erE_parseAll (lib : Lib F) (room : Nat) :
    ErE (parseAll lib room) (fun s => Json.parseImpl lib.strtod (2 * (s.cbuf.toList.length + s.rest.length) + 1) s) := by
  intro p
  exact (erE_all lib _).1 room p

theorem er_loadedC : Er (loadedC : M F Bool) (fun s => .ok (s.cbuf.isSome, s)) := fun _ => ⟨rfl, rfl⟩

/-- The parser of this model is that of the other one. -/
theorem erE_parseStream (lib : Lib F) (room : Nat) : ErE (parseStream lib room) (Json.parseStream lib.strtod) := by
  refine erE_congr (er_bindE er_ss fun _ => er_bindE er_loadedC fun a => er_bindE er_more
    (K := fun b s => if a || b then Json.parseImpl lib.strtod (2 * (s.cbuf.toList.length + s.rest.length) + 1) s else .error .eod) fun b => ?_)
    (fun s => ?_)
  · by_cases h : (a || b) = true
    · simp only [h, if_true]
      exact erE_parseAll lib room
    · simp only [h]
      exact fun p => ⟨.inr rfl, [], by rw [List.append_nil]⟩
  · simp only [Json.parseStream, Json.Lemmas.ok_bind, moreS]
    cases hc : (Json.ss s).cbuf with
    | some c => simp
    | none => by_cases hr : (Json.ss s).rest = [] <;> simp [hr]

end Verif.JsonPos.Lemmas
