import Verif.JsonPos.LemmasGood
/-! The budgets of the model are large enough, so its functions do not depend on them. -/

namespace Verif.JsonPos.Lemmas
open Verif.JsonPos Verif.JsonPos.Spec
open Verif.Json (Str Event S isSpace isDigit simpleEscape strtoll)

variable {F α β : Type}

/-- Does not use up its budget here. -/
def NS (f : M F α) (p : P F) : Prop := ∀ q, f p ≠ .exc .stuck q

theorem ns_bind {f : M F α} {g : α → M F β} {p : P F} (hf : NS f p) (hg : ∀ a q, f p = .ok a q → NS (g a) q) : NS (f >>= g) p := by
  intro q
  rw [bind_def]
  cases h : f p with
  | exc e r => rintro ⟨⟩; exact hf q h
  | ok a r => exact hg a r h q

theorem ns_ite {c : Prop} [Decidable c] {f g : M F α} {p : P F} (hf : c → NS f p) (hg : ¬ c → NS g p) : NS (if c then f else g) p := by
  split
  · exact hf ‹_›
  · exact hg ‹_›

theorem calm_ss : Calm (ss : M F Unit) := fun p q => ne_stuck_of_er (er_ss p).1 q
theorem calm_digitsA : Calm (digitsA : M F (List Nat)) := fun p q => ne_stuck_of_er (er_digitsA p).1 q
theorem calm_digitsB : Calm (digitsB : M F (List Nat)) := fun p q => ne_stuck_of_er (er_digitsB p).1 q
theorem calm_more : Calm (more : M F Bool) := fun _ _ => nofun
theorem calm_emit (e : Event F) : Calm (emit e) := fun _ _ => nofun
theorem calm_strAll : Calm (strAll : M F Str) := fun p q => strLoop_calm _ p q (by simp [size, pend])
theorem calm_parseStringPrim : Calm (parseStringPrim : M F Str) :=
  calm_bind (calm_mtch _) fun _ => calm_bind calm_strAll fun _ => calm_bind (calm_mtch _) fun _ => calm_pure _
theorem calm_smatch (c : Nat) : Calm (smatch c : M F Unit) := calm_bind calm_ss fun _ => calm_mtch c
theorem calm_speek : Calm (speek : M F Nat) := calm_bind calm_ss fun _ => calm_peek
theorem calm_comma (b : Bool) : Calm (comma b : M F Unit) := calm_ite (calm_pure _) (calm_smatch _)
theorem calm_mtchAll (cs : List Nat) : Calm (mtchAll cs : M F Unit) := by
  induction cs with
  | nil => exact calm_pure _
  | cons c cs ih => exact calm_bind (calm_mtch c) fun _ => ih

theorem calm_signPart : Calm (signPart : M F (List Nat)) :=
  calm_bind calm_peek fun _ => calm_ite (calm_bind calm_incr fun _ => calm_pure _) (calm_pure _)

theorem calm_fracPart : Calm (fracPart : M F (List Nat × Bool)) :=
  calm_bind calm_more fun _ => calm_ite (calm_pure _) (calm_bind calm_peek fun _ => calm_ite (calm_bind calm_incr fun _ =>
    calm_bind calm_digitsB fun _ => calm_pure _) (calm_pure _))

theorem calm_expPart : Calm (expPart : M F (List Nat × Bool)) :=
  calm_bind calm_more fun _ => calm_ite (calm_pure _) (calm_bind calm_peek fun _ => calm_ite (calm_bind calm_incr fun _ =>
    calm_bind calm_more fun _ => calm_ite (calm_bind (calm_error _) fun _ => calm_bind calm_peek fun _ =>
      calm_ite (calm_bind calm_incr fun _ => calm_pure _) (calm_pure _)) (calm_bind calm_peek fun _ =>
      calm_ite (calm_bind calm_incr fun _ => calm_pure _) (calm_pure _))) (calm_pure _))

theorem calm_convNum (lib : Lib F) (src : List Nat) (b : Bool) : Calm (convNum lib src b) := by
  unfold convNum
  cases b
  · cases strtoll src with
    | none => exact calm_error _
    | some n => exact calm_emit _
  · cases lib.strtod src with
    | none => exact calm_error _
    | some n => exact calm_emit _

theorem calm_parseNumber (lib : Lib F) : Calm (parseNumber lib) :=
  calm_bind calm_signPart fun _ => calm_bind calm_digitsA fun _ => calm_bind calm_fracPart fun _ => calm_bind calm_expPart fun _ =>
    calm_bind calm_digitsB fun _ => calm_convNum lib _ _

theorem peek_after {p q : P F} {c : Nat} (h : peek p = .ok c q) : peek q = .ok c q ∧ q.cbuf = some c := by
  obtain ⟨cb, rest, l, k, evs⟩ := p
  cases cb with
  | some d => cases h; exact ⟨rfl, rfl⟩
  | none => cases rest with
    | nil => cases h
    | cons d tl => cases h; exact ⟨rfl, rfl⟩

theorem mtch_size {p q : P F} {c : Nat} {a : Unit} (h : mtch c p = .ok a q) : size q < size p := by
  obtain ⟨d, r, h1, h2⟩ := bind_ok h
  have e1 := good_size good_peek h1
  by_cases hc : d ≠ c
  · simp only [if_pos hc] at h2
    obtain ⟨_, r2, h3, h4⟩ := bind_ok h2
    cases h3
  · simp only [if_neg hc] at h2
    obtain ⟨_, r2, h3, h4⟩ := bind_ok h2
    have e2 := incr_size h3
    cases h4
    omega

theorem smatch_size {p q : P F} {c : Nat} {a : Unit} (h : smatch c p = .ok a q) : size q < size p := by
  obtain ⟨_, r, h1, h2⟩ := bind_ok h
  have e1 := good_size good_ss h1
  have e2 := mtch_size h2
  omega

theorem str_size {p q : P F} {s : Str} (h : parseStringPrim p = .ok s q) : size q < size p := by
  obtain ⟨_, r, h1, h2⟩ := bind_ok h
  have e1 := mtch_size h1
  have e2 := good_size (good_bind good_strAll fun _ => good_bind (good_mtch _) fun _ => good_pure _) h2
  omega

theorem num_size {lib : Lib F} {p q : P F} {c : Nat} {a : Unit} (hp : p.cbuf = some c) (hc : isDigit c ∨ c = 45)
    (h : parseNumber lib p = .ok a q) : size q < size p := by
  obtain ⟨sg, r, h1, h2⟩ := bind_ok h
  obtain ⟨c', r', h3, h4⟩ := bind_ok h1
  have e3 : peek p = .ok c p := by rw [peek, hp]
  rw [e3] at h3
  cases h3
  by_cases h45 : c = 45
  · simp only [if_pos h45] at h4
    obtain ⟨_, r2, h5, h6⟩ := bind_ok h4
    have e2 := incr_size h5
    cases h6
    have e4 := good_size (good_bind good_digitsA fun _ => good_bind good_fracPart fun _ => good_bind good_expPart fun _ =>
      good_bind good_digitsB fun _ => good_convNum lib _ _) h2
    omega
  · simp only [if_neg h45] at h4
    cases h4
    obtain ⟨ds, r2, h5, h6⟩ := bind_ok h2
    have e4 := good_size (good_bind good_fracPart fun _ => good_bind good_expPart fun _ => good_bind good_digitsB fun _ => good_convNum lib _ _) h6
    have hd : isDigit c = true := by
      rcases hc with hc | hc
      · exact hc
      · exact absurd hc h45
    rw [digitsA, digitsAF] at h5
    obtain ⟨b1, r3, h7, h8⟩ := bind_ok h5
    cases h7
    obtain ⟨b2, r4, h9, h10⟩ := bind_ok h8
    cases h9
    simp only [hp, Option.isSome_some, Bool.true_or, Bool.not_true, Bool.false_eq_true, if_false] at h10
    obtain ⟨d, r5, h11, h12⟩ := bind_ok h10
    rw [e3] at h11
    cases h11
    simp only [hd, if_true] at h12
    obtain ⟨_, r6, h13, h14⟩ := bind_ok h12
    have e5 := incr_size h13
    have e6 := good_size (good_bind (good_digitsAF _) fun _ => good_pure _) h14
    omega

theorem mtchAll_size {p q : P F} {c : Nat} {cs : List Nat} {a : Unit} (h : mtchAll (c :: cs) p = .ok a q) : size q < size p := by
  obtain ⟨_, r, h1, h2⟩ := bind_ok h
  have e1 := mtch_size h1
  have e2 := good_size (good_mtchAll cs) h2
  omega

theorem impl_size {lib : Lib F} {d n : Nat} {p q : P F} {a : Unit} (h : parseImpl lib d n p = .ok a q) : size q < size p := by
  cases d with
  | zero => rw [parseImpl] at h; cases h
  | succ d => cases n with
    | zero => rw [parseImpl] at h; cases h
    | succ n =>
      rw [parseImpl] at h
      obtain ⟨_, r1, h1, h2⟩ := bind_ok h
      have e1 := good_size good_ss h1
      obtain ⟨c, r, h3, h4⟩ := bind_ok h2
      have e2 := good_size good_peek h3
      have hr := (peek_after h3).2
      have key : ∀ {α : Type} (g : α → M F Unit) (f : M F α), (∀ x, Good (g x)) → (∀ x r', f r = .ok x r' → size r' < size r) →
          (f >>= g) r = .ok a q → size q < size r := by
        intro α g f hg hf hh
        obtain ⟨x, r', k1, k2⟩ := bind_ok hh
        have := hf _ _ k1
        have := good_size (hg x) k2
        omega
      have fin : size q < size r := by
        split at h4
        · obtain ⟨x, r', k1, k2⟩ := bind_ok h4
          have e3 := good_size (good_emit _) k1
          obtain ⟨x, r'', k3, k4⟩ := bind_ok k2
          have e4 := smatch_size k3
          have e5 := good_size (good_bind ((good_all lib n).2.2 d true) fun _ => good_bind (good_smatch _) fun _ => good_emit _) k4
          omega
        · split at h4
          · obtain ⟨x, r', k1, k2⟩ := bind_ok h4
            have e3 := good_size (good_emit _) k1
            obtain ⟨x, r'', k3, k4⟩ := bind_ok k2
            have e4 := smatch_size k3
            have e5 := good_size (good_bind ((good_all lib n).2.1 d true) fun _ => good_bind (good_smatch _) fun _ => good_emit _) k4
            omega
          · split at h4
            · exact num_size hr ‹_› h4
            · split at h4
              · exact key _ _ (fun _ => good_emit _) (fun _ _ => str_size) h4
              · split at h4
                · exact key _ _ (fun _ => good_emit _) (fun _ _ => mtchAll_size) h4
                · split at h4
                  · exact key _ _ (fun _ => good_emit _) (fun _ _ => mtchAll_size) h4
                  · split at h4
                    · exact key _ _ (fun _ => good_emit _) (fun _ _ => mtchAll_size) h4
                    · cases h4
      omega

/-- The budget is enough. -/
theorem ns_all (lib : Lib F) (n : Nat) : (∀ d p, 2 * size p + 1 ≤ n → NS (parseImpl lib d n) p) ∧
    (∀ d b p, 2 * size p + 2 ≤ n → NS (arrLoop lib d n b) p) ∧ (∀ d b p, 2 * size p + 2 ≤ n → NS (objLoop lib d n b) p) := by
  induction n with
  | zero => exact ⟨fun _ _ h => by omega, fun _ _ _ h => by omega, fun _ _ _ h => by omega⟩
  | succ n ih =>
    obtain ⟨ihV, ihA, ihO⟩ := ih
    refine ⟨fun d p hp => ?_, fun d b p hp => ?_, fun d b p hp => ?_⟩
    · cases d with
      | zero => rw [parseImpl]; exact fun _ => nofun
      | succ d =>
        rw [parseImpl]
        refine ns_bind (calm_ss p) fun _ r1 h1 => ns_bind (calm_peek r1) fun c r h2 => ?_
        have e1 := good_size good_ss h1
        have e2 := good_size good_peek h2
        refine ns_ite (fun _ => ?_) fun _ => ns_ite (fun _ => ?_) fun _ => ns_ite (fun _ => calm_parseNumber lib r) fun _ =>
          ns_ite (fun _ => ns_bind (calm_parseStringPrim r) fun _ q _ => calm_emit _ q) fun _ =>
          ns_ite (fun _ => ns_bind (calm_mtchAll _ r) fun _ q _ => calm_emit _ q) fun _ =>
          ns_ite (fun _ => ns_bind (calm_mtchAll _ r) fun _ q _ => calm_emit _ q) fun _ =>
          ns_ite (fun _ => ns_bind (calm_mtchAll _ r) fun _ q _ => calm_emit _ q) fun _ => calm_error _ r
        · refine ns_bind (calm_emit _ r) fun _ r3 h3 => ns_bind (calm_smatch _ r3) fun _ r4 h4 => ?_
          have e3 := good_size (good_emit _) h3
          have e4 := smatch_size h4
          exact ns_bind (ihO d true r4 (by omega)) fun _ r5 _ => ns_bind (calm_smatch _ r5) fun _ r6 _ => calm_emit _ r6
        · refine ns_bind (calm_emit _ r) fun _ r3 h3 => ns_bind (calm_smatch _ r3) fun _ r4 h4 => ?_
          have e3 := good_size (good_emit _) h3
          have e4 := smatch_size h4
          exact ns_bind (ihA d true r4 (by omega)) fun _ r5 _ => ns_bind (calm_smatch _ r5) fun _ r6 _ => calm_emit _ r6
    · rw [arrLoop]
      refine ns_bind (calm_speek p) fun c r1 h1 => ns_ite (fun _ => calm_pure _ r1) fun _ => ns_bind (calm_comma b r1) fun _ r2 h2 => ?_
      have e1 := good_size good_speek h1
      have e2 := good_size (good_comma b) h2
      refine ns_bind (ihV d r2 (by omega)) fun _ r3 h3 => ?_
      have e3 := impl_size h3
      exact ihA d false r3 (by omega)
    · rw [objLoop]
      refine ns_bind (calm_speek p) fun c r1 h1 => ns_ite (fun _ => calm_pure _ r1) fun _ => ns_bind (calm_comma b r1) fun _ r2 h2 =>
        ns_bind (calm_ss r2) fun _ r3 h3 => ns_bind (calm_parseStringPrim r3) fun k r4 h4 => ns_bind (calm_emit _ r4) fun _ r5 h5 =>
        ns_bind (calm_smatch _ r5) fun _ r6 h6 => ?_
      have e1 := good_size good_speek h1
      have e2 := good_size (good_comma b) h2
      have e3 := good_size good_ss h3
      have e4 := str_size h4
      have e5 := good_size (good_emit _) h5
      have e6 := smatch_size h6
      refine ns_bind (ihV d r6 (by omega)) fun _ r7 h7 => ?_
      have e7 := impl_size h7
      exact ihO d false r7 (by omega)

theorem calm_parseAll (lib : Lib F) (room : Nat) : Calm (parseAll lib room) :=
  fun p q => (ns_all lib _).1 room p (by simp [size, pend]) q

theorem good_parseAll (lib : Lib F) (room : Nat) : Good (parseAll lib room) :=
  good_wrap (fun n => (good_all lib n).1 room) (fun n m p h => (mono_all lib n).1 room m p h)
    (b := fun p => 2 * (p.cbuf.toList.length + p.rest.length) + 1) (fun p q => calm_parseAll lib room p q)

theorem good_parseStream (lib : Lib F) (room : Nat) : Good (parseStream lib room) :=
  good_bind good_ss fun _ => good_bind good_loadedC fun _ => good_bind good_more fun _ =>
    good_ite (good_bind (good_throw _) fun _ => good_parseAll lib room) (good_parseAll lib room)

theorem calm_parseStream (lib : Lib F) (room : Nat) : Calm (parseStream lib room) := by
  refine calm_bind calm_ss fun _ => calm_bind (fun _ _ => nofun) fun _ => calm_bind calm_more fun _ => calm_ite ?_ (calm_parseAll lib room)
  exact calm_bind (fun _ _ => nofun) fun _ => calm_parseAll lib room

end Verif.JsonPos.Lemmas
