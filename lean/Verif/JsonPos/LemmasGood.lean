import Verif.JsonPos.LemmasRun
/-! All functions of the parser read a part of the text, count it, and do not depend on what comes behind. -/

namespace Verif.JsonPos.Lemmas
open Verif.JsonPos Verif.JsonPos.Spec
open Verif.Json (Str Event S Err isSpace isDigit simpleEscape strtoll)

variable {F α β : Type}

theorem mono_bind {f : Nat → M F α} {g : Nat → α → M F β} (hf : Mono f) (hg : ∀ a, Mono (fun n => g n a)) : Mono (fun n => f n >>= g n) := by
  intro n m p h
  dsimp only
  rw [bind_def, bind_def]
  rcases hf n m p h with ⟨q, hq⟩ | hq
  · exact .inl ⟨q, by rw [hq]⟩
  · rw [← hq]
    cases f n p with
    | exc e q => exact .inr rfl
    | ok a q => exact hg a n m q h

theorem mono_const (f : M F α) : Mono (fun _ => f) := fun _ _ _ _ => .inr rfl

theorem mono_ite {c : Prop} [Decidable c] {f g : Nat → M F α} (hf : Mono f) (hg : Mono g) : Mono (fun n => if c then f n else g n) := by
  split <;> assumption

/-- From `n` and `m` to their successors. -/
theorem mono_succ {f g : Nat → M F α} (h0 : f 0 = throw .stuck) (hs : ∀ n, f (n + 1) = g n)
    (h : ∀ n m p, n ≤ m → (∀ k p, n ≤ k → (∃ q, f n p = .exc .stuck q) ∨ f n p = f k p) → (∃ q, g n p = .exc .stuck q) ∨ g n p = g m p) : Mono f := by
  intro n
  induction n with
  | zero => intro m p _; rw [h0]; exact .inl ⟨p, rfl⟩
  | succ n ih =>
    intro m p hm
    cases m with
    | zero => omega
    | succ m =>
      rw [hs, hs]
      exact h n m p (by omega) (fun k p hk => ih k p hk)

theorem step_bind {f : M F α} {g g' : α → M F β} (p : P F) (h : ∀ a q, f p = .ok a q → (∃ r, g a q = .exc .stuck r) ∨ g a q = g' a q) :
    (∃ r, (f >>= g) p = .exc .stuck r) ∨ (f >>= g) p = (f >>= g') p := by
  rw [bind_def, bind_def]
  cases hf : f p with
  | exc e q => exact .inr rfl
  | ok a q => exact h a q hf

theorem step_bind2 {f f' : M F α} {g g' : α → M F β} (p : P F) (hf : (∃ r, f p = .exc .stuck r) ∨ f p = f' p)
    (h : ∀ a q, f p = .ok a q → (∃ r, g a q = .exc .stuck r) ∨ g a q = g' a q) :
    (∃ r, (f >>= g) p = .exc .stuck r) ∨ (f >>= g) p = (f' >>= g') p := by
  rw [bind_def, bind_def]
  rcases hf with ⟨r, hr⟩ | hr
  · exact .inl ⟨r, by rw [hr]⟩
  · rw [← hr]
    cases hf : f p with
    | exc e q => exact .inr rfl
    | ok a q => exact h a q hf

theorem step_ite {c : Prop} [Decidable c] {f f' g g' : M F α} (p : P F) (hf : (∃ r, f p = .exc .stuck r) ∨ f p = f' p)
    (hg : (∃ r, g p = .exc .stuck r) ∨ g p = g' p) :
    (∃ r, (if c then f else g) p = .exc .stuck r) ∨ (if c then f else g) p = (if c then f' else g') p := by
  split <;> assumption

theorem step_refl (f : M F α) (p : P F) : (∃ r, f p = .exc .stuck r) ∨ f p = f p := .inr rfl

theorem mono_ssF : Mono (ssF : Nat → M F Unit) := by
  refine mono_succ rfl (fun n => rfl) (fun n m p hm ih => ?_)
  refine step_bind p fun b q _ => step_ite q (step_refl _ _) ?_
  refine step_bind q fun c r _ => step_ite r ?_ (step_refl _ _)
  exact step_bind r fun _ s _ => ih m s hm

theorem mono_strLoop : Mono (strLoop : Nat → M F Str) := by
  refine mono_succ rfl (fun n => rfl) (fun n m p hm ih => ?_)
  refine step_bind p fun b q _ => step_ite q (step_refl _ _) ?_
  refine step_bind q fun c r _ => step_bind2 r (ih m r hm) fun _ s _ => step_refl _ _

theorem mono_digitsAF : Mono (digitsAF : Nat → M F (List Nat)) := by
  refine mono_succ rfl (fun n => rfl) (fun n m p hm ih => ?_)
  refine step_bind p fun a q _ => step_bind q fun b q _ => step_ite q (step_refl _ _) ?_
  refine step_bind q fun c r _ => step_ite r ?_ (step_refl _ _)
  exact step_bind r fun _ s _ => step_bind2 s (ih m s hm) fun _ _ _ => step_refl _ _

theorem mono_digitsBF : Mono (digitsBF : Nat → M F (List Nat)) := by
  refine mono_succ rfl (fun n => rfl) (fun n m p hm ih => ?_)
  refine step_bind p fun a q _ => step_ite q (step_refl _ _) ?_
  refine step_bind q fun c r _ => step_ite r ?_ (step_refl _ _)
  exact step_bind r fun _ s _ => step_bind2 s (ih m s hm) fun _ _ _ => step_refl _ _

theorem mono_all (lib : Lib F) (n : Nat) :
    (∀ d m p, n ≤ m → (∃ q, parseImpl lib d n p = .exc .stuck q) ∨ parseImpl lib d n p = parseImpl lib d m p) ∧
    (∀ d b m p, n ≤ m → (∃ q, arrLoop lib d n b p = .exc .stuck q) ∨ arrLoop lib d n b p = arrLoop lib d m b p) ∧
    (∀ d b m p, n ≤ m → (∃ q, objLoop lib d n b p = .exc .stuck q) ∨ objLoop lib d n b p = objLoop lib d m b p) := by
  induction n with
  | zero =>
    refine ⟨fun d m p _ => ?_, fun d b m p _ => .inl ⟨p, by rw [arrLoop]; rfl⟩, fun d b m p _ => .inl ⟨p, by rw [objLoop]; rfl⟩⟩
    cases d with
    | zero => exact .inr (by rw [parseImpl, parseImpl])
    | succ d => exact .inl ⟨p, by rw [parseImpl]; rfl⟩
  | succ n ih =>
    obtain ⟨ihV, ihA, ihO⟩ := ih
    refine ⟨fun d m p hm => ?_, fun d b m p hm => ?_, fun d b m p hm => ?_⟩
    · cases d with
      | zero => exact .inr (by rw [parseImpl, parseImpl])
      | succ d =>
        cases m with
        | zero => omega
        | succ m =>
          rw [parseImpl, parseImpl]
          refine step_bind p fun _ q _ => step_bind q fun c q _ => step_ite q ?_ (step_ite q ?_ (step_refl _ _))
          · exact step_bind q fun _ r _ => step_bind r fun _ r _ => step_bind2 r (ihO d true m r (by omega)) fun _ _ _ => step_refl _ _
          · exact step_bind q fun _ r _ => step_bind r fun _ r _ => step_bind2 r (ihA d true m r (by omega)) fun _ _ _ => step_refl _ _
    · cases m with
      | zero => omega
      | succ m =>
        rw [arrLoop, arrLoop]
        refine step_bind p fun c q _ => step_ite q (step_refl _ _) ?_
        exact step_bind q fun _ r _ => step_bind2 r (ihV d m r (by omega)) fun _ s _ => ihA d false m s (by omega)
    · cases m with
      | zero => omega
      | succ m =>
        rw [objLoop, objLoop]
        refine step_bind p fun c q _ => step_ite q (step_refl _ _) ?_
        exact step_bind q fun _ r _ => step_bind r fun _ r _ => step_bind r fun _ r _ => step_bind r fun _ r _ => step_bind r fun _ r _ =>
          step_bind2 r (ihV d m r (by omega)) fun _ s _ => ihO d false m s (by omega)

theorem good_ssF (n : Nat) : Good (ssF n : M F Unit) := by
  induction n with
  | zero => exact good_throw _
  | succ n ih =>
    exact good_bind good_more fun b => good_ite (good_pure _) (good_bind good_peek fun c => good_ite (good_bind good_incr fun _ => ih) (good_pure _))

theorem ne_stuck_of_er {r : R F α} {x : α × S} (h : er r = .ok x) (q : P F) : r ≠ .exc .stuck q := by
  rintro rfl
  cases h

theorem good_ss : Good (ss : M F Unit) := good_wrap good_ssF mono_ssF (fun p q => ne_stuck_of_er (er_ss p).1 q)

theorem good_mtch (c : Nat) : Good (mtch c : M F Unit) := by
  refine good_bind good_peek fun d => ?_
  by_cases h : d ≠ c
  · simp only [if_pos h]; exact good_bind (good_error _) fun _ => good_bind good_incr fun _ => good_pure _
  · simp only [if_neg h]; exact good_bind good_incr fun _ => good_pure _

theorem good_speek : Good (speek : M F Nat) := good_bind good_ss fun _ => good_peek
theorem good_smatch (c : Nat) : Good (smatch c : M F Unit) := good_bind good_ss fun _ => good_mtch c

theorem good_comma (b : Bool) : Good (comma b : M F Unit) := good_ite (good_pure _) (good_smatch _)

theorem good_parseHex : Good (parseHex : M F Nat) := by
  refine good_bind good_incr fun c => good_ite (good_pure _) ?_
  exact good_ite (good_pure _) (good_ite (good_pure _) (good_error _))

theorem good_parseHex4 : Good (parseHex4 : M F Nat) :=
  good_bind good_parseHex fun _ => good_bind good_parseHex fun _ => good_bind good_parseHex fun _ => good_bind good_parseHex fun _ => good_pure _

theorem good_parseU : Good (parseU : M F Str) :=
  good_bind good_parseHex4 fun _ => good_ite (good_error _) (good_ite (good_bind (good_mtch _) fun _ => good_bind (good_mtch _) fun _ =>
    good_bind good_parseHex4 fun _ => good_ite (good_error _) (good_pure _)) (good_pure _))

theorem good_strStep : Good (strStep : M F Str) := by
  refine good_bind good_peek fun c => good_ite (good_bind good_incr fun _ => good_bind good_incr fun d => good_ite good_parseU ?_)
    (good_bind good_incr fun d => good_ite (good_pure _) (good_error _))
  cases simpleEscape d with
  | none => exact good_error _
  | some b => exact good_pure _

theorem good_strLoop (n : Nat) : Good (strLoop n : M F Str) := by
  induction n with
  | zero => exact good_throw _
  | succ n ih => exact good_bind good_peek fun c => good_ite (good_pure _) (good_bind good_strStep fun _ => good_bind ih fun _ => good_pure _)

/-- The number of characters in front. -/
def size (p : P F) : Nat := (pend p).length

theorem good_size {f : M F α} (hf : Good f) {p q : P F} {a : α} (h : f p = .ok a q) : size q ≤ size p := by
  obtain ⟨u, x, h1, -⟩ := hf p
  rw [h] at h1
  unfold size
  rw [h1]
  simp [st]

theorem incr_size {p q : P F} {c : Nat} (h : incr p = .ok c q) : size q + 1 = size p := by
  obtain ⟨cb, rest, l, k, evs⟩ := p
  unfold size pend
  cases cb with
  | some d =>
    rw [incr_some] at h
    cases h
    simp [count_cbuf, count_rest]
  | none =>
    cases rest with
    | nil => cases h
    | cons d tl =>
      rw [incr_cons] at h
      cases h
      simp [count_cbuf, count_rest]

/-- Never runs out of the budget. -/
def Calm (f : M F α) : Prop := ∀ p q, f p ≠ .exc .stuck q

theorem calm_bind {f : M F α} {g : α → M F β} (hf : Calm f) (hg : ∀ a, Calm (g a)) : Calm (f >>= g) := by
  intro p q
  rw [bind_def]
  cases h : f p with
  | exc e r => rintro ⟨⟩; exact hf p q h
  | ok a r => exact hg a r q

theorem calm_pure (a : α) : Calm (pure a : M F α) := fun _ _ => nofun
theorem calm_error (m : Str) : Calm (error m : M F α) := fun _ _ => nofun
theorem calm_ite {c : Prop} [Decidable c] {f g : M F α} (hf : Calm f) (hg : Calm g) : Calm (if c then f else g) := by
  split <;> assumption
theorem calm_peek : Calm (peek : M F Nat) := by
  rintro ⟨cb, rest, l, k, evs⟩ q h
  cases cb with
  | some d => cases h
  | none => cases rest <;> cases h
theorem calm_incr : Calm (incr : M F Nat) := calm_bind calm_peek fun _ _ _ => nofun
theorem calm_mtch (c : Nat) : Calm (mtch c : M F Unit) := by
  refine calm_bind calm_peek fun d => ?_
  by_cases h : d ≠ c
  · simp only [if_pos h]; exact calm_bind (calm_error _) fun _ => calm_bind calm_incr fun _ => calm_pure _
  · simp only [if_neg h]; exact calm_bind calm_incr fun _ => calm_pure _
theorem calm_parseHex : Calm (parseHex : M F Nat) := by
  refine calm_bind calm_incr fun c => calm_ite (calm_pure _) ?_
  exact calm_ite (calm_pure _) (calm_ite (calm_pure _) (calm_error _))
theorem calm_parseHex4 : Calm (parseHex4 : M F Nat) :=
  calm_bind calm_parseHex fun _ => calm_bind calm_parseHex fun _ => calm_bind calm_parseHex fun _ => calm_bind calm_parseHex fun _ => calm_pure _
theorem calm_parseU : Calm (parseU : M F Str) :=
  calm_bind calm_parseHex4 fun _ => calm_ite (calm_error _) (calm_ite (calm_bind (calm_mtch _) fun _ => calm_bind (calm_mtch _) fun _ =>
    calm_bind calm_parseHex4 fun _ => calm_ite (calm_error _) (calm_pure _)) (calm_pure _))
theorem calm_strStep : Calm (strStep : M F Str) := by
  refine calm_bind calm_peek fun c => calm_ite (calm_bind calm_incr fun _ => calm_bind calm_incr fun d => calm_ite calm_parseU ?_)
    (calm_bind calm_incr fun d => calm_ite (calm_pure _) (calm_error _))
  cases simpleEscape d with
  | none => exact calm_error _
  | some b => exact calm_pure _

theorem bind_ok {f : M F α} {g : α → M F β} {p q : P F} {b : β} (h : (f >>= g) p = .ok b q) : ∃ a r, f p = .ok a r ∧ g a r = .ok b q := by
  rw [bind_def] at h
  cases hf : f p with
  | exc e r => rw [hf] at h; cases h
  | ok a r => rw [hf] at h; exact ⟨a, r, rfl, h⟩

theorem strStep_size {p q : P F} {s : Str} (h : strStep p = .ok s q) : size q < size p := by
  obtain ⟨c, r, h1, h2⟩ := bind_ok h
  have e1 := good_size good_peek h1
  by_cases hc : c = 92
  · simp only [if_pos hc] at h2
    obtain ⟨d, r2, h3, h4⟩ := bind_ok h2
    have e2 := incr_size h3
    have e3 := good_size (f := incr >>= fun d => if d = 117 then parseU else match simpleEscape d with
      | some b => pure [b]
      | none => error (unescapedMsg d)) (good_bind good_incr fun d => good_ite good_parseU (by
        cases simpleEscape d with
        | none => exact good_error _
        | some b => exact good_pure _)) h4
    omega
  · simp only [if_neg hc] at h2
    obtain ⟨d, r2, h3, h4⟩ := bind_ok h2
    have e2 := incr_size h3
    have e3 := good_size (good_ite (good_pure _) (good_error _)) h4
    omega

theorem strLoop_calm (n : Nat) (p q : P F) (h : size p < n) : strLoop n p ≠ .exc .stuck q := by
  induction n generalizing p q with
  | zero => omega
  | succ n ih =>
    intro hs
    simp only [strLoop, bind_def] at hs
    cases h1 : peek p with
    | exc e r => rw [h1] at hs; cases hs; exact calm_peek _ _ h1
    | ok c r =>
      rw [h1] at hs
      have e1 := good_size good_peek h1
      by_cases hc : c = 34
      · simp only [if_pos hc] at hs
        cases hs
      · simp only [if_neg hc] at hs
        rw [bind_def] at hs
        cases h2 : strStep r with
        | exc e r' => rw [h2] at hs; cases hs; exact calm_strStep _ _ h2
        | ok bs r' =>
          rw [h2] at hs
          have e2 := strStep_size h2
          dsimp only at hs
          rw [bind_def] at hs
          cases h3 : strLoop n r' with
          | exc e r'' => rw [h3] at hs; cases hs; exact ih r' _ (by omega) h3
          | ok out r'' => rw [h3] at hs; cases hs

theorem good_strAll : Good (strAll : M F Str) :=
  good_wrap good_strLoop mono_strLoop (b := fun p => p.cbuf.toList.length + p.rest.length + 1) (fun p q => strLoop_calm _ p q (by simp [size, pend]))

theorem good_parseStringPrim : Good (parseStringPrim : M F Str) :=
  good_bind (good_mtch _) fun _ => good_bind good_strAll fun _ => good_bind (good_mtch _) fun _ => good_pure _

theorem good_digitsAF (n : Nat) : Good (digitsAF n : M F (List Nat)) := by
  induction n with
  | zero => exact good_throw _
  | succ n ih =>
    exact good_bind good_loadedC fun _ => good_bind good_more fun _ => good_ite (good_pure _) (good_bind good_peek fun c =>
      good_ite (good_bind good_incr fun _ => good_bind ih fun _ => good_pure _) (good_pure _))

theorem good_digitsBF (n : Nat) : Good (digitsBF n : M F (List Nat)) := by
  induction n with
  | zero => exact good_throw _
  | succ n ih =>
    exact good_bind good_more fun _ => good_ite (good_pure _) (good_bind good_peek fun c =>
      good_ite (good_bind good_incr fun _ => good_bind ih fun _ => good_pure _) (good_pure _))

theorem good_digitsA : Good (digitsA : M F (List Nat)) := good_wrap good_digitsAF mono_digitsAF (fun p q => ne_stuck_of_er (er_digitsA p).1 q)
theorem good_digitsB : Good (digitsB : M F (List Nat)) := good_wrap good_digitsBF mono_digitsBF (fun p q => ne_stuck_of_er (er_digitsB p).1 q)

theorem good_signPart : Good (signPart : M F (List Nat)) :=
  good_bind good_peek fun _ => good_ite (good_bind good_incr fun _ => good_pure _) (good_pure _)

theorem good_fracPart : Good (fracPart : M F (List Nat × Bool)) :=
  good_bind good_more fun _ => good_ite (good_pure _) (good_bind good_peek fun _ => good_ite (good_bind good_incr fun _ =>
    good_bind good_digitsB fun _ => good_pure _) (good_pure _))

theorem good_expPart : Good (expPart : M F (List Nat × Bool)) :=
  good_bind good_more fun _ => good_ite (good_pure _) (good_bind good_peek fun _ => good_ite (good_bind good_incr fun _ =>
    good_bind good_more fun _ => good_ite (good_bind (good_error _) fun _ => good_bind good_peek fun _ => good_ite (good_bind good_incr fun _ => good_pure _) (good_pure _)) (good_bind good_peek fun _ =>
      good_ite (good_bind good_incr fun _ => good_pure _) (good_pure _))) (good_pure _))

theorem good_convNum (lib : Lib F) (src : List Nat) (b : Bool) : Good (convNum lib src b) := by
  unfold convNum
  cases b
  · cases strtoll src with
    | none => exact good_error _
    | some n => exact good_emit _
  · cases lib.strtod src with
    | none => exact good_error _
    | some n => exact good_emit _

theorem good_parseNumber (lib : Lib F) : Good (parseNumber lib) :=
  good_bind good_signPart fun _ => good_bind good_digitsA fun _ => good_bind good_fracPart fun _ => good_bind good_expPart fun _ =>
    good_bind good_digitsB fun _ => good_convNum lib _ _

theorem good_mtchAll (cs : List Nat) : Good (mtchAll cs : M F Unit) := by
  induction cs with
  | nil => exact good_pure _
  | cons c cs ih => exact good_bind (good_mtch c) fun _ => ih

theorem good_all (lib : Lib F) (n : Nat) : (∀ d, Good (parseImpl lib d n)) ∧ (∀ d b, Good (arrLoop lib d n b)) ∧ (∀ d b, Good (objLoop lib d n b)) := by
  induction n with
  | zero =>
    refine ⟨fun d => ?_, fun d b => by rw [arrLoop]; exact good_throw _, fun d b => by rw [objLoop]; exact good_throw _⟩
    cases d <;> rw [parseImpl] <;> exact good_throw _
  | succ n ih =>
    obtain ⟨ihV, ihA, ihO⟩ := ih
    refine ⟨fun d => ?_, fun d b => ?_, fun d b => ?_⟩
    · cases d with
      | zero => rw [parseImpl]; exact good_throw _
      | succ d =>
        rw [parseImpl]
        exact good_bind good_ss fun _ => good_bind good_peek fun c =>
          good_ite (good_bind (good_emit _) fun _ => good_bind (good_smatch _) fun _ => good_bind (ihO d true) fun _ => good_bind (good_smatch _) fun _ => good_emit _)
          (good_ite (good_bind (good_emit _) fun _ => good_bind (good_smatch _) fun _ => good_bind (ihA d true) fun _ => good_bind (good_smatch _) fun _ => good_emit _)
          (good_ite (good_parseNumber lib)
          (good_ite (good_bind good_parseStringPrim fun _ => good_emit _)
          (good_ite (good_bind (good_mtchAll _) fun _ => good_emit _)
          (good_ite (good_bind (good_mtchAll _) fun _ => good_emit _)
          (good_ite (good_bind (good_mtchAll _) fun _ => good_emit _) (good_error _)))))))
    · rw [arrLoop]
      exact good_bind good_speek fun _ => good_ite (good_pure _) (good_bind (good_comma b) fun _ => good_bind (ihV d) fun _ => ihA d false)
    · rw [objLoop]
      exact good_bind good_speek fun _ => good_ite (good_pure _) (good_bind (good_comma b) fun _ => good_bind good_ss fun _ =>
        good_bind good_parseStringPrim fun _ => good_bind (good_emit _) fun _ => good_bind (good_smatch _) fun _ => good_bind (ihV d) fun _ => ihO d false)

end Verif.JsonPos.Lemmas
