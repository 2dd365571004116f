import Verif.JsonPos.LemmasDepth
/-! The callbacks made before an exception are the beginning of those of a value. -/

namespace Verif.JsonPos.Lemmas
open Verif.JsonPos Verif.JsonPos.Spec
open Verif.Json (Str Event S Value isSpace isDigit simpleEscape strtoll)
open Verif.Json.Spec (events eventsL eventsM)

variable {F α β : Type}

/-- The callbacks `f` makes here are in `T` after a success, and can be completed to one in `T` after an exception. -/
def Begins (T : List (Event F) → Prop) (f : M F Unit) (p : P F) : Prop :=
  (∀ a q, f p = .ok a q → ∃ es, q.evs = p.evs ++ es ∧ T es) ∧ (∀ e q, f p = .exc e q → ∃ es r, q.evs = p.evs ++ es ∧ T (es ++ r))

theorem begins_silent {T : List (Event F) → Prop} {x : M F α} {f : α → M F Unit} {p : P F} (hs : (st (x p)).evs = p.evs) (hT : ∃ es, T es)
    (h : ∀ a q, x p = .ok a q → Begins T (f a) q) : Begins T (x >>= f) p := by
  unfold Begins
  rw [bind_def]
  cases h1 : x p with
  | exc e q =>
    rw [h1] at hs
    obtain ⟨es, hes⟩ := hT
    refine ⟨fun _ _ h => (by cases h), ?_⟩
    rintro e q ⟨⟩
    exact ⟨[], es, by rw [List.append_nil]; exact hs, hes⟩
  | ok a q =>
    rw [h1] at hs
    dsimp only [st] at hs ⊢
    rw [← hs]
    exact h a q h1

theorem begins_emit {T : List (Event F) → Prop} {e : Event F} {f : M F Unit} {p : P F} (h : ∀ q, Begins (fun es => T (e :: es)) f q) :
    Begins T (emit e >>= fun _ => f) p := by
  obtain ⟨h1, h2⟩ := h { p with evs := p.evs ++ [e] }
  refine ⟨fun a q hq => ?_, fun e' q hq => ?_⟩
  · obtain ⟨es, k1, k2⟩ := h1 a q hq
    exact ⟨e :: es, by rw [k1]; simp, k2⟩
  · obtain ⟨es, r, k1, k2⟩ := h2 e' q hq
    exact ⟨e :: es, r, by rw [k1]; simp, k2⟩

theorem begins_last {T : List (Event F) → Prop} {e : Event F} {p : P F} (h : T [e]) : Begins T (emit e) p :=
  ⟨fun _ _ hq => (by cases hq; exact ⟨_, rfl, h⟩), fun _ _ hq => by cases hq⟩

theorem begins_error {T : List (Event F) → Prop} {m : Str} {p : P F} (h : ∃ es, T es) : Begins T (error m) p := by
  obtain ⟨es, h⟩ := h
  exact ⟨fun _ _ hq => (by cases hq), fun _ _ hq => by cases hq; exact ⟨[], es, by simp, h⟩⟩

theorem begins_throw {T : List (Event F) → Prop} {e : Ex} {p : P F} (h : ∃ es, T es) : Begins T (throw e) p := by
  obtain ⟨es, h⟩ := h
  exact ⟨fun _ _ hq => (by cases hq), fun _ _ hq => by cases hq; exact ⟨[], es, by simp, h⟩⟩

theorem begins_pure {T : List (Event F) → Prop} {p : P F} (h : T []) : Begins T (pure ()) p :=
  ⟨fun _ _ hq => (by cases hq; exact ⟨[], by simp, h⟩), fun _ _ hq => by cases hq⟩

theorem begins_seq {T T1 : List (Event F) → Prop} {f g : M F Unit} {p : P F} (h1 : Begins T1 f p) (hT : ∀ es, T1 es → ∃ r, T (es ++ r))
    (h2 : ∀ q es, T1 es → Begins (fun es' => T (es ++ es')) g q) : Begins T (f >>= fun _ => g) p := by
  obtain ⟨a1, a2⟩ := h1
  unfold Begins
  rw [bind_def]
  cases hf : f p with
  | exc e q =>
    refine ⟨fun _ _ h => (by cases h), ?_⟩
    rintro e q ⟨⟩
    obtain ⟨es, r, k1, k2⟩ := a2 _ _ hf
    obtain ⟨r', k3⟩ := hT _ k2
    exact ⟨es, r ++ r', k1, by rw [← List.append_assoc]; exact k3⟩
  | ok a q =>
    obtain ⟨es, k1, k2⟩ := a1 a q hf
    obtain ⟨b1, b2⟩ := h2 q es k2
    refine ⟨fun a' q' hq' => ?_, fun e q' hq' => ?_⟩
    · obtain ⟨es', k3, k4⟩ := b1 a' q' hq'
      exact ⟨es ++ es', by rw [k3, k1, List.append_assoc], k4⟩
    · obtain ⟨es', r, k3, k4⟩ := b2 e q' hq'
      exact ⟨es ++ es', r, by rw [k3, k1, List.append_assoc], by rw [List.append_assoc]; exact k4⟩

theorem begins_ite {T : List (Event F) → Prop} {c : Prop} [Decidable c] {f g : M F Unit} {p : P F} (hf : Begins T f p) (hg : Begins T g p) :
    Begins T (if c then f else g) p := by
  split <;> assumption

theorem begins_leaf {T : List (Event F) → Prop} {x : M F α} {e : α → Event F} {p : P F} (hs : (st (x p)).evs = p.evs) (h : ∀ a, T [e a])
    (hT : ∃ es, T es) : Begins T (x >>= fun a => emit (e a)) p := begins_silent hs hT fun a _ _ => begins_last (h a)

/-- The callbacks of a value. -/
def IsV (es : List (Event F)) : Prop := ∃ v, es = events v
/-- The callbacks of some elements. -/
def IsL (es : List (Event F)) : Prop := ∃ vs, es = eventsL vs
/-- The callbacks of some members. -/
def IsM (es : List (Event F)) : Prop := ∃ ms, es = eventsM ms

theorem someV : ∃ es, IsV (F := F) es := ⟨_, .null, rfl⟩

theorem begins_number (lib : Lib F) (p : P F) : Begins IsV (parseNumber lib) p := by
  refine begins_silent (er_signPart p).2 someV fun _ q _ => begins_silent (er_digitsA q).2 someV fun _ q _ =>
    begins_silent (er_fracPart q).2 someV fun _ q _ => begins_silent (er_expPart q).2 someV fun _ q _ => begins_silent (er_digitsB q).2 someV fun _ q _ => ?_
  unfold convNum
  refine begins_ite ?_ ?_
  · split
    · exact begins_last ⟨.flt _, by rw [events]⟩
    · exact begins_error someV
  · split
    · exact begins_last ⟨.int _, by rw [events]⟩
    · exact begins_error someV

theorem begins_all (lib : Lib F) (n : Nat) : (∀ d p, Begins IsV (parseImpl lib d n) p) ∧ (∀ d b p, Begins IsL (arrLoop lib d n b) p) ∧
    (∀ d b p, Begins IsM (objLoop lib d n b) p) := by
  have someL : ∃ es, IsL (F := F) es := ⟨_, [], rfl⟩
  have someM : ∃ es, IsM (F := F) es := ⟨_, [], rfl⟩
  induction n with
  | zero =>
    refine ⟨fun d p => ?_, fun d b p => by rw [arrLoop]; exact begins_throw someL, fun d b p => by rw [objLoop]; exact begins_throw someM⟩
    cases d <;> rw [parseImpl] <;> exact begins_throw someV
  | succ n ih =>
    obtain ⟨ihV, ihA, ihO⟩ := ih
    refine ⟨fun d p => ?_, fun d b p => ?_, fun d b p => ?_⟩
    · cases d with
      | zero => rw [parseImpl]; exact begins_throw someV
      | succ d =>
        rw [parseImpl]
        refine begins_silent (er_ss p).2 someV fun _ q _ => begins_silent (er_peek q).2 someV fun c q _ => ?_
        refine begins_ite ?_ (begins_ite ?_ (begins_ite (begins_number lib q) (begins_ite ?_ (begins_ite ?_ (begins_ite ?_ (begins_ite ?_ ?_))))))
        · have s1 : ∃ es, IsV (F := F) (.startObj :: es) := ⟨eventsM [] ++ [.endObj], .obj [], by rw [events]⟩
          refine begins_emit fun q => begins_silent (er_smatch _ q).2 s1 fun _ q _ => begins_seq (ihO d true q) ?_ fun q es hes => ?_
          · rintro es ⟨ms, rfl⟩
            exact ⟨[.endObj], .obj ms, by rw [events]⟩
          · obtain ⟨ms, rfl⟩ := hes
            have h : IsV (F := F) (.startObj :: (eventsM ms ++ [.endObj])) := ⟨.obj ms, by rw [events]⟩
            exact begins_leaf (er_smatch _ q).2 (fun _ => h) ⟨_, h⟩
        · have s1 : ∃ es, IsV (F := F) (.startArr :: es) := ⟨eventsL [] ++ [.endArr], .arr [], by rw [events]⟩
          refine begins_emit fun q => begins_silent (er_smatch _ q).2 s1 fun _ q _ => begins_seq (ihA d true q) ?_ fun q es hes => ?_
          · rintro es ⟨vs, rfl⟩
            exact ⟨[.endArr], .arr vs, by rw [events]⟩
          · obtain ⟨vs, rfl⟩ := hes
            have h : IsV (F := F) (.startArr :: (eventsL vs ++ [.endArr])) := ⟨.arr vs, by rw [events]⟩
            exact begins_leaf (er_smatch _ q).2 (fun _ => h) ⟨_, h⟩
        · exact begins_leaf (er_parseStringPrim q).2 (fun s => ⟨.str s, by rw [events]⟩) someV
        · exact begins_leaf (er_mtchAll _ q).2 (fun _ => ⟨.bool false, by rw [events]⟩) someV
        · exact begins_leaf (er_mtchAll _ q).2 (fun _ => ⟨.null, by rw [events]⟩) someV
        · exact begins_leaf (er_mtchAll _ q).2 (fun _ => ⟨.bool true, by rw [events]⟩) someV
        · exact begins_error someV
    · rw [arrLoop]
      refine begins_silent (er_speek p).2 someL fun c q _ => begins_ite (begins_pure ⟨[], rfl⟩) (begins_silent (er_comma b q).2 someL fun _ q _ =>
        begins_seq (ihV d q) ?_ fun q es hes => ?_)
      · rintro es ⟨v, rfl⟩
        exact ⟨[], [v], by rw [eventsL, eventsL]⟩
      · obtain ⟨v, rfl⟩ := hes
        obtain ⟨h1, h2⟩ := ihA d false q
        refine ⟨fun a r hr => ?_, fun e r hr => ?_⟩
        · obtain ⟨es, k1, vs, rfl⟩ := h1 a r hr
          exact ⟨_, k1, v :: vs, by rw [eventsL]⟩
        · obtain ⟨es, t, k1, vs, k2⟩ := h2 e r hr
          exact ⟨es, t, k1, v :: vs, by rw [eventsL, k2]⟩
    · rw [objLoop]
      refine begins_silent (er_speek p).2 someM fun c q _ => begins_ite (begins_pure ⟨[], rfl⟩) (begins_silent (er_comma b q).2 someM fun _ q _ =>
        begins_silent (er_ss q).2 someM fun _ q _ => begins_silent (er_parseStringPrim q).2 someM fun k q _ => begins_emit fun q =>
        begins_silent (er_smatch _ q).2 ⟨events .null ++ eventsM [], [(k, .null)], by simp [eventsM]⟩ fun _ q _ => begins_seq (ihV d q) ?_ fun q es hes => ?_)
      · rintro es ⟨v, rfl⟩
        exact ⟨[], [(k, v)], by rw [eventsM, eventsM]⟩
      · obtain ⟨v, rfl⟩ := hes
        obtain ⟨h1, h2⟩ := ihO d false q
        refine ⟨fun a r hr => ?_, fun e r hr => ?_⟩
        · obtain ⟨es, k1, vs, rfl⟩ := h1 a r hr
          exact ⟨_, k1, (k, v) :: vs, by rw [eventsM]⟩
        · obtain ⟨es, t, k1, vs, k2⟩ := h2 e r hr
          exact ⟨es, t, k1, (k, v) :: vs, by rw [eventsM, k2]⟩

theorem begins_parseStream (lib : Lib F) (room : Nat) (p : P F) : Begins IsV (parseStream lib room) p := by
  refine begins_silent (er_ss p).2 someV fun _ q _ => begins_silent (er_loadedC q).2 someV fun a q _ => begins_silent (er_more q).2 someV fun b q _ => ?_
  by_cases hb : (!(a || b)) = true
  · simp only [if_pos hb]
    obtain ⟨es, h⟩ := someV (F := F)
    exact ⟨fun _ _ hq => (by cases hq), fun _ _ hq => by cases hq; exact ⟨[], es, by simp, h⟩⟩
  · simp only [if_neg hb]
    exact (begins_all lib _).1 room q

end Verif.JsonPos.Lemmas
