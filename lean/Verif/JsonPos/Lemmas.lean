import Verif.JsonPos.Spec
import Verif.Json.LemmasParse
/-! How the parser goes through its text: what has been read, where it stands, and that what follows does not matter. -/

namespace Verif.JsonPos.Lemmas
open Verif.JsonPos Verif.JsonPos.Spec
open Verif.Json (Str Event S isSpace isDigit simpleEscape strtoll)
open Verif.Ustring (ucharToChars)

variable {F α β : Type}

/-- What is in front of the parser. -/
def pend (p : P F) : List Nat := p.cbuf.toList ++ p.rest

/-- Where it stands. -/
def pl (p : P F) : Nat × Nat := (p.line, p.col)

/-- One character further. -/
def adv (a : Nat × Nat) (c : Nat) : Nat × Nat := if c = 10 then (a.1 + 1, 1) else (a.1, a.2 + 1)

/-- Some characters further. -/
def advs (a : Nat × Nat) (u : List Nat) : Nat × Nat := u.foldl adv a

theorem advs_append (a : Nat × Nat) (u v : List Nat) : advs a (u ++ v) = advs (advs a u) v := List.foldl_append

/-- The state in which a function ends. -/
def st : R F α → P F
  | .ok _ q => q
  | .exc _ q => q

/-- The same outcome with other characters behind. -/
def setRest (z : List Nat) : R F α → R F α
  | .ok a q => .ok a { q with rest := z }
  | .exc e q => .exc e { q with rest := z }

/-- Reads a part of what is in front, counts it, and does not depend on what is behind, as long as there is something. -/
def Good (f : M F α) : Prop := ∀ p, ∃ u x, pend p = u ++ pend (st (f p)) ∧ pl (st (f p)) = advs (pl p) u ∧ p.rest = x ++ (st (f p)).rest ∧
  ((st (f p)).rest ≠ [] → ∀ z, z ≠ [] → f { p with rest := x ++ z } = setRest z (f p))

theorem good_pure (a : α) : Good (pure a : M F α) := fun _ => ⟨[], [], rfl, rfl, rfl, fun _ _ _ => rfl⟩

theorem bind_def (f : M F α) (g : α → M F β) (p : P F) : (f >>= g) p = match f p with
  | .ok a q => g a q
  | .exc e q => .exc e q := rfl

theorem good_bind {f : M F α} {g : α → M F β} (hf : Good f) (hg : ∀ a, Good (g a)) : Good (f >>= g) := by
  intro p
  obtain ⟨u, x, h1, h2, h3, h4⟩ := hf p
  cases hr : f p with
  | exc e q =>
    rw [hr] at h1 h2 h3 h4
    refine ⟨u, x, ?_, ?_, ?_, ?_⟩ <;> rw [bind_def, hr]
    · exact h1
    · exact h2
    · exact h3
    · intro hne z hz
      rw [bind_def, h4 hne z hz]
      rfl
  | ok a q =>
    rw [hr] at h1 h2 h3 h4
    obtain ⟨u', x', k1, k2, k3, k4⟩ := hg a q
    simp only [st] at h1 h2 h3 h4
    refine ⟨u ++ u', x ++ x', ?_, ?_, ?_, ?_⟩ <;> rw [bind_def, hr]
    · rw [h1, k1, List.append_assoc]
    · rw [k2, h2, advs_append]
    · rw [h3, k3, List.append_assoc]
    · intro hne z hz
      have e1 : q.rest ≠ [] := by rw [k3]; simp [hne]
      rw [bind_def, List.append_assoc, h4 e1 (x' ++ z) (by simp [hz])]
      exact k4 hne z hz

theorem good_more : Good (more : M F Bool) := by
  intro p
  refine ⟨[], [], rfl, rfl, rfl, ?_⟩
  intro hne z hz
  simp only [more, st] at hne ⊢
  simp [setRest, hne, hz]

theorem good_loadedC : Good (loadedC : M F Bool) := fun _ => ⟨[], [], rfl, rfl, rfl, fun _ _ _ => rfl⟩
theorem good_throw (e : Ex) : Good (throw e : M F α) := fun _ => ⟨[], [], rfl, rfl, rfl, fun _ _ _ => rfl⟩
theorem good_error (m : Str) : Good (error m : M F α) := fun _ => ⟨[], [], rfl, rfl, rfl, fun _ _ _ => rfl⟩
theorem good_emit (e : Event F) : Good (emit e) := fun _ => ⟨[], [], rfl, rfl, rfl, fun _ _ _ => rfl⟩

theorem good_peek : Good (peek : M F Nat) := by
  rintro ⟨cb, rest, l, c, evs⟩
  cases cb with
  | some d => exact ⟨[], [], rfl, rfl, rfl, fun _ _ _ => rfl⟩
  | none =>
    cases rest with
    | nil => exact ⟨[], [], rfl, rfl, rfl, fun h => absurd rfl h⟩
    | cons d tl => exact ⟨[], [d], rfl, rfl, rfl, fun _ _ _ => rfl⟩

theorem count_pl (c : Nat) (p : P F) : pl (count c p) = adv (pl p) c := by
  unfold count adv pl
  split <;> rfl

theorem count_rest (c : Nat) (p : P F) : (count c p).rest = p.rest := by
  unfold count
  split <;> rfl

theorem count_cbuf (c : Nat) (p : P F) : (count c p).cbuf = none := by
  unfold count
  split <;> rfl

theorem count_evs (c : Nat) (p : P F) : (count c p).evs = p.evs := by
  unfold count
  split <;> rfl

theorem incr_some (c : Nat) (rest : List Nat) (l k : Nat) (evs : List (Event F)) :
    incr ⟨some c, rest, l, k, evs⟩ = .ok c (count c ⟨some c, rest, l, k, evs⟩) := rfl
theorem incr_cons (c : Nat) (rest : List Nat) (l k : Nat) (evs : List (Event F)) :
    incr ⟨none, c :: rest, l, k, evs⟩ = .ok c (count c ⟨some c, rest, l, k, evs⟩) := rfl
theorem incr_nil (l k : Nat) (evs : List (Event F)) : incr ⟨none, [], l, k, evs⟩ = .exc .eod ⟨none, [], l, k, evs⟩ := rfl

theorem count_setRest (c : Nat) (p : P F) (z : List Nat) : count c { p with rest := z } = { count c p with rest := z } := by
  unfold count
  split <;> rfl

theorem good_incr : Good (incr : M F Nat) := by
  rintro ⟨cb, rest, l, k, evs⟩
  cases cb with
  | some d =>
    refine ⟨[d], [], ?_, ?_, ?_, ?_⟩ <;> simp only [incr_some, st]
    · simp [pend, count_rest, count_cbuf]
    · rw [count_pl]; rfl
    · simp [count_rest]
    · intro _ z _
      simp only [List.nil_append, setRest]
      exact congrArg _ (count_setRest d ⟨some d, rest, l, k, evs⟩ z)
  | none =>
    cases rest with
    | nil => exact ⟨[], [], rfl, rfl, rfl, fun h => absurd rfl h⟩
    | cons d tl =>
      refine ⟨[d], [d], ?_, ?_, ?_, ?_⟩ <;> simp only [incr_cons, st]
      · simp [pend, count_rest, count_cbuf]
      · rw [count_pl]; rfl
      · simp [count_rest]
      · intro _ z _
        simp only [List.cons_append, List.nil_append, setRest, incr_cons]
        exact congrArg _ (count_setRest d ⟨some d, tl, l, k, evs⟩ z)

theorem good_ite {c : Prop} [Decidable c] {f g : M F α} (hf : Good f) (hg : Good g) : Good (if c then f else g) := by
  split <;> assumption

/-- A larger budget changes nothing. -/
def Mono (f : Nat → M F α) : Prop := ∀ n m p, n ≤ m → (∃ q, f n p = .exc .stuck q) ∨ f n p = f m p

/-- A loop with a budget that depends on what is left. -/
theorem good_wrap {f : Nat → M F α} {b : P F → Nat} (hg : ∀ n, Good (f n)) (hm : Mono f) (hb : ∀ p q, f (b p) p ≠ .exc .stuck q) :
    Good (fun p => f (b p) p) := by
  have key : ∀ p N, b p ≤ N → f N p = f (b p) p := by
    intro p N hN
    rcases hm (b p) N p hN with ⟨q, hq⟩ | h
    · exact absurd hq (hb p q)
    · exact h.symm
  intro p
  obtain ⟨u, x, h1, h2, h3, -⟩ := hg (b p) p
  refine ⟨u, x, h1, h2, h3, ?_⟩
  intro hne z hz
  obtain ⟨u', x', h1', h2', h3', h4'⟩ := hg (max (b p) (b { p with rest := x ++ z })) p
  rw [key p _ (Nat.le_max_left ..)] at h3' h4'
  have e : x' = x := List.append_cancel_right (h3'.symm.trans h3)
  subst e
  have := h4' hne z hz
  rw [key _ _ (Nat.le_max_right ..)] at this
  exact this

end Verif.JsonPos.Lemmas
