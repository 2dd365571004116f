import Verif.JsonCast.Into
import Verif.JsonCast.Lemmas
/-! Auxiliary lemmas on reading into an object (no claims). -/

set_option linter.unusedSectionVars false

namespace Verif.JsonCast.Lemmas
open Verif.Json Verif.JsonCast Verif.JsonCast.Spec Verif.AssocMap

variable {F : Type} [Floats F]

/-- The reading and the cast agree. -/
def Agree {α : Type} (c : Option α) (r : α × Bool) : Prop := (∃ x, c = some x ∧ r = (x, true)) ∨ (c = none ∧ r.2 = false)

theorem Agree.done {α : Type} {c : Option α} {r : α × Bool} (h : Agree c r) : done r = c := by
  rcases h with ⟨x, h1, h2⟩ | ⟨h1, h2⟩
  · rw [h1, h2]; rfl
  · obtain ⟨a, b⟩ := r
    simp only at h2
    subst h2
    rw [h1]; rfl

theorem agree_absent (t : Ty) (v : Val F t) : Agree (missing t) (absent t v) := by
  cases t <;> first | exact .inr ⟨rfl, rfl⟩ | exact .inl ⟨none, rfl, rfl⟩

mutual
theorem into_agree (toF : Int → F) (junk : (t : Ty) → Val F t) : (t : Ty) → (js : Value F) → (v : Val F t) → Agree (fromJson toF t js) (into toF junk t js v)
  | .int, js, v => by cases js <;> simp only [fromJson, into] <;> first | exact .inr ⟨rfl, rfl⟩ | exact .inl ⟨_, rfl, rfl⟩
  | .long, js, v => by cases js <;> simp only [fromJson, into] <;> first | exact .inr ⟨rfl, rfl⟩ | exact .inl ⟨_, rfl, rfl⟩
  | .flt, js, v => by cases js <;> simp only [fromJson, into] <;> first | exact .inr ⟨rfl, rfl⟩ | exact .inl ⟨_, rfl, rfl⟩
  | .dbl, js, v => by cases js <;> simp only [fromJson, into] <;> first | exact .inr ⟨rfl, rfl⟩ | exact .inl ⟨_, rfl, rfl⟩
  | .bool, js, v => by cases js <;> simp only [fromJson, into] <;> first | exact .inr ⟨rfl, rfl⟩ | exact .inl ⟨_, rfl, rfl⟩
  | .str, js, v => by cases js <;> simp only [fromJson, into] <;> first | exact .inr ⟨rfl, rfl⟩ | exact .inl ⟨_, rfl, rfl⟩
  | .json, js, v => by simp only [fromJson, into]; exact .inl ⟨_, rfl, rfl⟩
  | .vec t, js, v => by
    have e : (fun j => done (into toF junk t j (zero toF t))) = fromJson toF t := funext fun j => (into_agree toF junk t j _).done
    cases js <;> simp only [fromJson, into, e] <;> first | exact .inr ⟨rfl, rfl⟩ | skip
    cases each _ _ with
    | none => exact .inr ⟨rfl, rfl⟩
    | some x => exact .inl ⟨x, rfl, rfl⟩
  | .map t, js, v => by
    have e : (fun m : Str × Value F => (done (into toF junk t m.2 (zero toF t))).map (fun x => (m.1, x))) = fun m => (fromJson toF t m.2).map (fun x => (m.1, x)) :=
      funext fun m => by rw [(into_agree toF junk t m.2 _).done]
    cases js <;> simp only [fromJson, into, e] <;> first | exact .inr ⟨rfl, rfl⟩ | skip
    cases each _ _ with
    | none => exact .inr ⟨rfl, rfl⟩
    | some x => exact .inl ⟨x, rfl, rfl⟩
  | .opt t, js, v => by
    have e : ∀ j, done (into toF junk t j (junk t)) = fromJson toF t j := fun j => (into_agree toF junk t j _).done
    cases js <;> simp only [fromJson, into, e]
    all_goals first
      | exact .inl ⟨none, rfl, rfl⟩
      | (cases fromJson toF t _ with
         | none => exact .inr ⟨rfl, rfl⟩
         | some x => exact .inl ⟨some x, rfl, rfl⟩)
  | .cls fs, js, v => by
    simp only [fromJson, into]
    exact intoFields_agree toF junk fs js v
theorem intoFields_agree (toF : Int → F) (junk : (t : Ty) → Val F t) : (fs : Fields) → (js : Value F) → (v : Vals F fs) → Agree (fromFields toF fs js) (intoFields toF junk fs js v)
  | .nil, js, v => by simp only [fromFields, intoFields]; exact .inl ⟨(), rfl, rfl⟩
  | .cons n t fs, js, v => by
    cases js with
    | obj ms =>
      have h2 := intoFields_agree toF junk fs (.obj ms) v.2
      have key : ∀ (c : Option (Val F t)) (r : Val F t × Bool), Agree c r → Agree (match c with
          | none => none
          | some x => (fromFields toF fs (.obj ms)).map fun r => (x, r)) (match r with
          | (x, false) => (((x, v.2), false) : (Val F t × Vals F fs) × Bool)
          | (x, true) => ((x, (intoFields toF junk fs (.obj ms) v.2).1), (intoFields toF junk fs (.obj ms) v.2).2)) := by
        rintro c ⟨r1, r2⟩ (⟨x, a1, a2⟩ | ⟨a1, a2⟩)
        · cases a2
          subst a1
          rcases h2 with ⟨y, b1, b2⟩ | ⟨b1, b2⟩
          · simp only [b1, b2]
            exact .inl ⟨(_, y), rfl, rfl⟩
          · simp only [b1]
            exact .inr ⟨rfl, b2⟩
        · simp only at a2
          subst a1 a2
          exact .inr ⟨rfl, rfl⟩
      simp only [fromFields, intoFields]
      cases find ms n with
      | none => exact key _ _ (agree_absent t v.1)
      | some j => exact key _ _ (into_agree toF junk t j v.1)
    | _ =>
      simp only [fromFields, intoFields]
      exact .inr ⟨rfl, rfl⟩
end

theorem mem_of_find {ms : List (Str × Value F)} {n : Str} {v : Value F} (h : find ms n = some v) : (n, v) ∈ ms := by
  simp only [find, Option.map_eq_some_iff] at h
  obtain ⟨⟨k, w⟩, h1, rfl⟩ := h
  have hk : k = n := by simpa using List.find?_some h1
  subst hk
  exact List.mem_of_find?_eq_some h1

mutual
theorem into_left (toF : Int → F) (junk : (t : Ty) → Val F t) : (t : Ty) → (js : Value F) → (v : Val F t) → (into toF junk t js v).2 = false →
    Left (fromJson toF) t js v (into toF junk t js v).1
  | .int, js, v => by cases js <;> simp [into, Left]
  | .long, js, v => by cases js <;> simp [into, Left]
  | .flt, js, v => by cases js <;> simp [into, Left]
  | .dbl, js, v => by cases js <;> simp [into, Left]
  | .bool, js, v => by cases js <;> simp [into, Left]
  | .str, js, v => by cases js <;> simp [into, Left]
  | .json, js, v => by simp [into]
  | .vec t, js, v => by
    cases js <;> simp only [into, Left] <;> try (intro _; trivial)
    split <;> simp
  | .map t, js, v => by
    cases js <;> simp only [into, Left] <;> try (intro _; trivial)
    split <;> simp
  | .opt t, js, v => by
    cases js <;> simp only [into, Left]
    all_goals first
      | (intro h; cases h)
      | (split <;> simp)
  | .cls fs, js, v => by
    intro h
    simp only [into] at h ⊢
    simp only [Left]
    cases js with
    | obj ms => exact .inl ⟨ms, rfl, intoFields_mixed toF junk fs ms v h⟩
    | _ =>
      refine .inr ⟨(fun ms e => by cases e), ?_⟩
      cases fs with
      | nil => simp [intoFields] at h
      | cons n t fs => simp only [intoFields]
theorem intoFields_mixed (toF : Int → F) (junk : (t : Ty) → Val F t) : (fs : Fields) → (ms : List (Str × Value F)) → (v : Vals F fs) → (intoFields toF junk fs (.obj ms) v).2 = false →
    Mixed (fromJson toF) fs ms v (intoFields toF junk fs (.obj ms) v).1
  | .nil, ms, v => by simp [intoFields]
  | .cons n t fs, ms, v => by
    intro h
    simp only [intoFields] at h ⊢
    simp only [Mixed]
    cases hf : find ms n with
    | none =>
      have hn : n ∉ ms.map (·.1) := find_eq_none_iff.1 hf
      rw [hf] at h
      by_cases ho : ∃ t', t = .opt t'
      · obtain ⟨t', rfl⟩ := ho
        simp only [absent] at h ⊢
        exact .inl ⟨.inr ⟨hn, rfl⟩, intoFields_mixed toF junk fs ms v.2 h⟩
      · have ha : absent t v.1 = (v.1, false) := by
          cases t <;> first | rfl | exact absurd ⟨_, rfl⟩ ho
        simp only [ha]
        exact .inr ⟨.inr ⟨hn, fun t' e => ho ⟨t', e⟩, trivial⟩, trivial⟩
    | some j =>
      have hm := mem_of_find hf
      rw [hf] at h
      simp only at h ⊢
      have ha := into_agree toF junk t j v.1
      have hl := into_left toF junk t j v.1
      rcases ha with ⟨x, a1, a2⟩ | ⟨a1, a2⟩
      · rw [a2] at h ⊢
        exact .inl ⟨.inl ⟨j, hm, a1⟩, intoFields_mixed toF junk fs ms v.2 h⟩
      · have hl' := hl a2
        generalize into toF junk t j v.1 = r at a2 h hl'
        obtain ⟨r1, r2⟩ := r
        simp only at a2
        subst a2
        exact .inr ⟨.inl ⟨j, hm, a1, hl'⟩, rfl⟩
end

end Verif.JsonCast.Lemmas
