import Verif.Uri.LemmasComplete
/-! Auxiliary lemmas on the printed form of references (no claims). -/

namespace Verif.Uri.Lemmas
open Verif.Uri Verif.Uri.Spec

theorem zero_end {s t junk : Str} (h0 : 0 ∉ s) (h : s ++ [0] = t ++ 0 :: junk) : s = t ∧ junk = [] := by
  induction s generalizing t with
  | nil =>
    cases t with
    | nil => simp at h; exact ⟨rfl, h⟩
    | cons c t => simp at h
  | cons c s ih =>
    cases t with
    | nil => simp at h; exact absurd h.1.symm (by intro e; apply h0; simp [e])
    | cons d t =>
      simp only [List.cons_append, List.cons.injEq] at h
      obtain ⟨e1, e2⟩ := ih (fun hm => h0 (by simp [hm])) h.2
      exact ⟨by rw [h.1, e1], e2⟩

theorem full_of (s : Str) (h : s.length = 4 ∧ ∀ c ∈ s, isHex c = true) : H16Full s := ⟨h.1, fun c hc => (isHex_iff c).mp (h.2 c hc)⟩

theorem getD_filter (o : Option Str) : (o.filter (fun s => !s.isEmpty)).getD [] = o.getD [] := by
  cases o with
  | none => rfl
  | some s => cases s <;> rfl

theorem filter_some {o : Option Str} {s : Str} (h : o.filter (fun s => !s.isEmpty) = some s) : o = some s := by
  cases o with
  | none => simp at h
  | some t =>
    rw [Option.filter_some] at h
    split at h
    · exact h
    · cases h

theorem parts_dropEmpty (u : Split) : parts (dropEmpty u) = parts u := by
  obtain ⟨sc, au, pa, qu, fr⟩ := u
  cases au with
  | none => simp [parts, dropEmpty, getD_filter]
  | some a => obtain ⟨ui, h, po⟩ := a; simp [parts, dropEmpty, getD_filter]

theorem valid_dropEmpty (u : Split) (h : Valid u) : Valid (dropEmpty u) := by
  obtain ⟨sc, au, pa, qu, fr⟩ := u
  obtain ⟨h1, h2, h3, h4⟩ := h
  refine ⟨h1, ?_, fun s hs => h3 s (filter_some hs), fun s hs => h4 s (filter_some hs)⟩
  cases au with
  | none => exact h2
  | some a =>
    obtain ⟨ui, h, po⟩ := a
    exact ⟨fun s hs => h2.1 s (filter_some hs), h2.2.1, fun s hs => h2.2.2.1 s (filter_some hs), h2.2.2.2⟩

theorem print_mk (a b c d e f g : Str) : print ⟨a, b, c, d, e, f, g⟩ =
    (if a ≠ [] then a ++ [58, 47, 47] else []) ++ ((if b ≠ [] then b ++ [64] else []) ++ c ++ (if d ≠ [] then 58 :: d else [])) ++
      (if e ≠ [] then e else [47]) ++ ((if f ≠ [] then 63 :: f else []) ++ (if g ≠ [] then 35 :: g else [])) := by
  rw [← List.append_assoc]; rfl

theorem print_dropEmpty (u : Split) (h : Valid u) (hs : u.scheme.isSome = u.authority.isSome) (hp : u.path ≠ []) :
    print (parts u) = compose (dropEmpty u) := by
  obtain ⟨sc, au, pa, qu, fr⟩ := u
  have hsc : ∀ s, sc = some s → s ≠ [] := by
    intro s e
    obtain ⟨c, t, rfl, _⟩ := h.1 s e
    simp
  have hp' : pa ≠ [] := hp
  have tail : (if qu.getD [] ≠ [] then 63 :: qu.getD [] else []) ++ (if fr.getD [] ≠ [] then 35 :: fr.getD [] else []) =
      after (ch '?') (qu.filter (fun s => !s.isEmpty)) ++ after (ch '#') (fr.filter (fun s => !s.isEmpty)) := by
    have : ∀ (c : UInt8) (o : Option Str), (if o.getD [] ≠ [] then c :: o.getD [] else []) = after c (o.filter (fun s => !s.isEmpty)) := by
      intro c o
      cases o with
      | none => rfl
      | some s => cases s <;> rfl
    rw [this, this]; rfl
  rw [compose_eq]
  simp only [parts, dropEmpty]
  rw [print_mk, if_pos hp', tail]
  cases au with
  | none =>
    cases sc with
    | some s => simp at hs
    | none => simp
  | some a =>
    obtain ⟨ui, ho, po⟩ := a
    cases sc with
    | none => simp at hs
    | some s =>
      have := hsc s rfl
      have hau : (if ui.getD [] ≠ [] then ui.getD [] ++ [64] else []) ++ ho ++ (if po.getD [] ≠ [] then 58 :: po.getD [] else []) =
          Spec.authorityText (ui.filter (fun s => !s.isEmpty), ho, po.filter (fun s => !s.isEmpty)) := by
        cases ui with
        | none =>
          cases po with
          | none => rfl
          | some p => cases p <;> rfl
        | some x =>
          cases x with
          | nil =>
            cases po with
            | none => rfl
            | some p => cases p <;> rfl
          | cons c x =>
            cases po with
            | none => rfl
            | some p => cases p <;> rfl
      simp only [Option.bind_some, Option.map_some, Option.getD_some, hau]
      rw [if_pos this]
      simp [ch]

end Verif.Uri.Lemmas
