import Verif.JsonDoc.Spec
import Mathlib.Data.List.Nodup
import Mathlib.Order.WellFounded
import Mathlib.Data.Fintype.Defs
/-! Helper lemmas. -/

namespace Verif.JsonDoc.Lemmas
open Verif.Json (Str Value)
open Verif.JsonDoc.Spec

variable {F : Type}

/-! ### members -/

theorem get_some {X : Type} {ms : List (Str × X)} {k : Str} {x : X} (h : get ms k = some x) : (k, x) ∈ ms := by
  unfold get at h
  obtain ⟨m, hm, rfl⟩ := Option.map_eq_some_iff.mp h
  have h1 := List.find?_some hm
  have h2 := List.mem_of_find?_eq_some hm
  simp only [decide_eq_true_eq] at h1
  rw [← h1]; exact h2

theorem get_none {X : Type} {ms : List (Str × X)} {k : Str} (h : get ms k = none) (x : X) : (k, x) ∉ ms := by
  unfold get at h
  rw [Option.map_eq_none_iff, List.find?_eq_none] at h
  intro hm
  simpa using h _ hm

theorem get_mem {X : Type} {ms : List (Str × X)} {k : Str} {x : X} (hn : (ms.map (·.1)).Nodup) (h : (k, x) ∈ ms) : get ms k = some x := by
  cases e : get ms k with
  | none => exact absurd h (get_none e x)
  | some y =>
    have := get_some e
    exact congrArg some ((Prod.mk.inj (List.inj_on_of_nodup_map hn this h rfl)).2)

theorem get_put {X : Type} (ms : List (Str × X)) (k k' : Str) (x : X) : get (put ms k x) k' = if k' = k then some x else get ms k' := by
  unfold get put
  by_cases h : k' = k
  · subst h
    rw [List.find?_append, List.find?_eq_none.mpr]
    · simp
    · intro m hm; simpa using (List.mem_filter.mp hm).2
  · rw [if_neg h, List.find?_append]
    have e : (ms.filter (fun m => decide (m.1 ≠ k))).find? (fun m => decide (m.1 = k')) = ms.find? (fun m => decide (m.1 = k')) := by
      rw [List.find?_filter]
      congr 1; funext m
      by_cases hm : m.1 = k'
      · simp [hm, h]
      · simp [hm]
    rw [e]
    have hk : ¬ k = k' := fun e => h e.symm
    cases ms.find? (fun m => decide (m.1 = k')) <;> simp [hk]

theorem nodup_put {X : Type} {ms : List (Str × X)} (hn : (ms.map (·.1)).Nodup) (k : Str) (x : X) : ((put ms k x).map (·.1)).Nodup := by
  unfold put
  rw [List.map_append, List.nodup_append]
  refine ⟨?_, by simp, ?_⟩
  · exact hn.sublist (List.Sublist.map _ List.filter_sublist)
  · intro a ha b hb
    simp only [List.map_cons, List.map_nil, List.mem_singleton] at hb
    subst hb
    obtain ⟨m, hm, rfl⟩ := List.mem_map.mp ha
    simpa using (List.mem_filter.mp hm).2

theorem mem_put {X : Type} {ms : List (Str × X)} {k k' : Str} {x y : X} (h : (k', y) ∈ put ms k x) : (k', y) ∈ ms ∨ y = x := by
  unfold put at h
  rcases List.mem_append.mp h with h | h
  · exact .inl (List.mem_filter.mp h).1
  · exact .inr (Prod.mk.inj (List.mem_singleton.mp h)).2

theorem put_fresh {X : Type} {ms : List (Str × X)} {k : Str} (x : X) (h : k ∉ ms.map (·.1)) : put ms k x = ms ++ [(k, x)] := by
  unfold put
  rw [List.filter_eq_self.mpr]
  intro m hm
  simp only [ne_eq, decide_not, Bool.not_eq_true', decide_eq_false_iff_not]
  rintro rfl
  exact h (List.mem_map_of_mem hm)

/-! ### reaching -/

theorem Reach.trans {h : List (Node F)} {a b c : Nat} (h1 : Reach h a b) (h2 : Reach h b c) : Reach h a c := by
  induction h1 with
  | refl => exact h2
  | step e _ ih => exact .step e (ih h2)

theorem Edge.lt {h : List (Node F)} {a b : Nat} (e : Edge h a b) : a < h.length := by
  rcases e with ⟨es, h1, _⟩ | ⟨ms, h1, _⟩ <;> exact (List.getElem?_eq_some_iff.mp h1).1

/-- Closed under parts. -/
theorem Reach.closed {h : List (Node F)} {P : Nat → Prop} (hP : ∀ a b, P a → Edge h a b → P b) {a b : Nat} (h1 : Reach h a b) (ha : P a) : P b := by
  induction h1 with
  | refl => exact ha
  | step e _ ih => exact ih (hP _ _ ha e)

theorem edge_congr {h h' : List (Node F)} {a b : Nat} (e : h'[a]? = h[a]?) : Edge h' a b ↔ Edge h a b := by
  unfold Edge; rw [e]

/-- Unchanged on what is reached. -/
theorem Reach.same {h h' : List (Node F)} {a b : Nat} (h1 : Reach h a b) (hs : ∀ c, Reach h a c → h'[c]? = h[c]?) : Reach h' a b := by
  induction h1 with
  | refl => exact .refl _
  | step e _ ih =>
    exact .step ((edge_congr (hs _ (.refl _))).mpr e) (ih (fun c hc => hs c (.step e hc)))

theorem Shows.same {h h' : List (Node F)} {a : Nat} {v : Value F} (h1 : Shows h a v) (hs : ∀ c, Reach h a c → h'[c]? = h[c]?) :
    Shows h' a v := by
  induction h1 with
  | null e => exact .null (by rw [hs _ (.refl _), e])
  | int e => exact .int (by rw [hs _ (.refl _), e])
  | flt e => exact .flt (by rw [hs _ (.refl _), e])
  | bool e => exact .bool (by rw [hs _ (.refl _), e])
  | str e => exact .str (by rw [hs _ (.refl _), e])
  | arr e hl _ ih =>
    refine .arr (by rw [hs _ (.refl _), e]) hl (fun i b v hb hv => ih i b v hb hv (fun c hc => hs c (.step (.inl ⟨_, e, ?_⟩) hc)))
    exact List.mem_of_getElem? hb
  | obj e hl _ ih =>
    refine .obj (by rw [hs _ (.refl _), e]) hl (fun i m w hb hv => ih i m w hb hv (fun c hc => hs c (.step (.inr ⟨_, e, m.1, ?_⟩) hc)))
    exact List.mem_of_getElem? hb

theorem Shows.inj {h : List (Node F)} {a : Nat} {v w : Value F} (h1 : Shows h a v) (h2 : Shows h a w) : v = w := by
  induction h1 generalizing w with
  | null e => cases h2 <;> simp_all
  | int e => cases h2 <;> simp_all
  | flt e => cases h2 <;> simp_all
  | bool e => cases h2 <;> simp_all
  | str e => cases h2 <;> simp_all
  | @arr a es vs e hl _ ih =>
    cases h2 with
    | @arr _ es' ws e' hl' h' =>
      rw [e] at e'; cases e'
      congr 1
      apply List.ext_getElem?
      intro i
      cases hb : es[i]? with
      | none =>
        rw [List.getElem?_eq_none_iff] at hb
        rw [List.getElem?_eq_none (by omega), List.getElem?_eq_none (by omega)]
      | some b =>
        have hi := (List.getElem?_eq_some_iff.mp hb).1
        have h3 : vs[i]? = some (vs[i]'(by omega)) := List.getElem?_eq_getElem _
        have h4 : ws[i]? = some (ws[i]'(by omega)) := List.getElem?_eq_getElem _
        rw [h3, h4, ih i b _ hb h3 (h' i b _ hb h4)]
    | _ => simp_all
  | @obj a ms vs e hl _ ih =>
    cases h2 with
    | @obj _ ms' ws e' hl' h' =>
      rw [e] at e'; cases e'
      congr 1
      have l1 : ms.length = vs.length := by simpa using congrArg List.length hl
      have l2 : ms.length = ws.length := by simpa using congrArg List.length hl'
      apply List.ext_getElem?
      intro i
      cases hb : ms[i]? with
      | none =>
        rw [List.getElem?_eq_none_iff] at hb
        rw [List.getElem?_eq_none (by omega), List.getElem?_eq_none (by omega)]
      | some b =>
        have hi := (List.getElem?_eq_some_iff.mp hb).1
        have h3 : vs[i]? = some (vs[i]'(by omega)) := List.getElem?_eq_getElem _
        have h4 : ws[i]? = some (ws[i]'(by omega)) := List.getElem?_eq_getElem _
        have h5 := ih i b _ hb h3 (h' i b _ hb h4)
        have h6 : (vs[i]'(by omega)).1 = (ws[i]'(by omega)).1 := by
          have : (vs.map (·.1))[i]? = (ws.map (·.1))[i]? := by rw [← hl, ← hl']
          simpa [List.getElem?_map, h3, h4] using this
        rw [h3, h4]
        exact congrArg some (Prod.ext h6 h5)
    | _ => simp_all

/-! ### loops -/

/-- There is no endless way down. -/
def Tame (h : List (Node F)) : Prop := ∀ a, Acc (fun b a => Edge h a b) a

theorem tame_noLoop {h : List (Node F)} (ht : Tame h) : NoLoop h := by
  intro a
  induction ht a with
  | intro a _ ih =>
    intro b e r
    cases r with
    | refl => exact ih _ e _ e (.refl _)
    | step e' r' => exact ih b e _ e' (Reach.trans r' (.step e (.refl _)))

theorem shows_acc {h : List (Node F)} {a : Nat} {v : Value F} (h1 : Shows h a v) : Acc (fun b a => Edge h a b) a := by
  induction h1 with
  | null e => exact ⟨_, fun b he => by rcases he with ⟨_, h2, _⟩ | ⟨_, h2, _⟩ <;> simp_all⟩
  | int e => exact ⟨_, fun b he => by rcases he with ⟨_, h2, _⟩ | ⟨_, h2, _⟩ <;> simp_all⟩
  | flt e => exact ⟨_, fun b he => by rcases he with ⟨_, h2, _⟩ | ⟨_, h2, _⟩ <;> simp_all⟩
  | bool e => exact ⟨_, fun b he => by rcases he with ⟨_, h2, _⟩ | ⟨_, h2, _⟩ <;> simp_all⟩
  | str e => exact ⟨_, fun b he => by rcases he with ⟨_, h2, _⟩ | ⟨_, h2, _⟩ <;> simp_all⟩
  | @arr a es vs e hl _ ih =>
    refine ⟨_, fun b he => ?_⟩
    rcases he with ⟨es', h2, hb⟩ | ⟨_, h2, _⟩
    · rw [e] at h2; cases h2
      obtain ⟨i, hi⟩ := List.mem_iff_getElem?.mp hb
      have := (List.getElem?_eq_some_iff.mp hi).1
      exact ih i b _ hi (List.getElem?_eq_getElem (by omega))
    · simp_all
  | @obj a ms vs e hl _ ih =>
    refine ⟨_, fun b he => ?_⟩
    have l1 : ms.length = vs.length := by simpa using congrArg List.length hl
    rcases he with ⟨es', h2, hb⟩ | ⟨ms', h2, k, hb⟩
    · simp_all
    · rw [e] at h2; cases h2
      obtain ⟨i, hi⟩ := List.mem_iff_getElem?.mp hb
      have := (List.getElem?_eq_some_iff.mp hi).1
      exact ih i _ _ hi (List.getElem?_eq_getElem (by omega))

/-- A finite memory without loops has no endless way down. -/
theorem noLoop_tame {h : List (Node F)} (hn : NoLoop h) (he : ∀ a b, Edge h a b → b < h.length) : Tame h := by
  -- the number of values not above `a` falls along edges
  have key : ∀ (n : Nat) (a : Nat) (l : List Nat), l.Nodup → (∀ x ∈ l, x < h.length ∧ x ≠ a ∧ Reach h x a) → a < h.length →
      h.length ≤ l.length + n → Acc (fun b a => Edge h a b) a := by
    intro n
    induction n with
    | zero =>
      intro a l hl hx ha hlen
      exfalso
      have h1 : (a :: l) ⊆ List.range h.length := by
        intro x hx'
        rcases List.mem_cons.mp hx' with rfl | h'
        · exact List.mem_range.mpr ha
        · exact List.mem_range.mpr (hx x h').1
      have h2 : (a :: l).Nodup := List.nodup_cons.mpr ⟨fun hm => (hx a hm).2.1 rfl, hl⟩
      have := (List.subperm_of_subset h2 h1).length_le
      simp at this
      omega
    | succ n ih =>
      intro a l hl hx ha hlen
      refine ⟨_, fun b e => ih b (a :: l) ?_ ?_ (he a b e) (by simp; omega)⟩
      · exact List.nodup_cons.mpr ⟨fun hm => (hx a hm).2.1 rfl, hl⟩
      · intro x hx'
        rcases List.mem_cons.mp hx' with rfl | h'
        · exact ⟨ha, fun e' => hn x b e (e' ▸ .refl _), .step e (.refl _)⟩
        · have h3 := hx x h'
          refine ⟨h3.1, ?_, Reach.trans h3.2.2 (.step e (.refl _))⟩
          rintro rfl
          exact hn a x e h3.2.2
  intro a
  by_cases ha : a < h.length
  · exact key h.length a [] List.nodup_nil (by simp) ha (by simp)
  · exact ⟨_, fun b e => absurd (Edge.lt e) ha⟩

/-- One new edge. -/
theorem tame_add {h h' : List (Node F)} {t c : Nat} (ht : Tame h) (hc : ¬ Reach h c t)
    (he : ∀ a b, Edge h' a b → Edge h a b ∨ (a = t ∧ b = c)) : Tame h' := by
  have s1 : ∀ a, ¬ Reach h a t → Acc (fun b a => Edge h' a b) a := by
    intro a
    induction ht a with
    | intro a _ ih =>
      intro hr
      refine ⟨_, fun b e => ?_⟩
      rcases he a b e with e' | ⟨rfl, _⟩
      · exact ih b e' (fun hr' => hr (.step e' hr'))
      · exact absurd (.refl _) hr
  intro a
  induction ht a with
  | intro a _ ih =>
    refine ⟨_, fun b e => ?_⟩
    rcases he a b e with e' | ⟨_, rfl⟩
    · exact ih b e'
    · exact s1 _ hc

/-- New values made of older ones. -/
theorem tame_ext {h h' : List (Node F)} (ht : Tame h) (hr : ∀ a b, Edge h a b → b < h.length)
    (he : ∀ a b, Edge h' a b → Edge h a b ∨ (h.length ≤ a ∧ b < a)) : Tame h' := by
  have old : ∀ a, a < h.length → Acc (fun b a => Edge h' a b) a := by
    intro a
    induction ht a with
    | intro a _ ih =>
      intro ha
      refine ⟨_, fun b e => ?_⟩
      rcases he a b e with e' | e'
      · exact ih b e' (hr a b e')
      · omega
  intro a
  induction a using Nat.strongRecOn with
  | ind a ih =>
    by_cases ha : a < h.length
    · exact old a ha
    · refine ⟨_, fun b e => ?_⟩
      rcases he a b e with e' | e'
      · exact absurd (Edge.lt e') ha
      · exact ih b e'.2

/-! ### reading -/

theorem readL_ok {h : List (Node F)} {d : Nat} : ∀ {es : List Nat} {vs : List (Value F)}, readL h d es = .ok vs →
    es.length = vs.length ∧ ∀ (i b : Nat) (v : Value F), es[i]? = some b → vs[i]? = some v → read h d b = .ok v
  | [], vs, e => by
    simp only [readL, Except.ok.injEq] at e; subst e; simp
  | a :: as, vs, e => by
    simp only [readL] at e
    cases h1 : read h d a with
    | error r => rw [h1] at e; cases e
    | ok v =>
      rw [h1] at e
      cases h2 : readL h d as with
      | error r => rw [h2] at e; cases e
      | ok ws =>
        rw [h2] at e; cases e
        have ih := readL_ok h2
        refine ⟨by simp [ih.1], fun i b w hb hw => ?_⟩
        cases i with
        | zero => simp only [List.getElem?_cons_zero, Option.some.injEq] at hb hw; rw [← hb, ← hw]; exact h1
        | succ i => exact ih.2 i b w (by simpa using hb) (by simpa using hw)

theorem readM_ok {h : List (Node F)} {d : Nat} : ∀ {ms : List (Str × Nat)} {vs : List (Str × Value F)}, readM h d ms = .ok vs →
    ms.map (·.1) = vs.map (·.1) ∧ ∀ (i : Nat) (m : Str × Nat) (w : Str × Value F), ms[i]? = some m → vs[i]? = some w → read h d m.2 = .ok w.2
  | [], vs, e => by
    simp only [readM, Except.ok.injEq] at e; subst e; simp
  | (k, a) :: as, vs, e => by
    simp only [readM] at e
    cases h1 : read h d a with
    | error r => rw [h1] at e; cases e
    | ok v =>
      rw [h1] at e
      cases h2 : readM h d as with
      | error r => rw [h2] at e; cases e
      | ok ws =>
        rw [h2] at e; cases e
        have ih := readM_ok h2
        refine ⟨by simp [ih.1], fun i m w hb hw => ?_⟩
        cases i with
        | zero => simp only [List.getElem?_cons_zero, Option.some.injEq] at hb hw; rw [← hb, ← hw]; exact h1
        | succ i => exact ih.2 i m w (by simpa using hb) (by simpa using hw)

theorem read_shows {h : List (Node F)} : ∀ {d a : Nat} {v : Value F}, read h d a = .ok v → Shows h a v
  | 0, a, v, e => by simp [read] at e
  | d + 1, a, v, e => by
    simp only [read] at e
    cases hn : h[a]? with
    | none => rw [hn] at e; cases e
    | some n =>
      rw [hn] at e
      cases n with
      | null => cases e; exact .null hn
      | int n => cases e; exact .int hn
      | flt n => cases e; exact .flt hn
      | bool n => cases e; exact .bool hn
      | str n => cases e; exact .str hn
      | nothing => cases e
      | arr es =>
        dsimp only at e
        cases h1 : readL h d es with
        | error r => rw [h1] at e; cases e
        | ok vs =>
          rw [h1] at e; cases e
          have h2 := readL_ok h1
          exact .arr hn h2.1 (fun i b v hb hv => read_shows (h2.2 i b v hb hv))
      | obj ms =>
        dsimp only at e
        cases h1 : readM h d ms with
        | error r => rw [h1] at e; cases e
        | ok vs =>
          rw [h1] at e; cases e
          have h2 := readM_ok h1
          exact .obj hn h2.1 (fun i b v hb hv => read_shows (h2.2 i b v hb hv))

theorem readL_intro {h : List (Node F)} : ∀ {es : List Nat} {vs : List (Value F)}, es.length = vs.length →
    (∀ (i b : Nat) (v : Value F), es[i]? = some b → vs[i]? = some v → ∃ d0, ∀ d, d0 ≤ d → read h d b = .ok v) →
    ∃ d0, ∀ d, d0 ≤ d → readL h d es = .ok vs
  | [], [], _, _ => ⟨0, fun d _ => by simp only [readL]⟩
  | a :: as, v :: vs, hl, H => by
    obtain ⟨d1, h1⟩ := H 0 a v rfl rfl
    obtain ⟨d2, h2⟩ := readL_intro (es := as) (vs := vs) (by simpa using hl)
      (fun i b w hb hw => H (i + 1) b w (by simpa using hb) (by simpa using hw))
    refine ⟨max d1 d2, fun d hd => ?_⟩
    simp only [readL]
    rw [h1 d (by omega), h2 d (by omega)]

theorem readM_intro {h : List (Node F)} : ∀ {ms : List (Str × Nat)} {vs : List (Str × Value F)}, ms.map (·.1) = vs.map (·.1) →
    (∀ (i : Nat) (m : Str × Nat) (w : Str × Value F), ms[i]? = some m → vs[i]? = some w → ∃ d0, ∀ d, d0 ≤ d → read h d m.2 = .ok w.2) →
    ∃ d0, ∀ d, d0 ≤ d → readM h d ms = .ok vs
  | [], [], _, _ => ⟨0, fun d _ => by simp only [readM]⟩
  | (k, a) :: as, (l, v) :: vs, hl, H => by
    simp only [List.map_cons, List.cons.injEq] at hl
    obtain ⟨rfl, hl⟩ := hl
    obtain ⟨d1, h1⟩ := H 0 _ _ rfl rfl
    obtain ⟨d2, h2⟩ := readM_intro (ms := as) (vs := vs) hl
      (fun i b w hb hw => H (i + 1) b w (by simpa using hb) (by simpa using hw))
    refine ⟨max d1 d2, fun d hd => ?_⟩
    simp only [readM]
    dsimp only at h1
    rw [h1 d (by omega), h2 d (by omega)]

theorem shows_read {h : List (Node F)} {a : Nat} {v : Value F} (h1 : Shows h a v) : ∃ d0, ∀ d, d0 ≤ d → read h d a = .ok v := by
  induction h1 with
  | null e => exact ⟨1, fun d hd => by obtain ⟨d, rfl⟩ := Nat.exists_eq_add_of_le' hd; simp only [read]; rw [e]⟩
  | int e => exact ⟨1, fun d hd => by obtain ⟨d, rfl⟩ := Nat.exists_eq_add_of_le' hd; simp only [read]; rw [e]⟩
  | flt e => exact ⟨1, fun d hd => by obtain ⟨d, rfl⟩ := Nat.exists_eq_add_of_le' hd; simp only [read]; rw [e]⟩
  | bool e => exact ⟨1, fun d hd => by obtain ⟨d, rfl⟩ := Nat.exists_eq_add_of_le' hd; simp only [read]; rw [e]⟩
  | str e => exact ⟨1, fun d hd => by obtain ⟨d, rfl⟩ := Nat.exists_eq_add_of_le' hd; simp only [read]; rw [e]⟩
  | arr e hl _ ih =>
    obtain ⟨d0, h0⟩ := readL_intro hl ih
    exact ⟨d0 + 1, fun d hd => by
      obtain ⟨d, rfl⟩ := Nat.exists_eq_add_of_le' (show 1 ≤ d by omega)
      simp only [read]; rw [e]; dsimp only; rw [h0 d (by omega)]⟩
  | obj e hl _ ih =>
    obtain ⟨d0, h0⟩ := readM_intro hl ih
    exact ⟨d0 + 1, fun d hd => by
      obtain ⟨d, rfl⟩ := Nat.exists_eq_add_of_le' (show 1 ≤ d by omega)
      simp only [read]; rw [e]; dsimp only; rw [h0 d (by omega)]⟩

mutual
/-- Reading does not see new values. -/
theorem read_ext (h t : List (Node F)) (hr : ∀ a b, Edge h a b → b < h.length) : ∀ (d a : Nat), a < h.length →
    read (h ++ t) d a = read h d a
  | 0, _, _ => by simp only [read]
  | d + 1, a, ha => by
    simp only [read]
    rw [List.getElem?_append_left ha]
    cases hn : h[a]? with
    | none => rfl
    | some n =>
      cases n with
      | arr es =>
        dsimp only
        rw [readL_ext h t hr d es (fun x hx => hr a x (.inl ⟨es, hn, hx⟩))]
      | obj ms =>
        dsimp only
        rw [readM_ext h t hr d ms (fun m hm => hr a m.2 (.inr ⟨ms, hn, m.1, hm⟩))]
      | _ => rfl
theorem readL_ext (h t : List (Node F)) (hr : ∀ a b, Edge h a b → b < h.length) : ∀ (d : Nat) (es : List Nat), (∀ x ∈ es, x < h.length) →
    readL (h ++ t) d es = readL h d es
  | _, [], _ => by simp only [readL]
  | d, a :: as, H => by
    simp only [readL]
    rw [read_ext h t hr d a (H a (by simp)), readL_ext h t hr d as (fun x hx => H x (by simp [hx]))]
theorem readM_ext (h t : List (Node F)) (hr : ∀ a b, Edge h a b → b < h.length) : ∀ (d : Nat) (ms : List (Str × Nat)),
    (∀ m ∈ ms, m.2 < h.length) → readM (h ++ t) d ms = readM h d ms
  | _, [], _ => by simp only [readM]
  | d, (k, a) :: as, H => by
    simp only [readM]
    have h0 : a < h.length := H (k, a) List.mem_cons_self
    rw [read_ext h t hr d a h0, readM_ext h t hr d as (fun x hx => H x (by simp [hx]))]
end

theorem shows_ext {h : List (Node F)} {a : Nat} {v : Value F} (t : List (Node F)) (h1 : Shows h a v) : Shows (h ++ t) a v := by
  have up : ∀ {c : Nat} {n : Node F}, h[c]? = some n → (h ++ t)[c]? = some n := by
    intro c n hc
    rw [List.getElem?_append_left (List.getElem?_eq_some_iff.mp hc).1, hc]
  induction h1 with
  | null e => exact .null (up e)
  | int e => exact .int (up e)
  | flt e => exact .flt (up e)
  | bool e => exact .bool (up e)
  | str e => exact .str (up e)
  | arr e hl _ ih => exact .arr (up e) hl ih
  | obj e hl _ ih => exact .obj (up e) hl ih

/-! ### cloning -/

/-- Memory that grew by values made only of new ones. -/
structure Grown (h h' : List (Node F)) : Prop where
  pre : ∃ t, h' = h ++ t
  down : ∀ a b, h.length ≤ a → Edge h' a b → h.length ≤ b ∧ b < a
  names : ∀ (a : Nat) (ms : List (Str × Nat)), h.length ≤ a → h'[a]? = some (.obj ms) → (ms.map (·.1)).Nodup

theorem Grown.refl (h : List (Node F)) : Grown h h :=
  ⟨⟨[], by simp⟩, fun a b ha e => absurd (Edge.lt e) (by omega), fun a ms ha e => by
    have := (List.getElem?_eq_some_iff.mp e).1; omega⟩

theorem Grown.le {h h' : List (Node F)} (g : Grown h h') : h.length ≤ h'.length := by
  obtain ⟨t, rfl⟩ := g.pre; simp

theorem Grown.old {h h' : List (Node F)} (g : Grown h h') {a : Nat} (ha : a < h.length) : h'[a]? = h[a]? := by
  obtain ⟨t, rfl⟩ := g.pre; exact List.getElem?_append_left ha

theorem Grown.trans {h h' h'' : List (Node F)} (g : Grown h h') (g' : Grown h' h'') : Grown h h'' := by
  have l := g.le
  refine ⟨?_, ?_, ?_⟩
  · obtain ⟨t, rfl⟩ := g.pre; obtain ⟨t', rfl⟩ := g'.pre; exact ⟨t ++ t', by simp⟩
  · intro a b ha e
    by_cases h1 : a < h'.length
    · exact g.down a b ha ((edge_congr (g'.old h1)).mp e)
    · have := g'.down a b (by omega) e; omega
  · intro a ms ha e
    by_cases h1 : a < h'.length
    · exact g.names a ms ha (by rw [← g'.old h1]; exact e)
    · exact g'.names a ms (by omega) e

theorem Grown.closed {h h' : List (Node F)} (g : Grown h h') (hr : ∀ a b, Edge h a b → b < h.length) :
    ∀ a b, Edge h' a b → b < h'.length := by
  intro a b e
  have l := g.le
  by_cases h1 : a < h.length
  · have := hr a b ((edge_congr (g.old h1)).mp e); omega
  · have := g.down a b (by omega) e
    have := Edge.lt e
    omega

theorem Grown.names' {h h' : List (Node F)} (g : Grown h h')
    (hn : ∀ (a : Nat) (ms : List (Str × Nat)), h[a]? = some (.obj ms) → (ms.map (·.1)).Nodup) :
    ∀ (a : Nat) (ms : List (Str × Nat)), h'[a]? = some (.obj ms) → (ms.map (·.1)).Nodup := by
  intro a ms e
  by_cases h1 : a < h.length
  · exact hn a ms (by rw [← g.old h1]; exact e)
  · exact g.names a ms (by omega) e

theorem edge_push {h : List (Node F)} {n : Node F} {a b : Nat} (e : Edge (h ++ [n]) a b) :
    Edge h a b ∨ (a = h.length ∧ ((∃ es, n = .arr es ∧ b ∈ es) ∨ ∃ ms, n = .obj ms ∧ ∃ k, (k, b) ∈ ms)) := by
  by_cases ha : a < h.length
  · exact .inl ((edge_congr (List.getElem?_append_left ha)).mp e)
  · have h1 : a = h.length := by
      have := Edge.lt e; simp at this; omega
    subst h1
    have h2 : (h ++ [n])[h.length]? = some n := by simp
    refine .inr ⟨rfl, ?_⟩
    unfold Edge at e
    rw [h2] at e
    rcases e with ⟨es, h3, h4⟩ | ⟨ms, h3, h4⟩
    · exact .inl ⟨es, Option.some.inj h3, h4⟩
    · exact .inr ⟨ms, Option.some.inj h3, h4⟩

theorem Grown.push {h h' : List (Node F)} (g : Grown h h') (n : Node F)
    (h1 : ∀ es, n = .arr es → ∀ b ∈ es, h.length ≤ b ∧ b < h'.length)
    (h2 : ∀ ms, n = .obj ms → (ms.map (·.1)).Nodup ∧ ∀ m ∈ ms, h.length ≤ m.2 ∧ m.2 < h'.length) : Grown h (h' ++ [n]) := by
  refine ⟨?_, ?_, ?_⟩
  · obtain ⟨t, rfl⟩ := g.pre; exact ⟨t ++ [n], by simp⟩
  · intro a b ha e
    rcases edge_push e with e | ⟨rfl, ⟨es, rfl, hb⟩ | ⟨ms, rfl, k, hb⟩⟩
    · exact g.down a b ha e
    · exact h1 es rfl b hb
    · exact (h2 ms rfl).2 _ hb
  · intro a ms ha e
    by_cases ha' : a < h'.length
    · rw [List.getElem?_append_left ha'] at e
      exact g.names a ms ha e
    · have h3 : a = h'.length := by
        have := (List.getElem?_eq_some_iff.mp e).1; simp at this; omega
      subst h3
      simp at e
      exact (h2 ms e).1

mutual
/-- Cloning fails as reading does; else it gives new values showing the same. -/
theorem clone_spec : ∀ (d : Nat) (h : List (Node F)) (a : Nat), (∀ a b, Edge h a b → b < h.length) → a < h.length →
    (∀ (a : Nat) (ms : List (Str × Nat)), h[a]? = some (.obj ms) → (ms.map (·.1)).Nodup) →
    (∀ v, read h d a = .ok v → ∃ h' b, clone d h a = .ok (h', b) ∧ Grown h h' ∧ h.length ≤ b ∧ b < h'.length ∧ Shows h' b v) ∧
    (∀ e, read h d a = .error e → clone d h a = .error e)
  | 0, h, a, _, _, _ => by
    simp only [read, clone]
    exact ⟨fun v e => by (cases e), fun e he => by cases he; rfl⟩
  | d + 1, h, a, hr, ha, hn => by
    simp only [read, clone]
    have leaf : ∀ (n : Node F) (v : Value F), (∀ h' b, h'[b]? = some n → Shows h' b v) → (∀ es, n ≠ .arr es) → (∀ ms, n ≠ .obj ms) →
        ∃ h' b, (Except.ok (h ++ [n], h.length) : Except Err _) = .ok (h', b) ∧ Grown h h' ∧ h.length ≤ b ∧ b < h'.length ∧ Shows h' b v := by
      intro n v hv h1 h2
      exact ⟨_, _, rfl, (Grown.refl h).push n (fun es e => absurd e (h1 es)) (fun ms e => absurd e (h2 ms)), Nat.le_refl _, by simp,
        hv _ _ (by simp)⟩
    cases hna : h[a]? with
    | none => exact ⟨fun v e => by (cases e), fun e he => by cases he; rfl⟩
    | some n =>
      cases n with
      | null => exact ⟨fun v e => by cases e; exact leaf _ _ (fun _ _ e => .null e) (by simp) (by simp), fun e he => by cases he⟩
      | int n => exact ⟨fun v e => by cases e; exact leaf _ _ (fun _ _ e => .int e) (by simp) (by simp), fun e he => by cases he⟩
      | flt n => exact ⟨fun v e => by cases e; exact leaf _ _ (fun _ _ e => .flt e) (by simp) (by simp), fun e he => by cases he⟩
      | bool n => exact ⟨fun v e => by cases e; exact leaf _ _ (fun _ _ e => .bool e) (by simp) (by simp), fun e he => by cases he⟩
      | str n => exact ⟨fun v e => by cases e; exact leaf _ _ (fun _ _ e => .str e) (by simp) (by simp), fun e he => by cases he⟩
      | nothing => exact ⟨fun v e => by (cases e), fun e he => by cases he; rfl⟩
      | arr es =>
        dsimp only
        have IH := cloneL_spec d h es hr (fun x hx => hr a x (.inl ⟨es, hna, hx⟩)) hn
        constructor
        · intro v e
          cases h1 : readL h d es with
          | error r => rw [h1] at e; cases e
          | ok vs =>
            rw [h1] at e; cases e
            obtain ⟨h', bs, h2, g, hb, hl, hv⟩ := IH.1 vs h1
            rw [h2]
            refine ⟨_, _, rfl, g.push _ (fun es e => by cases e; exact hb) (fun ms e => by cases e), g.le, by simp, ?_⟩
            exact .arr (es := bs) (by simp) hl (fun i b v hb' hv' => shows_ext _ (hv i b v hb' hv'))
        · intro e he
          cases h1 : readL h d es with
          | ok vs => rw [h1] at he; cases he
          | error r => rw [h1] at he; cases he; rw [IH.2 _ h1]
      | obj ms =>
        dsimp only
        have IH := cloneM_spec d h ms [] hr (fun m hm => hr a m.2 (.inr ⟨ms, hna, m.1, hm⟩)) hn (by simpa using hn a ms hna)
        constructor
        · intro v e
          cases h1 : readM h d ms with
          | error r => rw [h1] at e; cases e
          | ok vs =>
            rw [h1] at e; cases e
            obtain ⟨h', bs, h2, g, hb, hl, hv⟩ := IH.1 vs h1
            rw [h2]
            have hk : bs.map (·.1) = ms.map (·.1) := by rw [hl, (readM_ok h1).1]
            refine ⟨_, _, rfl, g.push _ (fun es e => by cases e) (fun ns e => ?_), g.le, by simp, ?_⟩
            · cases e
              exact ⟨by simpa [hk] using hn a ms hna, by simpa using hb⟩
            · exact .obj (ms := bs) (by simp) hl (fun i b v hb' hv' => shows_ext _ (hv i b v hb' hv'))
        · intro e he
          cases h1 : readM h d ms with
          | ok vs => rw [h1] at he; cases he
          | error r => rw [h1] at he; cases he; rw [IH.2 _ h1]
theorem cloneL_spec : ∀ (d : Nat) (h : List (Node F)) (es : List Nat), (∀ a b, Edge h a b → b < h.length) → (∀ x ∈ es, x < h.length) →
    (∀ (a : Nat) (ms : List (Str × Nat)), h[a]? = some (.obj ms) → (ms.map (·.1)).Nodup) →
    (∀ vs, readL h d es = .ok vs → ∃ h' bs, cloneL d h es = .ok (h', bs) ∧ Grown h h' ∧ (∀ b ∈ bs, h.length ≤ b ∧ b < h'.length) ∧
      bs.length = vs.length ∧ ∀ (i b : Nat) (v : Value F), bs[i]? = some b → vs[i]? = some v → Shows h' b v) ∧
    (∀ e, readL h d es = .error e → cloneL d h es = .error e)
  | d, h, [], _, _, _ => by
    simp only [readL, cloneL]
    exact ⟨fun vs e => by cases e; exact ⟨_, _, rfl, Grown.refl h, by simp, rfl, by simp⟩, fun e he => by cases he⟩
  | d, h, a :: as, hr, H, hn => by
    simp only [readL, cloneL]
    have IH := clone_spec d h a hr (H a (by simp)) hn
    cases h1 : read h d a with
    | error r =>
      rw [IH.2 r h1]
      exact ⟨fun v e => by (cases e), fun e he => by cases he; rfl⟩
    | ok v =>
      obtain ⟨h', b, h2, g, hb1, hb2, hv⟩ := IH.1 v h1
      rw [h2]
      dsimp only
      have l := g.le
      have H' : ∀ x ∈ as, x < h.length := fun x hx => H x (by simp [hx])
      have IH' := cloneL_spec d h' as (g.closed hr) (fun x hx => by have := H' x hx; omega) (g.names' hn)
      have same : readL h' d as = readL h d as := by
        obtain ⟨t, rfl⟩ := g.pre; exact readL_ext h t hr d as H'
      rw [same] at IH'
      cases h3 : readL h d as with
      | error r =>
        rw [IH'.2 r h3]
        exact ⟨fun v e => by (cases e), fun e he => by cases he; rfl⟩
      | ok vs =>
        obtain ⟨h'', bs, h4, g', hb, hl, hv'⟩ := IH'.1 vs h3
        rw [h4]
        refine ⟨fun ws e => ?_, fun e he => by cases he⟩
        cases e
        have l' := g'.le
        refine ⟨_, _, rfl, g.trans g', ?_, by simp [hl], ?_⟩
        · intro x hx
          rcases List.mem_cons.mp hx with rfl | hx
          · omega
          · have := hb x hx; omega
        · intro i c w hc hw
          cases i with
          | zero =>
            simp only [List.getElem?_cons_zero, Option.some.injEq] at hc hw
            subst hc hw
            obtain ⟨t, rfl⟩ := g'.pre
            exact shows_ext t hv
          | succ i => exact hv' i c w (by simpa using hc) (by simpa using hw)
theorem cloneM_spec : ∀ (d : Nat) (h : List (Node F)) (ms ns : List (Str × Nat)), (∀ a b, Edge h a b → b < h.length) →
    (∀ m ∈ ms, m.2 < h.length) →
    (∀ (a : Nat) (ms : List (Str × Nat)), h[a]? = some (.obj ms) → (ms.map (·.1)).Nodup) → ((ns ++ ms).map (·.1)).Nodup →
    (∀ vs, readM h d ms = .ok vs → ∃ h' bs, cloneM d h ms ns = .ok (h', ns ++ bs) ∧ Grown h h' ∧ (∀ b ∈ bs, h.length ≤ b.2 ∧ b.2 < h'.length) ∧
      bs.map (·.1) = vs.map (·.1) ∧
      ∀ (i : Nat) (m : Str × Nat) (w : Str × Value F), bs[i]? = some m → vs[i]? = some w → Shows h' m.2 w.2) ∧
    (∀ e, readM h d ms = .error e → cloneM d h ms ns = .error e)
  | d, h, [], ns, _, _, _, _ => by
    simp only [readM, cloneM]
    exact ⟨fun vs e => by cases e; exact ⟨_, [], by simp, Grown.refl h, by simp, rfl, by simp⟩, fun e he => by cases he⟩
  | d, h, (k, a) :: as, ns, hr, H, hn, hk => by
    simp only [readM, cloneM]
    have h0 : a < h.length := H (k, a) List.mem_cons_self
    have IH := clone_spec d h a hr h0 hn
    cases h1 : read h d a with
    | error r =>
      rw [IH.2 r h1]
      exact ⟨fun v e => by (cases e), fun e he => by cases he; rfl⟩
    | ok v =>
      obtain ⟨h', b, h2, g, hb1, hb2, hv⟩ := IH.1 v h1
      rw [h2]
      dsimp only
      have l := g.le
      have H' : ∀ x ∈ as, x.2 < h.length := fun x hx => H x (by simp [hx])
      have hf : k ∉ ns.map (·.1) := by
        rw [List.map_append, List.nodup_append] at hk
        intro hm
        exact hk.2.2 k hm k (by simp) rfl
      rw [put_fresh b hf]
      have IH' := cloneM_spec d h' as (ns ++ [(k, b)]) (g.closed hr) (fun x hx => by have := H' x hx; omega) (g.names' hn) (by simpa using hk)
      have same : readM h' d as = readM h d as := by
        obtain ⟨t, rfl⟩ := g.pre; exact readM_ext h t hr d as H'
      rw [same] at IH'
      cases h3 : readM h d as with
      | error r =>
        rw [IH'.2 r h3]
        exact ⟨fun v e => by (cases e), fun e he => by cases he; rfl⟩
      | ok vs =>
        obtain ⟨h'', bs, h4, g', hb, hl, hv'⟩ := IH'.1 vs h3
        rw [h4]
        refine ⟨fun ws e => ?_, fun e he => by cases he⟩
        cases e
        have l' := g'.le
        refine ⟨_, (k, b) :: bs, by simp, g.trans g', ?_, by simp [hl], ?_⟩
        · intro x hx
          rcases List.mem_cons.mp hx with rfl | hx
          · dsimp only; omega
          · have := hb x hx; omega
        · intro i c w hc hw
          cases i with
          | zero =>
            simp only [List.getElem?_cons_zero, Option.some.injEq] at hc hw
            subst hc hw
            obtain ⟨t, rfl⟩ := g'.pre
            exact shows_ext t hv
          | succ i => exact hv' i c w (by simpa using hc) (by simpa using hw)
end

/-- What a successful clone did. -/
theorem clone_grown {d : Nat} {h h' : List (Node F)} {a b : Nat} (hr : ∀ a b, Edge h a b → b < h.length) (ha : a < h.length)
    (hn : ∀ (a : Nat) (ms : List (Str × Nat)), h[a]? = some (.obj ms) → (ms.map (·.1)).Nodup) (e : clone d h a = .ok (h', b)) :
    Grown h h' ∧ h.length ≤ b ∧ b < h'.length := by
  have IH := clone_spec d h a hr ha hn
  cases h1 : read h d a with
  | error r => rw [IH.2 r h1] at e; cases e
  | ok v =>
    obtain ⟨h2, b2, h3, g, l1, l2, _⟩ := IH.1 v h1
    rw [h3] at e; cases e
    exact ⟨g, l1, l2⟩

end Verif.JsonDoc.Lemmas
