import Verif.Json.LemmasNum
/-! Auxiliary lemmas: the parser and the grammar (no claims). -/

namespace Verif.Json.Lemmas
open Verif.Json Verif.Json.Spec Verif.Ustring Verif.Ustring.Spec

variable {F : Type}

theorem mtchAll_app (cs : List Nat) (s : S) (rest : List Nat) (hv : view s = cs ++ rest) (hne : cs ≠ []) :
    mtchAll cs s = .ok ⟨none, rest⟩ := by
  induction cs generalizing s with
  | nil => exact absurd rfl hne
  | cons c cs ih =>
    rw [mtchAll, mtch_cons (tl := cs ++ rest) (by rw [hv]; rfl), ok_bind]
    cases cs with
    | nil => rfl
    | cons d cs => exact ih _ (by simp) (by simp)

theorem mtchAll_ok {cs : List Nat} {s s' : S} (h : mtchAll cs s = .ok s') : view s = cs ++ view s' := by
  induction cs generalizing s with
  | nil => cases h; rfl
  | cons c cs ih =>
    rw [mtchAll, bind_ok] at h
    obtain ⟨s1, h1, h2⟩ := h
    obtain ⟨tl, e1, rfl⟩ := mtch_ok h1
    rw [e1, ← view_none tl, ih h2]; rfl

theorem mtchAll_ne_stuck (cs : List Nat) (s : S) : mtchAll cs s ≠ .error .stuck := by
  induction cs generalizing s with
  | nil => exact nofun
  | cons c cs ih =>
    rw [mtchAll]
    exact bind_ne_stuck mtch_ne_stuck fun s1 _ => ih s1

theorem parseImpl_succ (strtod : List Nat → Option F) (n : Nat) (s : S) : parseImpl strtod (n + 1) s = (do
    let (c, s) ← peek (ss s)
    if c = 123 then
      let s ← smatch 123 s
      let (evs, s) ← objLoop strtod n true s
      let s ← smatch 125 s
      .ok (.startObj :: evs ++ [.endObj], s)
    else if c = 91 then
      let s ← smatch 91 s
      let (evs, s) ← arrLoop strtod n true s
      let s ← smatch 93 s
      .ok (.startArr :: evs ++ [.endArr], s)
    else if isDigit c ∨ c = 45 then
      let (ev, s) ← parseNumber strtod s
      .ok ([ev], s)
    else if c = 34 then
      let (t, s) ← parseStringPrim s
      .ok ([.str t], s)
    else if c = 102 then
      let s ← mtchAll [102, 97, 108, 115, 101] s
      .ok ([.bool false], s)
    else if c = 110 then
      let s ← mtchAll [110, 117, 108, 108] s
      .ok ([.null], s)
    else if c = 116 then
      let s ← mtchAll [116, 114, 117, 101] s
      .ok ([.bool true], s)
    else .error .parse) := rfl

theorem arrLoop_succ (strtod : List Nat → Option F) (n : Nat) (first : Bool) (s : S) : arrLoop strtod (n + 1) first s = (do
    let (c, s) ← speek s
    if c = 93 then .ok ([], s)
    else
      let s ← comma first s
      let (evs, s) ← parseImpl strtod n s
      let (more, s) ← arrLoop strtod n false s
      .ok (evs ++ more, s)) := rfl

theorem objLoop_succ (strtod : List Nat → Option F) (n : Nat) (first : Bool) (s : S) : objLoop strtod (n + 1) first s = (do
    let (c, s) ← speek s
    if c = 125 then .ok ([], s)
    else
      let s ← comma first s
      let (k, s) ← parseStringPrim (ss s)
      let s ← smatch 58 s
      let (evs, s) ← parseImpl strtod n s
      let (more, s) ← objLoop strtod n false s
      .ok (.key k :: evs ++ more, s)) := rfl

theorem num_head {strtod : List Nat → Option F} {t : List Nat} {v : Value F} (h : Num strtod t v) :
    ∃ c tl, t = c :: tl ∧ (Digit c ∨ c = 45) := by
  obtain ⟨sg, ip, fr, ex, rfl, hsg, hip, _⟩ := h
  rcases hsg with rfl | rfl
  · rcases hip with rfl | ⟨d, ds, rfl, h1, _⟩
    · exact ⟨48, _, rfl, .inl ⟨by omega, by omega⟩⟩
    · exact ⟨d, _, rfl, .inl h1⟩
  · exact ⟨45, _, rfl, .inr rfl⟩

theorem text_head {strtod : List Nat → Option F} {v : Value F} {t : List Nat} (h : G Ws (Num strtod) (.val v) t) :
    ∃ c tl, t = c :: tl ∧ ¬ LaxWs c ∧ c ≠ 93 ∧ c ≠ 125 ∧ c ≠ 44 := by
  cases h with
  | null => exact ⟨_, _, rfl, by unfold LaxWs; omega, by decide, by decide, by decide⟩
  | tru => exact ⟨_, _, rfl, by unfold LaxWs; omega, by decide, by decide, by decide⟩
  | fls => exact ⟨_, _, rfl, by unfold LaxWs; omega, by decide, by decide, by decide⟩
  | num v t h =>
    obtain ⟨c, tl, e, hc⟩ := num_head h
    unfold Digit at hc
    exact ⟨c, tl, e, by unfold LaxWs; omega, by omega, by omega, by omega⟩
  | str => exact ⟨_, _, rfl, by unfold LaxWs; omega, by decide, by decide, by decide⟩
  | arr0 => exact ⟨_, _, rfl, by unfold LaxWs; omega, by decide, by decide, by decide⟩
  | arr => exact ⟨_, _, rfl, by unfold LaxWs; omega, by decide, by decide, by decide⟩
  | obj0 => exact ⟨_, _, rfl, by unfold LaxWs; omega, by decide, by decide, by decide⟩
  | obj => exact ⟨_, _, rfl, by unfold LaxWs; omega, by decide, by decide, by decide⟩

theorem ends_ws {w : List Nat} (hw : ∀ c ∈ w, Ws c) {c : Nat} (hc : c = 44 ∨ c = 93 ∨ c = 125) (x : List Nat) : Ends (w ++ c :: x) := by
  intro d hd
  cases w with
  | nil => simp at hd; subst hd; unfold Digit; omega
  | cons e w =>
    simp at hd; subst hd
    have := hw e (by simp)
    unfold Ws at this
    unfold Digit; omega

theorem lax_all {w : List Nat} (hw : ∀ c ∈ w, Ws c) : ∀ c ∈ w, LaxWs c := fun c hc => ws_lax (hw c hc)

/-- What has to be shown of each item. -/
def Goal (strtod : List Nat → Option F) : Item F → List Nat → Prop
  | .val v, t => ∀ n s w rest, 2 * t.length + 1 ≤ n → (∀ c ∈ w, LaxWs c) → view s = w ++ (t ++ rest) → Ends rest →
      (rest = [] → ¬ ShortExp t) → ∃ s', parseImpl strtod n s = .ok (events v, s') ∧ view s' = rest
  | .elems vs, e => ∀ n first s rest pre, 2 * e.length + 2 ≤ n →
      (first = true ∧ pre = [] ∨ first = false ∧ ∃ w, (∀ c ∈ w, LaxWs c) ∧ pre = w ++ [44]) → view s = pre ++ (e ++ 93 :: rest) →
      arrLoop strtod n first s = .ok (eventsL vs, ⟨some 93, rest⟩)
  | .mems ms, e => ∀ n first s rest pre, 2 * e.length + 2 ≤ n →
      (first = true ∧ pre = [] ∨ first = false ∧ ∃ w, (∀ c ∈ w, LaxWs c) ∧ pre = w ++ [44]) → view s = pre ++ (e ++ 125 :: rest) →
      objLoop strtod n first s = .ok (eventsM ms, ⟨some 125, rest⟩)

theorem arr_end (strtod : List Nat → Option F) (n : Nat) (first : Bool) (s : S) (w rest : List Nat) (hw : ∀ c ∈ w, LaxWs c)
    (hv : view s = w ++ 93 :: rest) : arrLoop strtod (n + 1) first s = .ok ([], ⟨some 93, rest⟩) := by
  rw [arrLoop_succ, speek_skip hv hw (by unfold LaxWs; omega)]
  rfl

theorem obj_end (strtod : List Nat → Option F) (n : Nat) (first : Bool) (s : S) (w rest : List Nat) (hw : ∀ c ∈ w, LaxWs c)
    (hv : view s = w ++ 125 :: rest) : objLoop strtod (n + 1) first s = .ok ([], ⟨some 125, rest⟩) := by
  rw [objLoop_succ, speek_skip hv hw (by unfold LaxWs; omega)]
  rfl

/-- The head of an array loop up to the element. -/
theorem arr_step (strtod : List Nat → Option F) (n : Nat) (first : Bool) (s : S) (pre w : List Nat) (c : Nat) (tl : List Nat)
    (hp : first = true ∧ pre = [] ∨ first = false ∧ ∃ w, (∀ c ∈ w, LaxWs c) ∧ pre = w ++ [44]) (hw : ∀ c ∈ w, LaxWs c)
    (hv : view s = pre ++ (w ++ c :: tl)) (hc : ¬ LaxWs c) (h93 : c ≠ 93) :
    ∃ s1 w1, (∀ c ∈ w1, LaxWs c) ∧ view s1 = w1 ++ c :: tl ∧ arrLoop strtod (n + 1) first s = (do
      let (evs, s) ← parseImpl strtod n s1
      let (more, s) ← arrLoop strtod n false s
      .ok (evs ++ more, s)) := by
  rcases hp with ⟨rfl, rfl⟩ | ⟨rfl, w0, hw0, rfl⟩
  · refine ⟨⟨some c, tl⟩, [], by simp, rfl, ?_⟩
    rw [arrLoop_succ, speek_skip hv hw hc, ok_bind]
    simp only [h93, if_false, comma, if_true, ok_bind]
  · have hv' : view s = w0 ++ 44 :: (w ++ c :: tl) := by rw [hv]; simp
    refine ⟨⟨none, w ++ c :: tl⟩, w, hw, rfl, ?_⟩
    rw [arrLoop_succ, speek_skip hv' hw0 (by unfold LaxWs; omega), ok_bind]
    simp only [comma, Bool.false_eq_true, if_false]
    rw [if_neg (by decide), smatch_skip (w := []) (view_some 44 _) (by simp) (by unfold LaxWs; omega)]
    rfl

/-- The head of an object loop up to the key. -/
theorem obj_step (strtod : List Nat → Option F) (n : Nat) (first : Bool) (s : S) (pre w : List Nat) (k : Str) (b w1 tl : List Nat)
    (hp : first = true ∧ pre = [] ∨ first = false ∧ ∃ w, (∀ c ∈ w, LaxWs c) ∧ pre = w ++ [44]) (hw : ∀ c ∈ w, LaxWs c)
    (hw1 : ∀ c ∈ w1, LaxWs c) (hb : StrBody b k) (hv : view s = pre ++ (w ++ 34 :: (b ++ 34 :: (w1 ++ 58 :: tl)))) :
    objLoop strtod (n + 1) first s = (do
      let (evs, s) ← parseImpl strtod n ⟨none, tl⟩
      let (more, s) ← objLoop strtod n false s
      .ok (.key k :: evs ++ more, s)) := by
  have hq : ¬ LaxWs 34 := by unfold LaxWs; omega
  have fin : ∀ s1 w0, (∀ c ∈ w0, LaxWs c) → view s1 = w0 ++ 34 :: (b ++ 34 :: (w1 ++ 58 :: tl)) → (do
      let (k, s) ← parseStringPrim (ss s1)
      let s ← smatch 58 s
      let (evs, s) ← parseImpl strtod n s
      let (more, s) ← objLoop strtod n false s
      Except.ok (Event.key k :: evs ++ more, s)) = (do
      let (evs, s) ← parseImpl strtod n ⟨none, tl⟩
      let (more, s) ← objLoop strtod n false s
      .ok (.key k :: evs ++ more, s)) := by
    intro s1 w0 hw0 hv1
    rw [ss_skip hv1 hw0 hq, parseStringPrim_complete hb (view_some _ _), ok_bind]
    dsimp only
    rw [smatch_skip (view_none _) hw1 (by unfold LaxWs; omega)]
    rfl
  rcases hp with ⟨rfl, rfl⟩ | ⟨rfl, w0, hw0, rfl⟩
  · rw [objLoop_succ, speek_skip hv hw hq, ok_bind]
    simp only [comma, if_true, ok_bind]
    rw [if_neg (by decide)]
    exact fin _ [] (by simp) rfl
  · have hv' : view s = w0 ++ 44 :: (w ++ 34 :: (b ++ 34 :: (w1 ++ 58 :: tl))) := by rw [hv]; simp
    rw [objLoop_succ, speek_skip hv' hw0 (by unfold LaxWs; omega), ok_bind]
    simp only [comma, Bool.false_eq_true, if_false]
    rw [if_neg (by decide), smatch_skip (w := []) (view_some 44 _) (by simp) (by unfold LaxWs; omega), ok_bind]
    exact fin _ w hw rfl

/-- Every RFC text is read. -/
theorem complete (strtod : List Nat → Option F) (i : Item F) (t : List Nat) (h : G Ws (Num strtod) i t) : Goal strtod i t := by
  induction h with
  | null =>
    intro n s w rest hn hw hv _ _
    obtain ⟨m, rfl⟩ : ∃ m, n = m + 1 := ⟨n - 1, by omega⟩
    refine ⟨⟨none, rest⟩, ?_, rfl⟩
    rw [parseImpl_succ, ss_skip hv hw (by unfold LaxWs; omega), peek_cons (view_some _ _), ok_bind]
    simp only
    rw [mtchAll_app [110, 117, 108, 108] _ rest rfl (by simp)]
    rfl
  | tru =>
    intro n s w rest hn hw hv _ _
    obtain ⟨m, rfl⟩ : ∃ m, n = m + 1 := ⟨n - 1, by omega⟩
    refine ⟨⟨none, rest⟩, ?_, rfl⟩
    rw [parseImpl_succ, ss_skip hv hw (by unfold LaxWs; omega), peek_cons (view_some _ _), ok_bind]
    simp only
    rw [mtchAll_app [116, 114, 117, 101] _ rest rfl (by simp)]
    rfl
  | fls =>
    intro n s w rest hn hw hv _ _
    obtain ⟨m, rfl⟩ : ∃ m, n = m + 1 := ⟨n - 1, by omega⟩
    refine ⟨⟨none, rest⟩, ?_, rfl⟩
    rw [parseImpl_succ, ss_skip hv hw (by unfold LaxWs; omega), peek_cons (view_some _ _), ok_bind]
    simp only
    rw [mtchAll_app [102, 97, 108, 115, 101] _ rest rfl (by simp)]
    rfl
  | num v t h =>
    intro n s w rest hn hw hv he hse
    obtain ⟨m, rfl⟩ : ∃ m, n = m + 1 := ⟨n - 1, by omega⟩
    obtain ⟨c, tl, rfl, hc⟩ := num_head h
    have hc' : isDigit c = true ∨ c = 45 := by rcases hc with h | h; exact .inl ((isDigit_iff c).mpr h); exact .inr h
    unfold Digit at hc
    refine ⟨loaded rest, ?_, view_loaded rest⟩
    rw [List.cons_append] at hv
    rw [parseImpl_succ, ss_skip hv hw (by unfold LaxWs; omega), peek_cons (view_some _ _), ok_bind]
    obtain ⟨ev, h1, h2⟩ := parseNumber_complete strtod h (s := ⟨some c, tl ++ rest⟩) rfl he hse
    simp only
    rw [if_neg (by omega), if_neg (by omega), if_pos hc', h2]
    unfold numEvent at h1
    split at h1 <;> cases h1 <;> rfl
  | str s t h =>
    intro n st w rest hn hw hv _ _
    obtain ⟨m, rfl⟩ : ∃ m, n = m + 1 := ⟨n - 1, by omega⟩
    refine ⟨⟨none, rest⟩, ?_, rfl⟩
    have hv' : view st = w ++ 34 :: (t ++ 34 :: rest) := by rw [hv]; simp
    rw [parseImpl_succ, ss_skip hv' hw (by unfold LaxWs; omega), peek_cons (view_some _ _), ok_bind]
    simp only
    rw [parseStringPrim_complete h (view_some _ _)]
    rfl
  | arr0 w' h =>
    intro n s w rest hn hw hv _ _
    obtain ⟨m, rfl⟩ : ∃ m, n = m + 2 := ⟨n - 2, by simp at hn; omega⟩
    refine ⟨⟨none, rest⟩, ?_, rfl⟩
    have hv' : view s = w ++ 91 :: (w' ++ 93 :: rest) := by rw [hv]; simp
    rw [parseImpl_succ, ss_skip hv' hw (by unfold LaxWs; omega), peek_cons (view_some _ _), ok_bind]
    simp only
    rw [if_neg (by decide), if_pos (by decide), smatch_skip (w := []) (view_some _ _) (by simp) (by unfold LaxWs; omega), ok_bind,
      arr_end strtod m true _ w' rest (lax_all h) (view_none _), ok_bind]
    dsimp only
    rw [smatch_skip (w := []) (view_some _ _) (by simp) (by unfold LaxWs; omega)]
    rfl
  | arr vs e _ ih =>
    intro n s w rest hn hw hv _ _
    obtain ⟨m, rfl⟩ : ∃ m, n = m + 1 := ⟨n - 1, by omega⟩
    refine ⟨⟨none, rest⟩, ?_, rfl⟩
    have hv' : view s = w ++ 91 :: (e ++ 93 :: rest) := by rw [hv]; simp
    rw [parseImpl_succ, ss_skip hv' hw (by unfold LaxWs; omega), peek_cons (view_some _ _), ok_bind]
    simp only
    rw [if_neg (by decide), if_pos (by decide), smatch_skip (w := []) (view_some _ _) (by simp) (by unfold LaxWs; omega), ok_bind,
      ih m true ⟨none, e ++ 93 :: rest⟩ rest [] (by simp at hn; omega) (.inl ⟨rfl, rfl⟩) rfl, ok_bind]
    dsimp only
    rw [smatch_skip (w := []) (view_some _ _) (by simp) (by unfold LaxWs; omega)]
    rfl
  | obj0 w' h =>
    intro n s w rest hn hw hv _ _
    obtain ⟨m, rfl⟩ : ∃ m, n = m + 2 := ⟨n - 2, by simp at hn; omega⟩
    refine ⟨⟨none, rest⟩, ?_, rfl⟩
    have hv' : view s = w ++ 123 :: (w' ++ 125 :: rest) := by rw [hv]; simp
    rw [parseImpl_succ, ss_skip hv' hw (by unfold LaxWs; omega), peek_cons (view_some _ _), ok_bind]
    simp only
    rw [if_pos (by decide), smatch_skip (w := []) (view_some _ _) (by simp) (by unfold LaxWs; omega), ok_bind,
      obj_end strtod m true _ w' rest (lax_all h) (view_none _), ok_bind]
    dsimp only
    rw [smatch_skip (w := []) (view_some _ _) (by simp) (by unfold LaxWs; omega)]
    rfl
  | obj ms e _ ih =>
    intro n s w rest hn hw hv _ _
    obtain ⟨m, rfl⟩ : ∃ m, n = m + 1 := ⟨n - 1, by omega⟩
    refine ⟨⟨none, rest⟩, ?_, rfl⟩
    have hv' : view s = w ++ 123 :: (e ++ 125 :: rest) := by rw [hv]; simp
    rw [parseImpl_succ, ss_skip hv' hw (by unfold LaxWs; omega), peek_cons (view_some _ _), ok_bind]
    simp only
    rw [if_pos (by decide), smatch_skip (w := []) (view_some _ _) (by simp) (by unfold LaxWs; omega), ok_bind,
      ih m true ⟨none, e ++ 125 :: rest⟩ rest [] (by simp at hn; omega) (.inl ⟨rfl, rfl⟩) rfl, ok_bind]
    dsimp only
    rw [smatch_skip (w := []) (view_some _ _) (by simp) (by unfold LaxWs; omega)]
    rfl
  | elem1 v t w w' hw hw' ht ih =>
    intro n first s rest pre hn hp hv
    obtain ⟨c, tl, e, hc, h93, _, _⟩ := text_head ht
    obtain ⟨m, rfl⟩ : ∃ m, n = m + 2 := ⟨n - 2, by omega⟩
    obtain ⟨s1, w1, hw1, hv1, hr⟩ := arr_step strtod (m + 1) first s pre w c (tl ++ (w' ++ 93 :: rest)) hp (lax_all hw)
      (by rw [hv, e]; simp) hc h93
    rw [hr]
    obtain ⟨s2, h2, hv2⟩ := ih (m + 1) s1 w1 (w' ++ 93 :: rest) (by simp at hn; omega) hw1 (by rw [hv1, e]; simp)
      (ends_ws hw' (by simp) _) (by simp)
    rw [h2, ok_bind]
    dsimp only
    rw [arr_end strtod m false s2 w' rest (lax_all hw') hv2]
    rfl
  | elemS v t w w' vs e hw hw' ht _ ih ih2 =>
    intro n first s rest pre hn hp hv
    obtain ⟨c, tl, et, hc, h93, _, _⟩ := text_head ht
    obtain ⟨m, rfl⟩ : ∃ m, n = m + 1 := ⟨n - 1, by omega⟩
    obtain ⟨s1, w1, hw1, hv1, hr⟩ := arr_step strtod m first s pre w c (tl ++ (w' ++ 44 :: (e ++ 93 :: rest))) hp (lax_all hw)
      (by rw [hv, et]; simp) hc h93
    rw [hr]
    obtain ⟨s2, h2, hv2⟩ := ih m s1 w1 (w' ++ 44 :: (e ++ 93 :: rest)) (by simp at hn; omega) hw1 (by rw [hv1, et]; simp)
      (ends_ws hw' (by simp) _) (by simp)
    rw [h2, ok_bind]
    dsimp only
    rw [ih2 m false s2 rest (w' ++ [44]) (by simp at hn; omega) (.inr ⟨rfl, w', lax_all hw', rfl⟩) (by rw [hv2]; simp)]
    rfl
  | mem1 k b v t w w1 w2 w' hw hw1 hw2 hw' hb ht ih =>
    intro n first s rest pre hn hp hv
    obtain ⟨m, rfl⟩ : ∃ m, n = m + 2 := ⟨n - 2, by omega⟩
    rw [obj_step strtod (m + 1) first s pre w k b w1 (w2 ++ (t ++ (w' ++ 125 :: rest))) hp (lax_all hw) (lax_all hw1) hb
      (by rw [hv]; simp)]
    obtain ⟨s2, h2, hv2⟩ := ih (m + 1) ⟨none, w2 ++ (t ++ (w' ++ 125 :: rest))⟩ w2 (w' ++ 125 :: rest) (by simp at hn; omega)
      (lax_all hw2) rfl (ends_ws hw' (by simp) _) (by simp)
    rw [h2, ok_bind]
    dsimp only
    rw [obj_end strtod m false s2 w' rest (lax_all hw') hv2]
    rfl
  | memS k b v t w w1 w2 w' ms e hw hw1 hw2 hw' hb ht _ ih ih2 =>
    intro n first s rest pre hn hp hv
    obtain ⟨m, rfl⟩ : ∃ m, n = m + 1 := ⟨n - 1, by omega⟩
    rw [obj_step strtod m first s pre w k b w1 (w2 ++ (t ++ (w' ++ 44 :: (e ++ 125 :: rest)))) hp (lax_all hw) (lax_all hw1) hb
      (by rw [hv]; simp)]
    obtain ⟨s2, h2, hv2⟩ := ih m ⟨none, w2 ++ (t ++ (w' ++ 44 :: (e ++ 125 :: rest)))⟩ w2 (w' ++ 44 :: (e ++ 125 :: rest))
      (by simp at hn; omega) (lax_all hw2) rfl (ends_ws hw' (by simp) _) (by simp)
    rw [h2, ok_bind]
    dsimp only
    rw [ih2 m false s2 rest (w' ++ [44]) (by simp at hn; omega) (.inr ⟨rfl, w', lax_all hw', rfl⟩) (by rw [hv2]; simp)]
    simp [eventsM]
    rfl

/-- What a successful run has read. -/
def SoundV (strtod : List Nat → Option F) (n : Nat) : Prop := ∀ s s' ev, (∀ x ∈ view s, Scalar x) → parseImpl strtod n s = .ok (ev, s') →
  ∃ w t v, (∀ c ∈ w, LaxWs c) ∧ view s = w ++ (t ++ view s') ∧ t ≠ [] ∧ G LaxWs (LaxNum strtod) (.val v) t ∧ ev = events v

/-- The same for array loops. -/
def SoundA (strtod : List Nat → Option F) (n : Nat) : Prop := ∀ first s s' ev, (∀ x ∈ view s, Scalar x) →
  arrLoop strtod n first s = .ok (ev, s') → ∃ rest, s' = ⟨some 93, rest⟩ ∧
    ((∃ w, (∀ c ∈ w, LaxWs c) ∧ view s = w ++ 93 :: rest ∧ ev = []) ∨
     (∃ w vs e, (∀ c ∈ w, LaxWs c) ∧ view s = (if first then [] else w ++ [44]) ++ (e ++ 93 :: rest) ∧
        G LaxWs (LaxNum strtod) (.elems vs) e ∧ ev = eventsL vs))

/-- The same for object loops. -/
def SoundO (strtod : List Nat → Option F) (n : Nat) : Prop := ∀ first s s' ev, (∀ x ∈ view s, Scalar x) →
  objLoop strtod n first s = .ok (ev, s') → ∃ rest, s' = ⟨some 125, rest⟩ ∧
    ((∃ w, (∀ c ∈ w, LaxWs c) ∧ view s = w ++ 125 :: rest ∧ ev = []) ∨
     (∃ w ms e, (∀ c ∈ w, LaxWs c) ∧ view s = (if first then [] else w ++ [44]) ++ (e ++ 125 :: rest) ∧
        G LaxWs (LaxNum strtod) (.mems ms) e ∧ ev = eventsM ms))

theorem ws_append {w w' : List Nat} (h : ∀ c ∈ w, LaxWs c) (h' : ∀ c ∈ w', LaxWs c) : ∀ c ∈ w ++ w', LaxWs c := by
  intro c hc
  rcases List.mem_append.mp hc with hc | hc
  · exact h c hc
  · exact h' c hc

theorem soundV_succ (strtod : List Nat → Option F) (n : Nat) (hA : SoundA strtod n) (hO : SoundO strtod n) : SoundV strtod (n + 1) := by
  intro s s' ev hs h
  rw [parseImpl_succ, bind_ok] at h
  obtain ⟨⟨c, s1⟩, h1, h⟩ := h
  obtain ⟨w, tl, hw, hv, rfl⟩ := speek_ok h1
  have hs1 : ∀ x ∈ c :: tl, Scalar x := fun x hx => hs x (by rw [hv]; exact List.mem_append_right _ hx)
  dsimp only at h
  split at h
  · rename_i hc
    rw [bind_ok] at h
    obtain ⟨s2, h2, h⟩ := h
    obtain ⟨w2, tl2, hw2, hv2, rfl⟩ := smatch_ok h2
    rw [bind_ok] at h
    obtain ⟨⟨evs, s3⟩, h3, h⟩ := h
    rw [bind_ok] at h
    obtain ⟨s4, h4, h⟩ := h
    dsimp only at h3 h4 h
    rw [view_some] at hv2
    have hs2 : ∀ x ∈ tl2, Scalar x := fun x hx => hs1 x (by rw [hv2]; simp [hx])
    obtain ⟨rest, rfl, hr⟩ := hO true ⟨none, tl2⟩ s3 evs hs2 h3
    obtain ⟨w4, tl4, hw4, hv4, rfl⟩ := smatch_ok h4
    have hw4' : w4 = [] ∧ tl4 = rest := by
      cases w4 with
      | nil => simp at hv4; exact ⟨rfl, hv4.symm⟩
      | cons d w4 =>
        simp at hv4
        have := hw4 d (by simp)
        rw [← hv4.1] at this
        unfold LaxWs at this; omega
    obtain ⟨rfl, rfl⟩ := hw4'
    cases h
    rcases hr with ⟨w3, hw3, hv3, rfl⟩ | ⟨w3, ms, e, hw3, hv3, hg, rfl⟩
    · refine ⟨w ++ w2, 123 :: (w3 ++ [125]), .obj [], ws_append hw hw2, ?_, by simp, .obj0 w3 hw3, rfl⟩
      rw [view_none] at hv3
      rw [hv, hv2, hv3]; simp
    · refine ⟨w ++ w2, 123 :: (e ++ [125]), .obj ms, ws_append hw hw2, ?_, by simp, .obj ms e hg, rfl⟩
      rw [view_none] at hv3
      rw [hv, hv2, hv3]; simp
  split at h
  · rename_i hc
    rw [bind_ok] at h
    obtain ⟨s2, h2, h⟩ := h
    obtain ⟨w2, tl2, hw2, hv2, rfl⟩ := smatch_ok h2
    rw [bind_ok] at h
    obtain ⟨⟨evs, s3⟩, h3, h⟩ := h
    rw [bind_ok] at h
    obtain ⟨s4, h4, h⟩ := h
    dsimp only at h3 h4 h
    rw [view_some] at hv2
    have hs2 : ∀ x ∈ tl2, Scalar x := fun x hx => hs1 x (by rw [hv2]; simp [hx])
    obtain ⟨rest, rfl, hr⟩ := hA true ⟨none, tl2⟩ s3 evs hs2 h3
    obtain ⟨w4, tl4, hw4, hv4, rfl⟩ := smatch_ok h4
    have hw4' : w4 = [] ∧ tl4 = rest := by
      cases w4 with
      | nil => simp at hv4; exact ⟨rfl, hv4.symm⟩
      | cons d w4 =>
        simp at hv4
        have := hw4 d (by simp)
        rw [← hv4.1] at this
        unfold LaxWs at this; omega
    obtain ⟨rfl, rfl⟩ := hw4'
    cases h
    rcases hr with ⟨w3, hw3, hv3, rfl⟩ | ⟨w3, ms, e, hw3, hv3, hg, rfl⟩
    · refine ⟨w ++ w2, 91 :: (w3 ++ [93]), .arr [], ws_append hw hw2, ?_, by simp, .arr0 w3 hw3, rfl⟩
      rw [view_none] at hv3
      rw [hv, hv2, hv3]; simp
    · refine ⟨w ++ w2, 91 :: (e ++ [93]), .arr ms, ws_append hw hw2, ?_, by simp, .arr ms e hg, rfl⟩
      rw [view_none] at hv3
      rw [hv, hv2, hv3]; simp
  split at h
  · rename_i hc
    rw [bind_ok] at h
    obtain ⟨⟨e, s2⟩, h2, h⟩ := h
    cases h
    have hc' : Digit c ∨ c = 45 := by rcases hc with h | h; exact .inl ((isDigit_iff c).mp h); exact .inr h
    obtain ⟨t, v, e1, e2, e3, e4⟩ := parseNumber_sound strtod (view_some c tl) hc' h2
    refine ⟨w, t, v, hw, by rw [hv, ← view_some, e1], e2, .num v t e3, ?_⟩
    unfold numEvent at e4
    split at e4 <;> cases e4 <;> rfl
  split at h
  · rw [bind_ok] at h
    obtain ⟨⟨k, s2⟩, h2, h⟩ := h
    cases h
    obtain ⟨t, e1, e2⟩ := parseStringPrim_sound (s := ⟨some c, tl⟩) hs1 h2
    refine ⟨w, 34 :: (t ++ [34]), .str k, hw, ?_, by simp, .str k t e2, rfl⟩
    rw [hv, ← view_some, e1]; simp
  split at h
  · rw [bind_ok] at h
    obtain ⟨s2, h2, h⟩ := h
    cases h
    exact ⟨w, _, .bool false, hw, by rw [hv, ← view_some, mtchAll_ok h2], by simp, .fls, rfl⟩
  split at h
  · rw [bind_ok] at h
    obtain ⟨s2, h2, h⟩ := h
    cases h
    exact ⟨w, _, .null, hw, by rw [hv, ← view_some, mtchAll_ok h2], by simp, .null, rfl⟩
  split at h
  · rw [bind_ok] at h
    obtain ⟨s2, h2, h⟩ := h
    cases h
    exact ⟨w, _, .bool true, hw, by rw [hv, ← view_some, mtchAll_ok h2], by simp, .tru, rfl⟩
  · cases h

theorem soundA_succ (strtod : List Nat → Option F) (n : Nat) (hV : SoundV strtod n) (hA : SoundA strtod n) : SoundA strtod (n + 1) := by
  intro first s s' ev hs h
  rw [arrLoop_succ, bind_ok] at h
  obtain ⟨⟨c, s1⟩, h1, h⟩ := h
  obtain ⟨w, tl, hw, hv, rfl⟩ := speek_ok h1
  dsimp only at h
  split at h
  · rename_i hc
    subst hc
    cases h
    exact ⟨tl, rfl, .inl ⟨w, hw, hv, rfl⟩⟩
  · rw [bind_ok] at h
    obtain ⟨s2, h2, h⟩ := h
    rw [bind_ok] at h
    obtain ⟨⟨evs, s3⟩, h3, h⟩ := h
    rw [bind_ok] at h
    obtain ⟨⟨more, s4⟩, h4, h⟩ := h
    dsimp only at h3 h4 h
    obtain ⟨p, w2, hp, hw2, hv2⟩ : ∃ p w2, (∀ c ∈ p, LaxWs c) ∧ (∀ c ∈ w2, LaxWs c) ∧
        view s = (if first then [] else p ++ [44]) ++ (w2 ++ view s2) := by
      cases first with
      | true =>
        cases h2
        exact ⟨[], w, by simp, hw, hv⟩
      | false =>
        obtain ⟨w1, tl1, hw1, hv1, rfl⟩ := smatch_ok h2
        refine ⟨w ++ w1, [], ws_append hw hw1, by simp, ?_⟩
        rw [view_some] at hv1
        rw [hv, hv1]; simp
    have hs2 : ∀ x ∈ view s2, Scalar x := fun x hx => hs x (by rw [hv2]; simp [hx])
    obtain ⟨w3, t, v, hw3, hv3, hne, hg, rfl⟩ := hV s2 s3 evs hs2 h3
    have hs3 : ∀ x ∈ view s3, Scalar x := fun x hx => hs2 x (by rw [hv3]; simp [hx])
    obtain ⟨rest, rfl, hr⟩ := hA false s3 s4 more hs3 h4
    cases h
    refine ⟨rest, rfl, .inr ?_⟩
    rcases hr with ⟨w4, hw4, hv4, rfl⟩ | ⟨w4, vs, e, hw4, hv4, hg4, rfl⟩
    · refine ⟨p, [v], (w2 ++ w3) ++ (t ++ w4), hp, ?_, .elem1 v t (w2 ++ w3) w4 (ws_append hw2 hw3) hw4 hg, by simp [eventsL]⟩
      rw [hv2, hv3, hv4]; simp
    · refine ⟨p, v :: vs, (w2 ++ w3) ++ (t ++ (w4 ++ 44 :: e)), hp, ?_,
        .elemS v t (w2 ++ w3) w4 vs e (ws_append hw2 hw3) hw4 hg hg4, by simp [eventsL]⟩
      rw [hv2, hv3, hv4]; simp

theorem soundO_succ (strtod : List Nat → Option F) (n : Nat) (hV : SoundV strtod n) (hO : SoundO strtod n) : SoundO strtod (n + 1) := by
  intro first s s' ev hs h
  rw [objLoop_succ, bind_ok] at h
  obtain ⟨⟨c, s1⟩, h1, h⟩ := h
  obtain ⟨w, tl, hw, hv, rfl⟩ := speek_ok h1
  dsimp only at h
  split at h
  · rename_i hc
    subst hc
    cases h
    exact ⟨tl, rfl, .inl ⟨w, hw, hv, rfl⟩⟩
  · rw [bind_ok] at h
    obtain ⟨s2, h2, h⟩ := h
    rw [bind_ok] at h
    obtain ⟨⟨k, sk⟩, hk, h⟩ := h
    rw [bind_ok] at h
    obtain ⟨sc, hcol, h⟩ := h
    rw [bind_ok] at h
    obtain ⟨⟨evs, s3⟩, h3, h⟩ := h
    rw [bind_ok] at h
    obtain ⟨⟨more, s4⟩, h4, h⟩ := h
    dsimp only at h3 h4 h hk hcol
    obtain ⟨p, w2, hp, hw2, hv2⟩ : ∃ p w2, (∀ c ∈ p, LaxWs c) ∧ (∀ c ∈ w2, LaxWs c) ∧
        view s = (if first then [] else p ++ [44]) ++ (w2 ++ view s2) := by
      cases first with
      | true =>
        cases h2
        exact ⟨[], w, by simp, hw, hv⟩
      | false =>
        obtain ⟨w1, tl1, hw1, hv1, rfl⟩ := smatch_ok h2
        refine ⟨w ++ w1, [], ws_append hw hw1, by simp, ?_⟩
        rw [view_some] at hv1
        rw [hv, hv1]; simp
    have hs2 : ∀ x ∈ view s2, Scalar x := fun x hx => hs x (by rw [hv2]; simp [hx])
    obtain ⟨w5, hw5, hv5⟩ := ss_spec s2
    obtain ⟨b, hvb, hb⟩ := parseStringPrim_sound (fun x hx => hs2 x (by rw [hv5]; simp [hx])) hk
    obtain ⟨w6, tl6, hw6, hv6, rfl⟩ := smatch_ok hcol
    have hs6 : ∀ x ∈ tl6, Scalar x := fun x hx => hs2 x (by rw [hv5, hvb, hv6]; simp [hx])
    obtain ⟨w3, t, v, hw3, hv3, hne, hg, rfl⟩ := hV ⟨none, tl6⟩ s3 evs hs6 h3
    rw [view_none] at hv3
    have hs3 : ∀ x ∈ view s3, Scalar x := fun x hx => hs6 x (by rw [hv3]; simp [hx])
    obtain ⟨rest, rfl, hr⟩ := hO false s3 s4 more hs3 h4
    cases h
    refine ⟨rest, rfl, .inr ?_⟩
    rcases hr with ⟨w4, hw4, hv4, rfl⟩ | ⟨w4, vs, e, hw4, hv4, hg4, rfl⟩
    · refine ⟨p, [(k, v)], _, hp, ?_, .mem1 k b v t (w2 ++ w5) w6 w3 w4 (ws_append hw2 hw5) hw6 hw3 hw4 hb hg, by simp [eventsM]⟩
      rw [hv2, hv5, hvb, hv6, hv3, hv4]; simp
    · refine ⟨p, (k, v) :: vs, _, hp, ?_,
        .memS k b v t (w2 ++ w5) w6 w3 w4 vs e (ws_append hw2 hw5) hw6 hw3 hw4 hb hg hg4, by simp [eventsM]⟩
      rw [hv2, hv5, hvb, hv6, hv3, hv4]; simp

theorem sound (strtod : List Nat → Option F) (n : Nat) : SoundV strtod n ∧ SoundA strtod n ∧ SoundO strtod n := by
  induction n with
  | zero =>
    refine ⟨?_, ?_, ?_⟩
    · intro _ _ _ _ h; cases h
    · intro _ _ _ _ _ h; cases h
    · intro _ _ _ _ _ h; cases h
  | succ n ih => exact ⟨soundV_succ strtod n ih.2.1 ih.2.2, soundA_succ strtod n ih.1 ih.2.1, soundO_succ strtod n ih.1 ih.2.2⟩

/-! The budget suffices. -/

theorem speek_ne_stuck (s : S) : speek s ≠ .error .stuck := by
  rw [speek]
  cases hv : view (ss s) with
  | nil => rw [peek_nil hv]; exact nofun
  | cons c tl => rw [peek_cons hv]; exact nofun

theorem smatch_ne_stuck (c : Nat) (s : S) : smatch c s ≠ .error .stuck := mtch_ne_stuck

theorem budget (strtod : List Nat → Option F) (n : Nat) :
    (∀ s, (∀ x ∈ view s, Scalar x) → 2 * (view s).length + 1 ≤ n → parseImpl strtod n s ≠ .error .stuck) ∧
    (∀ f s, (∀ x ∈ view s, Scalar x) → 2 * (view s).length + 2 ≤ n → arrLoop strtod n f s ≠ .error .stuck) ∧
    (∀ f s, (∀ x ∈ view s, Scalar x) → 2 * (view s).length + 2 ≤ n → objLoop strtod n f s ≠ .error .stuck) := by
  induction n with
  | zero => refine ⟨?_, ?_, ?_⟩ <;> (intros; omega)
  | succ n ih =>
    obtain ⟨ihV, ihA, ihO⟩ := ih
    refine ⟨?_, ?_, ?_⟩
    · intro s hs hn
      rw [parseImpl_succ]
      refine bind_ne_stuck (speek_ne_stuck s) ?_
      rintro ⟨c, s1⟩ h1
      obtain ⟨w, tl, hw, hv, rfl⟩ := speek_ok h1
      have hs1 : ∀ x ∈ c :: tl, Scalar x := fun x hx => hs x (by rw [hv]; exact List.mem_append_right _ hx)
      have hl : 2 * tl.length + 2 ≤ n := by
        have := congrArg List.length hv; simp at this; omega
      dsimp only
      split
      · refine bind_ne_stuck (smatch_ne_stuck _ _) ?_
        intro s2 h2
        obtain ⟨w2, tl2, hw2, hv2, rfl⟩ := smatch_ok h2
        rw [view_some] at hv2
        have hl2 : tl2.length ≤ tl.length := by have := congrArg List.length hv2; simp at this; omega
        refine bind_ne_stuck (ihO _ _ (fun x hx => hs1 x (by rw [hv2]; simp at hx; simp [hx])) (by simp; omega)) ?_
        rintro ⟨evs, s3⟩ h3
        refine bind_ne_stuck (smatch_ne_stuck _ _) ?_
        intro _ _; exact nofun
      split
      · refine bind_ne_stuck (smatch_ne_stuck _ _) ?_
        intro s2 h2
        obtain ⟨w2, tl2, hw2, hv2, rfl⟩ := smatch_ok h2
        rw [view_some] at hv2
        have hl2 : tl2.length ≤ tl.length := by have := congrArg List.length hv2; simp at this; omega
        refine bind_ne_stuck (ihA _ _ (fun x hx => hs1 x (by rw [hv2]; simp at hx; simp [hx])) (by simp; omega)) ?_
        rintro ⟨evs, s3⟩ h3
        refine bind_ne_stuck (smatch_ne_stuck _ _) ?_
        intro _ _; exact nofun
      split
      · refine bind_ne_stuck (parseNumber_ne_stuck strtod _) ?_
        intro _ _; exact nofun
      split
      · refine bind_ne_stuck (parseStringPrim_ne_stuck hs1) ?_
        intro _ _; exact nofun
      split
      · refine bind_ne_stuck (mtchAll_ne_stuck _ _) ?_
        intro _ _; exact nofun
      split
      · refine bind_ne_stuck (mtchAll_ne_stuck _ _) ?_
        intro _ _; exact nofun
      split
      · refine bind_ne_stuck (mtchAll_ne_stuck _ _) ?_
        intro _ _; exact nofun
      · exact nofun
    · intro f s hs hn
      rw [arrLoop_succ]
      refine bind_ne_stuck (speek_ne_stuck s) ?_
      rintro ⟨c, s1⟩ h1
      obtain ⟨w, tl, hw, hv, rfl⟩ := speek_ok h1
      have hs1 : ∀ x ∈ c :: tl, Scalar x := fun x hx => hs x (by rw [hv]; exact List.mem_append_right _ hx)
      have hl : (c :: tl).length ≤ (view s).length := by
        have := congrArg List.length hv; simp at this; simp; omega
      dsimp only
      split
      · exact nofun
      · have h2 : ∀ s2, comma f ⟨some c, tl⟩ = .ok s2 →
            (∀ x ∈ view s2, Scalar x) ∧ (view s2).length ≤ (view s).length := by
          intro s2 h2
          cases f with
          | true => cases h2; exact ⟨hs1, hl⟩
          | false =>
            obtain ⟨w1, tl1, hw1, hv1, rfl⟩ := smatch_ok h2
            rw [view_some] at hv1
            refine ⟨fun x hx => hs1 x (by rw [hv1]; simp at hx; simp [hx]), ?_⟩
            have := congrArg List.length hv1
            simp at this hl ⊢; omega
        refine bind_ne_stuck ?_ ?_
        · cases f
          · exact smatch_ne_stuck _ _
          · exact nofun
        intro s2 e2
        obtain ⟨hs2, hl2⟩ := h2 s2 e2
        refine bind_ne_stuck (ihV s2 hs2 (by omega)) ?_
        rintro ⟨evs, s3⟩ h3
        obtain ⟨w3, t, v, hw3, hv3, hne, hg, rfl⟩ := (sound strtod n).1 s2 s3 evs hs2 h3
        have hl3 : (view s3).length + 1 ≤ (view s2).length := by
          have := congrArg List.length hv3
          have := List.length_pos_iff.mpr hne
          simp at *; omega
        refine bind_ne_stuck (ihA false s3 (fun x hx => hs2 x (by rw [hv3]; simp [hx])) (by omega)) ?_
        intro _ _; exact nofun
    · intro f s hs hn
      rw [objLoop_succ]
      refine bind_ne_stuck (speek_ne_stuck s) ?_
      rintro ⟨c, s1⟩ h1
      obtain ⟨w, tl, hw, hv, rfl⟩ := speek_ok h1
      have hs1 : ∀ x ∈ c :: tl, Scalar x := fun x hx => hs x (by rw [hv]; exact List.mem_append_right _ hx)
      have hl : (c :: tl).length ≤ (view s).length := by
        have := congrArg List.length hv; simp at this; simp; omega
      dsimp only
      split
      · exact nofun
      · have h2 : ∀ s2, comma f ⟨some c, tl⟩ = .ok s2 →
            (∀ x ∈ view s2, Scalar x) ∧ (view s2).length ≤ (view s).length := by
          intro s2 h2
          cases f with
          | true => cases h2; exact ⟨hs1, hl⟩
          | false =>
            obtain ⟨w1, tl1, hw1, hv1, rfl⟩ := smatch_ok h2
            rw [view_some] at hv1
            refine ⟨fun x hx => hs1 x (by rw [hv1]; simp at hx; simp [hx]), ?_⟩
            have := congrArg List.length hv1
            simp at this hl ⊢; omega
        refine bind_ne_stuck ?_ ?_
        · cases f
          · exact smatch_ne_stuck _ _
          · exact nofun
        intro s2 e2
        obtain ⟨hs2, hl2⟩ := h2 s2 e2
        obtain ⟨w5, hw5, hv5⟩ := ss_spec s2
        have hs5 : ∀ x ∈ view (ss s2), Scalar x := fun x hx => hs2 x (by rw [hv5]; simp [hx])
        refine bind_ne_stuck (parseStringPrim_ne_stuck hs5) ?_
        rintro ⟨k, sk⟩ hk
        obtain ⟨b, hvb, hb⟩ := parseStringPrim_sound hs5 hk
        refine bind_ne_stuck (smatch_ne_stuck _ _) ?_
        intro sc hcol
        obtain ⟨w6, tl6, hw6, hv6, rfl⟩ := smatch_ok hcol
        have hs6 : ∀ x ∈ tl6, Scalar x := fun x hx => hs2 x (by rw [hv5, hvb, hv6]; simp [hx])
        have hl6 : tl6.length + 1 ≤ (view s2).length := by
          have e1 := congrArg List.length hv5
          have e2 := congrArg List.length hvb
          have e3 := congrArg List.length hv6
          simp at e1 e2 e3; omega
        refine bind_ne_stuck (ihV ⟨none, tl6⟩ hs6 (by rw [view_none]; omega)) ?_
        rintro ⟨evs, s3⟩ h3
        obtain ⟨w3, t, v, hw3, hv3, hne, hg, rfl⟩ := (sound strtod n).1 ⟨none, tl6⟩ s3 evs hs6 h3
        rw [view_none] at hv3
        have hl3 : (view s3).length ≤ tl6.length := by
          have := congrArg List.length hv3
          simp at *; omega
        refine bind_ne_stuck (ihO false s3 (fun x hx => hs6 x (by rw [hv3]; simp [hx])) (by omega)) ?_
        intro _ _; exact nofun

/-! The builder. -/

theorem run_append (b : Builder F) (xs ys : List (Event F)) : run b (xs ++ ys) = (run b xs).bind (run · ys) := by
  induction xs generalizing b with
  | nil => rfl
  | cons e xs ih =>
    simp only [List.cons_append, run]
    cases step b e with
    | none => rfl
    | some b' => exact ih b'

theorem foldl_addMember (acc ms : List (Str × Value F)) :
    ms.foldl (fun o m => addMember o m.1 m.2) acc = acc.filter (fun m => m.1 ∉ ms.map (·.1)) ++ collapse ms := by
  induction ms generalizing acc with
  | nil => simp only [List.foldl_nil, collapse, List.append_nil]; exact (List.filter_eq_self.mpr (by simp)).symm
  | cons m ms ih =>
    obtain ⟨k, v⟩ := m
    rw [List.foldl_cons, ih, addMember, collapse, List.filter_append, List.filter_filter]
    have e : (acc.filter fun a => decide (a.1 ∉ ms.map (·.1)) && decide (a.1 ≠ k)) =
        acc.filter (fun a => decide (a.1 ∉ ((k, v) :: ms).map (·.1))) := by
      apply List.filter_congr
      intro a _
      simp only [List.map_cons, List.mem_cons, not_or]
      by_cases h1 : a.1 = k <;> by_cases h2 : a.1 ∈ ms.map (·.1) <;> simp [h1, h2]
    rw [e]
    by_cases hk : k ∈ ms.map (·.1)
    · rw [if_pos hk]
      simp [hk]
    · rw [if_neg hk]
      simp [hk]

theorem run_events (v : Value F) : ∀ b : Builder F, run b (events v) = some { b with stk := b.stk ++ [norm v] } := by
  induction v using events.induct
    (motive_3 := fun vs => ∀ b : Builder F, run b (eventsL vs) = some { b with stk := b.stk ++ normL vs })
    (motive_2 := fun ms => ∀ b : Builder F, run b (eventsM ms) =
      some { b with stk := b.stk ++ (normM ms).map (·.2), key := b.key ++ (normM ms).map (·.1) }) with
  | case1 => intro b; rfl
  | case2 => intro b; rfl
  | case3 => intro b; rfl
  | case4 => intro b; rfl
  | case5 => intro b; rfl
  | case6 vs ih =>
    intro b
    rw [events, run]
    simp only [step, Option.bind_some]
    rw [run_append, ih]
    simp [run, step, norm]
  | case7 ms ih =>
    intro b
    rw [events, run]
    simp only [step, Option.bind_some]
    rw [run_append, ih]
    have hl : (normM ms).length = (normM ms).length := rfl
    simp only [Option.bind_some, run, step, List.length_append, List.length_map, Nat.add_sub_cancel_left]
    rw [if_neg (by omega)]
    simp only [Nat.add_sub_cancel, Option.bind_some, List.drop_left, List.take_left, norm]
    rw [show (List.map (fun x => x.1) (normM ms)).zip (List.map (fun x => x.2) (normM ms)) = normM ms from by
      rw [List.zip_map', List.map_id''] ; intro x; rfl, foldl_addMember]
    simp
  | case8 => simp [eventsL, run, normL]
  | case9 v vs ih1 ih2 =>
    rename_i b
    rw [eventsL, run_append, ih1, Option.bind_some, ih2]
    simp [normL]
  | case10 => simp [eventsM, run, normM]
  | case11 k v ms ih1 ih2 =>
    rename_i b
    rw [eventsM, run]
    simp only [step, Option.bind_some]
    rw [run_append, ih1, Option.bind_some, ih2]
    simp [normM]

end Verif.Json.Lemmas
