import Verif.JsonDoc.Exec
import Verif.JsonEq.Model
/-! What values documents show after changes. Helper lemmas. -/

namespace Verif.JsonDoc.Lemmas
open Verif.Json (Str Value)
open Verif.JsonDoc.Spec

variable {F : Type}

theorem shows_set {h : List (Node F)} {c a : Nat} {v : Value F} (n : Node F) (h1 : Shows h c v) (h2 : ¬ Reach h c a) : Shows (h.set a n) c v := by
  refine Shows.same h1 (fun x hx => List.getElem?_set_ne ?_)
  rintro rfl
  exact h2 hx

theorem acc_no_loop {h : List (Node F)} {a : Nat} (ha : Acc (fun b a => Edge h a b) a) : ∀ b, Edge h a b → ¬ Reach h b a := by
  induction ha with
  | intro a _ ih =>
    intro b e r
    cases r with
    | refl => exact ih _ e _ e (.refl _)
    | step e' r' => exact ih b e _ e' (Reach.trans r' (.step e (.refl _)))

/-- The members at `ms` show `vs`. -/
def Members (h : List (Node F)) (ms : List (Str × Nat)) (vs : List (Str × Value F)) : Prop :=
  List.Forall₂ (fun m w => m.1 = w.1 ∧ Shows h m.2 w.2) ms vs

theorem members_of {h : List (Node F)} : ∀ {ms : List (Str × Nat)} {vs : List (Str × Value F)}, ms.map (·.1) = vs.map (·.1) →
    (∀ (i : Nat) (m : Str × Nat) (w : Str × Value F), ms[i]? = some m → vs[i]? = some w → Shows h m.2 w.2) → Members h ms vs
  | [], [], _, _ => .nil
  | [], _ :: _, e, _ => by simp at e
  | _ :: _, [], e, _ => by simp at e
  | m :: ms, v :: vs, e, H => by
    simp only [List.map_cons, List.cons.injEq] at e
    exact .cons ⟨e.1, H 0 m v rfl rfl⟩ (members_of e.2 (fun i m w h1 h2 => H (i + 1) m w (by simpa using h1) (by simpa using h2)))

theorem shows_obj {h : List (Node F)} {a : Nat} {ms : List (Str × Nat)} {vs : List (Str × Value F)} (hn : h[a]? = some (.obj ms))
    (hm : Members h ms vs) : Shows h a (.obj vs) := by
  refine .obj hn ?_ ?_
  · clear hn
    induction hm with
    | nil => rfl
    | cons h1 _ ih => simp [h1.1, ih]
  · clear hn
    induction hm with
    | nil => simp
    | cons h1 _ ih =>
      intro i m w hi hw
      cases i with
      | zero => simp only [List.getElem?_cons_zero, Option.some.injEq] at hi hw; subst hi hw; exact h1.2
      | succ i => exact ih i m w (by simpa using hi) (by simpa using hw)

theorem obj_members {h : List (Node F)} {a : Nat} {vs : List (Str × Value F)} (hs : Shows h a (.obj vs)) :
    ∃ ms, h[a]? = some (.obj ms) ∧ Members h ms vs := by
  cases hs with
  | obj e hl H => exact ⟨_, e, members_of hl H⟩

theorem Members.put {h : List (Node F)} {ms : List (Str × Nat)} {vs : List (Str × Value F)} (hm : Members h ms vs) {k : Str} {b : Nat} {w : Value F}
    (hb : Shows h b w) : Members h (put ms k b) (Verif.Json.addMember vs k w) := by
  unfold JsonDoc.put Verif.Json.addMember
  induction hm with
  | nil => exact .cons ⟨rfl, hb⟩ .nil
  | @cons m v ms vs h1 _ ih =>
    simp only [List.filter_cons]
    rw [← h1.1]
    split
    · exact .cons h1 ih
    · exact ih

theorem Members.mono {h h' : List (Node F)} {ms : List (Str × Nat)} {vs : List (Str × Value F)} (hm : Members h ms vs)
    (H : ∀ m ∈ ms, ∀ v, Shows h m.2 v → Shows h' m.2 v) : Members h' ms vs := by
  induction hm with
  | nil => exact .nil
  | cons h1 _ ih =>
    exact .cons ⟨h1.1, H _ List.mem_cons_self _ h1.2⟩ (ih (fun m hm v hv => H m (List.mem_cons_of_mem _ hm) v hv))

theorem Members.foldl {h : List (Node F)} : ∀ {ns : List (Str × Nat)} {ws : List (Str × Value F)}, Members h ns ws →
    ∀ {ms : List (Str × Nat)} {vs : List (Str × Value F)}, Members h ms vs →
    Members h (ns.foldl (fun r m => JsonDoc.put r m.1 m.2) ms) (ws.foldl (fun r m => Verif.Json.addMember r m.1 m.2) vs)
  | [], [], _, _, _, hm => hm
  | n :: ns, w :: ws, .cons h1 h2, _, _, hm => by
    refine Members.foldl h2 ?_
    dsimp only
    rw [← h1.1]; exact Members.put hm h1.2

theorem mergeObj_second (vs ws : List (Str × Value F)) : Verif.JsonEq.mergeObj (fun _ y => y) vs ws =
    ws.foldl (fun r m => Verif.Json.addMember r m.1 m.2) (vs.foldl (fun r m => Verif.Json.addMember r m.1 m.2) []) := by
  unfold Verif.JsonEq.mergeObj
  congr 1
  funext r m
  unfold Verif.JsonEq.mergeStep
  split <;> rfl

/-! ### subscripts -/

/-- A `const` expression changes nothing. -/
theorem walk_const : ∀ (qs : List Step) (s : St F) (p : Place), (walk true s p qs).1 = s
  | [], _, _ => rfl
  | q :: qs, s, p => by
    simp only [walk]
    have h : (sub true s p q).1 = s := by
      cases q with
      | name k =>
        simp only [sub]
        rcases subName_cases true s p k with ⟨r, e⟩ | ⟨a, ms, b, h1, h2, h3, e⟩ | ⟨a, ms, h1, h2, h3, hc, e⟩
        · rw [e]
        · rw [e]
        · cases hc
      | idx i =>
        simp only [sub]
        rcases subIdx_cases s p i with ⟨r, e⟩ | ⟨a, es, h1, h2, h3, e⟩ <;> rw [e]
    revert h
    rcases sub true s p q with ⟨s', r | p'⟩
    · exact id
    · intro h; dsimp only at h; subst h; exact walk_const qs s' p'

theorem eval_const {s : St F} {e : Lv} (h : e.con = true) : (eval s e).1 = s := by
  rw [eval_fst, h, walk_const]

/-- The subscripts of an existing part lead there, and change nothing. -/
theorem walk_leads {con : Bool} {s : St F} (hs : Sound s) {a b : Nat} {qs : List Step} (hl : Leads s.heap a qs b) :
    ∀ {p : Place}, load s p = some a → ∃ p', walk con s p qs = (s, .ok p') ∧ load s p' = some b := by
  induction hl with
  | here a => intro p hp; exact ⟨p, rfl, hp⟩
  | @name a b c k qs ms h1 h2 _ ih =>
    intro p hp
    have hg := get_mem (hs.names a ms h1) h2
    obtain ⟨p', h3, h4⟩ := ih (p := .member a k) (by simp [load, h1, hg])
    refine ⟨p', ?_, h4⟩
    simp only [walk, sub, subName, hp, h1, hg]
    exact h3
  | @idx a b c i qs es h1 h2 _ ih =>
    intro p hp
    obtain ⟨p', h3, h4⟩ := ih (p := .elem a i) (by simp [load, h1, h2])
    refine ⟨p', ?_, h4⟩
    have hi := (List.getElem?_eq_some_iff.mp h2).1
    simp only [walk, sub, subIdx, hp, h1, hi, if_true]
    exact h3

/-- A `const` expression leads only to parts that exist. -/
theorem leads_walk : ∀ (qs : List Step) {s s' : St F} {p p' : Place} {a b : Nat}, load s p = some a → walk true s p qs = (s', .ok p') →
    load s p' = some b → Leads s.heap a qs b
  | [], s, s', p, p', a, b, hp, hw, hb => by
    cases hw
    rw [hp] at hb; cases hb; exact .here a
  | q :: qs, s, s', p, p', a, b, hp, hw, hb => by
    simp only [walk] at hw
    cases q with
    | name k =>
      simp only [sub] at hw
      rcases subName_cases true s p k with ⟨r, e⟩ | ⟨c, ms, x, h1, h2, h3, e⟩ | ⟨c, ms, h1, h2, h3, hc, e⟩
      · rw [e] at hw; cases hw
      · rw [e] at hw
        rw [hp] at h1; cases h1
        exact .name h2 (get_some h3) (leads_walk qs (by simp [load, h2, h3]) hw hb)
      · cases hc
    | idx i =>
      simp only [sub] at hw
      rcases subIdx_cases s p i with ⟨r, e⟩ | ⟨c, es, h1, h2, h3, e⟩
      · rw [e] at hw; cases hw
      · rw [e] at hw
        rw [hp] at h1; cases h1
        have h4 : es[i]? = some (es[i]) := List.getElem?_eq_getElem h3
        exact .idx h2 h4 (leads_walk qs (by simp [load, h2, h3]) hw hb)

theorem eval_leads {s : St F} (hs : Sound s) {e : Lv} {a b : Nat} (hx : s.vars[e.root]? = some a) (hl : Leads s.heap a e.steps b) :
    ∃ p, eval s e = (s, .ok (p, b)) := by
  obtain ⟨p, h1, h2⟩ := walk_leads (con := e.con) hs hl (p := .var e.root) hx
  exact ⟨p, by simp only [eval, h1, h2]⟩

/-! ### what is never met -/

theorem walk_not_stuck : ∀ (qs : List Step) {con : Bool} {s : St F} {p : Place}, Sound s → Valid s p → (walk con s p qs).2 ≠ .error .stuck
  | [], con, s, p, _, _ => by simp [walk]
  | q :: qs, con, s, p, hs, hp => by
    simp only [walk]
    have h1 := sub_sound con s p q hs hp
    have h2 : (sub con s p q).2 ≠ .error .stuck := by
      obtain ⟨a, ha⟩ := Option.isSome_iff_exists.mp hp
      have hlt := load_lt hs ha
      cases q with
      | name k =>
        simp only [sub, subName, ha]
        rw [List.getElem?_eq_getElem hlt]
        cases s.heap[a] with
        | obj ms => dsimp only; cases get ms k <;> cases con <;> simp
        | _ => simp
      | idx i =>
        simp only [sub, subIdx, ha]
        rw [List.getElem?_eq_getElem hlt]
        cases s.heap[a] with
        | arr es => dsimp only; split <;> simp
        | _ => simp
    revert h1 h2
    rcases sub con s p q with ⟨s', r | p'⟩
    · intro _ h2; exact fun e => h2 (by cases e; rfl)
    · intro h1 _
      exact walk_not_stuck qs h1.1 (h1.2 p' rfl)

theorem eval_not_stuck {s : St F} (hs : Sound s) {e : Lv} (hx : e.root < s.vars.length) : (eval s e).2 ≠ .error .stuck := by
  have hv : Valid s (.var e.root) := by simp [Valid, load, hx]
  have h1 := walk_not_stuck e.steps (con := e.con) hs hv
  have h2 := walk_ind Sound Valid (fun con s p q h1 h2 => sub_sound con s p q h1 h2) e.con e.steps s (.var e.root) hs hv
  unfold eval
  revert h1 h2
  rcases walk e.con s (.var e.root) e.steps with ⟨s', r | p'⟩
  · intro h1 _; exact fun e => h1 (by cases e; rfl)
  · intro _ h2
    obtain ⟨a, ha⟩ := Option.isSome_iff_exists.mp (h2.2 p' rfl)
    dsimp only
    rw [ha]
    exact fun e => by cases e

mutual
theorem read_not_stuck {h : List (Node F)} (hr : ∀ a b, Edge h a b → b < h.length) : ∀ (d a : Nat), a < h.length → read h d a ≠ .error .stuck
  | 0, _, _ => by simp [read]
  | d + 1, a, ha => by
    simp only [read]
    cases hn : h[a]? with
    | none => rw [List.getElem?_eq_none_iff] at hn; omega
    | some n =>
      cases n with
      | arr es =>
        have := readL_not_stuck hr d es (fun x hx => hr a x (.inl ⟨es, hn, hx⟩))
        dsimp only
        revert this
        cases readL h d es with
        | ok vs => simp
        | error e => intro h e'; cases e'; exact h rfl
      | obj ms =>
        have := readM_not_stuck hr d ms (fun m hm => hr a m.2 (.inr ⟨ms, hn, m.1, hm⟩))
        dsimp only
        revert this
        cases readM h d ms with
        | ok vs => simp
        | error e => intro h e'; cases e'; exact h rfl
      | _ => simp
theorem readL_not_stuck {h : List (Node F)} (hr : ∀ a b, Edge h a b → b < h.length) : ∀ (d : Nat) (es : List Nat), (∀ x ∈ es, x < h.length) →
    readL h d es ≠ .error .stuck
  | _, [], _ => by simp [readL]
  | d, a :: as, H => by
    have h1 := read_not_stuck hr d a (H a (by simp))
    have h2 := readL_not_stuck hr d as (fun x hx => H x (by simp [hx]))
    simp only [readL]
    revert h1
    cases read h d a with
    | error e => intro h e'; cases e'; exact h rfl
    | ok v =>
      intro _
      dsimp only
      revert h2
      cases readL h d as with
      | ok vs => simp
      | error e => intro h e'; cases e'; exact h rfl
theorem readM_not_stuck {h : List (Node F)} (hr : ∀ a b, Edge h a b → b < h.length) : ∀ (d : Nat) (ms : List (Str × Nat)), (∀ m ∈ ms, m.2 < h.length) →
    readM h d ms ≠ .error .stuck
  | _, [], _ => by simp [readM]
  | d, (k, a) :: as, H => by
    have h0 : a < h.length := H (k, a) List.mem_cons_self
    have h1 := read_not_stuck hr d a h0
    have h2 := readM_not_stuck hr d as (fun x hx => H x (by simp [hx]))
    simp only [readM]
    revert h1
    cases read h d a with
    | error e => intro h e'; cases e'; exact h rfl
    | ok v =>
      intro _
      dsimp only
      revert h2
      cases readM h d as with
      | ok vs => simp
      | error e => intro h e'; cases e'; exact h rfl
end

/-! ### null pointers -/

theorem put_put {X : Type} (ms : List (Str × X)) (k : Str) (x y : X) : put (put ms k x) k y = put ms k y := by
  unfold put
  rw [List.filter_append, List.filter_filter]
  simp

/-- No handle holds a null pointer. -/
def NoZero (h : List (Node F)) : Prop := ∀ a : Nat, h[a]? ≠ some .nothing

theorem noZero_set {h : List (Node F)} (hz : NoZero h) {a : Nat} {n : Node F} (hn : n ≠ .nothing) : NoZero (h.set a n) := by
  intro x e
  rw [List.getElem?_set] at e
  split at e
  · split at e
    · exact hn (Option.some.inj e)
    · cases e
  · exact hz x e

theorem noZero_push {h : List (Node F)} (hz : NoZero h) {n : Node F} (hn : n ≠ .nothing) : NoZero (h ++ [n]) := by
  intro x e
  rw [List.getElem?_append] at e
  split at e
  · exact hz x e
  · exact hn (List.mem_singleton.mp (List.mem_of_getElem? e)).symm

theorem walk_noZero (con : Bool) (qs : List Step) (s : St F) (p : Place) (hz : NoZero s.heap) : NoZero (walk con s p qs).1.heap := by
  refine (walk_ind (fun t => NoZero t.heap) (fun _ _ => True) (fun con s' p q hi _ => ⟨?_, fun _ _ => trivial⟩) con qs s p hz trivial).1
  cases q with
  | name k =>
    simp only [sub]
    rcases subName_cases con s' p k with ⟨r, e⟩ | ⟨a, ms, b, h1, h2, h3, e⟩ | ⟨a, ms, h1, h2, h3, hc, e⟩
    · rw [e]; exact hi
    · rw [e]; exact hi
    · rw [e]; exact noZero_set (noZero_push hi (by simp)) (by simp)
  | idx i =>
    simp only [sub]
    rcases subIdx_cases s' p i with ⟨r, e⟩ | ⟨a, es, h1, h2, h3, e⟩ <;> (rw [e]; exact hi)

theorem eval_noZero {s : St F} (hz : NoZero s.heap) (e : Lv) : NoZero (eval s e).1.heap := by
  rw [eval_fst]; exact walk_noZero _ _ _ _ hz

theorem walk_not_undef : ∀ (qs : List Step) {con : Bool} {s : St F} {p : Place}, (∀ q ∈ qs, ∃ k, q = .name k) → (walk con s p qs).2 ≠ .error .undef
  | [], con, s, p, _ => by simp [walk]
  | q :: qs, con, s, p, H => by
    obtain ⟨k, rfl⟩ := H q List.mem_cons_self
    simp only [walk, sub]
    have h : (subName con s p k).2 ≠ .error .undef := by
      unfold subName
      cases load s p with
      | none => simp
      | some a =>
        dsimp only
        cases s.heap[a]? with
        | none => simp
        | some n =>
          cases n with
          | obj ms => dsimp only; cases get ms k <;> cases con <;> simp
          | _ => simp
    revert h
    rcases subName con s p k with ⟨s', r | p'⟩
    · intro h e; exact h (by cases e; rfl)
    · intro _; exact walk_not_undef qs (fun q hq => H q (List.mem_cons_of_mem _ hq))

theorem eval_not_undef {s : St F} {e : Lv} (h : ∀ q ∈ e.steps, ∃ k, q = .name k) : (eval s e).2 ≠ .error .undef := by
  have h1 := walk_not_undef e.steps (con := e.con) (s := s) (p := .var e.root) h
  unfold eval
  revert h1
  rcases walk e.con s (.var e.root) e.steps with ⟨s', r | p'⟩
  · intro h1 e; exact h1 (by cases e; rfl)
  · intro _; dsimp only; cases load s' p' <;> simp

mutual
theorem read_not_undef {h : List (Node F)} (hz : NoZero h) : ∀ (d a : Nat), read h d a ≠ .error .undef
  | 0, _ => by simp [read]
  | d + 1, a => by
    simp only [read]
    cases hn : h[a]? with
    | none => simp
    | some n =>
      cases n with
      | nothing => exact absurd hn (hz a)
      | arr es =>
        have := readL_not_undef hz d es
        dsimp only
        revert this
        cases readL h d es with
        | ok vs => simp
        | error e => intro h e'; cases e'; exact h rfl
      | obj ms =>
        have := readM_not_undef hz d ms
        dsimp only
        revert this
        cases readM h d ms with
        | ok vs => simp
        | error e => intro h e'; cases e'; exact h rfl
      | _ => simp
theorem readL_not_undef {h : List (Node F)} (hz : NoZero h) : ∀ (d : Nat) (es : List Nat), readL h d es ≠ .error .undef
  | _, [] => by simp [readL]
  | d, a :: as => by
    have h1 := read_not_undef hz d a
    have h2 := readL_not_undef hz d as
    simp only [readL]
    revert h1
    cases read h d a with
    | error e => intro h e'; cases e'; exact h rfl
    | ok v =>
      intro _
      dsimp only
      revert h2
      cases readL h d as with
      | ok vs => simp
      | error e => intro h e'; cases e'; exact h rfl
theorem readM_not_undef {h : List (Node F)} (hz : NoZero h) : ∀ (d : Nat) (ms : List (Str × Nat)), readM h d ms ≠ .error .undef
  | _, [] => by simp [readM]
  | d, (k, a) :: as => by
    have h1 := read_not_undef hz d a
    have h2 := readM_not_undef hz d as
    simp only [readM]
    revert h1
    cases read h d a with
    | error e => intro h e'; cases e'; exact h rfl
    | ok v =>
      intro _
      dsimp only
      revert h2
      cases readM h d as with
      | ok vs => simp
      | error e => intro h e'; cases e'; exact h rfl
end

mutual
theorem clone_noZero : ∀ {d : Nat} {h h' : List (Node F)} {a b : Nat}, NoZero h → clone d h a = .ok (h', b) → NoZero h'
  | 0, _, _, _, _, _, e => by simp [clone] at e
  | d + 1, h, h', a, b, hz, e => by
    simp only [clone] at e
    cases hn : h[a]? with
    | none => rw [hn] at e; cases e
    | some n =>
      rw [hn] at e
      cases n with
      | nothing => cases e
      | arr es =>
        dsimp only at e
        cases h1 : cloneL d h es with
        | error r => rw [h1] at e; cases e
        | ok hb => obtain ⟨h2, bs⟩ := hb; rw [h1] at e; cases e; exact noZero_push (cloneL_noZero hz h1) (by simp)
      | obj ms =>
        dsimp only at e
        cases h1 : cloneM d h ms [] with
        | error r => rw [h1] at e; cases e
        | ok hb => obtain ⟨h2, bs⟩ := hb; rw [h1] at e; cases e; exact noZero_push (cloneM_noZero hz h1) (by simp)
      | null => cases e; exact noZero_push hz (by simp)
      | int n => cases e; exact noZero_push hz (by simp)
      | flt n => cases e; exact noZero_push hz (by simp)
      | bool n => cases e; exact noZero_push hz (by simp)
      | str n => cases e; exact noZero_push hz (by simp)
theorem cloneL_noZero : ∀ {d : Nat} {h h' : List (Node F)} {es bs : List Nat}, NoZero h → cloneL d h es = .ok (h', bs) → NoZero h'
  | _, _, _, [], _, hz, e => by simp only [cloneL] at e; cases e; exact hz
  | d, h, h', a :: as, bs, hz, e => by
    simp only [cloneL] at e
    cases h1 : clone d h a with
    | error r => rw [h1] at e; cases e
    | ok hb =>
      obtain ⟨h2, b⟩ := hb
      rw [h1] at e
      dsimp only at e
      cases h3 : cloneL d h2 as with
      | error r => rw [h3] at e; cases e
      | ok hc => obtain ⟨h4, cs⟩ := hc; rw [h3] at e; cases e; exact cloneL_noZero (clone_noZero hz h1) h3
theorem cloneM_noZero : ∀ {d : Nat} {h h' : List (Node F)} {ms ns bs : List (Str × Nat)}, NoZero h → cloneM d h ms ns = .ok (h', bs) → NoZero h'
  | _, _, _, [], _, _, hz, e => by simp only [cloneM] at e; cases e; exact hz
  | d, h, h', (k, a) :: as, ns, bs, hz, e => by
    simp only [cloneM] at e
    cases h1 : clone d h a with
    | error r => rw [h1] at e; cases e
    | ok hb =>
      obtain ⟨h2, b⟩ := hb
      rw [h1] at e
      exact cloneM_noZero (clone_noZero hz h1) e
end

/-- Without loops and null pointers every document shows something. -/
theorem tame_shows {h : List (Node F)} (ht : Tame h) (hr : ∀ a b, Edge h a b → b < h.length) (a : Nat) :
    a < h.length → (∀ c, Reach h a c → h[c]? ≠ some .nothing) → ∃ v, Shows h a v := by
  induction ht a with
  | intro a _ ih =>
    intro ha hz
    cases hn : h[a]? with
    | none => rw [List.getElem?_eq_none_iff] at hn; omega
    | some n =>
      have sub : ∀ b, Edge h a b → ∃ v, Shows h b v := fun b e => ih b e (hr a b e) (fun c hc => hz c (.step e hc))
      cases n with
      | null => exact ⟨_, .null hn⟩
      | int n => exact ⟨_, .int hn⟩
      | flt n => exact ⟨_, .flt hn⟩
      | bool n => exact ⟨_, .bool hn⟩
      | str n => exact ⟨_, .str hn⟩
      | nothing => exact absurd hn (hz a (.refl a))
      | arr es =>
        have : ∀ l : List Nat, (∀ b ∈ l, ∃ v, Shows h b v) → ∃ vs : List (Value F), l.length = vs.length ∧
            ∀ (i b : Nat) (v : Value F), l[i]? = some b → vs[i]? = some v → Shows h b v := by
          intro l
          induction l with
          | nil => intro _; exact ⟨[], rfl, by simp⟩
          | cons b l ihl =>
            intro H
            obtain ⟨v, hv⟩ := H b (by simp)
            obtain ⟨vs, h1, h2⟩ := ihl (fun c hc => H c (by simp [hc]))
            refine ⟨v :: vs, by simp [h1], fun i c w hc hw => ?_⟩
            cases i with
            | zero => simp only [List.getElem?_cons_zero, Option.some.injEq] at hc hw; subst hc hw; exact hv
            | succ i => exact h2 i c w (by simpa using hc) (by simpa using hw)
        obtain ⟨vs, h1, h2⟩ := this es (fun b hb => sub b (.inl ⟨es, hn, hb⟩))
        exact ⟨_, .arr hn h1 h2⟩
      | obj ms =>
        have : ∀ l : List (Str × Nat), (∀ m ∈ l, ∃ v, Shows h m.2 v) → ∃ vs, Members h l vs := by
          intro l
          induction l with
          | nil => intro _; exact ⟨[], .nil⟩
          | cons b l ihl =>
            intro H
            obtain ⟨v, hv⟩ := H b (by simp)
            obtain ⟨vs, h1⟩ := ihl (fun c hc => H c (by simp [hc]))
            exact ⟨(b.1, v) :: vs, .cons ⟨rfl, hv⟩ h1⟩
        obtain ⟨vs, h1⟩ := this ms (fun m hm => sub m.2 (.inr ⟨ms, hn, m.1, hm⟩))
        exact ⟨_, shows_obj hn h1⟩

end Verif.JsonDoc.Lemmas
