import Verif.JsonDoc.Steps
/-! What one statement does to memory, continued. Helper lemmas. -/

namespace Verif.JsonDoc.Lemmas
open Verif.Json (Str Value)
open Verif.JsonDoc.Spec

variable {F : Type}

/-- The expression that a statement starts with. -/
def lv : Op F → Option Lv
  | .copy e => some e
  | .assign e _ => some e
  | .add e _ => some e
  | .addAs e _ _ => some e
  | .clone e => some e
  | .size e => some e
  | .count e _ => some e
  | .type e => some e
  | .print e => some e
  | _ => none

/-- The ways a statement can leave memory. -/
inductive After (d : Nat) (s : St F) (o : Op F) : St F → Prop
  | none : After d s o s
  | same {e : Lv} : lv o = some e → After d s o (eval s e).1
  | bind {e : Lv} {a b x y : Nat} : lv o = some e → (eval s e).2 = .ok (.var x, a) → rebinds x o → y ∈ mentions o → s.vars[y]? = some b →
      After d s o { (eval s e).1 with vars := (eval s e).1.vars.set x b }
  | change {e : Lv} {a b y : Nat} {h' : List (Node F)} : lv o = some e → y ∈ mentions o → s.vars[y]? = some b →
      Change (eval s e).1.heap h' a b → (Tidy s o → ¬ Reach (eval s e).1.heap b a) → (∀ P A : Nat → Prop, Own P A s → A e.root → P a) →
      After d s o ⟨h', (eval s e).1.vars⟩
  | copy {e : Lv} {p : Place} {b : Nat} : lv o = some e → (eval s e).2 = .ok (p, b) →
      After d s o { (eval s e).1 with vars := (eval s e).1.vars ++ [b] }
  | clone {e : Lv} {p : Place} {a b : Nat} {h' : List (Node F)} : lv o = some e → (eval s e).2 = .ok (p, a) →
      clone d (eval s e).1.heap a = .ok (h', b) → After d s o ⟨h', (eval s e).1.vars ++ [b]⟩
  | make {n : Node F} : (∀ y, Lists n y → ∃ x c, x ∈ mentions o ∧ s.vars[x]? = some c ∧ Edge s.heap c y) →
      (Sound s → ∀ ms, n = .obj ms → (ms.map (·.1)).Nodup) → After d s o (make s n)

theorem root_mentions {o : Op F} {e : Lv} (h : lv o = some e) : e.root ∈ mentions o := by
  cases o <;> simp [lv] at h <;> subst h <;> simp [mentions]

theorem var_ok {s : St F} {y b : Nat} (h : var s y = .ok b) : s.vars[y]? = some b := by
  unfold var at h
  cases e : s.vars[y]? with
  | none => rw [e] at h; cases h
  | some c => rw [e] at h; cases h; rfl

theorem mem_foldl_put {X : Type} : ∀ (l r : List (Str × X)) {m : Str × X}, m ∈ l.foldl (fun r m => put r m.1 m.2) r → m ∈ r ∨ m ∈ l
  | [], _, _, h => .inl h
  | a :: l, _, m, h => by
    rcases mem_foldl_put l _ h with h1 | h1
    · unfold put at h1
      rcases List.mem_append.mp h1 with h2 | h2
      · exact .inl (List.mem_filter.mp h2).1
      · right; rw [List.mem_singleton.mp h2]; exact List.mem_cons_self
    · exact .inr (List.mem_cons_of_mem _ h1)

theorem nodup_foldl_put {X : Type} : ∀ (l r : List (Str × X)), (r.map (·.1)).Nodup → ((l.foldl (fun r m => put r m.1 m.2) r).map (·.1)).Nodup
  | [], _, h => h
  | a :: l, _, h => nodup_foldl_put l _ (nodup_put h a.1 a.2)

/-- A place that is a variable is the one the expression starts with. -/
theorem walk_var {con : Bool} {s s' : St F} {x y : Nat} : ∀ {qs : List Step} {p : Place}, walk con s p qs = (s', .ok (.var y)) →
    p = .var x ∨ (∃ a i, p = .elem a i) ∨ (∃ a k, p = .member a k) → qs = [] ∧ p = .var y := by
  intro qs
  induction qs generalizing s with
  | nil => intro p h _; cases h; exact ⟨rfl, rfl⟩
  | cons q qs ih =>
    intro p h _
    exfalso
    simp only [walk] at h
    cases q with
    | name k =>
      simp only [sub] at h
      rcases subName_cases con s p k with ⟨r, e⟩ | ⟨a, ms, b, h1, h2, h3, e⟩ | ⟨a, ms, h1, h2, h3, hc, e⟩
      · rw [e] at h; cases h
      · rw [e] at h
        have := ih h (.inr (.inr ⟨_, _, rfl⟩)); simp at this
      · rw [e] at h
        have := ih h (.inr (.inr ⟨_, _, rfl⟩)); simp at this
    | idx i =>
      simp only [sub] at h
      rcases subIdx_cases s p i with ⟨r, e⟩ | ⟨a, es, h1, h2, h3, e⟩
      · rw [e] at h; cases h
      · rw [e] at h
        have := ih h (.inr (.inl ⟨_, _, rfl⟩)); simp at this

theorem exec_after (d : Nat) (s : St F) (o : Op F) : After d s o (exec d s o).1 := by
  cases o with
  | make l =>
    simp only [exec]
    refine .make (fun y hy => ?_) (fun _ ms e => ?_)
    · rcases hy with ⟨es, e, h⟩ | ⟨ms, e, k, h⟩ <;> cases l <;> simp [Lit.node] at e <;> subst e <;> simp at h
    · cases l <;> simp [Lit.node] at e
      subst e; simp
  | copy e =>
    simp only [exec]
    rcases he : eval s e with ⟨t, r | ⟨p, a⟩⟩
    · have := After.same (d := d) (s := s) (o := .copy e) rfl; rw [he] at this; exact this
    · have := After.copy (d := d) (s := s) (o := .copy e) (p := p) (b := a) rfl (by rw [he]); rw [he] at this; exact this
  | assign e y =>
    simp only [exec]
    cases hv : var s y with
    | error r => exact .none
    | ok b =>
      dsimp only
      rcases he : eval s e with ⟨t, r | ⟨p, a⟩⟩
      · have := After.same (d := d) (s := s) (o := .assign e y) rfl; rw [he] at this; exact this
      · dsimp only
        have hsame := After.same (d := d) (s := s) (o := .assign e y) rfl
        rw [he] at hsame
        cases hc : e.con with
        | true => exact hsame
        | false =>
          cases p with
          | var x =>
            simp only [store]
            have hw := eval_ok he
            have h1 := walk_var (x := e.root) hw.1 (.inl rfl)
            have := After.bind (d := d) (s := s) (o := .assign e y) (x := x) (a := a) rfl (by rw [he]) ⟨by simpa using h1.2, h1.1⟩
              (y := y) (by simp [mentions]) (var_ok hv)
            rw [he] at this; exact this
          | elem c i =>
            simp only [store]
            cases h1 : t.heap[c]? with
            | none => exact hsame
            | some n =>
              cases n with
              | arr es =>
                dsimp only
                have := After.change (d := d) (s := s) (o := .assign e y) (a := c) (y := y) rfl (by simp [mentions]) (var_ok hv)
                  (h' := t.heap.set c (.arr (es.set i b))) (by rw [he]; exact change_elem h1 i)
                  (fun ht => by rw [he]; exact ht t _ a b he (var_ok hv))
                  (fun P A ho hA => show In P A (.elem c i) from ((eval_own ho e hA).2.2 (.elem c i) a (by rw [he])).1)
                rw [he] at this; exact this
              | _ => exact hsame
          | member c k =>
            simp only [store]
            cases h1 : t.heap[c]? with
            | none => exact hsame
            | some n =>
              cases n with
              | obj ms =>
                dsimp only
                have := After.change (d := d) (s := s) (o := .assign e y) (a := c) (y := y) rfl (by simp [mentions]) (var_ok hv)
                  (h' := t.heap.set c (.obj (put ms k b))) (by rw [he]; exact change_put h1 k)
                  (fun ht => by rw [he]; exact ht t _ a b he (var_ok hv))
                  (fun P A ho hA => show In P A (.member c k) from ((eval_own ho e hA).2.2 (.member c k) a (by rw [he])).1)
                rw [he] at this; exact this
              | _ => exact hsame
  | add e y =>
    simp only [exec]
    cases hv : var s y with
    | error r => exact .none
    | ok b =>
      dsimp only
      have hsame := After.same (d := d) (s := s) (o := .add e y) rfl
      rcases he : eval s e with ⟨t, r | ⟨p, a⟩⟩
      · rw [he] at hsame; exact hsame
      · rw [he] at hsame
        dsimp only
        split
        · exact hsame
        · simp only [addElem]
          cases h1 : t.heap[a]? with
          | none => exact hsame
          | some n =>
            cases n with
            | arr es =>
              have := After.change (d := d) (s := s) (o := .add e y) (a := a) (y := y) rfl (by simp [mentions]) (var_ok hv)
                (h' := t.heap.set a (.arr (es ++ [b]))) (by rw [he]; exact change_push h1)
                (fun ht => by rw [he]; exact ht t _ a b he (var_ok hv))
                (fun P A ho hA => ((eval_own ho e hA).2.2 _ _ (by rw [he])).2)
              rw [he] at this; exact this
            | _ => exact hsame
  | addAs e k y =>
    simp only [exec]
    cases hv : var s y with
    | error r => exact .none
    | ok b =>
      dsimp only
      have hsame := After.same (d := d) (s := s) (o := .addAs e k y) rfl
      rcases he : eval s e with ⟨t, r | ⟨p, a⟩⟩
      · rw [he] at hsame; exact hsame
      · rw [he] at hsame
        dsimp only
        split
        · exact hsame
        · simp only [addMember]
          cases h1 : t.heap[a]? with
          | none => exact hsame
          | some n =>
            cases n with
            | obj ms =>
              have := After.change (d := d) (s := s) (o := .addAs e k y) (a := a) (y := y) rfl (by simp [mentions]) (var_ok hv)
                (h' := t.heap.set a (.obj (put ms k b))) (by rw [he]; exact change_put h1 k)
                (fun ht => by rw [he]; exact ht t _ a b he (var_ok hv))
                (fun P A ho hA => ((eval_own ho e hA).2.2 _ _ (by rw [he])).2)
              rw [he] at this; exact this
            | _ => exact hsame
  | clone e =>
    simp only [exec]
    have hsame := After.same (d := d) (s := s) (o := .clone e) rfl
    rcases he : eval s e with ⟨t, r | ⟨p, a⟩⟩
    · rw [he] at hsame; exact hsame
    · rw [he] at hsame
      dsimp only
      cases hc : JsonDoc.clone d t.heap a with
      | error r => exact hsame
      | ok hb =>
        obtain ⟨h', b⟩ := hb
        have := After.clone (d := d) (s := s) (o := .clone e) (p := p) (a := a) (b := b) (h' := h') rfl (by rw [he]) (by rw [he]; exact hc)
        rw [he] at this; exact this
  | merge y z =>
    simp only [exec]
    cases hy : var s y with
    | error r => exact .none
    | ok a =>
      cases hz : var s z with
      | error r => exact .none
      | ok b =>
        dsimp only
        cases hm : JsonDoc.merge s.heap a b with
        | error r => exact .none
        | ok n =>
          dsimp only
          unfold JsonDoc.merge at hm
          split at hm
          · cases hm
          · cases hm
          · rename_i ms ns h1 h2
            cases hm
            refine .make (fun c hc => ?_) (fun hs ms' e => ?_)
            · rcases hc with ⟨es, e, _⟩ | ⟨ms', e, k, hk⟩
              · cases e
              · cases e
                rcases mem_foldl_put _ _ hk with h3 | h3
                · rcases mem_foldl_put _ _ h3 with h4 | h4
                  · simp at h4
                  · exact ⟨y, a, by simp [mentions], var_ok hy, .inr ⟨ms, h1, k, h4⟩⟩
                · exact ⟨z, b, by simp [mentions], var_ok hz, .inr ⟨ns, h2, k, h3⟩⟩
            · cases e
              exact nodup_foldl_put _ _ (nodup_foldl_put _ _ (by simp))
          · cases hm
  | size e =>
    simp only [exec]
    have hsame := After.same (d := d) (s := s) (o := .size e) rfl
    rcases he : eval s e with ⟨t, r | ⟨p, a⟩⟩
    · rw [he] at hsame; exact hsame
    · rw [he] at hsame; dsimp only; cases JsonDoc.size t.heap a <;> exact hsame
  | count e k =>
    simp only [exec]
    have hsame := After.same (d := d) (s := s) (o := .count e k) rfl
    rcases he : eval s e with ⟨t, r | ⟨p, a⟩⟩
    · rw [he] at hsame; exact hsame
    · rw [he] at hsame; dsimp only; cases JsonDoc.count t.heap a k <;> exact hsame
  | type e =>
    simp only [exec]
    have hsame := After.same (d := d) (s := s) (o := .type e) rfl
    rcases he : eval s e with ⟨t, r | ⟨p, a⟩⟩
    · rw [he] at hsame; exact hsame
    · rw [he] at hsame; dsimp only; cases JsonDoc.type t.heap a <;> exact hsame
  | print e =>
    simp only [exec]
    have hsame := After.same (d := d) (s := s) (o := .print e) rfl
    rcases he : eval s e with ⟨t, r | ⟨p, a⟩⟩
    · rw [he] at hsame; exact hsame
    · rw [he] at hsame; dsimp only; cases JsonDoc.read t.heap d a <;> exact hsame

/-! ### the invariants -/

theorem sound_newvar {s : St F} (hs : Sound s) {b : Nat} (hb : b < s.heap.length) : Sound ⟨s.heap, s.vars ++ [b]⟩ := by
  refine ⟨hs.edges, fun x hx => ?_, hs.names⟩
  rcases List.mem_append.mp hx with h | h
  · exact hs.vars x h
  · rw [List.mem_singleton.mp h]; exact hb

theorem var_lt {s : St F} (hs : Sound s) {y b : Nat} (h : s.vars[y]? = some b) : b < s.heap.length := hs.vars b (List.mem_of_getElem? h)

theorem exec_sound (d : Nat) {s : St F} (hs : Sound s) (o : Op F) : Sound (exec d s o).1 := by
  have h := exec_after d s o
  revert h
  generalize (exec d s o).1 = t
  intro h
  cases h with
  | none => exact hs
  | same h1 => exact eval_sound hs _
  | @bind e a b x y h1 h2 h3 h4 h5 =>
    have h6 := eval_sound hs e
    refine ⟨h6.edges, fun z hz => ?_, h6.names⟩
    rcases List.mem_or_eq_of_mem_set hz with h | h
    · exact h6.vars z h
    · rw [h]; exact Nat.lt_of_lt_of_le (var_lt hs h5) (eval_len s e)
  | @change e a b y h' h1 h2 h3 h4 h5 h6 =>
    exact h4.sound (s := (eval s e).1) (eval_sound hs e) (Nat.lt_of_lt_of_le (var_lt hs h3) (eval_len s e))
  | @copy e p b h1 h2 =>
    exact sound_newvar (eval_sound hs e) (eval_lt (s := s) (s' := (eval s e).1) (p := p) hs (by rw [← h2]))
  | @clone e p a b h' h1 h2 h3 =>
    have h6 := eval_sound hs e
    have ha := eval_lt (s := s) (s' := (eval s e).1) (p := p) (a := a) (e := e) hs (by rw [← h2])
    obtain ⟨g, l1, l2⟩ := clone_grown h6.edges ha h6.names h3
    refine sound_newvar (s := ⟨h', (eval s e).1.vars⟩) ⟨g.closed h6.edges, fun x hx => ?_, g.names' h6.names⟩ l2
    exact Nat.lt_of_lt_of_le (h6.vars x hx) g.le
  | @make n h1 h2 =>
    refine sound_newvar (s := ⟨s.heap ++ [n], s.vars⟩) (sound_push hs n (fun y hy => ?_) (h2 hs)) (by simp)
    obtain ⟨x, c, _, _, h5⟩ := h1 y hy
    exact hs.edges c y h5

theorem exec_tame (d : Nat) {s : St F} (hs : Sound s) (ht : Tame s.heap) (o : Op F) (hd : Tidy s o) : Tame (exec d s o).1.heap := by
  have h := exec_after d s o
  revert h
  generalize (exec d s o).1 = t
  intro h
  cases h with
  | none => exact ht
  | same h1 => exact eval_tame hs ht _
  | @bind e a b x y h1 h2 h3 h4 h5 => exact eval_tame hs ht e
  | @change e a b y h' h1 h2 h3 h4 h5 h6 => exact tame_add (eval_tame hs ht e) (h5 hd) (fun x y => h4.edge)
  | @copy e p b h1 h2 => exact eval_tame hs ht e
  | @clone e p a b h' h1 h2 h3 =>
    have h6 := eval_sound hs e
    have ha := eval_lt (s := s) (s' := (eval s e).1) (p := p) (a := a) (e := e) hs (by rw [← h2])
    obtain ⟨g, l1, l2⟩ := clone_grown h6.edges ha h6.names h3
    refine tame_ext (eval_tame hs ht e) h6.edges (fun x y he => ?_)
    by_cases hx : x < (eval s e).1.heap.length
    · exact .inl ((edge_congr (g.old hx)).mp he)
    · exact .inr ⟨Nat.le_of_not_lt hx, (g.down x y (Nat.le_of_not_lt hx) he).2⟩
  | @make n h1 h2 =>
    refine tame_push ht hs.edges n (fun y hy => ?_)
    obtain ⟨x, c, _, _, h5⟩ := h1 y hy
    exact hs.edges c y h5

theorem own_newvar {P A : Nat → Prop} {s : St F} (ho : Own P A s) {b : Nat} (hb : P b) : Own P A ⟨s.heap, s.vars ++ [b]⟩ := by
  refine ⟨ho.new, ho.closed, fun x a hx ha => ?_⟩
  dsimp only at ha
  rw [List.getElem?_append] at ha
  split at ha
  · exact ho.vars x a hx ha
  · have := List.mem_of_getElem? ha
    rw [List.mem_singleton.mp this]; exact hb

/-- A statement about the variables in `A` changes nothing outside what they reach. -/
theorem exec_own {P A : Nat → Prop} (d : Nat) {s : St F} (hs : Sound s) (ho : Own P A s) (o : Op F) (hm : ∀ x ∈ mentions o, A x) :
    Own P A (exec d s o).1 ∧ (∀ a, ¬ P a → (exec d s o).1.heap[a]? = s.heap[a]?) ∧
    ∀ x, ¬ A x → x < s.vars.length → (exec d s o).1.vars[x]? = s.vars[x]? := by
  have h := exec_after d s o
  revert h
  generalize (exec d s o).1 = t
  intro h
  cases h with
  | none => exact ⟨ho, fun _ _ => rfl, fun _ _ _ => rfl⟩
  | @same e h1 =>
    have h6 := eval_own ho e (hm _ (root_mentions h1))
    exact ⟨h6.1, h6.2.1, fun _ _ _ => by rw [eval_vars]⟩
  | @bind e a b x y h1 h2 h3 h4 h5 =>
    have h6 := eval_own ho e (hm _ (root_mentions h1))
    have hx : A x := (h6.2.2 _ _ h2).1
    refine ⟨⟨h6.1.new, h6.1.closed, fun z c hz hc => ?_⟩, h6.2.1, fun z hz _ => ?_⟩
    · dsimp only at hc
      rw [List.getElem?_set] at hc
      split at hc
      · split at hc
        · cases hc; exact ho.vars y _ (hm y h4) h5
        · cases hc
      · exact h6.1.vars z c hz hc
    · dsimp only
      rw [List.getElem?_set_ne (fun e : x = z => hz (e ▸ hx)), eval_vars]
  | @change e a b y h' h1 h2 h3 h4 h5 hP =>
    have h6 := eval_own ho e (hm _ (root_mentions h1))
    have ha : P a := hP P A ho (hm _ (root_mentions h1))
    refine ⟨h4.own h6.1 (ho.vars y b (hm y h2) h3), fun c hc => ?_, fun _ _ _ => by rw [eval_vars]⟩
    dsimp only
    rw [h4.other (x := c) (fun e => hc (e ▸ ha)), h6.2.1 c hc]
  | @copy e p b h1 h2 =>
    have h6 := eval_own ho e (hm _ (root_mentions h1))
    refine ⟨own_newvar h6.1 (h6.2.2 _ _ h2).2, h6.2.1, fun x _ hx => ?_⟩
    dsimp only
    rw [eval_vars, List.getElem?_append_left hx]
  | @clone e p a b h' h1 h2 h3 =>
    have h6 := eval_own ho e (hm _ (root_mentions h1))
    have h7 := eval_sound hs e
    have ha := eval_lt (s := s) (s' := (eval s e).1) (p := p) (a := a) (e := e) hs (by rw [← h2])
    obtain ⟨g, l1, l2⟩ := clone_grown h7.edges ha h7.names h3
    refine ⟨own_newvar (s := ⟨h', (eval s e).1.vars⟩) ⟨fun x hx => h6.1.new x (Nat.le_trans g.le hx), fun x y hx he => ?_, h6.1.vars⟩
      (h6.1.new b l1), fun c hc => ?_, fun x _ hx => ?_⟩
    · by_cases hl : x < (eval s e).1.heap.length
      · exact h6.1.closed x y hx ((edge_congr (g.old hl)).mp he)
      · exact h6.1.new y (g.down x y (Nat.le_of_not_lt hl) he).1
    · dsimp only
      have hl : c < (eval s e).1.heap.length := Nat.lt_of_not_le (fun h => hc (h6.1.new c h))
      rw [g.old hl, h6.2.1 c hc]
    · dsimp only
      rw [eval_vars, List.getElem?_append_left hx]
  | @make n h1 h2 =>
    refine ⟨own_newvar (s := ⟨s.heap ++ [n], s.vars⟩) (own_push ho n (fun y hy => ?_)) (ho.new _ (Nat.le_refl _)), fun a ha => old_push ho n ha,
      fun x _ hx => ?_⟩
    · obtain ⟨x, c, h3, h4, h5⟩ := h1 y hy
      exact ho.closed c y (ho.vars x c (hm x h3) h4) h5
    · simp only [make]; rw [List.getElem?_append_left hx]

/-- The variables stay. -/
theorem exec_vars (d : Nat) (s : St F) (o : Op F) : s.vars.length ≤ (exec d s o).1.vars.length ∧
    ∀ x, ¬ rebinds x o → x < s.vars.length → (exec d s o).1.vars[x]? = s.vars[x]? := by
  have h := exec_after d s o
  revert h
  generalize (exec d s o).1 = t
  intro h
  cases h with
  | none => exact ⟨Nat.le_refl _, fun _ _ _ => rfl⟩
  | same h1 => exact ⟨by rw [eval_vars], fun _ _ _ => by rw [eval_vars]⟩
  | @bind e a b x y h1 h2 h3 h4 h5 =>
    refine ⟨by simp [eval_vars], fun z hz _ => ?_⟩
    dsimp only
    rw [List.getElem?_set_ne (fun e : x = z => hz (e ▸ h3)), eval_vars]
  | @change e a b y h' h1 h2 h3 h4 h5 hP => exact ⟨by simp [eval_vars], fun _ _ _ => by simp [eval_vars]⟩
  | @copy e p b h1 h2 => exact ⟨by simp [eval_vars], fun x _ hx => by dsimp only; rw [eval_vars, List.getElem?_append_left hx]⟩
  | @clone e p a b h' h1 h2 h3 => exact ⟨by simp [eval_vars], fun x _ hx => by dsimp only; rw [eval_vars, List.getElem?_append_left hx]⟩
  | @make n h1 h2 => exact ⟨by simp [make], fun x _ hx => by simp only [make]; rw [List.getElem?_append_left hx]⟩

end Verif.JsonDoc.Lemmas
