import Verif.JsonDoc.Lemmas
/-! What one statement does to memory. Helper lemmas. -/

namespace Verif.JsonDoc.Lemmas
open Verif.Json (Str Value)
open Verif.JsonDoc.Spec

variable {F : Type}

/-- `n` has the value at `b` as an element or member. -/
def Lists (n : Node F) (b : Nat) : Prop := (∃ es, n = .arr es ∧ b ∈ es) ∨ ∃ ms, n = .obj ms ∧ ∃ k, (k, b) ∈ ms

theorem edge_iff {h : List (Node F)} {a b : Nat} : Edge h a b ↔ ∃ n, h[a]? = some n ∧ Lists n b := by
  constructor
  · rintro (⟨es, h1, h2⟩ | ⟨ms, h1, h2⟩)
    · exact ⟨_, h1, .inl ⟨es, rfl, h2⟩⟩
    · exact ⟨_, h1, .inr ⟨ms, rfl, h2⟩⟩
  · rintro ⟨n, h1, ⟨es, rfl, h2⟩ | ⟨ms, rfl, h2⟩⟩
    · exact .inl ⟨es, h1, h2⟩
    · exact .inr ⟨ms, h1, h2⟩

/-- The value at `a` is changed so that it has no new part but the one at `b`. -/
structure Change (h h' : List (Node F)) (a b : Nat) : Prop where
  ex : ∃ n n', h[a]? = some n ∧ h' = h.set a n' ∧ (∀ y, Lists n' y → Lists n y ∨ y = b) ∧
    ((∀ ms, n = .obj ms → (ms.map (·.1)).Nodup) → ∀ ms, n' = .obj ms → (ms.map (·.1)).Nodup)

theorem Change.edge {h h' : List (Node F)} {a b : Nat} (c : Change h h' a b) {x y : Nat} (e : Edge h' x y) : Edge h x y ∨ (x = a ∧ y = b) := by
  obtain ⟨n, n', h1, rfl, h2, -⟩ := c.ex
  have ha := (List.getElem?_eq_some_iff.mp h1).1
  rw [edge_iff] at e
  obtain ⟨m, h3, h4⟩ := e
  by_cases hx : x = a
  · subst hx
    rw [List.getElem?_set_self ha] at h3
    cases h3
    rcases h2 y h4 with h5 | h5
    · exact .inl (edge_iff.mpr ⟨n, h1, h5⟩)
    · exact .inr ⟨rfl, h5⟩
  · rw [List.getElem?_set_ne (fun e => hx e.symm)] at h3
    exact .inl (edge_iff.mpr ⟨m, h3, h4⟩)

theorem Change.len {h h' : List (Node F)} {a b : Nat} (c : Change h h' a b) : h'.length = h.length := by
  obtain ⟨n, n', h1, rfl, -⟩ := c.ex; simp

theorem Change.other {h h' : List (Node F)} {a b : Nat} (c : Change h h' a b) {x : Nat} (hx : x ≠ a) : h'[x]? = h[x]? := by
  obtain ⟨n, n', h1, rfl, -⟩ := c.ex; exact List.getElem?_set_ne (fun e => hx e.symm)

theorem Change.names {h h' : List (Node F)} {a b : Nat} (c : Change h h' a b)
    (hn : ∀ (a : Nat) (ms : List (Str × Nat)), h[a]? = some (.obj ms) → (ms.map (·.1)).Nodup) :
    ∀ (a : Nat) (ms : List (Str × Nat)), h'[a]? = some (.obj ms) → (ms.map (·.1)).Nodup := by
  obtain ⟨n, n', h1, rfl, -, h2⟩ := c.ex
  intro x ms e
  by_cases hx : x = a
  · subst hx
    rw [List.getElem?_set_self (List.getElem?_eq_some_iff.mp h1).1] at e
    exact h2 (fun ms e => hn x ms (by rw [h1, e])) ms (Option.some.inj e)
  · rw [List.getElem?_set_ne (fun e => hx e.symm)] at e
    exact hn x ms e

theorem Change.sound {s : St F} {h' : List (Node F)} {a b : Nat} (c : Change s.heap h' a b) (hs : Sound s) (hb : b < s.heap.length) :
    Sound ⟨h', s.vars⟩ := by
  refine ⟨fun x y e => ?_, fun x hx => ?_, c.names hs.names⟩
  · dsimp only; rw [c.len]
    rcases c.edge e with e | ⟨_, rfl⟩
    · exact hs.edges x y e
    · exact hb
  · dsimp only; rw [c.len]; exact hs.vars x hx

theorem change_elem {h : List (Node F)} {a b : Nat} {es : List Nat} (e : h[a]? = some (.arr es)) (i : Nat) :
    Change h (h.set a (.arr (es.set i b))) a b := by
  refine ⟨_, _, e, rfl, fun y hy => ?_, fun _ ms e => by cases e⟩
  rcases hy with ⟨fs, e, hy⟩ | ⟨ms, e, _⟩
  · cases e
    rcases List.mem_or_eq_of_mem_set hy with h | h
    · exact .inl (.inl ⟨es, rfl, h⟩)
    · exact .inr h
  · cases e

theorem change_push {h : List (Node F)} {a b : Nat} {es : List Nat} (e : h[a]? = some (.arr es)) :
    Change h (h.set a (.arr (es ++ [b]))) a b := by
  refine ⟨_, _, e, rfl, fun y hy => ?_, fun _ ms e => by cases e⟩
  rcases hy with ⟨fs, e, hy⟩ | ⟨ms, e, _⟩
  · cases e
    rcases List.mem_append.mp hy with h | h
    · exact .inl (.inl ⟨es, rfl, h⟩)
    · exact .inr (List.mem_singleton.mp h)
  · cases e

theorem change_put {h : List (Node F)} {a b : Nat} {ms : List (Str × Nat)} (e : h[a]? = some (.obj ms)) (k : Str) :
    Change h (h.set a (.obj (put ms k b))) a b := by
  refine ⟨_, _, e, rfl, fun y hy => ?_, fun hn ms' e => ?_⟩
  · rcases hy with ⟨fs, e, hy⟩ | ⟨ns, e, k', hy⟩
    · cases e
    · cases e
      rcases mem_put hy with h | h
      · exact .inl (.inr ⟨ms, rfl, _, h⟩)
      · exact .inr h
  · cases e; exact nodup_put (hn ms rfl) k b

/-- A new value, made of old ones. -/
theorem sound_push {s : St F} (hs : Sound s) (n : Node F) (h1 : ∀ y, Lists n y → y < s.heap.length)
    (h2 : ∀ ms, n = .obj ms → (ms.map (·.1)).Nodup) : Sound ⟨s.heap ++ [n], s.vars⟩ := by
  refine ⟨fun x y e => ?_, fun x hx => ?_, fun x ms e => ?_⟩
  · simp only [List.length_append, List.length_singleton]
    rcases edge_push e with e | ⟨-, e⟩
    · have := hs.edges x y e; omega
    · have := h1 y e; omega
  · have := hs.vars x hx; simp; omega
  · dsimp only at e
    by_cases hx : x < s.heap.length
    · rw [List.getElem?_append_left hx] at e; exact hs.names x ms e
    · have h3 : x = s.heap.length := by
        have := (List.getElem?_eq_some_iff.mp e).1; simp at this; omega
      subst h3
      simp at e
      exact h2 ms e

theorem tame_push {h : List (Node F)} (ht : Tame h) (hr : ∀ a b, Edge h a b → b < h.length) (n : Node F)
    (h1 : ∀ y, Lists n y → y < h.length) : Tame (h ++ [n]) := by
  refine tame_ext ht hr (fun a b e => ?_)
  rcases edge_push e with e' | ⟨rfl, e'⟩
  · exact .inl e'
  · exact .inr ⟨Nat.le_refl _, h1 b e'⟩

/-! ### subscripts -/

/-- What `subName` does. -/
theorem subName_cases (con : Bool) (s : St F) (p : Place) (k : Str) :
    (∃ r, subName con s p k = (s, .error r)) ∨
    (∃ a ms b, load s p = some a ∧ s.heap[a]? = some (.obj ms) ∧ get ms k = some b ∧ subName con s p k = (s, .ok (.member a k))) ∨
    (∃ a ms, load s p = some a ∧ s.heap[a]? = some (.obj ms) ∧ get ms k = none ∧ con = false ∧
      subName con s p k = (⟨(s.heap ++ [Node.null]).set a (.obj (put ms k s.heap.length)), s.vars⟩, .ok (.member a k))) := by
  unfold subName
  cases h1 : load s p with
  | none => exact .inl ⟨_, rfl⟩
  | some a =>
    dsimp only
    cases h2 : s.heap[a]? with
    | none => exact .inl ⟨_, rfl⟩
    | some n =>
      cases n with
      | obj ms =>
        dsimp only
        cases h3 : get ms k with
        | some b => exact .inr (.inl ⟨a, ms, b, rfl, h2, h3, rfl⟩)
        | none =>
          dsimp only
          cases con with
          | true => exact .inl ⟨_, rfl⟩
          | false =>
            refine .inr (.inr ⟨a, ms, rfl, h2, h3, rfl, ?_⟩)
            have ha := (List.getElem?_eq_some_iff.mp h2).1
            rw [if_neg (by simp), List.set_append_left _ _ ha]
      | _ => exact .inl ⟨_, rfl⟩

theorem subIdx_cases (s : St F) (p : Place) (i : Nat) :
    (∃ r, subIdx s p i = (s, .error r)) ∨
    (∃ a es, load s p = some a ∧ s.heap[a]? = some (.arr es) ∧ i < es.length ∧ subIdx s p i = (s, .ok (.elem a i))) := by
  unfold subIdx
  cases h1 : load s p with
  | none => exact .inl ⟨_, rfl⟩
  | some a =>
    dsimp only
    cases h2 : s.heap[a]? with
    | none => exact .inl ⟨_, rfl⟩
    | some n =>
      cases n with
      | arr es =>
        dsimp only
        by_cases hi : i < es.length
        · rw [if_pos hi]; exact .inr ⟨a, es, rfl, h2, hi, rfl⟩
        · rw [if_neg hi]; exact .inl ⟨_, rfl⟩
      | _ => exact .inl ⟨_, rfl⟩

/-- An invariant of single subscripts is one of walks. -/
theorem walk_ind (I : St F → Prop) (J : St F → Place → Prop)
    (hsub : ∀ con s p q, I s → J s p → I (sub con s p q).1 ∧ ∀ p', (sub con s p q).2 = .ok p' → J (sub con s p q).1 p') (con : Bool) :
    ∀ (qs : List Step) (s : St F) (p : Place), I s → J s p → I (walk con s p qs).1 ∧ ∀ p', (walk con s p qs).2 = .ok p' → J (walk con s p qs).1 p'
  | [], s, p, hi, hj => ⟨hi, fun p' e => by cases e; exact hj⟩
  | q :: qs, s, p, hi, hj => by
    have h1 := hsub con s p q hi hj
    simp only [walk]
    revert h1
    rcases sub con s p q with ⟨s', r | p'⟩
    · intro h1; exact ⟨h1.1, fun p' e => by cases e⟩
    · intro h1
      exact walk_ind I J hsub con qs s' p' h1.1 (h1.2 p' rfl)

/-- The place holds an address. -/
def Valid (s : St F) (p : Place) : Prop := (load s p).isSome

theorem load_lt {s : St F} (hs : Sound s) {p : Place} {a : Nat} (h : load s p = some a) : a < s.heap.length := by
  cases p with
  | var x => exact hs.vars a (List.mem_of_getElem? h)
  | elem c i =>
    simp only [load] at h
    split at h
    · rename_i es he; exact hs.edges c a (.inl ⟨es, he, List.mem_of_getElem? h⟩)
    · cases h
  | member c k =>
    simp only [load] at h
    split at h
    · rename_i ms he; exact hs.edges c a (.inr ⟨ms, he, k, get_some h⟩)
    · cases h

/-- Making a missing member, as two simple changes. -/
theorem ins_change {s : St F} {a : Nat} {ms : List (Str × Nat)} (k : Str) (h : s.heap[a]? = some (.obj ms)) :
    Change (s.heap ++ [Node.null]) ((s.heap ++ [Node.null]).set a (.obj (put ms k s.heap.length))) a s.heap.length := by
  apply change_put
  rw [List.getElem?_append_left (List.getElem?_eq_some_iff.mp h).1, h]

theorem not_lists_null (y : Nat) : ¬ Lists (.null : Node F) y := by
  rintro (⟨_, e, _⟩ | ⟨_, e, _⟩) <;> cases e

theorem sub_sound (con : Bool) (s : St F) (p : Place) (q : Step) (hs : Sound s) (_ : Valid s p) :
    Sound (sub con s p q).1 ∧ ∀ p', (sub con s p q).2 = .ok p' → Valid (sub con s p q).1 p' := by
  cases q with
  | name k =>
    simp only [sub]
    rcases subName_cases con s p k with ⟨r, e⟩ | ⟨a, ms, b, h1, h2, h3, e⟩ | ⟨a, ms, h1, h2, h3, hc, e⟩
    · rw [e]; exact ⟨hs, fun p' e => by cases e⟩
    · rw [e]; refine ⟨hs, fun p' e => ?_⟩
      cases e
      simp [Valid, load, h2, h3]
    · rw [e]
      have ha := (List.getElem?_eq_some_iff.mp h2).1
      refine ⟨(ins_change k h2).sound (s := ⟨s.heap ++ [Node.null], s.vars⟩) (sound_push hs .null (fun y hy => absurd hy (not_lists_null y)) (by simp)) (by simp), fun p' e => ?_⟩
      cases e
      simp only [Valid, load]
      rw [List.getElem?_set_self (by simp; omega)]
      simp [get_put]
  | idx i =>
    simp only [sub]
    rcases subIdx_cases s p i with ⟨r, e⟩ | ⟨a, es, h1, h2, h3, e⟩
    · rw [e]; exact ⟨hs, fun p' e => by cases e⟩
    · rw [e]; refine ⟨hs, fun p' e => ?_⟩
      cases e
      simp [Valid, load, h2, h3]

theorem sub_tame (con : Bool) (s : St F) (p : Place) (q : Step) (hs : Sound s ∧ Tame s.heap) (hp : Valid s p) :
    (Sound (sub con s p q).1 ∧ Tame (sub con s p q).1.heap) ∧ ∀ p', (sub con s p q).2 = .ok p' → Valid (sub con s p q).1 p' := by
  have h0 := sub_sound con s p q hs.1 hp
  refine ⟨⟨h0.1, ?_⟩, h0.2⟩
  cases q with
  | name k =>
    simp only [sub]
    rcases subName_cases con s p k with ⟨r, e⟩ | ⟨a, ms, b, h1, h2, h3, e⟩ | ⟨a, ms, h1, h2, h3, hc, e⟩
    · rw [e]; exact hs.2
    · rw [e]; exact hs.2
    · rw [e]
      have ha := (List.getElem?_eq_some_iff.mp h2).1
      refine tame_add (tame_push hs.2 hs.1.edges .null (fun y hy => absurd hy (not_lists_null y))) (t := a) (c := s.heap.length) (fun hr => ?_)
        (fun x y e => (ins_change k h2).edge e)
      cases hr with
      | refl => omega
      | step e _ =>
        rcases edge_push e with e | ⟨-, e⟩
        · exact absurd (Edge.lt e) (by omega)
        · exact not_lists_null _ e
  | idx i =>
    simp only [sub]
    rcases subIdx_cases s p i with ⟨r, e⟩ | ⟨a, es, h1, h2, h3, e⟩ <;> (rw [e]; exact hs.2)

/-- The part of memory `P` holds all that the variables in `A` reach, and all that is to come. -/
structure Own (P : Nat → Prop) (A : Nat → Prop) (s : St F) : Prop where
  new : ∀ a, s.heap.length ≤ a → P a
  closed : ∀ a b, P a → Edge s.heap a b → P b
  vars : ∀ x a, A x → s.vars[x]? = some a → P a

/-- The place is in that part. -/
def In (P : Nat → Prop) (A : Nat → Prop) : Place → Prop
  | .var x => A x
  | .elem a _ => P a
  | .member a _ => P a

theorem load_in {P A : Nat → Prop} {s : St F} (ho : Own P A s) {p : Place} (hp : In P A p) {a : Nat} (h : load s p = some a) : P a := by
  cases p with
  | var x => exact ho.vars x a hp h
  | elem c i =>
    simp only [load] at h
    split at h
    · rename_i es he; exact ho.closed c a hp (.inl ⟨es, he, List.mem_of_getElem? h⟩)
    · cases h
  | member c k =>
    simp only [load] at h
    split at h
    · rename_i ms he; exact ho.closed c a hp (.inr ⟨ms, he, k, get_some h⟩)
    · cases h

theorem Change.own {P A : Nat → Prop} {s : St F} {h' : List (Node F)} {a b : Nat} (c : Change s.heap h' a b) (ho : Own P A s) (hb : P b) :
    Own P A ⟨h', s.vars⟩ := by
  refine ⟨fun x hx => ho.new x (by rw [← c.len]; exact hx), fun x y hx e => ?_, ho.vars⟩
  rcases c.edge e with e | ⟨_, rfl⟩
  · exact ho.closed x y hx e
  · exact hb

theorem own_push {P A : Nat → Prop} {s : St F} (ho : Own P A s) (n : Node F) (h1 : ∀ y, Lists n y → P y) : Own P A ⟨s.heap ++ [n], s.vars⟩ := by
  refine ⟨fun x hx => ho.new x ?_, fun x y hx e => ?_, ho.vars⟩
  · simp at hx; omega
  · rcases edge_push e with e | ⟨-, e⟩
    · exact ho.closed x y hx e
    · exact h1 y e

theorem old_push {P A : Nat → Prop} {s : St F} (ho : Own P A s) (n : Node F) {a : Nat} (ha : ¬ P a) : (s.heap ++ [n])[a]? = s.heap[a]? := by
  rw [List.getElem?_append_left]
  exact Nat.lt_of_not_le (fun h => ha (ho.new a h))

theorem sub_own {P A : Nat → Prop} (s₀ : St F) (con : Bool) (s : St F) (p : Place) (q : Step)
    (hs : Own P A s ∧ s.vars = s₀.vars ∧ ∀ a, ¬ P a → s.heap[a]? = s₀.heap[a]?) (hp : In P A p) :
    (Own P A (sub con s p q).1 ∧ (sub con s p q).1.vars = s₀.vars ∧ ∀ a, ¬ P a → (sub con s p q).1.heap[a]? = s₀.heap[a]?) ∧
    ∀ p', (sub con s p q).2 = .ok p' → In P A p' := by
  cases q with
  | name k =>
    simp only [sub]
    rcases subName_cases con s p k with ⟨r, e⟩ | ⟨a, ms, b, h1, h2, h3, e⟩ | ⟨a, ms, h1, h2, h3, hc, e⟩
    · rw [e]; exact ⟨hs, fun p' e => by cases e⟩
    · rw [e]; refine ⟨hs, fun p' e => ?_⟩
      cases e; exact load_in hs.1 hp h1
    · rw [e]
      have hPa := load_in hs.1 hp h1
      refine ⟨⟨?_, hs.2.1, fun c hc => ?_⟩, fun p' e => ?_⟩
      · exact (ins_change k h2).own (s := ⟨s.heap ++ [Node.null], s.vars⟩) (own_push hs.1 .null (fun y hy => absurd hy (not_lists_null y)))
          (hs.1.new _ (Nat.le_refl _))
      · dsimp only
        rw [(ins_change k h2).other (x := c) (fun e => hc (e ▸ hPa)), old_push hs.1 _ hc, hs.2.2 c hc]
      · cases e; exact hPa
  | idx i =>
    simp only [sub]
    rcases subIdx_cases s p i with ⟨r, e⟩ | ⟨a, es, h1, h2, h3, e⟩
    · rw [e]; exact ⟨hs, fun p' e => by cases e⟩
    · rw [e]; refine ⟨hs, fun p' e => ?_⟩
      cases e; exact load_in hs.1 hp h1

theorem sub_vars (con : Bool) (s : St F) (p : Place) (q : Step) : (sub con s p q).1.vars = s.vars := by
  cases q with
  | name k =>
    simp only [sub]
    rcases subName_cases con s p k with ⟨r, e⟩ | ⟨a, ms, b, h1, h2, h3, e⟩ | ⟨a, ms, h1, h2, h3, hc, e⟩ <;> rw [e]
  | idx i =>
    simp only [sub]
    rcases subIdx_cases s p i with ⟨r, e⟩ | ⟨a, es, h1, h2, h3, e⟩ <;> rw [e]

theorem walk_vars (con : Bool) (qs : List Step) (s : St F) (p : Place) : (walk con s p qs).1.vars = s.vars :=
  (walk_ind (fun t => t.vars = s.vars) (fun _ _ => True) (fun con s' p q hi _ => ⟨(sub_vars con s' p q).trans hi, fun _ _ => trivial⟩)
    con qs s p rfl trivial).1

/-! ### expressions -/

/-- What evaluating an expression leaves behind, in terms of the walk. -/
theorem eval_fst (s : St F) (e : Lv) : (eval s e).1 = (walk e.con s (.var e.root) e.steps).1 := by
  unfold eval
  rcases walk e.con s (.var e.root) e.steps with ⟨s', r | p⟩
  · rfl
  · dsimp only; split <;> rfl

theorem eval_ok {s s' : St F} {e : Lv} {p : Place} {a : Nat} (h : eval s e = (s', .ok (p, a))) :
    walk e.con s (.var e.root) e.steps = (s', .ok p) ∧ load s' p = some a := by
  unfold eval at h
  revert h
  rcases walk e.con s (.var e.root) e.steps with ⟨s1, r | p1⟩
  · intro h; cases h
  · dsimp only
    cases h1 : load s1 p1 with
    | none => intro h; cases h
    | some b => intro h; cases h; exact ⟨rfl, h1⟩

theorem eval_vars (s : St F) (e : Lv) : (eval s e).1.vars = s.vars := by
  rw [eval_fst, walk_vars]

theorem eval_sound {s : St F} (hs : Sound s) (e : Lv) : Sound (eval s e).1 := by
  rw [eval_fst]
  cases hx : s.vars[e.root]? with
  | some a =>
    exact (walk_ind Sound Valid (fun con s p q h1 h2 => sub_sound con s p q h1 h2) e.con e.steps s (.var e.root) hs (by simp [Valid, load, hx])).1
  | none =>
    cases hq : e.steps with
    | nil => exact hs
    | cons q qs =>
      have : sub e.con s (.var e.root) q = (s, .error .stuck) := by
        cases q <;> simp [sub, subName, subIdx, load, hx]
      simp only [walk, this]; exact hs

theorem eval_tame {s : St F} (hs : Sound s) (ht : Tame s.heap) (e : Lv) : Tame (eval s e).1.heap := by
  rw [eval_fst]
  cases hx : s.vars[e.root]? with
  | some a =>
    exact (walk_ind (fun s => Sound s ∧ Tame s.heap) Valid (fun con s p q h1 h2 => sub_tame con s p q h1 h2) e.con e.steps s
      (.var e.root) ⟨hs, ht⟩ (by simp [Valid, load, hx])).1.2
  | none =>
    cases hq : e.steps with
    | nil => exact ht
    | cons q qs =>
      have : sub e.con s (.var e.root) q = (s, .error .stuck) := by
        cases q <;> simp [sub, subName, subIdx, load, hx]
      simp only [walk, this]; exact ht

theorem eval_own {P A : Nat → Prop} {s : St F} (ho : Own P A s) (e : Lv) (he : A e.root) :
    Own P A (eval s e).1 ∧ (∀ a, ¬ P a → (eval s e).1.heap[a]? = s.heap[a]?) ∧
    ∀ p a, (eval s e).2 = .ok (p, a) → In P A p ∧ P a := by
  have h := walk_ind (fun t => Own P A t ∧ t.vars = s.vars ∧ ∀ a, ¬ P a → t.heap[a]? = s.heap[a]?) (fun _ => In P A)
    (fun con s' p q h1 h2 => sub_own s con s' p q h1 h2) e.con e.steps s (.var e.root) ⟨ho, rfl, fun _ _ => rfl⟩ he
  have hf := eval_fst s e
  refine ⟨by rw [hf]; exact h.1.1, by rw [hf]; exact h.1.2.2, fun p a hpa => ?_⟩
  have h1 := eval_ok (s := s) (s' := (eval s e).1) (e := e) (p := p) (a := a) (by rw [← hpa])
  have h2 := h.2 p (by rw [h1.1])
  refine ⟨h2, load_in (hf ▸ h.1.1) h2 h1.2⟩

theorem eval_lt {s s' : St F} (hs : Sound s) {e : Lv} {p : Place} {a : Nat} (h : eval s e = (s', .ok (p, a))) : a < s'.heap.length := by
  have h1 := eval_sound hs e
  rw [h] at h1
  exact load_lt h1 (eval_ok h).2

theorem len_change (s : St F) (con : Bool) (p : Place) (q : Step) : s.heap.length ≤ (sub con s p q).1.heap.length := by
  cases q with
  | name k =>
    simp only [sub]
    rcases subName_cases con s p k with ⟨r, e⟩ | ⟨a, ms, b, h1, h2, h3, e⟩ | ⟨a, ms, h1, h2, h3, hc, e⟩
    · rw [e]
    · rw [e]
    · rw [e]; simp
  | idx i =>
    simp only [sub]
    rcases subIdx_cases s p i with ⟨r, e⟩ | ⟨a, es, h1, h2, h3, e⟩
    · rw [e]
    · rw [e]

theorem eval_len (s : St F) (e : Lv) : s.heap.length ≤ (eval s e).1.heap.length := by
  rw [eval_fst]
  exact (walk_ind (fun t => s.heap.length ≤ t.heap.length) (fun _ _ => True)
    (fun con s' p q hi _ => ⟨Nat.le_trans hi (len_change s' con p q), fun _ _ => trivial⟩) e.con e.steps s _ (Nat.le_refl _) trivial).1

end Verif.JsonDoc.Lemmas
