import Verif.RpcNest.Spec
import Mathlib.Data.List.Forall2
/-!
# Lemmas about RPC functions that call their own server
-/
namespace Verif.RpcNest.Lemmas
open Verif.RpcNest Verif.RpcNest.Spec

theorem split_set {γ : Type} {l : List γ} {w : Nat} {x : γ} (h : l[w]? = some x) :
    ∃ a b, l = a ++ x :: b ∧ ∀ y, l.set w y = a ++ y :: b := by
  induction l generalizing w with
  | nil => simp at h
  | cons z l ih =>
    cases w with
    | zero => exact ⟨[], l, by simpa using h, fun y => rfl⟩
    | succ w =>
      obtain ⟨a, b, e, h'⟩ := ih (by simpa using h)
      exact ⟨z :: a, b, by rw [e]; rfl, fun y => by rw [List.set_cons_succ, h']; rfl⟩

theorem run_append (s : State) (as bs : List Ev) : run s (as ++ bs) = (run s as).bind fun s => run s bs := by
  induction as generalizing s with
  | nil => rfl
  | cons e as ih =>
    simp only [List.cons_append, run]
    cases step s e with
    | none => rfl
    | some s' => exact ih s'

theorem height_pos (t : Tree) : 1 ≤ height t := by cases t; simp [height]

/-! ### What a step does to one client -/

/-- Steps of one client; `free` tells whether a thread is. -/
inductive Move (free : Prop) : Act → Act → Prop
  | accept (g fs ks) : free → Move free ⟨g, fs, .queued (.node ks)⟩ ⟨g, fs, .running ks⟩
  | call (g fs k ks) : Move free ⟨g, fs, .running (k :: ks)⟩ ⟨g, ks :: fs, .queued k⟩
  | finish (g) : Move free ⟨g, [], .running []⟩ ⟨g, [], .done⟩
  | back (g fs ks) : Move free ⟨g, ks :: fs, .running []⟩ ⟨g, fs, .running ks⟩

theorem step_cases {s s' : State} {e : Ev} (h : step s e = some s') :
    (∃ t, e = .arrive t ∧ s' = { s with acts := s.acts ++ [⟨t, [], .queued t⟩] }) ∨
    (Inner e ∧ s'.n = s.n ∧ ∃ p a b q, s.acts = p ++ a :: q ∧ s'.acts = p ++ b :: q ∧ Move (s.used < s.n) a b) := by
  cases e with
  | arrive t => simp only [step, Option.some.injEq] at h; exact .inl ⟨t, rfl, h.symm⟩
  | accept i =>
    right
    simp only [step] at h
    split at h
    · rename_i g fs ks hi
      split at h
      · rename_i hu
        cases h
        obtain ⟨p, q, e, hs⟩ := split_set hi
        exact ⟨trivial, rfl, p, _, _, q, e, hs _, .accept g fs ks hu⟩
      · cases h
    · cases h
  | call i =>
    right
    simp only [step] at h
    split at h
    · rename_i g fs k ks hi
      cases h
      obtain ⟨p, q, e, hs⟩ := split_set hi
      exact ⟨trivial, rfl, p, _, _, q, e, hs _, .call g fs k ks⟩
    · cases h
  | reply i =>
    right
    simp only [step] at h
    split at h
    · rename_i g hi
      cases h
      obtain ⟨p, q, e, hs⟩ := split_set hi
      exact ⟨trivial, rfl, p, _, _, q, e, hs _, .finish g⟩
    · rename_i g ks fs hi
      cases h
      obtain ⟨p, q, e, hs⟩ := split_set hi
      exact ⟨trivial, rfl, p, _, _, q, e, hs _, .back g fs ks⟩
    · cases h

/-- What is true of a new client and kept by all moves is true of all clients. -/
theorem all_acts {P : Act → Prop} {n : Nat} (h0 : ∀ t, P ⟨t, [], .queued t⟩)
    (hm : ∀ a b, Move (a.threads < n) a b → P a → P b) {s : State} (h : Reach n s) : s.n = n ∧ ∀ a ∈ s.acts, P a := by
  obtain ⟨es, h⟩ := h
  suffices H : ∀ (es : List Ev) (s0 : State), (s0.n = n ∧ ∀ a ∈ s0.acts, P a) → run s0 es = some s → s.n = n ∧ ∀ a ∈ s.acts, P a by
    exact H es (start n) ⟨rfl, by simp [start]⟩ h
  intro es
  induction es with
  | nil => intro s0 h0 h; cases h; exact h0
  | cons e es ih =>
    intro s0 hs h
    simp only [run, Option.bind_eq_some_iff] at h
    obtain ⟨t, h1, h2⟩ := h
    refine ih t ?_ h2
    rcases step_cases h1 with ⟨t', rfl, rfl⟩ | ⟨_, hn, p, a, b, q, e1, e2, hmv⟩
    · refine ⟨hs.1, fun a ha => ?_⟩
      rcases List.mem_append.1 ha with ha | ha
      · exact hs.2 a ha
      · rw [List.mem_singleton] at ha; subst ha; exact h0 t'
    · refine ⟨hn.trans hs.1, fun x hx => ?_⟩
      rw [e2] at hx
      have hle : a.threads ≤ s0.used := by
        simp only [State.used, e1, List.map_append, List.map_cons, List.sum_append, List.sum_cons]; omega
      have hmv' : Move (a.threads < n) a b := by
        cases hmv with
        | accept g fs ks hu => exact .accept g fs ks (by rw [hs.1] at hu; omega)
        | call g fs k ks => exact .call g fs k ks
        | finish g => exact .finish g
        | back g fs ks => exact .back g fs ks
      rcases List.mem_append.1 hx with h | h
      · exact hs.2 x (by rw [e1]; simp [h])
      · rcases List.mem_cons.1 h with rfl | h
        · exact hm a _ hmv' (hs.2 a (by rw [e1]; simp))
        · exact hs.2 x (by rw [e1]; simp [h])

/-! ### No call goes deeper than its tree -/

/-- The calls that waiting threads have still to make go no deeper than `H`. -/
def Fits (H : Nat) : List (List Tree) → Prop
  | [] => True
  | ks :: fs => fs.length + 1 + heights ks ≤ H ∧ Fits H fs

/-- The calls of a client go no deeper than its tree. -/
def Shallow (a : Act) : Prop :=
  Fits (height a.given) a.frames ∧ match a.top with
    | .queued t => a.frames.length + height t ≤ height a.given
    | .running ks => a.frames.length + 1 + heights ks ≤ height a.given
    | .done => a.frames = []

theorem shallow {n : Nat} {s : State} (h : Reach n s) : s.n = n ∧ ∀ a ∈ s.acts, Shallow a := by
  refine all_acts (P := Shallow) (fun t => ⟨trivial, by simp⟩) ?_ h
  intro a b hm ha
  cases hm with
  | accept g fs ks _ =>
    refine ⟨ha.1, ?_⟩
    have := ha.2
    simp only [height] at this ⊢
    omega
  | call g fs k ks =>
    have h1 := ha.1
    have := ha.2
    simp only [heights] at this
    refine ⟨⟨by simp only; omega, h1⟩, ?_⟩
    simp only [List.length_cons]; omega
  | finish g => exact ⟨trivial, rfl⟩
  | back g fs ks => exact ⟨ha.1.2, ha.1.1⟩

/-- A client that waits for a connection to be taken has fewer threads than its calls
are deep. -/
theorem queued_threads {a : Act} (h : Shallow a) (hr : ∀ ks, a.top ≠ .running ks) : a.threads ≤ below a := by
  obtain ⟨g, fs, top⟩ := a
  cases top with
  | queued t =>
    have := h.2
    have := height_pos t
    simp only [Act.threads, below] at *
    omega
  | running ks => exact absurd rfl (hr ks)
  | done => have := h.2; simp only at this; subst this; simp [Act.threads, below]

theorem sum_le {γ : Type} {f g : γ → Nat} {l : List γ} (h : ∀ x ∈ l, f x ≤ g x) : (l.map f).sum ≤ (l.map g).sum := by
  induction l with
  | nil => simp
  | cons x l ih =>
    have := h x (by simp)
    have := ih fun y hy => h y (by simp [hy])
    simp only [List.map_cons, List.sum_cons]; omega

/-! ### Steps are bounded -/

mutual
/-- The steps that a call takes. -/
def cost : Tree → Nat
  | .node ks => costs ks + 2
/-- The steps that some calls take, with making them. -/
def costs : List Tree → Nat
  | [] => 0
  | k :: ks => cost k + 1 + costs ks
end

/-- The steps that a client still takes. -/
def work (a : Act) : Nat :=
  (a.frames.map fun ks => costs ks + 1).sum + match a.top with
    | .queued t => cost t
    | .running ks => costs ks + 1
    | .done => 0

theorem work_move {free : Prop} {a b : Act} (h : Move free a b) : work b < work a ∧ b.given = a.given ∧ below b ≤ below a := by
  cases h with
  | accept g fs ks _ => refine ⟨?_, rfl, Nat.le_refl _⟩; simp only [work, cost]; omega
  | call g fs k ks => refine ⟨?_, rfl, Nat.le_refl _⟩; simp only [work, costs, List.map_cons, List.sum_cons]; omega
  | finish g => refine ⟨?_, rfl, Nat.zero_le _⟩; simp [work, costs]
  | back g fs ks => refine ⟨?_, rfl, Nat.le_refl _⟩; simp only [work, costs, List.map_cons, List.sum_cons]; omega

theorem inner_run (es : List Ev) (he : ∀ e ∈ es, Inner e) {s s' : State} (h : run s es = some s') :
    es.length + (s'.acts.map work).sum ≤ (s.acts.map work).sum ∧ allBelow s' ≤ allBelow s ∧
      s'.acts.map Act.given = s.acts.map Act.given := by
  induction es generalizing s with
  | nil => cases h; exact ⟨by simp, Nat.le_refl _, rfl⟩
  | cons e es ih =>
    simp only [run, Option.bind_eq_some_iff] at h
    obtain ⟨t, h1, h2⟩ := h
    obtain ⟨b1, b2, b3⟩ := ih (fun e h => he e (by simp [h])) h2
    rcases step_cases h1 with ⟨t', rfl, rfl⟩ | ⟨_, hn, p, a, b, q, e1, e2, hmv⟩
    · exact (he (.arrive t') (by simp)).elim
    · obtain ⟨w1, w2, w3⟩ := work_move hmv
      refine ⟨?_, ?_, b3.trans ?_⟩
      · rw [e2] at b1
        simp only [e1, List.map_append, List.map_cons, List.sum_append, List.sum_cons, List.length_cons] at b1 ⊢
        omega
      · refine Nat.le_trans b2 ?_
        simp only [allBelow, e1, e2, List.map_append, List.map_cons, List.sum_append, List.sum_cons]
        omega
      · simp only [e1, e2, List.map_append, List.map_cons, w2]

/-- A server at rest with enough threads has answered all. -/
theorem rest_done {n : Nat} {s : State} (h : Reach n s) (hb : allBelow s < n) (hr : Rest s) : ∀ a ∈ s.acts, a.top = .done := by
  obtain ⟨hn, hs⟩ := shallow h
  have hrun : ∀ a ∈ s.acts, ∀ ks, a.top ≠ .running ks := by
    intro a ha ks e
    obtain ⟨i, hi⟩ := List.mem_iff_getElem?.1 ha
    obtain ⟨g, fs, top⟩ := a
    simp only at e
    subst e
    cases ks with
    | cons k ks => have := hr (.call i) trivial; simp [step, hi] at this
    | nil =>
      have := hr (.reply i) trivial
      cases fs <;> simp [step, hi] at this
  have hu : s.used < s.n := by
    have : s.used ≤ allBelow s := sum_le fun a ha => queued_threads (hs a ha) (hrun a ha)
    omega
  intro a ha
  obtain ⟨i, hi⟩ := List.mem_iff_getElem?.1 ha
  obtain ⟨g, fs, top⟩ := a
  cases top with
  | done => rfl
  | running ks => exact absurd rfl (hrun _ ha ks)
  | queued t =>
    obtain ⟨ks⟩ := t
    have := hr (.accept i) trivial
    simp [step, hi, hu] at this

/-! ### Calls that are too deep -/

/-- Some call that a waiting thread has still to make goes deeper than `n`. -/
def Deep (n : Nat) : List (List Tree) → Prop
  | [] => False
  | ks :: fs => n < fs.length + 1 + heights ks ∨ Deep n fs

/-- Some call that a client has still to make goes deeper than `n`. -/
def TooDeep (n : Nat) (a : Act) : Prop :=
  Deep n a.frames ∨ match a.top with
    | .queued t => n < a.frames.length + height t
    | .running ks => ks ≠ [] ∧ n < a.frames.length + 1 + heights ks
    | .done => False

theorem too_deep {n : Nat} {s : State} (h : Reach n s) : ∀ a ∈ s.acts, n < height a.given → TooDeep n a := by
  have := all_acts (P := fun a => a.threads ≤ n ∧ (n < height a.given → TooDeep n a))
    (fun t => ⟨by simp [Act.threads], fun h => .inr (by simpa using h)⟩) ?_ h
  · exact fun a ha => (this.2 a ha).2
  intro a b hm ⟨ht, ha⟩
  cases hm with
  | accept g fs ks hf =>
    simp only [Act.threads] at hf
    refine ⟨by simp only [Act.threads]; omega, fun hg => ?_⟩
    rcases ha hg with h | h
    · exact .inl h
    · refine .inr ⟨?_, ?_⟩
      · rintro rfl
        simp only [height, heights] at h
        omega
      · simp only [height] at h ⊢
        omega
  | call g fs k ks =>
    simp only [Act.threads] at ht
    refine ⟨by simp only [Act.threads, List.length_cons]; omega, fun hg => ?_⟩
    rcases ha hg with h | h
    · exact .inl (.inr h)
    · have := h.2
      simp only [heights] at this
      by_cases hk : n < fs.length + 1 + height k
      · refine .inr ?_
        simp only [List.length_cons]
        omega
      · refine .inl (.inl ?_)
        omega
  | finish g =>
    refine ⟨by simp [Act.threads], fun hg => ?_⟩
    rcases ha hg with h | h
    · exact h.elim
    · exact absurd rfl h.1
  | back g fs ks =>
    simp only [Act.threads, List.length_cons] at ht
    refine ⟨by simp only [Act.threads]; omega, fun hg => ?_⟩
    rcases ha hg with h | h
    · rcases h with h | h
      · refine .inr ⟨?_, h⟩
        rintro rfl
        simp only [heights] at h
        omega
      · exact .inl h
    · exact absurd rfl h.1

/-! ### Deadlock -/

/-- All threads wait, and no function runs. -/
def Frozen (s : State) : Prop := s.n ≤ s.used ∧ ∀ a ∈ s.acts, ∀ ks, a.top ≠ .running ks

theorem frozen_step {s s' : State} {e : Ev} (hf : Frozen s) (h : step s e = some s') : Frozen s' ∧ ∃ l, s'.acts = s.acts ++ l := by
  rcases step_cases h with ⟨t, rfl, rfl⟩ | ⟨_, _, p, a, b, q, e1, _, hmv⟩
  · refine ⟨⟨?_, ?_⟩, _, rfl⟩
    · have := hf.1
      simp only [State.used, List.map_append, List.sum_append] at this ⊢
      omega
    · intro a ha
      rcases List.mem_append.1 ha with h | h
      · exact hf.2 a h
      · rw [List.mem_singleton] at h; subst h; simp
  · exfalso
    have hr := hf.2 a (by rw [e1]; simp)
    cases hmv with
    | accept g fs ks hu => have := hf.1; omega
    | call g fs k ks => exact hr _ rfl
    | finish g => exact hr _ rfl
    | back g fs ks => exact hr _ rfl

theorem frozen_run (es : List Ev) {s s' : State} (hf : Frozen s) (h : run s es = some s') : ∃ l, s'.acts = s.acts ++ l := by
  induction es generalizing s with
  | nil => cases h; exact ⟨[], by simp⟩
  | cons e es ih =>
    simp only [run, Option.bind_eq_some_iff] at h
    obtain ⟨t, h1, h2⟩ := h
    obtain ⟨hf', l, e1⟩ := frozen_step hf h1
    obtain ⟨l', e2⟩ := ih hf' h2
    exact ⟨l ++ l', by rw [e2, e1, List.append_assoc]⟩

theorem height_chain (h : Nat) : height (chain h) = h + 1 := by
  induction h with
  | zero => simp [chain, height, heights]
  | succ h ih => simp [chain, height, heights, ih]

/-- The connection of a chain of `h` calls below the first waits. -/
def Hangs (a : Act) (h : Nat) : Prop := a.top = .queued (chain h)

theorem descend (n : Nat) : ∀ (m : Nat) (s : State) (hs : List Nat), s.n = n → n = s.used + m → m ≤ hs.sum →
    List.Forall₂ Hangs s.acts hs → ∃ es s', run s es = some s' ∧ s'.n = n ∧ n ≤ s'.used ∧ s'.acts.map Act.given = s.acts.map Act.given ∧
      ∀ a ∈ s'.acts, ∃ h, Hangs a h := by
  intro m
  induction m with
  | zero =>
    intro s hs hn hu _ hf
    refine ⟨[], s, rfl, hn, by omega, rfl, ?_⟩
    generalize s.acts = acts at hf
    induction hf with
    | nil => simp
    | cons h _ ih =>
      intro a ha
      rcases List.mem_cons.1 ha with rfl | ha
      · exact ⟨_, h⟩
      · exact ih (Nat.zero_le _) a ha
  | succ m ih =>
    intro s hs hn hu hm hf
    -- some chain has a call to make
    have hex : ∀ (acts : List Act) (hs : List Nat), List.Forall₂ Hangs acts hs → 0 < hs.sum → ∃ p a q ps h qs, acts = p ++ a :: q ∧
        hs = ps ++ (h + 1) :: qs ∧ Hangs a (h + 1) ∧ List.Forall₂ Hangs p ps ∧ List.Forall₂ Hangs q qs := by
      intro acts hs hf hp
      induction hf with
      | nil => simp at hp
      | @cons a h acts hs h1 h2 ih =>
        cases h with
        | succ h => exact ⟨[], a, acts, [], h, hs, rfl, rfl, h1, .nil, h2⟩
        | zero =>
          obtain ⟨p, a', q, ps, h', qs, e1, e2, h3, h4, h5⟩ := ih (by simpa using hp)
          exact ⟨a :: p, a', q, 0 :: ps, h', qs, by rw [e1]; rfl, by rw [e2]; rfl, h3, .cons h1 h4, h5⟩
    obtain ⟨p, a, q, ps, h, qs, e1, e2, h3, h4, h5⟩ := hex s.acts hs hf (by omega)
    obtain ⟨g, fs, top⟩ := a
    simp only [Hangs] at h3
    subst h3
    have hi : s.acts[p.length]? = some ⟨g, fs, .queued (chain (h + 1))⟩ := by rw [e1]; simp
    have hset : ∀ y, s.acts.set p.length y = p ++ y :: q := by intro y; rw [e1]; simp
    let s1 : State := ⟨s.n, p ++ ⟨g, fs, .running [chain h]⟩ :: q⟩
    let s2 : State := ⟨s.n, p ++ ⟨g, [] :: fs, .queued (chain h)⟩ :: q⟩
    have hs1 : step s (.accept p.length) = some s1 := by
      have hlt : s.used < s.n := by omega
      simp only [step, hi, chain, hlt, if_true, hset, s1]
    have hs2 : step s1 (.call p.length) = some s2 := by
      simp [step, s1, s2]
    have hu2 : s2.used = s.used + 1 := by
      simp only [State.used, s2, e1, List.map_append, List.map_cons, List.sum_append, List.sum_cons, Act.threads, List.length_cons]
      omega
    have hf2 : List.Forall₂ Hangs s2.acts (ps ++ h :: qs) := by
      have : ∀ {p : List Act} {ps : List Nat}, List.Forall₂ Hangs p ps → List.Forall₂ Hangs (p ++ ⟨g, [] :: fs, .queued (chain h)⟩ :: q) (ps ++ h :: qs) := by
        intro p ps hp
        induction hp with
        | nil => exact .cons rfl h5
        | cons h1 _ ih => exact .cons h1 ih
      exact this h4
    obtain ⟨es, s', r1, r2, r3, r4, r5⟩ := ih s2 (ps ++ h :: qs) hn (by omega) (by
      rw [e2] at hm
      simp only [List.sum_append, List.sum_cons] at hm ⊢
      omega) hf2
    refine ⟨.accept p.length :: .call p.length :: es, s', ?_, r2, r3, ?_, r5⟩
    · simp only [run, hs1, hs2, Option.bind_some]; exact r1
    · rw [r4, e1]; simp [s2]

theorem arrivals (ts : List Tree) (s : State) :
    run s (ts.map .arrive) = some ⟨s.n, s.acts ++ ts.map fun t => ⟨t, [], .queued t⟩⟩ := by
  induction ts generalizing s with
  | nil => simp [run]
  | cons t ts ih => simp only [List.map_cons, run, step, Option.bind_some, ih, List.append_assoc, List.singleton_append]

end Verif.RpcNest.Lemmas
