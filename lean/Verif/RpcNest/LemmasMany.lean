import Verif.RpcNest.SpecMany
import Verif.RpcNest.Lemmas
/-!
# Lemmas about RPC functions that call functions of several servers
-/
namespace Verif.RpcNest.Many.Lemmas
open Verif.RpcNest.Many Verif.RpcNest.Many.Spec
open Verif.RpcNest.Lemmas (split_set sum_le)

theorem run_append (s : State) (as bs : List Ev) : run s (as ++ bs) = (run s as).bind fun s => run s bs := by
  induction as generalizing s with
  | nil => rfl
  | cons e as ih =>
    simp only [List.cons_append, run]
    cases step s e with
    | none => rfl
    | some s' => exact ih s'

/-- Steps of one client; `free k` tells whether server `k` has a thread to spare. -/
inductive Move (free : Nat → Prop) : Act → Act → Prop
  | accept (g fs k ks) : free k → Move free ⟨g, fs, .queued (.node k ks)⟩ ⟨g, fs, .running k ks⟩
  | call (g fs k t ks) : Move free ⟨g, fs, .running k (t :: ks)⟩ ⟨g, (k, ks) :: fs, .queued t⟩
  | finish (g k) : Move free ⟨g, [], .running k []⟩ ⟨g, [], .done⟩
  | back (g fs k k' ks) : Move free ⟨g, (k, ks) :: fs, .running k' []⟩ ⟨g, fs, .running k ks⟩

theorem step_cases {s s' : State} {e : Ev} (h : step s e = some s') :
    (∃ t, e = .arrive t ∧ s' = { s with acts := s.acts ++ [⟨t, [], .queued t⟩] }) ∨
    (Inner e ∧ s'.n = s.n ∧ ∃ p a b q, s.acts = p ++ a :: q ∧ s'.acts = p ++ b :: q ∧ Move (fun k => s.used k < s.n k) a b) := by
  cases e with
  | arrive t => simp only [step, Option.some.injEq] at h; exact .inl ⟨t, rfl, h.symm⟩
  | accept i =>
    right
    simp only [step] at h
    split at h
    · rename_i g fs k ks hi
      split at h
      · rename_i hu
        cases h
        obtain ⟨p, q, e, hs⟩ := split_set hi
        exact ⟨trivial, rfl, p, _, _, q, e, hs _, .accept g fs k ks hu⟩
      · cases h
    · cases h
  | call i =>
    right
    simp only [step] at h
    split at h
    · rename_i g fs k t ks hi
      cases h
      obtain ⟨p, q, e, hs⟩ := split_set hi
      exact ⟨trivial, rfl, p, _, _, q, e, hs _, .call g fs k t ks⟩
    · cases h
  | reply i =>
    right
    simp only [step] at h
    split at h
    · rename_i g k hi
      cases h
      obtain ⟨p, q, e, hs⟩ := split_set hi
      exact ⟨trivial, rfl, p, _, _, q, e, hs _, .finish g k⟩
    · rename_i g k ks fs k' hi
      cases h
      obtain ⟨p, q, e, hs⟩ := split_set hi
      exact ⟨trivial, rfl, p, _, _, q, e, hs _, .back g fs k k' ks⟩
    · cases h

/-- The calls that waiting threads have still to make need no more than `W` threads of `k`. -/
def Fits (k W : Nat) : List (Nat × List Tree) → Prop
  | [] => True
  | f :: fs => waiting k fs + one k f.1 + nesteds k f.2 ≤ W ∧ Fits k W fs

/-- The calls of a client need no more threads of `k` than its tree tells. -/
def Modest (k : Nat) (a : Act) : Prop :=
  Fits k (nested k a.given) a.frames ∧ match a.top with
    | .queued t => waiting k a.frames + nested k t ≤ nested k a.given
    | .running s ks => waiting k a.frames + nested k (.node s ks) ≤ nested k a.given
    | .done => a.frames = []

theorem modest_move {free : Nat → Prop} {k : Nat} {a b : Act} (hm : Move free a b) (ha : Modest k a) : Modest k b := by
  cases hm with
  | accept g fs s ks _ => exact ⟨ha.1, ha.2⟩
  | call g fs s t ks =>
    have h1 := ha.1
    have h2 := ha.2
    simp only [nested] at h2
    refine ⟨⟨by simp only; omega, h1⟩, ?_⟩
    simp only [waiting, List.map_cons, List.sum_cons] at h2 ⊢
    omega
  | finish g s => exact ⟨trivial, rfl⟩
  | back g fs s s' ks =>
    refine ⟨ha.1.2, ?_⟩
    have h1 := ha.1.1
    have h2 := ha.2
    cases ks with
    | nil =>
      simp only [waiting, List.map_cons, List.sum_cons, nested] at h2 ⊢
      omega
    | cons t ks =>
      simp only [nesteds] at h1
      simp only [nested]
      omega

theorem modest {n : Nat → Nat} {s : State} (h : Reach n s) (k : Nat) : s.n = n ∧ ∀ a ∈ s.acts, Modest k a := by
  obtain ⟨es, h⟩ := h
  suffices H : ∀ (es : List Ev) (s0 : State), (s0.n = n ∧ ∀ a ∈ s0.acts, Modest k a) → run s0 es = some s →
      s.n = n ∧ ∀ a ∈ s.acts, Modest k a by
    exact H es (start n) ⟨rfl, by simp [start]⟩ h
  intro es
  induction es with
  | nil => intro s0 h0 h; cases h; exact h0
  | cons e es ih =>
    intro s0 hs h
    simp only [run, Option.bind_eq_some_iff] at h
    obtain ⟨t, h1, h2⟩ := h
    refine ih t ?_ h2
    rcases step_cases h1 with ⟨t', rfl, rfl⟩ | ⟨_, hn, p, a, b, q, e1, e2, hmv⟩
    · refine ⟨hs.1, fun a ha => ?_⟩
      rcases List.mem_append.1 ha with ha | ha
      · exact hs.2 a ha
      · rw [List.mem_singleton] at ha; subst ha; exact ⟨trivial, by simp [waiting]⟩
    · refine ⟨hn.trans hs.1, fun x hx => ?_⟩
      rw [e2] at hx
      rcases List.mem_append.1 hx with h | h
      · exact hs.2 x (by rw [e1]; simp [h])
      · rcases List.mem_cons.1 h with rfl | h
        · exact modest_move hmv (hs.2 a (by rw [e1]; simp))
        · exact hs.2 x (by rw [e1]; simp [h])

theorem queued_threads {k : Nat} {a : Act} (h : Modest k a) (hr : ∀ s ks, a.top ≠ .running s ks) : a.threads k ≤ demand k a := by
  obtain ⟨g, fs, top⟩ := a
  cases top with
  | queued t =>
    have := h.2
    simp only [Act.threads, demand] at *
    omega
  | running s ks => exact absurd rfl (hr s ks)
  | done => have := h.2; simp only at this; subst this; simp [Act.threads, demand, waiting]

theorem threads_move {n u : Nat → Nat} {a b : Act} (h : Move (fun k => u k < n k) a b) (k : Nat) :
    b.threads k ≤ a.threads k ∨ (u k < n k ∧ b.threads k = a.threads k + 1) := by
  cases h with
  | accept g fs s ks hf =>
    simp only [Act.threads, one]
    split
    · rename_i e; subst e; exact .inr ⟨hf, by omega⟩
    · left; omega
  | call g fs s t ks => left; simp only [Act.threads, waiting, List.map_cons, List.sum_cons]; omega
  | finish g s => left; simp [Act.threads, waiting]
  | back g fs s s' ks => left; simp only [Act.threads, waiting, List.map_cons, List.sum_cons]; omega

theorem bounded (k : Nat) (es : List Ev) : ∀ {s s' : State}, s.used k ≤ s.n k → run s es = some s' → s'.n = s.n ∧ s'.used k ≤ s.n k := by
  induction es with
  | nil => intro s s' hu h; cases h; exact ⟨rfl, hu⟩
  | cons e es ih =>
    intro s s' hu h
    simp only [run, Option.bind_eq_some_iff] at h
    obtain ⟨t, h1, h2⟩ := h
    have key : t.n = s.n ∧ t.used k ≤ s.n k := by
      rcases step_cases h1 with ⟨t', rfl, rfl⟩ | ⟨_, hn', p, a, b, r, e1, e2, hmv⟩
      · refine ⟨rfl, ?_⟩
        simp only [State.used, Act.threads, waiting, List.map_append, List.map_cons, List.map_nil, List.sum_append, List.sum_cons, List.sum_nil] at hu ⊢
        omega
      · refine ⟨hn', ?_⟩
        have := threads_move hmv k
        simp only [State.used, e1, e2, List.map_append, List.map_cons, List.sum_append, List.sum_cons] at hu this ⊢
        omega
    obtain ⟨k1, k2⟩ := ih (by rw [key.1]; exact key.2) h2
    rw [key.1] at k1 k2
    exact ⟨k1, k2⟩

/-! ### Steps are bounded -/

mutual
/-- The steps that a call takes. -/
def cost : Tree → Nat
  | .node _ ks => costs ks + 2
/-- The steps that some calls take, with making them. -/
def costs : List Tree → Nat
  | [] => 0
  | k :: ks => cost k + 1 + costs ks
end

/-- The steps that a client still takes. -/
def work (a : Act) : Nat :=
  (a.frames.map fun f => costs f.2 + 1).sum + match a.top with
    | .queued t => cost t
    | .running _ ks => costs ks + 1
    | .done => 0

theorem work_move {free : Nat → Prop} {a b : Act} (h : Move free a b) : work b < work a ∧ b.given = a.given ∧ ∀ k, demand k b ≤ demand k a := by
  cases h with
  | accept g fs s ks _ => refine ⟨?_, rfl, fun _ => Nat.le_refl _⟩; simp only [work, cost]; omega
  | call g fs s k ks => refine ⟨?_, rfl, fun _ => Nat.le_refl _⟩; simp only [work, costs, List.map_cons, List.sum_cons]; omega
  | finish g s => refine ⟨?_, rfl, fun _ => Nat.zero_le _⟩; simp [work, costs]
  | back g fs s s' ks => refine ⟨?_, rfl, fun _ => Nat.le_refl _⟩; simp only [work, costs, List.map_cons, List.sum_cons]; omega

theorem inner_run (es : List Ev) (he : ∀ e ∈ es, Inner e) {s s' : State} (h : run s es = some s') :
    es.length + (s'.acts.map work).sum ≤ (s.acts.map work).sum ∧ (∀ k, demands s' k ≤ demands s k) ∧
      s'.acts.map Act.given = s.acts.map Act.given := by
  induction es generalizing s with
  | nil => cases h; exact ⟨by simp, fun _ => Nat.le_refl _, rfl⟩
  | cons e es ih =>
    simp only [run, Option.bind_eq_some_iff] at h
    obtain ⟨t, h1, h2⟩ := h
    obtain ⟨b1, b2, b3⟩ := ih (fun e h => he e (by simp [h])) h2
    rcases step_cases h1 with ⟨t', rfl, rfl⟩ | ⟨_, hn, p, a, b, q, e1, e2, hmv⟩
    · exact (he (.arrive t') (by simp)).elim
    · obtain ⟨w1, w2, w3⟩ := work_move hmv
      refine ⟨?_, fun k => ?_, b3.trans ?_⟩
      · rw [e2] at b1
        simp only [e1, List.map_append, List.map_cons, List.sum_append, List.sum_cons, List.length_cons] at b1 ⊢
        omega
      · refine Nat.le_trans (b2 k) ?_
        have := w3 k
        simp only [demands, e1, e2, List.map_append, List.map_cons, List.sum_append, List.sum_cons]
        omega
      · simp only [e1, e2, List.map_append, List.map_cons, w2]

/-- Servers at rest with enough threads have answered all. -/
theorem rest_done {n : Nat → Nat} {s : State} (h : Reach n s) (hb : ∀ k, demands s k < n k) (hr : Rest s) : ∀ a ∈ s.acts, a.top = .done := by
  have hrun : ∀ a ∈ s.acts, ∀ k ks, a.top ≠ .running k ks := by
    intro a ha k ks e
    obtain ⟨i, hi⟩ := List.mem_iff_getElem?.1 ha
    obtain ⟨g, fs, top⟩ := a
    simp only at e
    subst e
    cases ks with
    | cons t ks => have := hr (.call i) trivial; simp [step, hi] at this
    | nil =>
      have := hr (.reply i) trivial
      cases fs <;> simp [step, hi] at this
  have hu : ∀ k, s.used k < s.n k := by
    intro k
    obtain ⟨hn, hs⟩ := modest h k
    have : s.used k ≤ demands s k := sum_le fun a ha => queued_threads (hs a ha) (hrun a ha)
    have := hb k
    rw [hn]
    omega
  intro a ha
  obtain ⟨i, hi⟩ := List.mem_iff_getElem?.1 ha
  obtain ⟨g, fs, top⟩ := a
  cases top with
  | done => rfl
  | running k ks => exact absurd rfl (hrun _ ha k ks)
  | queued t =>
    obtain ⟨k, ks⟩ := t
    have := hr (.accept i) trivial
    simp [step, hi, hu] at this

/-! ### Calls that are too deep -/

/-- Some call that a waiting thread has still to make goes deeper in server `k` than `N`. -/
def Deep (k N : Nat) : List (Nat × List Tree) → Prop
  | [] => False
  | f :: fs => N < waiting k fs + one k f.1 + deeps k f.2 ∨ Deep k N fs

/-- Some call that a client has still to make goes deeper in server `k` than `N`. -/
def TooDeep (k N : Nat) (a : Act) : Prop :=
  Deep k N a.frames ∨ match a.top with
    | .queued t => N < waiting k a.frames + deep k t
    | .running s ks => N < waiting k a.frames + one k s + deeps k ks
    | .done => False

theorem too_deep_move {free : Nat → Prop} {k N : Nat} {a b : Act} (hm : Move free a b) (ht : a.threads k ≤ N) (ha : TooDeep k N a) : TooDeep k N b := by
  cases hm with
  | accept g fs s ks _ =>
    rcases ha with h | h
    · exact .inl h
    · simp only [deep] at h
      exact .inr (by simp only; omega)
  | call g fs s t ks =>
    rcases ha with h | h
    · exact .inl (.inr h)
    · simp only [deeps] at h
      by_cases hc : N < waiting k fs + one k s + deeps k ks
      · exact .inl (.inl hc)
      · refine .inr ?_
        simp only [waiting, List.map_cons, List.sum_cons] at h hc ⊢
        omega
  | finish g s =>
    rcases ha with h | h
    · exact h.elim
    · simp only [Act.threads, deeps] at h ht
      omega
  | back g fs s s' ks =>
    rcases ha with h | h
    · rcases h with h | h
      · exact .inr h
      · exact .inl h
    · simp only [Act.threads, deeps] at h ht
      omega

theorem threads_le_used {s : State} {a : Act} (h : a ∈ s.acts) (k : Nat) : a.threads k ≤ s.used k := by
  obtain ⟨p, q, e⟩ := List.append_of_mem h
  simp only [State.used, e, List.map_append, List.map_cons, List.sum_append, List.sum_cons]
  omega

theorem too_deep {n : Nat → Nat} {s : State} (h : Reach n s) (k : Nat) : ∀ a ∈ s.acts, n k < deep k a.given → TooDeep k (n k) a := by
  obtain ⟨es, h⟩ := h
  suffices H : ∀ (es : List Ev) (s0 : State), s0.n = n → s0.used k ≤ n k → (∀ a ∈ s0.acts, n k < deep k a.given → TooDeep k (n k) a) →
      run s0 es = some s → ∀ a ∈ s.acts, n k < deep k a.given → TooDeep k (n k) a by
    exact H es (start n) rfl (by simp [start, State.used]) (by simp [start]) h
  intro es
  induction es with
  | nil => intro s0 _ _ h0 h; cases h; exact h0
  | cons e es ih =>
    intro s0 hn hu h0 h
    simp only [run, Option.bind_eq_some_iff] at h
    obtain ⟨t, h1, h2⟩ := h
    obtain ⟨b1, b2⟩ := bounded k [e] (s := s0) (s' := t) (by rw [hn]; exact hu) (by simp [run, h1])
    refine ih t (b1.trans hn) (by rw [hn] at b2; exact b2) ?_ h2
    rcases step_cases h1 with ⟨t', rfl, rfl⟩ | ⟨_, _, p, a, b, q, e1, e2, hmv⟩
    · intro a ha hd
      rcases List.mem_append.1 ha with ha | ha
      · exact h0 a ha hd
      · rw [List.mem_singleton] at ha; subst ha
        exact .inr (by simpa [waiting] using hd)
    · intro x hx hd
      rw [e2] at hx
      rcases List.mem_append.1 hx with h | h
      · exact h0 x (by rw [e1]; simp [h]) hd
      · rcases List.mem_cons.1 h with rfl | h
        · have ha : a ∈ s0.acts := by rw [e1]; simp
          rw [(work_move hmv).2.1] at hd
          exact too_deep_move hmv (Nat.le_trans (threads_le_used ha k) hu) (h0 a ha hd)
        · exact h0 x (by rw [e1]; simp [h]) hd

/-! ### Deadlock -/

/-- No function runs, and every call that waits is for a server all of whose threads
are in use. -/
def Frozen (s : State) : Prop :=
  ∀ a ∈ s.acts, ∃ k ks, a.top = .queued (.node k ks) ∧ s.n k ≤ s.used k

theorem frozen_step {s s' : State} {e : Ev} (hf : Frozen s) (h : step s e = some s') : ∃ t, e = .arrive t := by
  rcases step_cases h with ⟨t, he, _⟩ | ⟨_, _, p, a, b, q, e1, _, hmv⟩
  · exact ⟨t, he⟩
  · exfalso
    obtain ⟨k, ks, h1, h2⟩ := hf a (by rw [e1]; simp)
    cases hmv with
    | accept g fs k' ks' hu => cases h1; omega
    | call g fs k t ks => cases h1
    | finish g => cases h1
    | back g fs ks => cases h1

/-- Clients that come later change nothing. -/
theorem frozen_run {s0 : State} (hf : Frozen s0) (es : List Ev) : ∀ {s s' : State}, s.n = s0.n → (∃ q, s.acts = s0.acts ++ q) →
    run s es = some s' → ∃ q, s'.acts = s0.acts ++ q := by
  induction es with
  | nil => intro s s' _ hq h; cases h; exact hq
  | cons e es ih =>
    intro s s' hn ⟨q, hq⟩ h
    simp only [run, Option.bind_eq_some_iff] at h
    obtain ⟨t, h1, h2⟩ := h
    rcases step_cases h1 with ⟨t', rfl, rfl⟩ | ⟨_, hn', p, a, b, r, e1, e2, hmv⟩
    · exact ih (s := { s with acts := s.acts ++ [⟨t', [], .queued t'⟩] }) hn ⟨q ++ [⟨t', [], .queued t'⟩], by simp [hq]⟩ h2
    · have hin : a ∉ s0.acts := by
        intro ha
        obtain ⟨k, ks, g1, g2⟩ := hf a ha
        have hu : s0.used k ≤ s.used k := by simp only [State.used, hq, List.map_append, List.sum_append]; omega
        have hnk : s.n k = s0.n k := by rw [hn]
        cases hmv with
        | accept g fs k' ks' hu' => cases g1; omega
        | call g fs k t ks => cases g1
        | finish g => cases g1
        | back g fs ks => cases g1
      refine ih (hn'.trans hn) ?_ h2
      rw [hq] at e1
      rcases List.append_eq_append_iff.1 e1 with ⟨m, hm1, hm2⟩ | ⟨m, hm1, hm2⟩
      · exact ⟨m ++ b :: r, by rw [e2, hm1, List.append_assoc]⟩
      · cases m with
        | nil => exact ⟨b :: r, by rw [e2, hm1]; simp⟩
        | cons x m =>
          simp only [List.cons_append, List.cons.injEq] at hm2
          exact absurd (by rw [hm1, hm2.1]; simp) hin

/-- A client makes a call to `a` whose function calls `b`, and gets that far. -/
def enter (i a b : Nat) : List Ev := [.arrive (.node a [.node b []]), .accept i, .call i]

/-- The client then. -/
def entered (a b : Nat) : Act := ⟨.node a [.node b []], [(a, [])], .queued (.node b [])⟩

theorem enter_run (s : State) (a b : Nat) (h : s.used a < s.n a) :
    run s (enter s.acts.length a b) = some { s with acts := s.acts ++ [entered a b] } := by
  have hu : State.used ⟨s.n, s.acts ++ [⟨.node a [.node b []], [], .queued (.node a [.node b []])⟩]⟩ a = s.used a := by
    simp [State.used, Act.threads, waiting]
  simp [enter, run, step, hu, h, entered]

theorem entered_threads (a b k : Nat) : (entered a b).threads k = one k a := by simp [entered, Act.threads, waiting]

theorem enter_many (a b : Nat) : ∀ (m : Nat) (s : State), s.used a + m ≤ s.n a →
    ∃ es, run s es = some { s with acts := s.acts ++ List.replicate m (entered a b) } := by
  intro m
  induction m with
  | zero => intro s _; exact ⟨[], by simp [run]⟩
  | succ m ih =>
    intro s h
    obtain ⟨es, h2⟩ := ih { s with acts := s.acts ++ [entered a b] } (by
      have : State.used ⟨s.n, s.acts ++ [entered a b]⟩ a = s.used a + 1 := by
        simp [State.used, entered_threads, one]
      rw [this]
      simp only
      omega)
    refine ⟨enter s.acts.length a b ++ es, ?_⟩
    rw [run_append, enter_run s a b (by omega), Option.bind_some, h2, List.append_assoc]
    rfl

theorem used_entered (n : Nat → Nat) (l : List Act) (m a b k : Nat) :
    State.used ⟨n, l ++ List.replicate m (entered a b)⟩ k = State.used ⟨n, l⟩ k + m * one k a := by
  simp [State.used, entered_threads]

theorem busy_eq (s : State) (k : Nat) : busy s k = s.used k := by
  have h : ∀ fs : List (Nat × List Tree), (fs.filter fun f => f.1 == k).length = waiting k fs := by
    intro fs
    induction fs with
    | nil => rfl
    | cons f fs ih =>
      simp only [waiting, List.map_cons, List.sum_cons, one] at ih ⊢
      by_cases e : f.1 = k
      · simp [e, ih]; omega
      · simp [e, ih]
  simp only [busy, State.used]
  congr 1
  refine List.map_congr_left fun a _ => ?_
  obtain ⟨g, fs, top⟩ := a
  cases top <;> simp [Act.threads, one, h]

end Verif.RpcNest.Many.Lemmas
