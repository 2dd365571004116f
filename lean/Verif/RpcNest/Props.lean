import Verif.RpcNest.Lemmas
/-!
# C110: RPC functions that call the server they run on
-/
namespace Verif.RpcNest.Props
open Verif.RpcNest Verif.RpcNest.Spec Verif.RpcNest.Lemmas

/-- If the server has more threads than the calls of all clients that wait go deep
below their first, all together, then all get their answers: in whatever order the
threads go on, they come to rest in a bounded number of steps, and then everyone has been
answered. -/
theorem all_answered_partial {n : Nat} {s : State} (h : Reach n s) (hb : allBelow s < n) : ∃ bound, ∀ es s', (∀ e ∈ es, Inner e) →
    run s es = some s' → es.length ≤ bound ∧ (Rest s' → ∀ i, i < s.acts.length → Answered s' i) := by
  refine ⟨(s.acts.map work).sum, fun es s' he hr => ?_⟩
  obtain ⟨h1, h2, h3⟩ := inner_run es he hr
  refine ⟨by omega, fun hrest i hi => ?_⟩
  have hl : s'.acts.length = s.acts.length := by
    have := congrArg List.length h3
    simpa using this
  have hreach : Reach n s' := by
    obtain ⟨es0, h0⟩ := h
    exact ⟨es0 ++ es, by rw [run_append, h0]; exact hr⟩
  have hi' : i < s'.acts.length := by omega
  exact ⟨_, List.getElem?_eq_getElem hi', rest_done hreach (by omega) hrest _ (List.getElem_mem hi')⟩

/-- Functions that make no calls to their own server are always answered, with any number of threads but 0. -/
theorem flat_answered {n : Nat} (hn : 0 < n) {s : State} (h : Reach n s) (hf : ∀ i t, Made s i t → t = .node []) : ∃ bound, ∀ es s', (∀ e ∈ es, Inner e) →
    run s es = some s' → es.length ≤ bound ∧ (Rest s' → ∀ i, i < s.acts.length → Answered s' i) := by
  refine all_answered_partial h ?_
  have : allBelow s ≤ (s.acts.map fun _ => 0).sum := sum_le fun a ha => by
    obtain ⟨i, hi⟩ := List.mem_iff_getElem?.1 ha
    have := hf i a.given ⟨a, hi, rfl⟩
    simp only [below]
    split
    · exact Nat.le_refl _
    · rw [this]; simp [height, heights]
  have h0 : (s.acts.map fun _ => 0).sum = 0 := by simp
  omega

/-- This bound is sharp: as soon as the calls of the clients go down as deep, all
together, as there are threads, they can lock each other out for ever, and everyone who comes after them. -/
theorem deadlock (n : Nat) (hs : List Nat) (h : n ≤ hs.sum) : ∃ s, Reach n s ∧ s.acts.map Act.given = hs.map chain ∧ allBelow s = hs.sum ∧
    ∀ es s', run s es = some s' → ∀ i, ¬ Answered s' i := by
  let s0 : State := ⟨n, (hs.map chain).map fun t => ⟨t, [], .queued t⟩⟩
  have h0 : run (start n) ((hs.map chain).map .arrive) = some s0 := by rw [arrivals]; simp [start, s0]
  have hu : s0.used = 0 := by
    simp only [State.used, s0, List.map_map]
    clear h h0
    induction hs with
    | nil => rfl
    | cons x hs ih => simpa [Act.threads] using ih
  have hf : List.Forall₂ Hangs s0.acts hs := by
    simp only [s0]
    clear h h0 hu
    induction hs with
    | nil => exact .nil
    | cons x hs ih => exact .cons rfl ih
  obtain ⟨es, s, r1, r2, r3, r4, r5⟩ := descend n n s0 hs rfl (by omega) h hf
  have hg : s.acts.map Act.given = hs.map chain := by rw [r4]; simp [s0]
  have hfz : Frozen s := ⟨by omega, fun a ha ks e => by obtain ⟨x, hx⟩ := r5 a ha; rw [hx] at e; cases e⟩
  refine ⟨s, ⟨_, by rw [run_append, h0]; exact r1⟩, hg, ?_, ?_⟩
  · have h1 : s.acts.map below = (s.acts.map Act.given).map fun t => height t - 1 := by
      rw [List.map_map]
      refine List.map_congr_left fun a ha => ?_
      obtain ⟨x, hx⟩ := r5 a ha
      simp only [below, Function.comp]
      rw [hx]
    simp only [allBelow, h1, hg, List.map_map]
    congr 1
    refine (List.map_congr_left fun x _ => ?_).trans (List.map_id _)
    simp [Function.comp, height_chain]
  · intro es' s' hr i ⟨a, ha, hd⟩
    have hfz' : ∀ (es : List Ev) (s : State), Frozen s → (∀ a ∈ s.acts, a.top ≠ .done) → run s es = some s' → ∀ a ∈ s'.acts, a.top ≠ .done := by
      intro es
      induction es with
      | nil => intro s _ hnd h; cases h; exact hnd
      | cons e es ih =>
        intro s hfz hnd h
        simp only [run, Option.bind_eq_some_iff] at h
        obtain ⟨t, h1, h2⟩ := h
        refine ih t (frozen_step hfz h1).1 ?_ h2
        rcases step_cases h1 with ⟨t', rfl, rfl⟩ | ⟨_, _, p, a, b, q, e1, e2, hmv⟩
        · intro a ha
          rcases List.mem_append.1 ha with h | h
          · exact hnd a h
          · rw [List.mem_singleton] at h; subst h; simp
        · intro x hx
          rw [e2] at hx
          rcases List.mem_append.1 hx with h | h
          · exact hnd x (by rw [e1]; simp [h])
          · rcases List.mem_cons.1 h with rfl | h
            · have hr := hfz.2 a (by rw [e1]; simp)
              cases hmv with
              | accept g fs ks _ => simp
              | call g fs k ks => simp
              | finish g => exact absurd rfl (hr _)
              | back g fs ks => simp
            · exact hnd x (by rw [e1]; simp [h])
    exact hfz' es' s hfz (fun a ha e => by obtain ⟨x, hx⟩ := r5 a ha; rw [hx] at e; cases e) hr a (List.mem_of_getElem? ha) hd

/-- A call that goes deeper than there are threads is never answered, in no order of events and with no other clients. -/
theorem too_deep_never {n : Nat} {s : State} (h : Reach n s) {i : Nat} {t : Tree} (hm : Made s i t) (ht : n < height t) : ¬ Answered s i := by
  rintro ⟨a, ha, hd⟩
  obtain ⟨b, hb, rfl⟩ := hm
  rw [ha] at hb
  cases hb
  have hm := List.mem_of_getElem? ha
  have hsh := ((shallow h).2 a hm).2
  rw [hd] at hsh
  simp only at hsh
  rcases too_deep h a hm ht with h | h
  · rw [hsh] at h; exact h
  · rw [hd] at h; exact h

/-- Never more threads are in use than there are. -/
theorem threads_bounded {n : Nat} {s : State} (h : Reach n s) : busy s ≤ n := by
  have hb : busy s = s.used := by
    simp only [busy, State.used]
    congr 1
    refine List.map_congr_left fun a _ => ?_
    obtain ⟨g, fs, top⟩ := a
    cases top <;> rfl
  rw [hb]
  obtain ⟨es, h⟩ := h
  suffices H : ∀ (es : List Ev) (s0 : State), s0.n = n → s0.used ≤ n → run s0 es = some s → s.used ≤ n by
    exact H es (start n) rfl (by simp [start, State.used]) h
  intro es
  induction es with
  | nil => intro s0 _ h0 h; cases h; exact h0
  | cons e es ih =>
    intro s0 hn hu h
    simp only [run, Option.bind_eq_some_iff] at h
    obtain ⟨t, h1, h2⟩ := h
    rcases step_cases h1 with ⟨t', rfl, rfl⟩ | ⟨_, hn', p, a, b, q, e1, e2, hmv⟩
    · refine ih _ (by exact hn) ?_ h2
      simpa [State.used, Act.threads] using hu
    · refine ih t (hn'.trans hn) ?_ h2
      cases hmv <;> simp only [State.used, e1, e2, hn, List.map_append, List.map_cons, List.sum_append, List.sum_cons, Act.threads, List.length_cons] at * <;> omega

/-! ### Examples -/

/-- A function that makes two calls, the second of which makes one. -/
def both : Tree := .node [.node [], .node [.node []]]

example : height both = 3 := by simp [both, height, heights]

/-- Three threads are enough for it alone. -/
example : ∃ s, Reach 3 s ∧ allBelow s < 3 ∧ Made s 0 both ∧ ¬ Answered s 0 :=
  ⟨⟨3, [⟨both, [[.node [.node []]]], .queued (.node [])⟩]⟩, ⟨[.arrive both, .accept 0, .call 0], rfl⟩,
    by simp [allBelow, below, both, height, heights], ⟨_, rfl, rfl⟩, by rintro ⟨a, h, e⟩; cases h; cases e⟩

example : (run (start 3) [.arrive both, .accept 0, .call 0, .accept 0, .reply 0, .call 0, .accept 0, .call 0, .accept 0, .reply 0, .reply 0, .reply 0]).map
    (fun s => s.acts.map fun a => match a.top with | .done => true | _ => false) = some [true] := rfl

/-- Two clients with one call inside each, on two threads. -/
example : (run (start 2) [.arrive (chain 1), .arrive (chain 1), .accept 0, .accept 1, .call 0, .call 1]).map
    (fun s => ((step s (.accept 0)).isSome, (step s (.accept 1)).isSome)) = some (false, false) := rfl

end Verif.RpcNest.Props
