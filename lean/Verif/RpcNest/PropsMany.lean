import Verif.RpcNest.LemmasMany
/-!
# C110: RPC functions that call functions of several servers
-/
namespace Verif.RpcNest.Many.Props
open Verif.RpcNest.Many Verif.RpcNest.Many.Spec Verif.RpcNest.Many.Lemmas

/-- If each server has more threads than may wait at once for all clients together, then all get their answers: in whatever
order the threads go on, they come to rest in a bounded number of steps, and then everyone
has been answered. -/
theorem all_answered_partial {n : Nat → Nat} {s : State} (h : Reach n s) (hb : ∀ k, demands s k < n k) : ∃ bound, ∀ es s', (∀ e ∈ es, Inner e) →
    run s es = some s' → es.length ≤ bound ∧ (Rest s' → ∀ i, i < s.acts.length → Answered s' i) := by
  refine ⟨(s.acts.map work).sum, fun es s' he hr => ?_⟩
  obtain ⟨h1, h2, h3⟩ := inner_run es he hr
  refine ⟨by omega, fun hrest i hi => ?_⟩
  have hl : s'.acts.length = s.acts.length := by
    have := congrArg List.length h3
    simpa using this
  have hreach : Reach n s' := by
    obtain ⟨es0, h0⟩ := h
    exact ⟨es0 ++ es, by rw [run_append, h0]; exact hr⟩
  have hi' : i < s'.acts.length := by omega
  refine ⟨_, List.getElem?_eq_getElem hi', rest_done hreach (fun k => ?_) hrest _ (List.getElem_mem hi')⟩
  have := h2 k
  have := hb k
  omega

/-- No server uses more threads than it was started with. -/
theorem threads_bounded {n : Nat → Nat} {s : State} (h : Reach n s) (k : Nat) : busy s k ≤ n k := by
  rw [busy_eq]
  obtain ⟨es, h⟩ := h
  exact (bounded k es (by simp [start, State.used]) h).2

/-- A call with more calls to one server inside of each other than this server has threads, however many other servers are in between, is never answered,
in no order of events and with no other clients. -/
theorem too_deep_never {n : Nat → Nat} {s : State} (h : Reach n s) {i : Nat} {t : Tree} (hm : Made s i t) (k : Nat) (ht : n k < deep k t) :
    ¬ Answered s i := by
  rintro ⟨a, ha, hd⟩
  obtain ⟨b, hb, rfl⟩ := hm
  rw [ha] at hb
  cases hb
  have hm := List.mem_of_getElem? ha
  have hf := ((modest h k).2 a hm).2
  rw [hd] at hf
  simp only at hf
  rcases too_deep h k a hm ht with h | h
  · rw [hf] at h; exact h
  · rw [hd] at h; exact h

/-- Servers that call each other can lock each other up, whatever number of threads they have:
as many clients of each as it has threads are enough, with one call to the other inside of theirs. Then nothing more happens
unless another client comes, and whoever comes, those that are there are never answered. -/
theorem locked_up (n : Nat → Nat) (a b : Nat) (hab : a ≠ b) : ∃ s, Reach n s ∧
    s.acts.map Act.given = List.replicate (n a) (.node a [.node b []]) ++ List.replicate (n b) (.node b [.node a []]) ∧
    Rest s ∧ ∀ es s', run s es = some s' → ∀ i, i < s.acts.length → ¬ Answered s' i := by
  obtain ⟨es1, h1⟩ := enter_many a b (n a) (start n) (by simp [start, State.used])
  let s1 : State := ⟨n, List.replicate (n a) (entered a b)⟩
  have h1' : run (start n) es1 = some s1 := by rw [h1]; simp [start, s1]
  have hu1 : ∀ k, s1.used k = n a * one k a := by
    intro k
    have := used_entered n [] (n a) a b k
    simpa [s1, State.used] using this
  have hba : one b a = 0 := by simp [one, hab]
  have hab' : one a b = 0 := by simp [one, Ne.symm hab]
  obtain ⟨es2, h2⟩ := enter_many b a (n b) s1 (by rw [hu1, hba]; simp [s1])
  let s2 : State := ⟨n, s1.acts ++ List.replicate (n b) (entered b a)⟩
  have hu2 : ∀ k, s2.used k = n a * one k a + n b * one k b := by
    intro k
    have := used_entered n s1.acts (n b) b a k
    rw [show s2 = ⟨n, s1.acts ++ List.replicate (n b) (entered b a)⟩ from rfl, this]
    exact congrArg (· + _) (hu1 k)
  have hf : Frozen s2 := by
    intro x hx
    rcases List.mem_append.1 hx with hx | hx
    · rw [(List.mem_replicate.1 hx).2]
      refine ⟨b, [], rfl, ?_⟩
      rw [hu2, hba]
      simp [one, s2]
    · rw [(List.mem_replicate.1 hx).2]
      refine ⟨a, [], rfl, ?_⟩
      rw [hu2, hab']
      simp [one, s2]
  refine ⟨s2, ⟨es1 ++ es2, by rw [run_append, h1', Option.bind_some, h2]⟩, by simp [s2, s1, entered], ?_, ?_⟩
  · intro e he
    cases hs : step s2 e with
    | none => rfl
    | some t =>
      obtain ⟨t', rfl⟩ := frozen_step hf hs
      exact he.elim
  · rintro es s' hr i hi ⟨x, hx, hd⟩
    obtain ⟨q, hq⟩ := frozen_run hf es rfl ⟨[], by simp⟩ hr
    rw [hq, List.getElem?_append_left hi] at hx
    obtain ⟨k, ks, h, _⟩ := hf x (List.mem_of_getElem? hx)
    rw [h] at hd
    cases hd

/-! ### Examples -/

/-- A client of server 0, whose function calls servers 1 and 2, where that of 2 calls 0. -/
def trip : Tree := .node 0 [.node 1 [], .node 2 [.node 0 []]]

example : nested 0 trip = 1 ∧ nested 1 trip = 0 ∧ nested 2 trip = 1 := by simp [trip, nested, nesteds, one]

/-- Two threads each are enough for it. -/
example : ∃ s, Reach (fun _ => 2) s ∧ (∀ k, demands s k < 2) ∧ ¬ Answered s 0 := by
  refine ⟨⟨fun _ => 2, [⟨trip, [(0, [.node 2 [.node 0 []]])], .queued (.node 1 [])⟩]⟩, ⟨[.arrive trip, .accept 0, .call 0], rfl⟩, ?_, ?_⟩
  · intro k
    simp only [demands, demand, trip, nested, nesteds, one, List.map_cons, List.map_nil, List.sum_cons, List.sum_nil]
    split <;> split <;> omega
  · rintro ⟨a, h, e⟩; cases h; cases e

example : (run (start fun _ => 2) [.arrive trip, .accept 0, .call 0, .accept 0, .reply 0, .call 0, .accept 0, .call 0, .accept 0, .reply 0, .reply 0, .reply 0]).map
    (fun s => s.acts.map fun a => match a.top with | .done => true | _ => false) = some [true] := rfl

/-- One thread of server 0 is not enough for it: there is a call to 0 inside of a call to 0. -/
example : deep 0 trip = 2 ∧ ∃ s, Reach (fun _ => 1) s ∧ Made s 0 trip :=
  ⟨by simp [trip, deep, deeps, one], _, ⟨[.arrive trip], rfl⟩, _, rfl, rfl⟩

/-- All threads of both servers may be in use. -/
example : ∃ s, Reach (fun _ => 1) s ∧ busy s 0 = 1 ∧ busy s 2 = 1 :=
  ⟨_, ⟨[.arrive trip, .accept 0, .call 0, .accept 0, .reply 0, .call 0, .accept 0], rfl⟩, rfl, rfl⟩

/-- Two servers with one thread each, a client each: no one goes on. -/
example : (run (start fun _ => 1) [.arrive (.node 0 [.node 1 []]), .arrive (.node 1 [.node 0 []]),
    .accept 0, .accept 1, .call 0, .call 1, .accept 0]).isNone ∧
    (run (start fun _ => 1) [.arrive (.node 0 [.node 1 []]), .arrive (.node 1 [.node 0 []]),
      .accept 0, .accept 1, .call 0, .call 1]).isSome := by decide

end Verif.RpcNest.Many.Props
