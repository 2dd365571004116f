import Verif.MpNest.Spec
import Verif.RpcNest.Lemmas
/-!
# Lemmas about MessagePack-RPC calls within calls
-/
namespace Verif.MpNest.Lemmas
open Verif.MpNest Verif.MpNest.Spec
open Verif.RpcNest.Lemmas (split_set)

theorem run_append (s : State) (as bs : List Ev) : run s (as ++ bs) = (run s as).bind fun s => run s bs := by
  induction as generalizing s with
  | nil => rfl
  | cons e as ih =>
    simp only [List.cons_append, run]
    cases step s e with
    | none => rfl
    | some s' => exact ih s'

theorem begun_append (as bs : List Ev) : begun (as ++ bs) = begun as + begun bs := by
  induction as with
  | nil => simp [begun]
  | cons e as ih => cases e <;> (simp only [List.cons_append, begun, ih]; try omega)

theorem split_at {α : Type} {l : List α} {i : Nat} {x : α} (h : l[i]? = some x) :
    ∃ p q, p.length = i ∧ l = p ++ x :: q ∧ ∀ y, l.set i y = p ++ y :: q := by
  obtain ⟨hlt, hx⟩ := List.getElem?_eq_some_iff.1 h
  refine ⟨l.take i, l.drop (i + 1), by simp; omega, ?_, fun y => ?_⟩
  · rw [← hx]; simp
  · rw [List.set_eq_take_append_cons_drop, if_pos hlt]

/-- Steps of one call, with what it leaves behind. -/
inductive Move (free : Nat → Prop) (c : Prop) : Act → Act → List Act → Prop
  | accept (fs k ks w) : free k → Move free c ⟨fs, .queued (.node k ks), w⟩ ⟨fs, .running k ks, w⟩ []
  | call (fs k t ks w) : Move free c ⟨fs, .running k (t :: ks), w⟩ ⟨(k, ks) :: fs, .queued t, w⟩ []
  | finish (k w) : Move free c ⟨[], .running k [], w⟩ ⟨[], .done, if w = .waits then .answered else w⟩ []
  | back (fs k k' ks w) : Move free c ⟨(k, ks) :: fs, .running k' [], w⟩ ⟨fs, .running k ks, w⟩ []
  | throw (ins k ks outs top w) : Move free c ⟨ins ++ (k, ks) :: outs, top, w⟩ ⟨outs, .silent k, w⟩ [⟨ins, top, .gaveUp⟩]
  | caught (ins k ks ks' outs top w) : c → (ks' = ks ∨ ks' = []) → Move free c ⟨ins ++ (k, ks) :: outs, top, w⟩ ⟨outs, .running k ks', w⟩ [⟨ins, top, .gaveUp⟩]
  | leave (fs top) : Move free c ⟨fs, top, .waits⟩ ⟨fs, top, .gaveUp⟩ []
  | close (k w) : w ≠ .waits → Move free c ⟨[], .silent k, w⟩ ⟨[], .done, w⟩ []

theorem step_cases {s s' : State} {e : Ev} (h : step s e = some s') :
    (∃ t, e = .arrive t ∧ s' = { s with acts := s.acts ++ [⟨[], .queued t, .waits⟩] }) ∨
    (Inner e ∧ s'.n = s.n ∧ ∃ p a b q ex, s.acts = p ++ a :: q ∧ s'.acts = p ++ b :: q ++ ex ∧ Move (fun k => s.used k < s.n k) (∃ j more, e = .caught p.length j more) a b ex) := by
  cases e with
  | arrive t => simp only [step, Option.some.injEq] at h; exact .inl ⟨t, rfl, h.symm⟩
  | accept i =>
    right
    simp only [step] at h
    split at h
    · rename_i fs k ks w hi
      split at h
      · rename_i hu
        cases h
        obtain ⟨p, q, e, hs⟩ := split_set hi
        exact ⟨trivial, rfl, p, _, _, q, [], e, by simp only [List.append_nil]; exact hs _, .accept fs k ks w hu⟩
      · cases h
    · cases h
  | call i =>
    right
    simp only [step] at h
    split at h
    · rename_i fs k t ks w hi
      cases h
      obtain ⟨p, q, e, hs⟩ := split_set hi
      exact ⟨trivial, rfl, p, _, _, q, [], e, by simp only [List.append_nil]; exact hs _, .call fs k t ks w⟩
    · cases h
  | reply i =>
    right
    simp only [step] at h
    split at h
    · rename_i k w hi
      cases h
      obtain ⟨p, q, e, hs⟩ := split_set hi
      exact ⟨trivial, rfl, p, _, _, q, [], e, by simp only [List.append_nil]; exact hs _, .finish k w⟩
    · rename_i k ks fs k' w hi
      cases h
      obtain ⟨p, q, e, hs⟩ := split_set hi
      exact ⟨trivial, rfl, p, _, _, q, [], e, by simp only [List.append_nil]; exact hs _, .back fs k k' ks w⟩
    · cases h
  | giveUp i j =>
    right
    simp only [step] at h
    split at h
    · rename_i fs top w hi
      split at h
      · rename_i k ks outs hd
        cases h
        obtain ⟨p, q, e, hs⟩ := split_set hi
        have hfs : fs = fs.take j ++ (k, ks) :: outs := by rw [← hd, List.take_append_drop]
        refine ⟨trivial, rfl, p, _, _, q, [⟨fs.take j, top, .gaveUp⟩], e, by rw [hs], ?_⟩
        have := Move.throw (free := fun k => s.used k < s.n k) (c := ∃ j' more, Ev.giveUp i j = .caught p.length j' more) (fs.take j) k ks outs top w
        rwa [← hfs] at this
      · split at h
        · rename_i hw
          subst hw
          cases h
          obtain ⟨p, q, e, hs⟩ := split_set hi
          exact ⟨trivial, rfl, p, _, _, q, [], e, by simp only [List.append_nil]; exact hs _, .leave fs top⟩
        · cases h
    · cases h
  | caught i j more =>
    right
    simp only [step] at h
    split at h
    · rename_i fs top w hi
      split at h
      · rename_i k ks outs hd
        cases h
        obtain ⟨p, q, hp, e, hs⟩ := split_at hi
        have hfs : fs = fs.take j ++ (k, ks) :: outs := by rw [← hd, List.take_append_drop]
        refine ⟨trivial, rfl, p, _, _, q, [⟨fs.take j, top, .gaveUp⟩], e, by rw [hs], ?_⟩
        have := Move.caught (free := fun k => s.used k < s.n k) (c := ∃ j' m, Ev.caught i j more = .caught p.length j' m) (fs.take j) k ks (if more then ks else []) outs top w
          ⟨j, more, by rw [hp]⟩ (by cases more <;> simp)
        rwa [← hfs] at this
      · cases h
    · cases h
  | close i =>
    right
    simp only [step] at h
    split at h
    · rename_i k w hi
      split at h
      · cases h
      · rename_i hw
        cases h
        obtain ⟨p, q, e, hs⟩ := split_set hi
        exact ⟨trivial, rfl, p, _, _, q, [], e, by simp only [List.append_nil]; exact hs _, .close k w hw⟩
    · cases h

/-! ### Calls not begun -/

/-- The calls of the innermost call that were not begun. -/
def Top.left : Top → Nat
  | .queued t => size t
  | .running _ ks => sizes ks
  | _ => 0

/-- The calls of a call that were not begun and will be if all goes well. -/
def left (a : Act) : Nat := (a.frames.map fun f => sizes f.2).sum + Top.left a.top

/-- The calls that were not begun, in all. -/
def lefts (s : State) : Nat := (s.acts.map left).sum

theorem lefts_set {s : State} {i : Nat} {a : Act} (hi : s.acts[i]? = some a) (b : Act) (ex : List Act) :
    ((s.acts.set i b ++ ex).map left).sum + left a = lefts s + left b + (ex.map left).sum := by
  obtain ⟨p, q, e, hs⟩ := split_set hi
  rw [hs, lefts, e]
  simp only [List.map_append, List.map_cons, List.sum_append, List.sum_cons]
  omega

theorem left_step {s s' : State} {e : Ev} (h : step s e = some s') :
    begun [e] + lefts s' ≤ lefts s + asked [e] ∧ ((∀ i j, e ≠ .giveUp i j ∧ ∀ more, e ≠ .caught i j more) → begun [e] + lefts s' = lefts s + asked [e]) := by
  cases e with
  | arrive t =>
    simp only [step, Option.some.injEq] at h
    subst h
    simp [lefts, begun, asked, left, Top.left]
  | accept i =>
    simp only [step] at h
    split at h
    · rename_i fs k ks w hi
      split at h
      · cases h
        have := lefts_set hi ⟨fs, .running k ks, w⟩ []
        simp only [List.append_nil, List.map_nil, List.sum_nil, left, Top.left, size] at this
        simp only [begun, asked, lefts] at this ⊢
        exact ⟨by omega, fun _ => by omega⟩
      · cases h
    · cases h
  | call i =>
    simp only [step] at h
    split at h
    · rename_i fs k t ks w hi
      cases h
      have := lefts_set hi ⟨(k, ks) :: fs, .queued t, w⟩ []
      simp only [List.append_nil, List.map_nil, List.sum_nil, left, Top.left, sizes, List.map_cons, List.sum_cons] at this
      simp only [begun, asked, lefts] at this ⊢
      exact ⟨by omega, fun _ => by omega⟩
    · cases h
  | reply i =>
    simp only [step] at h
    split at h
    · rename_i k w hi
      cases h
      have := lefts_set hi ⟨[], .done, if w = .waits then .answered else w⟩ []
      simp only [List.append_nil, List.map_nil, List.sum_nil, left, Top.left, sizes] at this
      simp only [begun, asked, lefts] at this ⊢
      exact ⟨by omega, fun _ => by omega⟩
    · rename_i k ks fs k' w hi
      cases h
      have := lefts_set hi ⟨fs, .running k ks, w⟩ []
      simp only [List.append_nil, List.map_nil, List.sum_nil, left, Top.left, sizes, List.map_cons, List.sum_cons] at this
      simp only [begun, asked, lefts] at this ⊢
      exact ⟨by omega, fun _ => by omega⟩
    · cases h
  | giveUp i j =>
    refine ⟨?_, fun h => absurd rfl (h i j).1⟩
    simp only [step] at h
    split at h
    · rename_i fs top w hi
      split at h
      · rename_i k ks outs hd
        cases h
        have hfs : fs = fs.take j ++ (k, ks) :: outs := by rw [← hd, List.take_append_drop]
        have := lefts_set hi ⟨outs, .silent k, w⟩ [⟨fs.take j, top, .gaveUp⟩]
        have hl : left ⟨fs, top, w⟩ = left ⟨fs.take j ++ (k, ks) :: outs, top, w⟩ := by rw [← hfs]
        rw [hl] at this
        simp only [left, show Top.left (.silent k) = 0 from rfl, List.map_nil, List.sum_nil, List.map_append, List.map_cons, List.sum_append, List.sum_cons] at this
        simp only [begun, asked, lefts, List.map_append, List.map_cons, List.sum_append, List.sum_cons, List.map_nil, List.sum_nil, left] at this ⊢
        omega
      · split at h
        · cases h
          have := lefts_set hi ⟨fs, top, .gaveUp⟩ []
          simp only [List.append_nil, List.map_nil, List.sum_nil, left] at this
          simp only [begun, asked, lefts] at this ⊢
          omega
        · cases h
    · cases h
  | caught i j more =>
    refine ⟨?_, fun h => absurd rfl ((h i j).2 more)⟩
    simp only [step] at h
    split at h
    · rename_i fs top w hi
      split at h
      · rename_i k ks outs hd
        cases h
        have hfs : fs = fs.take j ++ (k, ks) :: outs := by rw [← hd, List.take_append_drop]
        have := lefts_set hi ⟨outs, .running k (if more then ks else []), w⟩ [⟨fs.take j, top, .gaveUp⟩]
        have hl : left ⟨fs, top, w⟩ = left ⟨fs.take j ++ (k, ks) :: outs, top, w⟩ := by rw [← hfs]
        have hk : sizes (if more then ks else []) ≤ sizes ks := by cases more <;> simp [sizes]
        rw [hl] at this
        simp only [left, show ∀ l, Top.left (.running k l) = sizes l from fun _ => rfl, List.map_nil, List.sum_nil, List.map_append, List.map_cons, List.sum_append, List.sum_cons] at this
        simp only [begun, asked, lefts, List.map_append, List.map_cons, List.sum_append, List.sum_cons, List.map_nil, List.sum_nil, left] at this ⊢
        omega
      · cases h
    · cases h
  | close i =>
    simp only [step] at h
    split at h
    · rename_i k w hi
      split at h
      · cases h
      · cases h
        have := lefts_set hi ⟨[], .done, w⟩ []
        simp only [List.append_nil, List.map_nil, List.sum_nil, left, Top.left] at this
        simp only [begun, asked, lefts] at this ⊢
        exact ⟨by omega, fun _ => by omega⟩
    · cases h

theorem asked_cons (e : Ev) (es : List Ev) : asked (e :: es) = asked [e] + asked es := by
  cases e <;> simp [asked]

theorem begun_cons (e : Ev) (es : List Ev) : begun (e :: es) = begun [e] + begun es := begun_append [e] es

theorem left_run (es : List Ev) : ∀ {s s' : State}, run s es = some s' →
    begun es + lefts s' ≤ lefts s + asked es ∧ (Patient es → begun es + lefts s' = lefts s + asked es) := by
  induction es with
  | nil => intro s s' h; cases h; simp [begun, asked]
  | cons e es ih =>
    intro s s' h
    simp only [run, Option.bind_eq_some_iff] at h
    obtain ⟨t, h1, h2⟩ := h
    obtain ⟨a1, a2⟩ := left_step h1
    obtain ⟨b1, b2⟩ := ih h2
    rw [asked_cons, begun_cons]
    refine ⟨by omega, fun hp => ?_⟩
    have c1 := a2 fun i j => ⟨fun h => (hp i j).1 (by simp [h]), fun m h => (hp i j).2 m (by simp [h])⟩
    have c2 := b2 fun i j => ⟨fun h => (hp i j).1 (by simp [h]), fun m h => (hp i j).2 m (by simp [h])⟩
    omega

theorem left_answered {s : State} (hs : ∀ a ∈ s.acts, a.frames = [] ∧ a.top = .done) : lefts s = 0 := by
  have : ∀ l : List Act, (∀ a ∈ l, a.frames = [] ∧ a.top = .done) → (l.map left).sum = 0 := by
    intro l
    induction l with
    | nil => intro _; rfl
    | cons x l ih =>
      intro h
      obtain ⟨e1, e2⟩ := h x (by simp)
      simp [left, e1, e2, Top.left, ih fun y hy => h y (by simp [hy])]
  exact this s.acts hs

/-! ### Steps are bounded -/

mutual
/-- The steps that a call takes at most. -/
def cost : Tree → Nat
  | .node _ ks => costs ks + 3
/-- The steps that some calls take at most, with making them. -/
def costs : List Tree → Nat
  | [] => 0
  | k :: ks => cost k + 2 + costs ks
end

/-- The steps that the innermost call still takes. -/
def Top.work : Top → Nat
  | .queued t => cost t
  | .running _ ks => costs ks + 2
  | .silent _ => 1
  | .done => 0

/-- The steps that a call still takes. -/
def work (a : Act) : Nat :=
  (a.frames.map fun f => costs f.2 + 3).sum + Top.work a.top + match a.who with
    | .waits => 1
    | _ => 0

theorem work_move {free : Nat → Prop} {c : Prop} {a b : Act} {ex : List Act} (h : Move free c a b ex) : work b + (ex.map work).sum < work a := by
  cases h with
  | accept fs k ks w _ => simp only [work, Top.work, cost, List.map_nil, List.sum_nil]; omega
  | call fs k t ks w => simp only [work, Top.work, costs, List.map_cons, List.sum_cons, List.map_nil, List.sum_nil]; omega
  | finish k w => cases w <;> simp [work, Top.work, costs]
  | back fs k k' ks w => simp only [work, Top.work, costs, List.map_cons, List.sum_cons, List.map_nil, List.sum_nil]; omega
  | throw ins k ks outs top w =>
    simp only [work, Top.work, List.map_append, List.map_cons, List.sum_append, List.sum_cons, List.map_nil, List.sum_nil]; omega
  | caught ins k ks ks' outs top w _ hk =>
    have hc : costs ks' ≤ costs ks := by rcases hk with rfl | rfl <;> simp [costs]
    simp only [work, show ∀ l, Top.work (.running k l) = costs l + 2 from fun _ => rfl, List.map_append, List.map_cons, List.sum_append, List.sum_cons, List.map_nil, List.sum_nil]; omega
  | leave fs top => simp only [work, List.map_nil, List.sum_nil]; omega
  | close k w hw => simp only [work, Top.work, List.map_nil, List.sum_nil]; omega

theorem inner_run (es : List Ev) (he : ∀ e ∈ es, Inner e) {s s' : State} (h : run s es = some s') :
    es.length + (s'.acts.map work).sum ≤ (s.acts.map work).sum ∧ s'.n = s.n ∧ s.acts.length ≤ s'.acts.length := by
  induction es generalizing s with
  | nil => cases h; exact ⟨by simp, rfl, Nat.le_refl _⟩
  | cons e es ih =>
    simp only [run, Option.bind_eq_some_iff] at h
    obtain ⟨t, h1, h2⟩ := h
    obtain ⟨b1, b2, b3⟩ := ih (fun e h => he e (by simp [h])) h2
    rcases step_cases h1 with ⟨t', rfl, rfl⟩ | ⟨_, hn, p, a, b, q, ex, e1, e2, hmv⟩
    · exact (he (.arrive t') (by simp)).elim
    · have w1 := work_move hmv
      refine ⟨?_, b2.trans hn, ?_⟩
      · rw [e2] at b1
        simp only [e1, List.map_append, List.map_cons, List.sum_append, List.sum_cons, List.length_cons] at b1 ⊢
        omega
      · rw [e2] at b3
        simp only [e1, List.length_append, List.length_cons] at b3 ⊢
        omega

/-- At rest all is over. -/
theorem rest_done {s : State} (hn : ∀ k, 0 < s.n k) (hr : Rest s) : ∀ a ∈ s.acts, a.frames = [] ∧ a.top = .done ∧ a.who ≠ .waits := by
  have h1 : ∀ a ∈ s.acts, a.frames = [] ∧ a.who ≠ .waits := by
    intro a ha
    obtain ⟨i, hi⟩ := List.mem_iff_getElem?.1 ha
    obtain ⟨fs, top, w⟩ := a
    cases fs with
    | cons f fs => have := hr (.giveUp i 0) trivial; simp [step, hi] at this
    | nil =>
      refine ⟨rfl, ?_⟩
      rintro e
      simp only at e
      subst e
      have := hr (.giveUp i 0) trivial
      simp [step, hi] at this
  have h2 : ∀ a ∈ s.acts, (∀ k ks, a.top ≠ .running k ks) ∧ ∀ k, a.top ≠ .silent k := by
    intro a ha
    obtain ⟨i, hi⟩ := List.mem_iff_getElem?.1 ha
    obtain ⟨e, hw⟩ := h1 a ha
    obtain ⟨fs, top, w⟩ := a
    simp only at e hw
    subst e
    refine ⟨fun k ks e => ?_, fun k e => ?_⟩
    · simp only at e
      subst e
      cases ks with
      | cons t ks => have := hr (.call i) trivial; simp [step, hi] at this
      | nil => have := hr (.reply i) trivial; simp [step, hi] at this
    · simp only at e
      subst e
      have := hr (.close i) trivial
      simp [step, hi, hw] at this
  have hu : ∀ k, s.used k = 0 := by
    intro k
    have : ∀ l : List Act, (∀ a ∈ l, a.threads k = 0) → (l.map (Act.threads k)).sum = 0 := by
      intro l
      induction l with
      | nil => intro _; rfl
      | cons x l ih => intro h; simp [h x (by simp), ih fun y hy => h y (by simp [hy])]
    refine this s.acts fun a ha => ?_
    obtain ⟨e, hw⟩ := h1 a ha
    obtain ⟨g1, g2⟩ := h2 a ha
    obtain ⟨fs, top, w⟩ := a
    simp only at e
    subst e
    cases top with
    | running k ks => exact absurd rfl (g1 k ks)
    | silent k => exact absurd rfl (g2 k)
    | queued t => rfl
    | done => rfl
  intro a ha
  obtain ⟨i, hi⟩ := List.mem_iff_getElem?.1 ha
  obtain ⟨e, hw⟩ := h1 a ha
  obtain ⟨g1, g2⟩ := h2 a ha
  refine ⟨e, ?_, hw⟩
  obtain ⟨fs, top, w⟩ := a
  cases top with
  | running k ks => exact absurd rfl (g1 k ks)
  | silent k => exact absurd rfl (g2 k)
  | done => rfl
  | queued t =>
    obtain ⟨k, ks⟩ := t
    have := hr (.accept i) trivial
    simp [step, hi, hu, hn] at this

theorem done_free {s : State} (h : ∀ a ∈ s.acts, a.frames = [] ∧ a.top = .done ∧ a.who ≠ .waits) (k : Nat) : s.used k = 0 := by
  have : ∀ l : List Act, (∀ a ∈ l, a.frames = [] ∧ a.top = .done ∧ a.who ≠ .waits) → (l.map (Act.threads k)).sum = 0 := by
    intro l
    induction l with
    | nil => intro _; rfl
    | cons x l ih =>
      intro h
      obtain ⟨e1, e2, _⟩ := h x (by simp)
      simp [Act.threads, e1, e2, Top.threads, waiting, ih fun y hy => h y (by simp [hy])]
  exact this s.acts h

/-! ### Threads -/

theorem holds_eq (k : Nat) (a : Act) : holds k a = a.threads k := by
  obtain ⟨fs, top, w⟩ := a
  have h : (fs.filter fun f => f.1 == k).length = waiting k fs := by
    induction fs with
    | nil => rfl
    | cons f fs ih =>
      simp only [waiting, List.map_cons, List.sum_cons, one] at ih ⊢
      by_cases e : f.1 = k
      · simp [e, ih]; omega
      · simp [e, ih]
  cases top <;> simp [holds, Act.threads, Top.threads, one, h]

theorem busy_eq (s : State) (k : Nat) : busy s k = s.used k := by
  simp only [busy, State.used, funext (holds_eq k)]


theorem threads_move {n u : Nat → Nat} {c : Prop} {a b : Act} {ex : List Act} (h : Move (fun k => u k < n k) c a b ex) (k : Nat) :
    b.threads k + (ex.map (Act.threads k)).sum ≤ a.threads k ∨ (u k < n k ∧ b.threads k + (ex.map (Act.threads k)).sum = a.threads k + 1) := by
  cases h with
  | accept fs s ks w hf =>
    simp only [Act.threads, Top.threads, one, List.map_nil, List.sum_nil]
    split
    · rename_i e; subst e; exact .inr ⟨hf, by omega⟩
    · left; omega
  | call fs s t ks w => left; simp only [Act.threads, Top.threads, waiting, List.map_cons, List.sum_cons, List.map_nil, List.sum_nil]; omega
  | finish s w => left; simp [Act.threads, Top.threads, waiting]
  | back fs s s' ks w => left; simp only [Act.threads, Top.threads, waiting, List.map_cons, List.sum_cons, List.map_nil, List.sum_nil]; omega
  | throw ins s ks outs top w =>
    left
    simp only [Act.threads, Top.threads, waiting, List.map_append, List.map_cons, List.sum_append, List.sum_cons, List.map_nil, List.sum_nil]; omega
  | caught ins s ks ks' outs top w _ hk =>
    left
    simp only [Act.threads, Top.threads, waiting, List.map_append, List.map_cons, List.sum_append, List.sum_cons, List.map_nil, List.sum_nil]; omega
  | leave fs top => left; simp only [Act.threads, List.map_nil, List.sum_nil]; omega
  | close s w hw => left; simp [Act.threads, Top.threads, waiting]

theorem bounded (k : Nat) (es : List Ev) : ∀ {s s' : State}, s.used k ≤ s.n k → run s es = some s' → s'.n = s.n ∧ s'.used k ≤ s.n k := by
  induction es with
  | nil => intro s s' hu h; cases h; exact ⟨rfl, hu⟩
  | cons e es ih =>
    intro s s' hu h
    simp only [run, Option.bind_eq_some_iff] at h
    obtain ⟨t, h1, h2⟩ := h
    have key : t.n = s.n ∧ t.used k ≤ s.n k := by
      rcases step_cases h1 with ⟨t', rfl, rfl⟩ | ⟨_, hn', p, a, b, r, ex, e1, e2, hmv⟩
      · refine ⟨rfl, ?_⟩
        simp only [State.used, Act.threads, Top.threads, waiting, List.map_append, List.map_cons, List.map_nil, List.sum_append, List.sum_cons,
          List.sum_nil] at hu ⊢
        omega
      · refine ⟨hn', ?_⟩
        have := threads_move hmv k
        simp only [State.used, e1, e2, List.map_append, List.map_cons, List.sum_append, List.sum_cons] at hu this ⊢
        omega
    obtain ⟨k1, k2⟩ := ih (by rw [key.1]; exact key.2) h2
    rw [key.1] at k1 k2
    exact ⟨k1, k2⟩

/-! ### Failures -/

/-- Who has an answer has nothing under way. -/
def Sound (a : Act) : Prop := a.who = .answered → a.frames = [] ∧ a.top = .done

/-- Who is not answered now and will not be, if no function catches. -/
def Doomed (a : Act) : Prop := a.who = .gaveUp ∨ (∃ k, a.top = .silent k) ∧ a.who = .waits

/-- Who is not answered now and will not be: the function called has thrown. -/
def Lost (a : Act) : Prop := a.who = .gaveUp ∨ a.frames = [] ∧ (∃ k, a.top = .silent k) ∧ a.who = .waits

theorem sound_move {free : Nat → Prop} {c : Prop} {a b : Act} {ex : List Act} (h : Move free c a b ex) (ha : Sound a) : Sound b ∧ ∀ x ∈ ex, Sound x := by
  cases h with
  | accept fs k ks w _ => exact ⟨fun e => (by cases (ha e).2), by simp⟩
  | call fs k t ks w => exact ⟨fun e => (by cases (ha e).2), by simp⟩
  | finish k w => exact ⟨fun _ => ⟨rfl, rfl⟩, by simp⟩
  | back fs k k' ks w => exact ⟨fun e => (by cases (ha e).2), by simp⟩
  | throw ins k ks outs top w =>
    refine ⟨fun e => ?_, fun x hx => ?_⟩
    · have := (ha e).1
      simp at this
    · rw [List.mem_singleton.1 hx]; rintro ⟨⟩
  | caught ins k ks ks' outs top w _ hk =>
    refine ⟨fun e => ?_, fun x hx => ?_⟩
    · have := (ha e).1
      simp at this
    · rw [List.mem_singleton.1 hx]; rintro ⟨⟩
  | leave fs top => exact ⟨nofun, by simp⟩
  | close k w hw => exact ⟨fun _ => ⟨rfl, rfl⟩, by simp⟩

theorem doomed_move {free : Nat → Prop} {c : Prop} {a b : Act} {ex : List Act} (h : Move free c a b ex) (hc : ¬ c) (ha : Doomed a) : Doomed b := by
  cases h with
  | caught ins k ks ks' outs top w h _ => exact absurd h hc
  | accept fs k ks w _ => rcases ha with h | ⟨⟨k, h⟩, _⟩ <;> [exact .inl h; cases h]
  | call fs k t ks w => rcases ha with h | ⟨⟨k, h⟩, _⟩ <;> [exact .inl h; cases h]
  | finish k w =>
    rcases ha with h | ⟨⟨k, h⟩, _⟩
    · simp only at h; subst h; exact .inl rfl
    · cases h
  | back fs k k' ks w => rcases ha with h | ⟨⟨k, h⟩, _⟩ <;> [exact .inl h; cases h]
  | throw ins k ks outs top w => rcases ha with h | ⟨_, h⟩ <;> [exact .inl h; exact .inr ⟨⟨k, rfl⟩, h⟩]
  | leave fs top => exact .inl rfl
  | close k w hw => rcases ha with h | ⟨_, h⟩ <;> [exact .inl h; exact absurd h hw]

theorem lost_move {free : Nat → Prop} {c : Prop} {a b : Act} {ex : List Act} (h : Move free c a b ex) (ha : Lost a) : Lost b := by
  cases h with
  | accept fs k ks w _ => rcases ha with h | ⟨_, ⟨k, h⟩, _⟩ <;> [exact .inl h; cases h]
  | call fs k t ks w => rcases ha with h | ⟨_, ⟨k, h⟩, _⟩ <;> [exact .inl h; cases h]
  | finish k w =>
    rcases ha with h | ⟨_, ⟨k, h⟩, _⟩
    · simp only at h; subst h; exact .inl rfl
    · cases h
  | back fs k k' ks w => rcases ha with h | ⟨_, ⟨k, h⟩, _⟩ <;> [exact .inl h; cases h]
  | throw ins k ks outs top w => rcases ha with h | ⟨h, _⟩ <;> [exact .inl h; simp at h]
  | caught ins k ks ks' outs top w _ _ => rcases ha with h | ⟨h, _⟩ <;> [exact .inl h; simp at h]
  | leave fs top => exact .inl rfl
  | close k w hw => rcases ha with h | ⟨_, _, h⟩ <;> [exact .inl h; exact absurd h hw]

theorem sound {n : Nat → Nat} {s : State} (h : Reach n s) : ∀ a ∈ s.acts, Sound a := by
  obtain ⟨es, h⟩ := h
  suffices H : ∀ (es : List Ev) (s0 : State), (∀ a ∈ s0.acts, Sound a) → run s0 es = some s → ∀ a ∈ s.acts, Sound a by
    exact H es (start n) (by simp [start]) h
  intro es
  induction es with
  | nil => intro s0 h0 h; cases h; exact h0
  | cons e es ih =>
    intro s0 hs h
    simp only [run, Option.bind_eq_some_iff] at h
    obtain ⟨t, h1, h2⟩ := h
    refine ih t ?_ h2
    rcases step_cases h1 with ⟨t', rfl, rfl⟩ | ⟨_, _, p, a, b, q, ex, e1, e2, hmv⟩
    · intro a ha
      rcases List.mem_append.1 ha with ha | ha
      · exact hs a ha
      · rw [List.mem_singleton] at ha; subst ha; exact nofun
    · obtain ⟨m1, m2⟩ := sound_move hmv (hs a (by rw [e1]; simp))
      intro x hx
      rw [e2] at hx
      simp only [List.mem_append, List.mem_cons] at hx
      rcases hx with (h | rfl | h) | h
      · exact hs x (by rw [e1]; simp [h])
      · exact m1
      · exact hs x (by rw [e1]; simp [h])
      · exact m2 x h

/-- What each step of a call keeps, a history keeps. -/
theorem kept_run {P : Act → Prop} {c : Ev → Prop} (i : Nat)
    (hP : ∀ (free : Nat → Prop) e a b ex, c e → Move free (∃ j more, e = .caught i j more) a b ex → P a → P b)
    (es : List Ev) : (∀ e ∈ es, c e) → ∀ {s s' : State}, (∃ a, s.acts[i]? = some a ∧ P a) → run s es = some s' →
    ∃ a, s'.acts[i]? = some a ∧ P a := by
  induction es with
  | nil => intro _ s s' hs h; cases h; exact hs
  | cons e es ih =>
    rintro hc s s' ⟨x, hx, hd⟩ h
    simp only [run, Option.bind_eq_some_iff] at h
    obtain ⟨t, h1, h2⟩ := h
    refine ih (fun e h => hc e (by simp [h])) ?_ h2
    have hlt : i < s.acts.length := (List.getElem?_eq_some_iff.1 hx).1
    rcases step_cases h1 with ⟨t', rfl, rfl⟩ | ⟨_, _, p, a, b, q, ex, e1, e2, hmv⟩
    · exact ⟨x, by rw [List.getElem?_append_left hlt]; exact hx, hd⟩
    · rw [e1] at hx hlt
      rw [e2]
      by_cases hip : i = p.length
      · subst hip
        simp only [List.getElem?_append_right (Nat.le_refl _), Nat.sub_self, List.getElem?_cons_zero, Option.some.injEq] at hx
        subst hx
        exact ⟨b, by simp, hP _ e _ _ _ (hc e (by simp)) hmv hd⟩
      · refine ⟨x, ?_, hd⟩
        rw [List.getElem?_append_left (by simpa using hlt), ← hx]
        by_cases hlp : i < p.length
        · rw [List.getElem?_append_left hlp, List.getElem?_append_left hlp]
        · rw [List.getElem?_append_right (by omega), List.getElem?_append_right (by omega)]
          obtain ⟨m, hm⟩ : ∃ m, i - p.length = m + 1 := ⟨i - p.length - 1, by omega⟩
          rw [hm, List.getElem?_cons_succ, List.getElem?_cons_succ]

theorem doomed_run (i : Nat) (es : List Ev) (hc : ∀ j more, Ev.caught i j more ∉ es) {s s' : State}
    (hs : ∃ a, s.acts[i]? = some a ∧ Doomed a) (h : run s es = some s') : ∃ a, s'.acts[i]? = some a ∧ Doomed a :=
  kept_run (P := Doomed) (c := fun e => ¬ ∃ j more, e = .caught i j more) i (fun _ _ _ _ _ hc hm => doomed_move hm hc) es
    (fun _ he ⟨j, m, hj⟩ => hc j m (hj ▸ he)) hs h

theorem lost_run (i : Nat) (es : List Ev) {s s' : State}
    (hs : ∃ a, s.acts[i]? = some a ∧ Lost a) (h : run s es = some s') : ∃ a, s'.acts[i]? = some a ∧ Lost a :=
  kept_run (P := Lost) (c := fun _ => True) i (fun _ _ _ _ _ _ hm => lost_move hm) es (fun _ _ => trivial) hs h

/-- What is left where someone has given up. -/
theorem give_up {n : Nat → Nat} {s s' : State} {i j : Nat} (hs : Reach n s) (h : step s (.giveUp i j) = some s') :
    ∃ a b, s.acts[i]? = some a ∧ s'.acts[i]? = some b ∧ Doomed b ∧ (a.frames.length ≤ j + 1 → Lost b) := by
  simp only [step] at h
  split at h
  · rename_i fs top w hi
    have hlt : i < s.acts.length := (List.getElem?_eq_some_iff.1 hi).1
    have hso := sound hs _ (List.mem_of_getElem? hi)
    refine ⟨⟨fs, top, w⟩, ?_⟩
    split at h
    · rename_i k ks outs hdr
      cases h
      have hget : (s.acts.set i ⟨outs, .silent k, w⟩ ++ [⟨fs.take j, top, .gaveUp⟩])[i]? = some ⟨outs, .silent k, w⟩ := by
        rw [List.getElem?_append_left (by simpa using hlt), List.getElem?_set_self hlt]
      refine ⟨_, hi, hget, ?_⟩
      cases w with
      | waits =>
        refine ⟨.inr ⟨⟨k, rfl⟩, rfl⟩, fun hl => .inr ⟨?_, ⟨k, rfl⟩, rfl⟩⟩
        have := congrArg List.length hdr
        simp only [List.length_drop, List.length_cons] at this hl
        exact List.length_eq_zero_iff.1 (show outs.length = 0 by omega)
      | gaveUp => exact ⟨.inl rfl, fun _ => .inl rfl⟩
      | answered =>
        have := (hso rfl).1
        simp only at this
        subst this
        simp at hdr
    · split at h
      · cases h
        exact ⟨⟨fs, top, .gaveUp⟩, hi, by simp only; rw [List.getElem?_set_self hlt], .inl rfl, fun _ => .inl rfl⟩
      · cases h
  · cases h

end Verif.MpNest.Lemmas
