import Verif.MpNest.Lemmas
import Verif.RpcNest.PropsMany
/-!
# Without timeouts the servers of C112 are those of C110
-/
namespace Verif.MpNest.Lemmas
open Verif.MpNest Verif.MpNest.Spec
open Verif.RpcNest

/-- What a call of C110 is here. -/
def forgetTop : Many.Top → Top
  | .queued t => .queued t
  | .running k ks => .running k ks
  | .done => .done

/-- What a client of C110 is here. -/
def forgetAct (a : Many.Act) : Act :=
  ⟨a.frames, forgetTop a.top, match a.top with
    | .done => .answered
    | _ => .waits⟩

/-- What a state of C110 is here. -/
def forget (m : Many.State) : State := ⟨m.n, m.acts.map forgetAct⟩

/-- What an event of C110 is here. -/
def ev : Many.Ev → Ev
  | .arrive t => .arrive t
  | .accept i => .accept i
  | .call i => .call i
  | .reply i => .reply i

theorem threads_forget (k : Nat) (a : Many.Act) : (forgetAct a).threads k = a.threads k := by
  obtain ⟨g, fs, top⟩ := a
  cases top <;> rfl

theorem used_forget (k : Nat) (m : Many.State) : (forget m).used k = m.used k := by
  simp only [State.used, forget, Many.State.used, List.map_map]
  congr 1
  exact List.map_congr_left fun a _ => threads_forget k a

theorem step_forget (m : Many.State) (e : Many.Ev) : step (forget m) (ev e) = (Many.step m e).map forget := by
  cases e with
  | arrive t => simp [step, ev, Many.step, forget, forgetAct, forgetTop]
  | accept i =>
    have hu := fun k => used_forget k m
    simp only [step, ev, Many.step]
    simp only [forget, List.getElem?_map] at hu ⊢
    rcases h : m.acts[i]? with _ | ⟨g, fs, ⟨k, ks⟩ | ⟨k, ks⟩ | _⟩
    · rfl
    · simp only [Option.map_some, forgetAct, forgetTop]
      simp only [hu]
      split
      · simp [List.map_set, forget, forgetAct, forgetTop]
      · rfl
    · rfl
    · rfl
  | call i =>
    simp only [step, ev, Many.step, forget, List.getElem?_map]
    rcases h : m.acts[i]? with _ | ⟨g, fs, t | ⟨k, _ | ⟨t, ks⟩⟩ | _⟩ <;> simp [forgetAct, forgetTop, List.map_set, forget]
  | reply i =>
    simp only [step, ev, Many.step, forget, List.getElem?_map]
    rcases h : m.acts[i]? with _ | ⟨g, _ | ⟨⟨k', ks'⟩, fs⟩, t | ⟨k, _ | ⟨t, ks⟩⟩ | _⟩ <;> simp [forgetAct, forgetTop, List.map_set, forget]

theorem no_close (m : Many.State) (i : Nat) : step (forget m) (.close i) = none := by
  simp only [step, forget, List.getElem?_map]
  rcases h : m.acts[i]? with _ | ⟨g, _ | ⟨f, fs⟩, t | ⟨k, ks⟩ | _⟩ <;> simp [forgetAct, forgetTop]

theorem back_run (es : List Ev) (hp : Patient es) : ∀ {m : Many.State} {s : State}, run (forget m) es = some s →
    ∃ ms m', es = ms.map ev ∧ Many.run m ms = some m' ∧ s = forget m' := by
  induction es with
  | nil => intro m s h; cases h; exact ⟨[], m, rfl, rfl, rfl⟩
  | cons e es ih =>
    intro m s h
    simp only [run, Option.bind_eq_some_iff] at h
    obtain ⟨t, h1, h2⟩ := h
    have key : ∃ e', e = ev e' := by
      cases e with
      | arrive t => exact ⟨.arrive t, rfl⟩
      | accept i => exact ⟨.accept i, rfl⟩
      | call i => exact ⟨.call i, rfl⟩
      | reply i => exact ⟨.reply i, rfl⟩
      | giveUp i j => exact absurd (by simp) (hp i j).1
      | caught i j more => exact absurd (by simp) ((hp i j).2 more)
      | close i => rw [no_close] at h1; cases h1
    obtain ⟨e', rfl⟩ := key
    rw [step_forget, Option.map_eq_some_iff] at h1
    obtain ⟨m1, hm1, rfl⟩ := h1
    obtain ⟨ms, m', rfl, hr, rfl⟩ := ih (fun i j => ⟨fun h => (hp i j).1 (by simp [h]), fun q h => (hp i j).2 q (by simp [h])⟩) h2
    exact ⟨e' :: ms, m', rfl, by simp only [Many.run, hm1, Option.bind_some, hr], rfl⟩

theorem inner_ev {e : Many.Ev} (h : Inner (ev e)) : Many.Spec.Inner e := by
  cases e <;> exact h

theorem stuck_rest {m : Many.State} (h : Stuck (forget m)) : Many.Spec.Rest m := by
  intro e he
  have key : step (forget m) (ev e) = none := by
    cases e with
    | arrive t => exact he.elim
    | accept i => exact (h i).1
    | call i => exact (h i).2.1
    | reply i => exact (h i).2.2.1
  rw [step_forget, Option.map_eq_none_iff] at key
  exact key

/-- As `needs`, for the events of C110. -/
def needsMany (k : Nat) : List Many.Ev → Nat
  | [] => 0
  | .arrive t :: es => Many.Spec.nested k t + needsMany k es
  | _ :: es => needsMany k es

theorem needs_map (k : Nat) (ms : List Many.Ev) : needs k (ms.map ev) = needsMany k ms := by
  induction ms with
  | nil => rfl
  | cons e ms ih => cases e <;> simp [needs, needsMany, ev, ih]

theorem demand_set {m : Many.State} {i : Nat} {a : Many.Act} (hi : m.acts[i]? = some a) (b : Many.Act) (k : Nat)
    (hab : Many.Spec.demand k b ≤ Many.Spec.demand k a) : ((m.acts.set i b).map (Many.Spec.demand k)).sum ≤ Many.Spec.demands m k := by
  obtain ⟨p, q, _, e, hs⟩ := split_at hi
  rw [hs, Many.Spec.demands, e]
  simp only [List.map_append, List.map_cons, List.sum_append, List.sum_cons]
  omega

theorem demands_step (k : Nat) {m m' : Many.State} {e : Many.Ev} (h : Many.step m e = some m') :
    Many.Spec.demands m' k ≤ Many.Spec.demands m k + needsMany k [e] := by
  cases e with
  | arrive t =>
    simp only [Many.step, Option.some.injEq] at h
    subst h
    simp [Many.Spec.demands, Many.Spec.demand, needsMany]
  | accept i =>
    simp only [Many.step] at h
    split at h
    · rename_i hi
      split at h
      · cases h; exact demand_set hi _ k (Nat.le_refl _)
      · cases h
    · cases h
  | call i =>
    simp only [Many.step] at h
    split at h
    · rename_i hi
      cases h; exact demand_set hi _ k (Nat.le_refl _)
    · cases h
  | reply i =>
    simp only [Many.step] at h
    split at h
    · rename_i hi
      cases h; exact demand_set hi _ k (Nat.zero_le _)
    · rename_i hi
      cases h; exact demand_set hi _ k (Nat.le_refl _)
    · cases h

theorem demands_run (k : Nat) (ms : List Many.Ev) : ∀ {m m' : Many.State}, Many.run m ms = some m' →
    Many.Spec.demands m' k ≤ Many.Spec.demands m k + needsMany k ms := by
  induction ms with
  | nil => intro m m' h; cases h; exact Nat.le_add_right _ _
  | cons e ms ih =>
    intro m m' h
    simp only [Many.run, Option.bind_eq_some_iff] at h
    obtain ⟨t, h1, h2⟩ := h
    have a := demands_step k h1
    have b := ih h2
    have c : needsMany k (e :: ms) = needsMany k [e] + needsMany k ms := by cases e <;> simp [needsMany]
    omega

end Verif.MpNest.Lemmas
