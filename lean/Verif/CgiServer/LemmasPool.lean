import Verif.CgiServer.SpecPool
import Verif.CgiServer.LemmasRun
/-! Lemmas about the web server with several threads. -/
namespace Verif.CgiServer.Pool.Lemmas
open Verif Verif.Socket Verif.HttpMsg Verif.CgiServer Verif.CgiServer.Pool Verif.CgiServer.Pool.Spec

theorem serve_cons {σ : Type} (p : Program σ) (st : σ) (c : Conn) (cs : List Conn) :
    serve p st (c :: cs) = (handle p st c).2 :: serve p (handle p st c).1 cs := by
  obtain ⟨a, k, i⟩ := c
  simp only [serve, handle]

/-- The state of a program after some connections. -/
def after {σ : Type} (p : Program σ) : σ → List Conn → σ
  | st, [] => st
  | st, c :: cs => after p (handle p st c).1 cs

theorem after_snoc {σ : Type} (p : Program σ) (st : σ) (cs : List Conn) (c : Conn) :
    after p st (cs ++ [c]) = (handle p (after p st cs) c).1 := by
  induction cs generalizing st with
  | nil => rfl
  | cons d cs ih => exact ih _

theorem serve_snoc {σ : Type} (p : Program σ) (st : σ) (cs : List Conn) (c : Conn) :
    serve p st (cs ++ [c]) = serve p st cs ++ [(handle p (after p st cs) c).2] := by
  induction cs generalizing st with
  | nil => rfl
  | cons d cs ih =>
    rw [List.cons_append, serve_cons, serve_cons, ih]
    rfl

/-- The history so far, thread by thread. -/
structure Inv {σ : Type} (p : Program σ) (n : Nat) (st0 : σ) (es : List Ev) (s : State σ) : Prop where
  len : s.workers.length = n
  ids : ∀ l ∈ s.log, l.1 < n
  out : ∀ w, (of w s).map (fun l => l.2.2) = serve p st0 ((of w s).map fun l => l.2.1)
  mem : ∀ w x, s.workers[(w : Nat)]? = some x → x.st = after p st0 ((of w s).map fun l => l.2.1)
  all : ∀ w, taken w es = (of w s).map (fun l => l.2.1) ++ held w s

theorem taken_append (w : Nat) (as bs : List Ev) : taken w (as ++ bs) = taken w as ++ taken w bs := by
  induction as with
  | nil => rfl
  | cons e as ih =>
    cases e with
    | take v c => simp only [List.cons_append, taken, ih]; split <;> rfl
    | finish v => exact ih

theorem inv_start {σ : Type} (p : Program σ) (n : Nat) (st0 : σ) : Inv p n st0 [] (start n st0) := by
  refine ⟨by simp [start], by simp [start], fun w => rfl, ?_, ?_⟩
  · intro w x h
    simp only [start, List.getElem?_replicate] at h
    split at h
    · cases h; rfl
    · cases h
  · intro w
    simp only [taken, of, held, start, List.getElem?_replicate, List.filter_nil, List.map_nil, List.nil_append]
    split <;> rfl

theorem inv_step {σ : Type} {p : Program σ} {n : Nat} {st0 : σ} {es : List Ev} {s s' : State σ} {e : Ev}
    (hi : Inv p n st0 es s) (h : step p s e = some s') : Inv p n st0 (es ++ [e]) s' := by
  cases e with
  | take v c =>
    simp only [step] at h
    split at h
    · rename_i st hv
      cases h
      obtain ⟨hlt, _⟩ := List.getElem?_eq_some_iff.1 hv
      refine ⟨by simp [hi.len], hi.ids, hi.out, ?_, ?_⟩
      · intro w x hw
        simp only [List.getElem?_set] at hw
        split at hw
        · rename_i e; subst e
          cases hw
          exact (hi.mem v _ hv : st = _)
        · exact hi.mem w x hw
      · intro w
        rw [taken_append, hi.all w]
        simp only [taken, held, of, List.getElem?_set]
        by_cases e : v = w
        · subst e; rw [hv]; simp [hlt]
        · simp [e]
    · cases h
  | finish v =>
    simp only [step] at h
    split at h
    · rename_i st c hv
      cases h
      obtain ⟨hlt, _⟩ := List.getElem?_eq_some_iff.1 hv
      have hst := hi.mem v _ hv
      simp only at hst
      refine ⟨by simp [hi.len], ?_, ?_, ?_, ?_⟩
      · intro l hl
        rcases List.mem_append.1 hl with hl | hl
        · exact hi.ids l hl
        · rw [List.mem_singleton.1 hl, ← hi.len]; exact hlt
      · intro w
        have := hi.out w
        simp only [of] at this hst
        simp only [of, List.filter_append, List.map_append]
        by_cases e : v = w
        · subst e
          simp only [List.filter_cons, decide_true, if_true, List.filter_nil, List.map_cons, List.map_nil]
          rw [serve_snoc, this, hst]
        · simp [e, this]
      · intro w x hw
        simp only [List.getElem?_set] at hw
        simp only [of, List.filter_append, List.map_append]
        by_cases e : v = w
        · subst e
          rw [if_pos rfl, if_pos hlt] at hw
          cases hw
          simp only [of] at hst
          simp only [List.filter_cons, decide_true, if_true, List.filter_nil, List.map_cons, List.map_nil]
          rw [after_snoc, ← hst]
        · rw [if_neg e] at hw
          have := hi.mem w x hw
          simp only [of] at this
          simp [e, this]
      · intro w
        rw [taken_append, hi.all w]
        simp only [taken, held, of, List.getElem?_set, List.filter_append, List.map_append]
        by_cases e : v = w
        · subst e; rw [hv]; simp [hlt]
        · simp [e]
    · cases h

theorem inv_run {σ : Type} {p : Program σ} {n : Nat} {st0 : σ} (es : List Ev) : ∀ {es0 : List Ev} {s s' : State σ}, Inv p n st0 es0 s →
    run p s es = some s' → Inv p n st0 (es0 ++ es) s' := by
  induction es with
  | nil => intro es0 s s' hi h; cases h; simpa using hi
  | cons e es ih =>
    intro es0 s s' hi h
    simp only [run, Option.bind_eq_some_iff] at h
    obtain ⟨t, h1, h2⟩ := h
    have := ih (inv_step hi h1) h2
    rwa [List.append_assoc] at this

theorem inv {σ : Type} {p : Program σ} {n : Nat} {st0 : σ} {es : List Ev} {s : State σ} (h : run p (start n st0) es = some s) :
    Inv p n st0 es s := inv_run es (inv_start p n st0) h

theorem exec_forgetful {σ : Type} {p : Program σ} (hp : Forgetful p) (st st' : σ) (env : Env) (input : Str) :
    (exec p st env input).2 = (exec p st' env input).2 := by
  unfold exec
  split
  · rfl
  · simp only [hp st st']
  · rfl

theorem handle_forgetful {σ : Type} {p : Program σ} (hp : Forgetful p) (st st' : σ) (c : Conn) : (handle p st c).2 = (handle p st' c).2 := by
  have key : ∀ (g : Nat) s, ((process p c.1 g st).run (Socket.step c.2.1) s).2 = ((process p c.1 g st').run (Socket.step c.2.1) s).2 := by
    intro g s
    unfold process
    rw [Prog.run_bind', Prog.run_bind']
    split
    · rfl
    · rename_i req hr
      have he := exec_forgetful hp st st' (envOf c.1 req)
      simp only [Prog.run_bind']
      generalize inputOf _ _ = inp
      have he := he inp
      generalize exec p st (envOf c.1 req) inp = x at he ⊢
      generalize exec p st' (envOf c.1 req) inp = y at he ⊢
      obtain ⟨a, x⟩ := x
      obtain ⟨b, y⟩ := y
      simp only at he
      subst he
      cases x with
      | none => rfl
      | some out =>
        simp only
        split
        · rfl
        · simp only [Prog.run_bind']; rfl
  simp only [handle, key]

end Verif.CgiServer.Pool.Lemmas
