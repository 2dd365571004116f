import Verif.CgiServer.LemmasPool
import Verif.CgiServer.Props
/-! C111: a web program is one program, however many threads serve it. -/
namespace Verif.CgiServer.Pool.Props
open Verif Verif.Socket Verif.HttpMsg Verif.CgiServer Verif.CgiServer.Pool Verif.CgiServer.Pool.Spec Verif.CgiServer.Pool.Lemmas
open Verif.CgiServer.Props (echo here k7)

/-- In every history each thread answers the connections that it takes, all of them but the one it still has, in their order and
each once, just as a server without other threads would that gets only these: C65 holds for them. -/
theorem each_thread {σ : Type} (p : Program σ) (n : Nat) (st0 : σ) (es : List Ev) (s : State σ) (h : run p (start n st0) es = some s) :
    (∀ l ∈ s.log, l.1 < n) ∧ ∀ w, (of w s).map (fun l => l.2.2) = serve p st0 ((of w s).map fun l => l.2.1)
      ∧ taken w es = (of w s).map (fun l => l.2.1) ++ held w s :=
  ⟨(inv h).ids, fun w => ⟨(inv h).out w, (inv h).all w⟩⟩

/-- With one thread the program is one: it sees all requests, in the order in which they come. -/
theorem one_thread_partial {σ : Type} (p : Program σ) (st0 : σ) (es : List Ev) (s : State σ) (h : run p (start 1 st0) es = some s) :
    s.log.map (fun l => l.2.2) = serve p st0 (s.log.map fun l => l.2.1) ∧ takenAll es = s.log.map (fun l => l.2.1) ++ held 0 s := by
  have hi := inv h
  have hf : of 0 s = s.log := List.filter_eq_self.2 fun l hl => by have := hi.ids l hl; simp; omega
  refine ⟨hf ▸ hi.out 0, ?_⟩
  rw [← hf, ← hi.all 0]
  have : ∀ (es : List Ev) (s0 : State σ), s0.workers.length = 1 → run p s0 es = some s → takenAll es = taken 0 es := by
    intro es
    induction es with
    | nil => intros; rfl
    | cons e es ih =>
      intro s0 hl h
      simp only [run, Option.bind_eq_some_iff] at h
      obtain ⟨t, h1, h2⟩ := h
      cases e with
      | take v c =>
        simp only [step] at h1
        split at h1
        · rename_i st hv
          cases h1
          obtain ⟨hlt, _⟩ := List.getElem?_eq_some_iff.1 hv
          have h0 : v = 0 := by omega
          simp only [takenAll, taken, h0, if_true]
          rw [ih _ (by simp [hl]) h2]
        · cases h1
      | finish v =>
        simp only [step] at h1
        split at h1
        · cases h1
          exact ih _ (by simp [hl]) h2
        · cases h1
  exact this es _ (by simp [start]) h

/-- A program whose answers do not depend on what it remembers gives each client the answer that it would get alone, however many threads there
are and whatever they do. -/
theorem forgetful_partial {σ : Type} (p : Program σ) (hp : Forgetful p) (n : Nat) (st0 : σ) (es : List Ev) (s : State σ)
    (h : run p (start n st0) es = some s) : ∀ w c a, (w, c, a) ∈ s.log → serve p st0 [c] = [a] := by
  suffices H : ∀ (es : List Ev) (s0 : State σ), (∀ w c a, (w, c, a) ∈ s0.log → serve p st0 [c] = [a]) → run p s0 es = some s →
      ∀ w c a, (w, c, a) ∈ s.log → serve p st0 [c] = [a] by
    exact H es _ (by simp [start]) h
  intro es
  induction es with
  | nil => intro s0 h0 h; cases h; exact h0
  | cons e es ih =>
    intro s0 h0 h
    simp only [run, Option.bind_eq_some_iff] at h
    obtain ⟨t, h1, h2⟩ := h
    refine ih t ?_ h2
    cases e with
    | take v c =>
      simp only [step] at h1
      split at h1
      · cases h1; exact h0
      · cases h1
    | finish v =>
      simp only [step] at h1
      split at h1
      · rename_i st c hv
        cases h1
        intro w c' a hm
        rcases List.mem_append.1 hm with hm | hm
        · exact h0 w c' a hm
        · simp only [List.mem_singleton, Prod.mk.injEq] at hm
          obtain ⟨_, rfl, rfl⟩ := hm
          rw [serve_cons, handle_forgetful hp st0 st]
          rfl
      · cases h1

/-- Finding: with more threads than one, a program may not remember what it was asked before: whatever the program and whatever two clients ask one after the other, the second may be answered
as though the first had never been there. -/
theorem forgotten {σ : Type} (p : Program σ) (n : Nat) (hn : 2 ≤ n) (st0 : σ) (c1 c2 : Conn) : ∃ s a1 a2,
    run p (start n st0) [.take 0 c1, .finish 0, .take 1 c2, .finish 1] = some s ∧ s.log = [(0, c1, a1), (1, c2, a2)]
      ∧ serve p st0 [c1] = [a1] ∧ serve p st0 [c2] = [a2] := by
  obtain ⟨m, rfl⟩ : ∃ m, n = m + 2 := ⟨n - 2, by omega⟩
  refine ⟨⟨⟨(handle p st0 c1).1, none⟩ :: ⟨(handle p st0 c2).1, none⟩ :: List.replicate m ⟨st0, none⟩, _⟩, (handle p st0 c1).2, (handle p st0 c2).2, ?_, rfl, ?_, ?_⟩
  · simp [run, step, start, List.replicate_succ]
  · rw [serve_cons]; rfl
  · rw [serve_cons]; rfl

/-! ### Examples -/

/-- A client. -/
def asks : Conn := (here, k7, ascii "GET /x?a=1 HTTP/1.0\r\n\r\n")

/-- The answer of the program that counts, with its count. -/
def counted (n : String) : Str :=
  ascii ("HTTP/1.1 200 OK\r\nX-Count: " ++ n ++ "\r\nContent-Type: text/plain; charset=utf-8\r\nContent-Length: 1\r\n\r\n1")

/-- Finding: of two clients one after the other, the first is told that it is number 0, and so is the second; with one thread it is told that it is
number 1. -/
theorem counter_wrong : (run echo (start 2 0) [.take 0 asks, .finish 0, .take 1 asks, .finish 1]).map (fun s => s.log.map fun l => l.2.2)
      = some [counted "0", counted "0"]
    ∧ (run echo (start 1 0) [.take 0 asks, .finish 0, .take 0 asks, .finish 0]).map (fun s => s.log.map fun l => l.2.2)
      = some [counted "0", counted "1"] := by decide +kernel

/-- A program without memory, and a history in which two threads are busy at once. -/
def plain : Program Nat where
  run st v h := (st + 1, (AssocMap.find v.form.query (ascii "a")).map fun x => (h, x))
  page _ := ascii "error"
  maxLength := 5

example : Forgetful plain ∧ ¬ Forgetful echo := by
  refine ⟨fun _ _ _ _ => rfl, fun h => ?_⟩
  have := h 0 1 ⟨[], [], { query := [(ascii "a", [])] }⟩ []
  revert this
  decide +kernel

example : ((run plain (start 2 0) [.take 1 asks, .take 0 asks, .finish 0, .take 0 asks, .finish 1]).map fun s => (s.log.map fun l => l.1, (held 0 s).length))
    = some ([0, 1], 1) := by decide +kernel

end Verif.CgiServer.Pool.Props
