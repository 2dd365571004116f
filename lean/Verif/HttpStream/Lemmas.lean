import Verif.HttpStream.Spec
import Verif.CgiServer.LemmasRun
import Verif.Uri.Props
import Verif.Lexical.Props
/-! Lemmas about reading by URL. -/

namespace Verif.HttpStream.Lemmas
open Verif Verif.Socket Verif.Http Verif.HttpMsg Verif.HttpStream Verif.HttpStream.Spec
open Verif.HttpMsg.Spec hiding requestText
open Verif.CgiServer (ascii Body.take)
open Verif.Socket.Spec (fresh Accepts Delivers Writing Reading)
open Verif.Http.Lemmas (flat_bind_eq)

/-! ### Programs on sockets -/

theorem run_eq_flat {k : Kernel} (hk : Delivers k) {α : Type} {p : Prog α} (hp : p.Reads) (s : St) (hs : s.connected = false → s.incoming = []) :
    (p.run (step k) s).1 = (p.flat (s.rd ++ s.incoming)).1
      ∧ (p.run (step k) s).2.rd ++ (p.run (step k) s).2.incoming = (p.flat (s.rd ++ s.incoming)).2 := by
  obtain ⟨t, h1, h2⟩ := Prog.run_socket k hp s
  have h3 := Prog.run_socket_open k hk hp s hs
  obtain ⟨_, h4⟩ := h2 _ ⟨_, rfl, List.prefix_refl _, h3⟩
  rw [← h1] at h4
  rw [h4]
  exact ⟨rfl, rfl⟩

theorem run_keeps (k : Kernel) {α : Type} {p : Prog α} (hp : p.Reads) : ∀ s, (p.run (step k) s).2.wire = s.wire ∧ (p.run (step k) s).2.wr = s.wr := by
  induction hp with
  | ret a => intro s; exact ⟨rfl, rfl⟩
  | op o next ho _ ih =>
    intro s
    obtain ⟨⟨h1, h2, _⟩, _⟩ := Socket.Lemmas.step_reading k o ho s
    obtain ⟨h3, h4⟩ := ih (step k o s).1 (step k o s).2
    refine ⟨?_, ?_⟩
    · show (((next (step k o s).1).run (step k) (step k o s).2)).2.wire = _
      grind
    · show (((next (step k o s).1).run (step k) (step k o s).2)).2.wr = _
      grind

theorem step_frame (k : Kernel) (o : Op) (ho : Writing o) (s : St) (hr : s.wr.length < Socket.bufSize) : Socket.Lemmas.SendFrame s (step k o s).2 := by
  cases o with
  | write d => exact (Socket.Lemmas.write_spec k d s hr).1
  | puts d => exact (Socket.Lemmas.write_spec k d s hr).1
  | flush => obtain ⟨n, _, h, _⟩ := Socket.Lemmas.flush_spec k s; exact h
  | read n => exact ho.elim
  | getc => exact ho.elim
  | getline n => exact ho.elim

theorem run_frame (k : Kernel) : ∀ (ops : List Op), (∀ o ∈ ops, Writing o) → ∀ s : St, s.wr.length < Socket.bufSize →
    Socket.Lemmas.SendFrame s (Socket.run k ops s).2 := by
  intro ops
  induction ops with
  | nil => intro _ s _; exact .refl s
  | cons o os ih =>
    intro h s hr
    exact (step_frame k o (h o (by simp)) s hr).trans (ih (fun o ho => h o (by simp [ho])) _ (Socket.Lemmas.step_output k o s hr).1)

/-- Sending over a connection that does not fail. -/
theorem sent (k : Kernel) (hk : Accepts k) (line : Str) (h : Header) (dat : Str) (incoming : Str) :
    ∃ s, (sendMessage (line ++ [13, 10]) h dat).run (step k) (fresh incoming) = (.ok (), s) ∧ s.connected = true ∧ s.wr = [] ∧ s.wire = wire line h dat
      ∧ s.rd ++ s.incoming = incoming := by
  obtain ⟨s, h1, h2, h3⟩ := CgiServer.Lemmas.sent_from k hk line h dat (fresh incoming) ⟨rfl, rfl⟩ rfl
  obtain ⟨done, _, g2, g3⟩ := HttpMsg.Lemmas.message_sent k (line ++ [13, 10]) h dat (fresh incoming)
  rw [h1] at g2 g3
  rw [g3 rfl] at g2
  have hw := HttpMsg.Lemmas.writing_full (line ++ [13, 10]) h dat
  have hc := Socket.Lemmas.run_accepts k hk _ hw (fresh incoming) (by show 0 < _; decide) rfl
  obtain ⟨f1, f2, _⟩ := run_frame k _ hw (fresh incoming) (by show 0 < _; decide)
  rw [← g2] at hc f1 f2
  exact ⟨s, h1, hc, h2, h3, by rw [f1, f2]; rfl⟩

/-! ### Bodies -/

theorem run_take (fuel : Nat) (ops : List BOp) (b : Body) (s : Str) :
    ((b.run fuel (.take :: ops)).flat s).1 = match (Body.take fuel b).flat s with
      | (.error e, _) => .error e
      | (.ok (c, b'), s') => ((b'.run fuel ops).flat s').1.map (c :: ·) := by
  cases b with
  | chunked b =>
    have e : Chunked.run fuel (.take :: ops) b = (b.uflow fuel).bind fun r =>
      match r with
      | .error e => .ret (.error e)
      | .ok (c, b) => (Chunked.run fuel ops b).bind fun r => .ret (r.map fun (cs, b) => (c :: cs, b)) := rfl
    unfold Body.take
    show (((Chunked.run fuel (.take :: ops) b).bind fun r => .ret (r.map (·.1))).flat s).1 = _
    rw [e]
    simp only [Prog.flat, Prog.run_bind']
    rcases h : (Chunked.uflow fuel b).run Socket.Spec.readStep s with ⟨_ | ⟨c, b'⟩, s'⟩
    · rfl
    · show (((Chunked.run fuel ops b').bind fun r => .ret (r.map fun (cs, b) => (c :: cs, b))).run Socket.Spec.readStep s').1.map (·.1)
        = ((((Chunked.run fuel ops b').bind fun r => .ret (r.map (·.1))).run Socket.Spec.readStep s').1).map (c :: ·)
      simp only [Prog.run_bind']
      rcases h' : (Chunked.run fuel ops b').run Socket.Spec.readStep s' with ⟨_ | ⟨cs, b''⟩, s''⟩ <;> rfl
  | fixed b =>
    have e : Fixed.run (.take :: ops) b = b.uflow.bind fun (c, b) => (Fixed.run ops b).bind fun (cs, b) => .ret (c :: cs, b) := rfl
    show (((Fixed.run (.take :: ops) b).bind fun r => .ret (Except.ok (ε := Err) r.1)).flat s).1 = _
    rw [e]
    unfold Body.take
    simp only [Prog.flat, Prog.run_bind', Prog.run]
    rcases h : b.uflow.run Socket.Spec.readStep s with ⟨⟨c, b'⟩, s'⟩
    show _ = ((((Fixed.run ops b').bind fun r => .ret (Except.ok (ε := Err) r.1)).run Socket.Spec.readStep s').1).map (c :: ·)
    rw [Prog.run_bind']
    rfl
  | raw buf =>
    have e : rawRun (.take :: ops) buf = (rawStep .take buf).bind fun r => (rawRun ops r.2).bind fun cs => .ret (r.1 :: cs) := rfl
    show (((rawRun (.take :: ops) buf).bind fun r => .ret (Except.ok (ε := Err) r)).flat s).1 = _
    rw [e]
    unfold Body.take
    simp only [Prog.flat, Prog.run_bind', Prog.run]
    rcases h : (rawStep .take buf).run Socket.Spec.readStep s with ⟨⟨c, b'⟩, s'⟩
    show _ = ((((rawRun ops b').bind fun r => .ret (Except.ok (ε := Err) r)).run Socket.Spec.readStep s').1).map (c :: ·)
    rw [Prog.run_bind']
    rfl

/-- The body, at a place of the stream, gives certain characters. -/
def Stands (fuel : Nat) (b : Body) (s body : Str) : Prop := ∀ ops, ((b.run fuel ops).flat s).1 = .ok (Http.Spec.takes ops body)

theorem stands_take {fuel : Nat} {b : Body} {s body : Str} (h : Stands fuel b s body) :
    ∃ b' s', (Body.take fuel b).flat s = (.ok (body.head?, b'), s') ∧ Stands fuel b' s' body.tail := by
  have h0 := h [.take]
  rw [run_take] at h0
  rcases ht : (Body.take fuel b).flat s with ⟨_ | ⟨c, b'⟩, s'⟩
  · rw [ht] at h0; cases h0
  · rw [ht] at h0
    have hc : c = body.head? := by
      simp only [Http.Spec.takes] at h0
      rcases hx : ((Body.run fuel [] b').flat s').1 with e | x
      · rw [hx] at h0; cases h0
      · rw [hx] at h0
        simp only [Except.map, Except.ok.injEq, List.cons.injEq] at h0
        exact h0.1
    subst hc
    refine ⟨b', s', rfl, fun ops => ?_⟩
    have h1 := h (.take :: ops)
    rw [run_take, ht] at h1
    simp only [Http.Spec.takes] at h1
    rcases hx : ((Body.run fuel ops b').flat s').1 with e | x
    · rw [hx] at h1; cases h1
    · rw [hx] at h1
      simp only [Except.map, Except.ok.injEq, List.cons.injEq, true_and] at h1
      rw [h1]

/-! ### The stream -/

/-- What the calls on a stream still give. -/
inductive Holds (fuel : Nat) (t : Stream) (s : Str) : Str → Prop where
  | next (body : Str) : t.buf = none → t.bad = false → Stands fuel t.resp.body s body → Holds fuel t s body
  | seen (c : UInt8) (body : Str) : t.buf = some c → t.bad = false → Stands fuel t.resp.body s body → Holds fuel t s (c :: body)
  | over : t.buf = none → t.bad = true → Holds fuel t s []

theorem underflow_holds {fuel : Nat} {t : Stream} {s body : Str} (h : Holds fuel t s body) :
    ∃ t' s', (t.underflow fuel).flat s = ((body.head?, t'), s') ∧ Holds fuel t' s' body ∧ t'.buf = body.head? := by
  obtain ⟨buf, resp, bad⟩ := t
  cases h with
  | next _ h1 h2 h3 =>
    simp only at h1 h2 h3
    subst h1 h2
    obtain ⟨b', s', e, hs⟩ := stands_take h3
    have hu : (Stream.underflow fuel ⟨none, resp, false⟩) = (bodyGet fuel ⟨none, resp, false⟩).bind fun (c, s) => .ret (c, { s with buf := c }) := rfl
    have hg : bodyGet fuel ⟨none, resp, false⟩ = (Body.take fuel resp.body).bind fun r =>
      match r with
      | .error _ => .ret (none, ⟨none, resp, true⟩)
      | .ok (none, b) => .ret (none, ⟨none, { resp with body := b }, true⟩)
      | .ok (some c, b) => .ret (some c, ⟨none, { resp with body := b }, false⟩) := rfl
    cases body with
    | nil =>
      refine ⟨⟨none, { resp with body := b' }, true⟩, s', ?_, .over rfl rfl, rfl⟩
      rw [hu, hg, Prog.flat, Prog.run_bind', Prog.run_bind']
      rw [Prog.flat] at e
      rw [e]
      rfl
    | cons c body =>
      refine ⟨⟨some c, { resp with body := b' }, false⟩, s', ?_, .seen c body rfl rfl hs, rfl⟩
      rw [hu, hg, Prog.flat, Prog.run_bind', Prog.run_bind']
      rw [Prog.flat] at e
      rw [e]
      rfl
  | seen c body h1 h2 h3 =>
    simp only at h1 h2 h3
    subst h1 h2
    exact ⟨_, s, rfl, .seen c body rfl rfl h3, rfl⟩
  | over h1 h2 =>
    simp only at h1 h2
    subst h1 h2
    exact ⟨_, s, rfl, .over rfl rfl, rfl⟩

theorem drop_holds {fuel : Nat} {t : Stream} {s body : Str} (h : Holds fuel t s body) (hb : t.buf = body.head?) :
    Holds fuel { t with buf := none } s body.tail := by
  cases h with
  | next _ h1 h2 h3 =>
    cases body with
    | nil => exact .next _ rfl h2 h3
    | cons c body => rw [h1] at hb; simp at hb
  | seen c body h1 h2 h3 => exact .next _ rfl h2 h3
  | over h1 h2 => exact .over rfl h2

theorem stream_run (fuel : Nat) : ∀ (ops : List BOp) (t : Stream) (s body : Str), Holds fuel t s body →
    ∃ t' s', (t.run fuel ops).flat s = ((Http.Spec.takes ops body, t'), s') := by
  intro ops
  induction ops with
  | nil => intro t s body _; exact ⟨t, s, rfl⟩
  | cons o ops ih =>
    intro t s body h
    obtain ⟨t1, s1, e1, h1, b1⟩ := underflow_holds h
    rw [Prog.flat] at e1
    cases o with
    | peek =>
      obtain ⟨t2, s2, e2⟩ := ih t1 s1 body h1
      rw [Prog.flat] at e2
      refine ⟨t2, s2, ?_⟩
      unfold Stream.run
      rw [Prog.flat, Prog.run_bind', e1]
      dsimp only
      rw [Prog.run_bind', e2]
      rfl
    | take =>
      obtain ⟨t2, s2, e2⟩ := ih { t1 with buf := none } s1 body.tail (drop_holds h1 b1)
      rw [Prog.flat] at e2
      refine ⟨t2, s2, ?_⟩
      unfold Stream.run
      have hu : (t.uflow fuel).run Socket.Spec.readStep s = ((body.head?, { t1 with buf := none }), s1) := by
        unfold Stream.uflow
        rw [Prog.run_bind', e1]
        rfl
      rw [Prog.flat, Prog.run_bind', hu]
      dsimp only
      rw [Prog.run_bind', e2]
      rfl

theorem reads_left {α β : Type} {p : Prog α} {f : α → Prog β} (h : (p.bind f).Reads) : p.Reads := by
  induction p with
  | ret a => exact .ret a
  | op o next ih =>
    cases h with
    | op _ _ ho hn => exact .op o next ho fun r => ih r (hn r)

theorem reads_take (fuel : Nat) (b : Body) : (Body.take fuel b).Reads := by
  cases b with
  | chunked b => exact Prog.reads_bind (reads_left (Http.Lemmas.reads_chunked fuel [.take] b)) fun _ => .ret _
  | fixed b => exact Prog.reads_bind (reads_left (Http.Lemmas.reads_fixed [.take] b)) fun _ => .ret _
  | raw buf => exact Prog.reads_bind (reads_left (HttpMsg.Lemmas.reads_rawRun [.take] buf)) fun _ => .ret _

theorem reads_stream (fuel : Nat) : ∀ (ops : List BOp) (t : Stream), (t.run fuel ops).Reads := by
  have hg : ∀ t : Stream, (bodyGet fuel t).Reads := by
    intro t
    unfold bodyGet
    split
    · exact .ret _
    · refine Prog.reads_bind (reads_take fuel _) fun r => ?_
      split <;> exact .ret _
  have hu : ∀ t : Stream, (t.underflow fuel).Reads := by
    intro t
    unfold Stream.underflow
    split
    · exact .ret _
    · exact Prog.reads_bind (hg t) fun _ => .ret _
  intro ops
  induction ops with
  | nil => intro t; exact .ret _
  | cons o ops ih =>
    intro t
    unfold Stream.run
    refine Prog.reads_bind ?_ fun r => Prog.reads_bind (ih _) fun _ => .ret _
    cases o with
    | peek => exact hu t
    | take => exact Prog.reads_bind (hu t) fun _ => .ret _

end Verif.HttpStream.Lemmas
