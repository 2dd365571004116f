import Verif.SockStream.Spec
/-! Helper lemmas. -/

namespace Verif.SockStream.Lemmas
open Verif.Socket Verif.Socket.Lemmas Verif.SockStream Verif.SockStream.Spec

/-! ### Reading from a plain byte stream -/

/-- What is left to read. -/
def all (buf : Option UInt8) (p : Str) : Str := buf.toList ++ p

theorem flat_bind {α β : Type} (p : Prog α) (f : α → Prog β) (s : Str) : (p.bind f).flat s = (f (p.flat s).1).flat (p.flat s).2 := Prog.run_bind' _ p f s

theorem flat_underflow (buf : Option UInt8) (p : Str) : (underflow buf).flat p = (((all buf p).head?, (all buf p).head?), (all buf p).tail) := by
  cases buf with
  | some c => rfl
  | none => rfl

theorem flat_uflow (buf : Option UInt8) (p : Str) : (uflow buf).flat p = (((all buf p).head?, none), (all buf p).tail) := by
  unfold uflow
  rw [flat_bind, flat_underflow]
  rfl

theorem all_none (p : Str) : all none p = p := rfl

theorem all_peek (l : Str) : all l.head? l.tail = l := by cases l <;> rfl

theorem flat_xsgetn : ∀ (n : Nat) (buf : Option UInt8) (p : Str),
    ∃ buf' p', (xsgetn n buf).flat p = (((all buf p).take n, buf'), p') ∧ all buf' p' = (all buf p).drop n := by
  intro n
  induction n with
  | zero => intro buf p; exact ⟨buf, p, rfl, rfl⟩
  | succ n ih =>
    intro buf p
    unfold xsgetn
    rw [flat_bind, flat_uflow]
    cases h : all buf p with
    | nil => exact ⟨none, [], rfl, rfl⟩
    | cons c r =>
      obtain ⟨buf', p', h1, h2⟩ := ih none r
      refine ⟨buf', p', ?_, ?_⟩
      · show ((xsgetn n none).bind fun q => .ret (c :: q.1, q.2)).flat r = _
        rw [flat_bind, h1]
        rfl
      · exact h2

theorem flat_getlineLoop : ∀ (fuel : Nat) (l acc : Str), l.length < fuel →
    ∃ buf' p', (getlineLoop fuel l.head? l.head? acc).flat l.tail = ((acc ++ l.takeWhile (· ≠ 10), decide (10 ∉ l), buf'), p') ∧
      all buf' p' = (l.dropWhile (· ≠ 10)).tail := by
  intro fuel
  induction fuel with
  | zero => intro l acc h; exact absurd h (by omega)
  | succ fuel ih =>
    intro l acc h
    cases l with
    | nil => exact ⟨none, [], by rw [List.takeWhile_nil, List.append_nil]; rfl, rfl⟩
    | cons c r =>
      unfold getlineLoop
      by_cases hc : c = 10
      · subst hc
        refine ⟨none, r, ?_, rfl⟩
        show (if (10 : UInt8) = 10 then _ else _ : Prog _).flat r = _
        rw [if_pos rfl, flat_bind, flat_uflow]
        show ((acc, false, none), r) = _
        simp
      · obtain ⟨buf', p', h1, h2⟩ := ih r (acc ++ [c]) (by simp only [List.length_cons] at h; omega)
        refine ⟨buf', p', ?_, ?_⟩
        · show (if c = 10 then _ else _ : Prog _).flat r = _
          rw [if_neg hc, flat_bind, flat_uflow]
          show ((underflow none).bind _).flat r = _
          rw [flat_bind, flat_underflow]
          show (getlineLoop fuel r.head? r.head? (acc ++ [c])).flat r.tail = _
          rw [h1]
          have hd : decide (10 ∉ c :: r) = decide (10 ∉ r) := by
            congr 1
            rw [List.mem_cons]
            simp [Ne.symm hc]
          rw [hd, List.takeWhile_cons_of_pos (by simpa using hc), List.append_assoc]
          rfl
        · rw [List.dropWhile_cons_of_pos (by simpa using hc)]
          exact h2

theorem reads_bind' {α β : Type} {p : Prog α} {f : α → Prog β} (hp : Prog.Reads p) (hf : ∀ a, Prog.Reads (f a)) : Prog.Reads (p.bind f) := Prog.reads_bind hp hf

theorem reads_underflow (buf : Option UInt8) : Prog.Reads (underflow buf) := by
  cases buf with
  | some c => exact .ret _
  | none => exact reads_bind' Prog.reads_getc (fun _ => .ret _)

theorem reads_uflow (buf : Option UInt8) : Prog.Reads (uflow buf) := reads_bind' (reads_underflow buf) (fun _ => .ret _)

theorem reads_xsgetn : ∀ (n : Nat) (buf : Option UInt8), Prog.Reads (xsgetn n buf)
  | 0, _ => .ret _
  | n + 1, buf => reads_bind' (reads_uflow buf) (fun r => by
      cases h : r.1 with
      | none => exact .ret _
      | some c => exact reads_bind' (reads_xsgetn n _) (fun _ => .ret _))

theorem reads_getlineLoop : ∀ (fuel : Nat) (c buf : Option UInt8) (acc : Str), Prog.Reads (getlineLoop fuel c buf acc)
  | 0, _, _, _ => .ret _
  | fuel + 1, c, buf, acc => by
    unfold getlineLoop
    cases c with
    | none => exact .ret _
    | some c =>
      show Prog.Reads (if c = 10 then _ else _)
      split
      · exact reads_bind' (reads_uflow buf) (fun _ => .ret _)
      · exact reads_bind' (reads_uflow buf) (fun _ => reads_bind' (reads_underflow _) (fun _ => reads_getlineLoop fuel _ _ _))

theorem reads_op (fuel : Nat) {op : Op} (ho : Reading op) (io : Io) : Prog.Reads (opProg fuel op io) := by
  unfold opProg
  split
  · cases op with
    | get => exact reads_bind' (reads_uflow _) (fun _ => .ret _)
    | peek => exact reads_bind' (reads_underflow _) (fun _ => .ret _)
    | read n => exact reads_bind' (reads_xsgetn _ _) (fun _ => .ret _)
    | getline => exact reads_bind' (reads_underflow _) (fun _ => reads_bind' (reads_getlineLoop _ _ _ _) (fun _ => .ret _))
    | put c => exact ho.elim
    | write d => exact ho.elim
    | flush => exact ho.elim
  · exact .ret _

theorem reads_run (fuel : Nat) : ∀ (ops : List Op), (∀ op ∈ ops, Reading op) → ∀ io, Prog.Reads (runProg fuel ops io)
  | [], _, _ => .ret _
  | op :: ops, ho, io => reads_bind' (reads_op fuel (ho op List.mem_cons_self) io)
      (fun _ => reads_bind' (reads_run fuel ops (fun o h => ho o (List.mem_cons_of_mem _ h)) _) (fun _ => .ret _))

theorem takeWhile_all : ∀ {l : Str}, 10 ∉ l → l.takeWhile (· ≠ 10) = l
  | [], _ => rfl
  | c :: r, h => by
    have hc : c ≠ 10 := fun e => h (e ▸ List.mem_cons_self)
    rw [List.takeWhile_cons_of_pos (by simpa using hc), takeWhile_all (fun e => h (List.mem_cons_of_mem _ e))]

/-- A reading operation on a plain byte stream is that on a stream in memory. -/
theorem flat_op {fuel : Nat} {op : Op} (ho : Reading op) (io : Io) (p out : Str) (hf : (all io.buf p).length < fuel) :
    ∃ buf' p', (opProg fuel op io).flat p = (((memOp op ⟨io.bits, all io.buf p, out⟩).1, ⟨(memOp op ⟨io.bits, all io.buf p, out⟩).2.bits, buf'⟩), p') ∧
      all buf' p' = (memOp op ⟨io.bits, all io.buf p, out⟩).2.input ∧ (memOp op ⟨io.bits, all io.buf p, out⟩).2.output = out ∧
      (all buf' p').length ≤ (all io.buf p).length := by
  unfold opProg memOp
  by_cases hg : io.bits.good = true
  · rw [if_pos hg, if_pos hg]
    cases op with
    | get =>
      show ∃ buf' p', ((uflow io.buf).bind _).flat p = _ ∧ _
      rw [flat_bind, flat_uflow]
      cases h : all io.buf p with
      | nil => exact ⟨none, [], rfl, rfl, rfl, Nat.le_refl _⟩
      | cons c r => exact ⟨none, r, rfl, rfl, rfl, by simp [all_none]⟩
    | peek =>
      show ∃ buf' p', ((underflow io.buf).bind _).flat p = _ ∧ _
      rw [flat_bind, flat_underflow]
      cases h : all io.buf p with
      | nil => exact ⟨none, [], rfl, rfl, rfl, Nat.le_refl _⟩
      | cons c r => exact ⟨some c, r, rfl, rfl, rfl, Nat.le_refl _⟩
    | read n =>
      obtain ⟨buf', p', h1, h2⟩ := flat_xsgetn n io.buf p
      refine ⟨buf', p', ?_, h2, rfl, by rw [h2, List.length_drop]; omega⟩
      show ((xsgetn n io.buf).bind _).flat p = _
      rw [flat_bind, h1]
      have hl : ((all io.buf p).take n).length ≠ n ↔ (all io.buf p).length < n := by rw [List.length_take]; omega
      show ((_, _), _) = _
      simp only [hl]
    | getline =>
      obtain ⟨buf', p', h1, h2⟩ := flat_getlineLoop fuel (all io.buf p) [] hf
      show ∃ buf' p', ((underflow io.buf).bind _).flat p = _ ∧ _
      rw [flat_bind, flat_underflow]
      show ∃ buf' p', ((getlineLoop fuel _ _ []).bind _).flat _ = _ ∧ _
      rw [flat_bind, h1]
      have hle : ((all io.buf p).dropWhile (· ≠ 10)).tail.length ≤ (all io.buf p).length := by
        rw [List.length_tail]
        have := (List.dropWhile_sublist (p := (· ≠ (10 : UInt8))) (l := all io.buf p)).length_le
        omega
      by_cases hm : 10 ∈ all io.buf p
      · refine ⟨buf', p', ?_, ?_, ?_, by rw [h2]; exact hle⟩
        · simp only [List.nil_append, hm, not_true_eq_false, decide_false]
          rfl
        · simp only [if_pos hm]
          exact h2
        · simp only [if_pos hm]
      · have htw : (all io.buf p).takeWhile (· ≠ 10) = all io.buf p := by
          exact takeWhile_all hm
        have hdw : (all io.buf p).dropWhile (· ≠ 10) = [] := by
          have := List.takeWhile_append_dropWhile (p := (· ≠ (10 : UInt8))) (l := all io.buf p)
          rw [htw] at this
          exact List.append_cancel_left (this.trans (List.append_nil _).symm)
        refine ⟨buf', p', ?_, ?_, ?_, by rw [h2]; exact hle⟩
        · simp only [List.nil_append, hm, not_false_eq_true, decide_true, htw]
          rfl
        · simp only [if_neg hm]
          rw [h2, hdw]
          rfl
        · simp only [if_neg hm]
    | put c => exact ho.elim
    | write d => exact ho.elim
    | flush => exact ho.elim
  · rw [if_neg hg, if_neg hg]
    exact ⟨io.buf, p, rfl, rfl, rfl, Nat.le_refl _⟩

theorem flat_run {fuel : Nat} : ∀ (ops : List Op), (∀ op ∈ ops, Reading op) → ∀ (io : Io) (p out : Str), (all io.buf p).length < fuel →
    ∃ buf' p', (runProg fuel ops io).flat p = (((memRun ops ⟨io.bits, all io.buf p, out⟩).1, ⟨(memRun ops ⟨io.bits, all io.buf p, out⟩).2.bits, buf'⟩), p') ∧
      all buf' p' = (memRun ops ⟨io.bits, all io.buf p, out⟩).2.input := by
  intro ops
  induction ops with
  | nil => intro _ io p out _; exact ⟨io.buf, p, rfl, rfl⟩
  | cons op ops ih =>
    intro ho io p out hf
    obtain ⟨b1, p1, h1, h2, h3, h4⟩ := flat_op (ho op List.mem_cons_self) io p out hf
    obtain ⟨b2, p2, h5, h6⟩ := ih (fun o h => ho o (List.mem_cons_of_mem _ h)) ⟨(memOp op ⟨io.bits, all io.buf p, out⟩).2.bits, b1⟩ p1 out (Nat.lt_of_le_of_lt h4 hf)
    have e : (⟨(memOp op ⟨io.bits, all io.buf p, out⟩).2.bits, all b1 p1, out⟩ : Mem) = (memOp op ⟨io.bits, all io.buf p, out⟩).2 := by
      generalize (memOp op ⟨io.bits, all io.buf p, out⟩).2 = m at h2 h3
      rw [h2, ← h3]
    rw [e] at h5 h6
    refine ⟨b2, p2, ?_, h6⟩
    unfold runProg
    rw [flat_bind, h1]
    show ((runProg fuel ops _).bind _).flat p1 = _
    rw [flat_bind, h5]
    rfl

/-! ### More input does not change what has succeeded -/

theorem good_iff {b : Bits} : b.good = true ↔ b = {} := by
  cases b with
  | mk e f d => cases e <;> cases f <;> cases d <;> decide

theorem mem_good {op : Op} {m : Mem} (h : (memOp op m).2.bits.good = true) : m.bits.good = true := by
  by_cases hg : m.bits.good = true
  · exact hg
  · unfold memOp at h
    rw [if_neg hg, good_iff] at h
    have : ({ m.bits with fail := true } : Bits).fail = false := by
      show ({ m with bits := { m.bits with fail := true } } : Mem).bits.fail = false
      rw [h]
    cases this

theorem mem_more {op : Op} {m : Mem} (x : Str) (h : (memOp op m).2.bits.good = true) :
    memOp op { m with input := m.input ++ x } = ((memOp op m).1, { (memOp op m).2 with input := (memOp op m).2.input ++ x }) := by
  have hg := mem_good h
  unfold memOp at h ⊢
  rw [if_pos hg] at h ⊢
  rw [if_pos hg]
  cases op with
  | get =>
    cases hi : m.input with
    | nil => simp only [hi] at h; rw [good_iff] at h; injection h with h1; cases h1
    | cons c r => rfl
  | peek =>
    cases hi : m.input with
    | nil => simp only [hi] at h; rw [good_iff] at h; injection h with h1; cases h1
    | cons c r => simp only [hi]; rfl
  | read n =>
    by_cases hl : m.input.length < n
    · simp only [if_pos hl] at h; rw [good_iff] at h; injection h with h1; cases h1
    · have hl' : n ≤ m.input.length := by omega
      have hl2 : ¬ (m.input ++ x).length < n := by rw [List.length_append]; omega
      simp only [if_neg hl, if_neg hl2, List.take_append_of_le_length hl', List.drop_append_of_le_length hl']
  | getline =>
    by_cases hm : 10 ∈ m.input
    · have hm2 : 10 ∈ m.input ++ x := List.mem_append_left _ hm
      simp only [if_pos hm, if_pos hm2]
      have key : ∀ l : Str, 10 ∈ l → (l ++ x).takeWhile (· ≠ 10) = l.takeWhile (· ≠ 10) ∧ ((l ++ x).dropWhile (· ≠ 10)).tail = (l.dropWhile (· ≠ 10)).tail ++ x := by
        intro l
        induction l with
        | nil => intro h; cases h
        | cons c r ih =>
          intro h
          by_cases hc : c = 10
          · subst hc
            exact ⟨rfl, rfl⟩
          · have hp : (fun y : UInt8 => decide (y ≠ 10)) c = true := by simpa using hc
            rcases List.mem_cons.1 h with e | e
            · exact absurd e.symm hc
            · obtain ⟨h1, h2⟩ := ih e
              rw [List.cons_append, List.takeWhile_cons_of_pos (p := fun y : UInt8 => decide (y ≠ 10)) hp, List.takeWhile_cons_of_pos (p := fun y : UInt8 => decide (y ≠ 10)) hp,
                List.dropWhile_cons_of_pos (p := fun y : UInt8 => decide (y ≠ 10)) hp, List.dropWhile_cons_of_pos (p := fun y : UInt8 => decide (y ≠ 10)) hp, h1, h2]
              exact ⟨rfl, rfl⟩
      rw [(key _ hm).1, (key _ hm).2]
    · simp only [if_neg hm] at h; rw [good_iff] at h; injection h with h1; cases h1
  | put c => rfl
  | write d => rfl
  | flush => rfl

/-! ### On the socket -/

/-- Running a program. -/
abbrev go {α : Type} (k : Kernel) (p : Prog α) (s : St) : α × St := p.run (step k) s

theorem go_bind {α β : Type} (k : Kernel) (p : Prog α) (f : α → Prog β) (s : St) : go k (p.bind f) s = go k (f (go k p s).1) (go k p s).2 := Prog.run_bind' _ p f s

/-- A reading program does not touch the output. -/
theorem reads_frame (k : Kernel) {α : Type} {p : Prog α} (hp : Prog.Reads p) : ∀ s, RecvFrame s (go k p s).2 := by
  induction hp with
  | ret a => intro s; exact RecvFrame.refl s
  | op o next ho _ ih => intro s; exact ((step_reading k o ho s).1).trans (ih _ _)

/-- A stream and its socket are those of a stream in memory. -/
structure Rel (io : Io) (s : St) (m : Mem) : Prop where
  bits : m.bits = io.bits
  input : all io.buf (s.rd ++ s.incoming) = m.input
  output : s.wire ++ s.wr = m.output
  room : s.wr.length < bufSize

theorem op_good {k : Kernel} {fuel : Nat} {op : Op} {io : Io} {s : St} {m : Mem} (hr : Rel io s m) (hf : m.input.length < fuel)
    (hg : (go k (opProg fuel op io) s).1.2.bits.good = true) :
    (go k (opProg fuel op io) s).1.1 = (memOp op m).1 ∧ Rel (go k (opProg fuel op io) s).1.2 (go k (opProg fuel op io) s).2 (memOp op m).2 ∧
      (memOp op m).2.input.length ≤ m.input.length ∧ (op = .flush → (go k (opProg fuel op io) s).2.wr = []) := by
  by_cases ho : Reading op
  · obtain ⟨t, h1, h2⟩ := Prog.run_socket k (reads_op fuel ho io) s
    have hfr := reads_frame k (reads_op fuel ho io) s
    obtain ⟨_, h4⟩ := h2 ((go k (opProg fuel op io) s).2.rd) ⟨[], (List.append_nil _).symm, List.nil_prefix, fun _ => rfl⟩
    have hpre : all io.buf (t ++ (go k (opProg fuel op io) s).2.rd) ++ (go k (opProg fuel op io) s).2.incoming = m.input := by
      rw [← hr.input, h1]
      unfold all
      rw [List.append_assoc, List.append_assoc]
    have hlen : (all io.buf (t ++ (go k (opProg fuel op io) s).2.rd)).length < fuel := by
      rw [← hpre, List.length_append] at hf
      omega
    obtain ⟨b1, p1, e1, e2, e3, e4⟩ := flat_op (fuel := fuel) ho io (t ++ (go k (opProg fuel op io) s).2.rd) m.output hlen
    rw [e1] at h4
    have e5 : (go k (opProg fuel op io) s).1 = ((memOp op ⟨io.bits, all io.buf (t ++ (go k (opProg fuel op io) s).2.rd), m.output⟩).1, ⟨(memOp op ⟨io.bits, all io.buf (t ++ (go k (opProg fuel op io) s).2.rd), m.output⟩).2.bits, b1⟩) :=
      (Prod.mk.inj h4).1.symm
    have e6 : p1 = (go k (opProg fuel op io) s).2.rd := (Prod.mk.inj h4).2
    have hgm : (memOp op ⟨io.bits, all io.buf (t ++ (go k (opProg fuel op io) s).2.rd), m.output⟩).2.bits.good = true := by
      rw [e5] at hg
      exact hg
    have hmore := mem_more (go k (opProg fuel op io) s).2.incoming hgm
    have hm : ({ (⟨io.bits, all io.buf (t ++ (go k (opProg fuel op io) s).2.rd), m.output⟩ : Mem) with
        input := (⟨io.bits, all io.buf (t ++ (go k (opProg fuel op io) s).2.rd), m.output⟩ : Mem).input ++ (go k (opProg fuel op io) s).2.incoming } : Mem) = m := by
      show (⟨io.bits, all io.buf (t ++ (go k (opProg fuel op io) s).2.rd) ++ (go k (opProg fuel op io) s).2.incoming, m.output⟩ : Mem) = m
      rw [hpre, ← hr.bits]
    rw [hm] at hmore
    have hbuf : (go k (opProg fuel op io) s).1.2.buf = b1 := by rw [e5]
    refine ⟨?_, ⟨?_, ?_, ?_, ?_⟩, ?_, ?_⟩
    · rw [e5, hmore]
    · rw [e5, hmore]
    · rw [hbuf, hmore]
      show _ = (memOp op ⟨io.bits, all io.buf (t ++ (go k (opProg fuel op io) s).2.rd), m.output⟩).2.input ++ _
      rw [← e2, e6]
      unfold all
      rw [List.append_assoc]
    · rw [hmore]
      show _ = (memOp op ⟨io.bits, all io.buf (t ++ (go k (opProg fuel op io) s).2.rd), m.output⟩).2.output
      rw [e3, hfr.1, hfr.2.1]
      exact hr.output
    · rw [hfr.1]
      exact hr.room
    · rw [hmore]
      show ((memOp op ⟨io.bits, all io.buf (t ++ (go k (opProg fuel op io) s).2.rd), m.output⟩).2.input ++ _).length ≤ _
      rw [← hpre, List.length_append, List.length_append, ← e2]
      omega
    · intro e
      rw [e] at ho
      exact ho.elim
  · have hgio : io.bits.good = true := by
      by_cases h : io.bits.good = true
      · exact h
      · unfold opProg at hg
        rw [if_neg h] at hg
        have hg : ({ io.bits with fail := true } : Bits).good = true := hg
        rw [good_iff] at hg
        injection hg with _ h2
        cases h2
    have hgm : m.bits.good = true := by rw [hr.bits]; exact hgio
    unfold opProg at hg ⊢
    rw [if_pos hgio] at hg ⊢
    unfold memOp
    rw [if_pos hgm]
    cases op with
    | get => exact absurd trivial ho
    | peek => exact absurd trivial ho
    | read n => exact absurd trivial ho
    | getline => exact absurd trivial ho
    | put c =>
      obtain ⟨w1, w2, _, _, n, w5, w6, w7, _⟩ := write_spec k [c] s hr.room
      have hbad : ∀ b : Bool, (if b then io.bits else { io.bits with bad := true }).good = true → b = true := by
        intro b hb
        cases b with
        | true => rfl
        | false =>
          have hb : ({ io.bits with bad := true } : Bits).good = true := hb
          rw [good_iff] at hb
          injection hb with _ _ h3
          cases h3
      have hb := hbad _ hg
      have hn : n = 1 := by
        have hb : (if (write k [c] s).1 < 0 then false else decide ((write k [c] s).1 ≠ 0)) = true := hb
        rw [w6] at hb
        split at hb
        · cases hb
        · have := of_decide_eq_true hb
          have h1 : n ≤ 1 := w5
          omega
      refine ⟨rfl, ⟨?_, ?_, ?_, w2⟩, Nat.le_refl _, (fun e => by cases e)⟩
      · show m.bits = if _ then io.bits else _
        rw [if_pos hb, hr.bits]
      · show all io.buf ((write k [c] s).2.rd ++ (write k [c] s).2.incoming) = m.input
        rw [w1.1, w1.2.1]
        exact hr.input
      · show (write k [c] s).2.wire ++ (write k [c] s).2.wr = m.output ++ [c]
        rw [(w7 hn).1, hr.output]
    | write d =>
      obtain ⟨w1, w2, _, _, n, w5, w6, w7, _⟩ := write_spec k d s hr.room
      have hn : n = d.length := by
        have hg : (if (if (write k d s).1 < 0 then 0 else (write k d s).1.toNat) ≠ d.length then { io.bits with bad := true } else io.bits).good = true := hg
        rw [w6, if_neg (Int.not_lt.2 (Int.natCast_nonneg n)), Int.toNat_natCast] at hg
        by_cases e : n = d.length
        · exact e
        · rw [if_pos e, good_iff] at hg
          injection hg with _ _ h3
          cases h3
      refine ⟨rfl, ⟨?_, ?_, ?_, w2⟩, Nat.le_refl _, (fun e => by cases e)⟩
      · show m.bits = if (if (write k d s).1 < 0 then 0 else (write k d s).1.toNat) ≠ d.length then _ else io.bits
        rw [w6, if_neg (Int.not_lt.2 (Int.natCast_nonneg n)), Int.toNat_natCast, if_neg (fun h => h hn), hr.bits]
      · show all io.buf ((write k d s).2.rd ++ (write k d s).2.incoming) = m.input
        rw [w1.1, w1.2.1]
        exact hr.input
      · show (write k d s).2.wire ++ (write k d s).2.wr = m.output ++ d
        rw [(w7 hn).1, hr.output]
    | flush =>
      obtain ⟨n, f1, f2, f3, f4, f5, f6, _⟩ := flush_spec k s
      have hres : (if (flush k s).1 < 0 then (0 : Int) else -1) ≠ -1 := by
        have hg : (if (if (flush k s).1 < 0 then (0 : Int) else -1) = -1 then { io.bits with bad := true } else io.bits).good = true := hg
        intro e
        rw [if_pos e, good_iff] at hg
        injection hg with _ _ h3
        cases h3
      have hn : n = s.wr.length := by
        rcases Nat.lt_or_ge n s.wr.length with h | h
        · rw [(f6 h).1, if_neg (by omega)] at hres
          exact absurd rfl hres
        · omega
      refine ⟨rfl, ⟨?_, ?_, ?_, ?_⟩, Nat.le_refl _, fun _ => f3⟩
      · show m.bits = if (if (flush k s).1 < 0 then (0 : Int) else -1) = -1 then _ else io.bits
        rw [if_neg hres, hr.bits]
      · show all io.buf ((flush k s).2.rd ++ (flush k s).2.incoming) = m.input
        rw [f2.1, f2.2.1]
        exact hr.input
      · show (flush k s).2.wire ++ (flush k s).2.wr = m.output
        rw [f3, f4, hn, List.take_length, List.append_nil, hr.output]
      · show (flush k s).2.wr.length < bufSize
        rw [f3]
        exact (by decide : 0 < bufSize)

theorem op_bad {k : Kernel} {fuel : Nat} {op : Op} {io : Io} {s : St} (h : io.bits.good = false) :
    go k (opProg fuel op io) s = ((op.refused, { io with bits := { io.bits with fail := true } }), s) := by
  unfold opProg
  rw [if_neg (by rw [h]; exact fun e => by cases e)]
  rfl

theorem run_bad {k : Kernel} {fuel : Nat} : ∀ (ops : List Op) {io : Io} {s : St}, io.bits.good = false →
    (go k (runProg fuel ops io) s).1.2.bits.good = false ∧ (go k (runProg fuel ops io) s).2 = s := by
  intro ops
  induction ops with
  | nil => intro io s h; exact ⟨h, rfl⟩
  | cons op ops ih =>
    intro io s h
    unfold runProg
    rw [go_bind, op_bad h]
    have hb : ({ io.bits with fail := true } : Bits).good = false := by
      cases io.bits with
      | mk e f d => cases e <;> cases f <;> cases d <;> rfl
    have := ih (io := { io with bits := { io.bits with fail := true } }) (s := s) hb
    rw [go_bind]
    exact this

theorem run_good {k : Kernel} {fuel : Nat} : ∀ (ops : List Op) {io : Io} {s : St} {m : Mem}, Rel io s m → m.input.length < fuel →
    (go k (runProg fuel ops io) s).1.2.bits.good = true →
    (go k (runProg fuel ops io) s).1.1 = (memRun ops m).1 ∧ Rel (go k (runProg fuel ops io) s).1.2 (go k (runProg fuel ops io) s).2 (memRun ops m).2 ∧
      (∀ ops', ops = ops' ++ [.flush] → (go k (runProg fuel ops io) s).2.wr = []) := by
  intro ops
  induction ops with
  | nil => intro io s m hr _ _; exact ⟨rfl, hr, fun ops' e => by cases ops' <;> cases e⟩
  | cons op ops ih =>
    intro io s m hr hf hg
    unfold runProg at hg ⊢
    rw [go_bind, go_bind] at hg ⊢
    by_cases hb : (go k (opProg fuel op io) s).1.2.bits.good = true
    · obtain ⟨h1, h2, h3, h4⟩ := op_good hr hf hb
      obtain ⟨h5, h6, h7⟩ := ih h2 (by omega) hg
      refine ⟨?_, h6, ?_⟩
      · show _ :: _ = _ :: _
        rw [h1, h5]
      · intro ops' e
        cases ops' with
        | nil =>
          rw [List.nil_append] at e
          injection e with e1 e2
          subst e2
          exact h4 e1
        | cons o os =>
          injection e with _ e2
          exact h7 os e2
    · have := run_bad (k := k) (fuel := fuel) ops (s := (go k (opProg fuel op io) s).2) (by simpa using hb)
      have hg : (go k (runProg fuel ops (go k (opProg fuel op io) s).1.2) (go k (opProg fuel op io) s).2).1.2.bits.good = true := hg
      rw [this.1] at hg
      cases hg

/-! ### What the other side may see -/

theorem written_append (a b : List Socket.Op) : Socket.Spec.written (a ++ b) = Socket.Spec.written a ++ Socket.Spec.written b := by
  induction a with
  | nil => rfl
  | cons o a ih => rw [List.cons_append, written_cons, ih, written_cons o a, List.append_assoc]

theorem run_append (k : Kernel) : ∀ (a b : List Socket.Op) (s : St), (run k (a ++ b) s).2 = (run k b (run k a s).2).2
  | [], _, _ => rfl
  | o :: a, b, s => run_append k a b (step k o s).2

theorem reads_trace (k : Kernel) {α : Type} {p : Prog α} (hp : Prog.Reads p) : ∀ s, ∃ os, Socket.Spec.written os = [] ∧ (run k os s).2 = (go k p s).2 := by
  induction hp with
  | ret a => intro s; exact ⟨[], rfl, rfl⟩
  | op o next ho _ ih =>
    intro s
    obtain ⟨os, h1, h2⟩ := ih (step k o s).1 (step k o s).2
    exact ⟨o :: os, by rw [written_reading ho, h1], h2⟩

theorem op_trace {k : Kernel} {fuel : Nat} (op : Op) (io : Io) (s : St) (h : io.bits.good = true) :
    ∃ os, Socket.Spec.written os = asked [op] ∧ (run k os s).2 = (go k (opProg fuel op io) s).2 := by
  cases op with
  | get => exact reads_trace k (reads_op fuel (op := .get) trivial io) s
  | peek => exact reads_trace k (reads_op fuel (op := .peek) trivial io) s
  | read n => exact reads_trace k (reads_op fuel (op := .read n) trivial io) s
  | getline => exact reads_trace k (reads_op fuel (op := .getline) trivial io) s
  | put c => refine ⟨[.write [c]], rfl, ?_⟩; unfold opProg; rw [if_pos h]; rfl
  | write d => refine ⟨[.write d], rfl, ?_⟩; unfold opProg; rw [if_pos h]; rfl
  | flush => refine ⟨[.flush], rfl, ?_⟩; unfold opProg; rw [if_pos h]; rfl

theorem asked_cons (op : Op) (ops : List Op) : asked (op :: ops) = asked [op] ++ asked ops := by
  cases op <;> simp [asked]

theorem run_trace {k : Kernel} {fuel : Nat} : ∀ (ops : List Op) (io : Io) (s : St),
    ∃ os, Socket.Spec.written os <+: asked ops ∧ (run k os s).2 = (go k (runProg fuel ops io) s).2 := by
  intro ops
  induction ops with
  | nil => intro io s; exact ⟨[], List.nil_prefix, rfl⟩
  | cons op ops ih =>
    intro io s
    by_cases hg : io.bits.good = true
    · obtain ⟨o1, h1, h2⟩ := op_trace (k := k) (fuel := fuel) op io s hg
      obtain ⟨o2, h3, h4⟩ := ih (go k (opProg fuel op io) s).1.2 (go k (opProg fuel op io) s).2
      refine ⟨o1 ++ o2, ?_, ?_⟩
      · rw [written_append, h1, asked_cons op ops]
        exact (List.prefix_append_right_inj _).2 h3
      · have e : go k (runProg fuel (op :: ops) io) s = go k ((opProg fuel op io).bind fun r => (runProg fuel ops r.2).bind fun q => .ret (r.1 :: q.1, q.2)) s := rfl
        rw [run_append, h2, h4, e, go_bind, go_bind]
        rfl
    · exact ⟨[], List.nil_prefix, (run_bad (op :: ops) (by simpa using hg)).2.symm⟩

/-! ### When nothing fails -/

theorem getc_connected (k : Kernel) (s : St) (h : (getc k s).1 ≠ none) : (getc k s).2.connected = s.connected := by
  unfold getc at h ⊢
  cases hr : s.rd with
  | cons c r => rfl
  | nil =>
    simp only [hr] at h ⊢
    unfold fillBuf at h ⊢
    rw [if_neg (fun e => e (by rw [hr]; rfl))] at h ⊢
    cases hv : recv k bufSize s with
    | mk r s' =>
      rw [hv] at h
      cases r with
      | none => exact absurd rfl h
      | some d =>
        obtain ⟨_, _, _, h4, h5, h6, _⟩ := recv_some hv
        cases d with
        | nil => exact absurd h6 (by decide)
        | cons c d => exact h5.trans h4.symm

theorem underflow_connected (k : Kernel) (buf : Option UInt8) (s : St) (h : (go k (underflow buf) s).1.1 ≠ none) :
    (go k (underflow buf) s).2.connected = s.connected := by
  cases buf with
  | some c => rfl
  | none => exact getc_connected k s h

theorem uflow_connected (k : Kernel) (buf : Option UInt8) (s : St) (h : (go k (uflow buf) s).1.1 ≠ none) :
    (go k (uflow buf) s).2.connected = s.connected := by
  unfold uflow at h ⊢
  rw [go_bind] at h ⊢
  exact underflow_connected k buf s h

theorem xsgetn_connected (k : Kernel) : ∀ (n : Nat) (buf : Option UInt8) (s : St), (go k (xsgetn n buf) s).1.1.length = n →
    (go k (xsgetn n buf) s).2.connected = s.connected
  | 0, _, _, _ => rfl
  | n + 1, buf, s, h => by
    unfold xsgetn at h ⊢
    rw [go_bind] at h ⊢
    have hu := uflow_connected k buf s
    cases hv : (go k (uflow buf) s).1.1 with
    | none =>
      rw [hv] at h
      exact absurd h (by simp [go, Prog.run])
    | some c =>
      rw [hv] at h
      simp only at h ⊢
      rw [go_bind] at h ⊢
      have h : (go k (xsgetn n (go k (uflow buf) s).1.2) (go k (uflow buf) s).2).1.1.length + 1 = n + 1 := h
      have := xsgetn_connected k n (go k (uflow buf) s).1.2 (go k (uflow buf) s).2 (by omega)
      exact this.trans (hu (by rw [hv]; exact fun e => by cases e))

theorem uflow_some {k : Kernel} {c : UInt8} {buf : Option UInt8} (hb : buf = some c) (s : St) : go k (uflow buf) s = ((some c, none), s) := by
  subst hb
  rfl

theorem underflow_same (k : Kernel) (buf : Option UInt8) (s : St) : (go k (underflow buf) s).1.2 = (go k (underflow buf) s).1.1 := by
  cases buf <;> rfl

theorem getlineLoop_connected (k : Kernel) : ∀ (fuel : Nat) (c : Option UInt8) (acc : Str) (s : St), (go k (getlineLoop fuel c c acc) s).1.2.1 = false →
    (go k (getlineLoop fuel c c acc) s).2.connected = s.connected
  | 0, _, _, _, h => by cases h
  | fuel + 1, c, acc, s, h => by
    unfold getlineLoop at h ⊢
    cases c with
    | none => cases h
    | some c =>
      by_cases hc : c = 10
      · simp only [if_pos hc] at h ⊢
        rw [go_bind, uflow_some rfl]
        rfl
      · simp only [if_neg hc] at h ⊢
        rw [go_bind, uflow_some rfl] at h ⊢
        simp only at h ⊢
        rw [go_bind, underflow_same] at h ⊢
        have hu := underflow_connected k none s
        cases hv : (go k (underflow none) s).1.1 with
        | none =>
          rw [hv] at h
          cases fuel <;> cases h
        | some d =>
          rw [hv] at h
          exact (getlineLoop_connected k fuel (some d) _ _ h).trans (hu (by rw [hv]; exact fun e => by cases e))

theorem op_connected {k : Kernel} {fuel : Nat} {op : Op} (ho : Reading op) {io : Io} {s : St} (hg : (go k (opProg fuel op io) s).1.2.bits.good = true) :
    (go k (opProg fuel op io) s).2.connected = s.connected := by
  unfold opProg at hg ⊢
  by_cases h : io.bits.good = true
  · rw [if_pos h] at hg ⊢
    cases op with
    | get =>
      simp only at hg ⊢
      rw [go_bind] at hg ⊢
      refine uflow_connected k io.buf s fun e => ?_
      rw [e, good_iff] at hg
      injection hg with h1
      cases h1
    | peek =>
      simp only at hg ⊢
      rw [go_bind] at hg ⊢
      refine underflow_connected k io.buf s fun e => ?_
      rw [e, good_iff] at hg
      injection hg with h1
      cases h1
    | read n =>
      simp only at hg ⊢
      rw [go_bind] at hg ⊢
      refine xsgetn_connected k n io.buf s (Decidable.byContradiction fun e => ?_)
      rw [if_pos e, good_iff] at hg
      injection hg with h1
      cases h1
    | getline =>
      simp only at hg ⊢
      rw [go_bind, go_bind, underflow_same] at hg ⊢
      cases hq : (go k (getlineLoop fuel (go k (underflow io.buf) s).1.1 (go k (underflow io.buf) s).1.1 []) (go k (underflow io.buf) s).2).1.2.1 with
      | true =>
        rw [hq, if_pos rfl, good_iff] at hg
        injection hg with h1
        cases h1
      | false =>
        have h1 := getlineLoop_connected k fuel _ [] _ hq
        refine h1.trans (underflow_connected k io.buf s fun e => ?_)
        rw [e] at hq
        cases fuel <;> cases hq
    | put c => exact ho.elim
    | write d => exact ho.elim
    | flush => exact ho.elim
  · rw [if_neg h] at hg
    have hg : ({ io.bits with fail := true } : Bits).good = true := hg
    rw [good_iff] at hg
    injection hg with _ h2
    cases h2

/-- A good stream is connected. -/
structure Sound (io : Io) (s : St) (m : Mem) : Prop extends Rel io s m where
  conn : io.bits.good = true → s.connected = true

theorem op_exact {k : Kernel} (hd : Socket.Spec.Delivers k) (ha : Socket.Spec.Accepts k) {fuel : Nat} {op : Op} {io : Io} {s : St} {m : Mem}
    (hr : Sound io s m) (hf : m.input.length < fuel) :
    (go k (opProg fuel op io) s).1.1 = (memOp op m).1 ∧ Sound (go k (opProg fuel op io) s).1.2 (go k (opProg fuel op io) s).2 (memOp op m).2 ∧
      (memOp op m).2.input.length ≤ m.input.length := by
  by_cases hgio : io.bits.good = true
  · have hgm : m.bits.good = true := by rw [hr.bits]; exact hgio
    have hc := hr.conn hgio
    by_cases ho : Reading op
    · obtain ⟨t, h1, h2⟩ := Prog.run_socket k (reads_op fuel ho io) s
      have hop := Prog.run_socket_open k hd (reads_op fuel ho io) s (fun h => by rw [hc] at h; cases h)
      have hfr := reads_frame k (reads_op fuel ho io) s
      obtain ⟨_, h4⟩ := h2 ((go k (opProg fuel op io) s).2.rd ++ (go k (opProg fuel op io) s).2.incoming) ⟨_, rfl, List.prefix_refl _, hop⟩
      rw [← h1] at h4
      obtain ⟨b1, p1, e1, e2, e3, e4⟩ := flat_op (fuel := fuel) ho io (s.rd ++ s.incoming) m.output (by rw [hr.input]; exact hf)
      have hm : (⟨io.bits, all io.buf (s.rd ++ s.incoming), m.output⟩ : Mem) = m := by rw [hr.input, ← hr.bits]
      rw [hm] at e1 e2 e3
      rw [e1] at h4
      have e5 := (Prod.mk.inj h4).1.symm
      have e6 := (Prod.mk.inj h4).2
      have e5 : (go k (opProg fuel op io) s).1 = ((memOp op m).1, ⟨(memOp op m).2.bits, b1⟩) := e5
      refine ⟨by rw [e5], ⟨⟨by rw [e5], ?_, ?_, ?_⟩, ?_⟩, ?_⟩
      · rw [e5, ← e2, e6]
      · rw [e3, hfr.1, hfr.2.1]
        exact hr.output
      · rw [hfr.1]
        exact hr.room
      · intro hg
        exact (op_connected ho hg).trans hc
      · rw [← e2, ← hr.input]
        exact e4
    · have key : (go k (opProg fuel op io) s).1.2.bits.good = true ∧ (go k (opProg fuel op io) s).2.connected = true := by
        unfold opProg
        rw [if_pos hgio]
        cases op with
        | get => exact absurd trivial ho
        | peek => exact absurd trivial ho
        | read n => exact absurd trivial ho
        | getline => exact absurd trivial ho
        | put c =>
          have h1 := step_accepts k ha (.write [c]) trivial s hc
          have h2 : (step k (.write [c]) s).1 = .int 1 := (step_output k (.write [c]) s hr.room).2.2.2.2.2 h1
          refine ⟨?_, h1⟩
          show (if (match (step k (.write [c]) s).1 with | .int n => if n < 0 then false else decide (n ≠ 0) | _ => false) = true then io.bits else _).good = true
          rw [h2]
          exact hgio
        | write d =>
          have h1 := step_accepts k ha (.write d) trivial s hc
          have h2 : (step k (.write d) s).1 = .int d.length := (step_output k (.write d) s hr.room).2.2.2.2.2 h1
          refine ⟨?_, h1⟩
          show (if (match (step k (.write d) s).1 with | .int n => if n < 0 then 0 else n.toNat | _ => 0) ≠ d.length then _ else io.bits).good = true
          rw [h2]
          simp only [if_neg (Int.not_lt.2 (Int.natCast_nonneg d.length)), Int.toNat_natCast, ne_eq, not_true_eq_false, if_false]
          exact hgio
        | flush =>
          have h1 := step_accepts k ha .flush trivial s hc
          have h2 : (step k .flush s).1 = .int (-1) := (step_output k .flush s hr.room).2.2.2.2.2 h1
          refine ⟨?_, h1⟩
          show (if (match (step k .flush s).1 with | .int n => if n < 0 then (0 : Int) else -1 | _ => -1) = -1 then _ else io.bits).good = true
          rw [h2]
          exact hgio
      obtain ⟨h1, h2, h3, _⟩ := op_good hr.toRel hf key.1
      exact ⟨h1, ⟨h2, fun _ => key.2⟩, h3⟩
  · have hgm : ¬ m.bits.good = true := by rw [hr.bits]; exact hgio
    rw [op_bad (by simpa using hgio)]
    unfold memOp
    rw [if_neg hgm]
    refine ⟨rfl, ⟨⟨?_, hr.input, hr.output, hr.room⟩, fun h => ?_⟩, Nat.le_refl _⟩
    · show ({ m.bits with fail := true } : Bits) = { io.bits with fail := true }
      rw [hr.bits]
    · have h : ({ io.bits with fail := true } : Bits).good = true := h
      rw [good_iff] at h
      injection h with _ h2
      cases h2

theorem run_exact {k : Kernel} (hd : Socket.Spec.Delivers k) (ha : Socket.Spec.Accepts k) {fuel : Nat} : ∀ (ops : List Op) {io : Io} {s : St} {m : Mem},
    Sound io s m → m.input.length < fuel →
    (go k (runProg fuel ops io) s).1.1 = (memRun ops m).1 ∧ Sound (go k (runProg fuel ops io) s).1.2 (go k (runProg fuel ops io) s).2 (memRun ops m).2 := by
  intro ops
  induction ops with
  | nil => intro io s m hr _; exact ⟨rfl, hr⟩
  | cons op ops ih =>
    intro io s m hr hf
    obtain ⟨h1, h2, h3⟩ := op_exact hd ha (op := op) hr hf
    obtain ⟨h4, h5⟩ := ih h2 (by omega)
    unfold runProg
    rw [go_bind, go_bind]
    refine ⟨?_, h5⟩
    show _ :: _ = _ :: _
    rw [h1, h4]

theorem sound_fresh (incoming : Str) : Sound {} (Socket.Spec.fresh incoming) ⟨{}, incoming, []⟩ := ⟨⟨rfl, rfl, rfl, (by decide : 0 < bufSize)⟩, fun _ => rfl⟩

theorem stream_run (k : Kernel) (fuel : Nat) : ∀ (ops : List Op) (io : Io) (s : St),
    Stream.run k fuel ops ⟨io, .live s⟩ = some ((go k (runProg fuel ops io) s).1.1, ⟨(go k (runProg fuel ops io) s).1.2, .live (go k (runProg fuel ops io) s).2⟩) := by
  intro ops
  induction ops with
  | nil => intro io s; rfl
  | cons op ops ih =>
    intro io s
    have e : go k (runProg fuel (op :: ops) io) s = go k ((opProg fuel op io).bind fun r => (runProg fuel ops r.2).bind fun q => .ret (r.1 :: q.1, q.2)) s := rfl
    show (Stream.run k fuel ops ⟨(go k (opProg fuel op io) s).1.2, .live (go k (opProg fuel op io) s).2⟩).map _ = _
    rw [ih, e, go_bind, go_bind]
    rfl

theorem release_spec (k : Kernel) (s : St) : (release k s).wire = (flush k s).2.wire := rfl

end Verif.SockStream.Lemmas
