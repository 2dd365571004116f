import Verif.Socket.Lemmas
/-! Programs that use a socket: what they do next depends on what the calls gave them. A program can be run on the socket of
`Verif.Socket.Model` with any kernel, or on a plain byte stream; the two agree. -/

namespace Verif.Socket

/-- A program with calls on one socket. -/
inductive Prog (α : Type) where
  | ret (a : α)
  | op (o : Op) (next : Res → Prog α)

namespace Prog

/-- One program after another. -/
def bind {α β : Type} : Prog α → (α → Prog β) → Prog β
  | .ret a, f => f a
  | .op o next, f => .op o fun r => (next r).bind f

instance : Monad Prog where
  pure := .ret
  bind := bind

/-- The call `getc`. -/
def getc : Prog (Option UInt8) := .op .getc fun r => .ret (match r with | .char c => c | _ => none)

/-- The call `getline`. -/
def getline (limit : Int) : Prog (Option Str) := .op (.getline limit) fun r => .ret (match r with | .line l => l | _ => none)

/-- The call `read`. -/
def read (size : Nat) : Prog Str := .op (.read size) fun r => .ret (match r with | .bytes d => d | _ => [])

/-- Run a program where the calls mean `h`. -/
def run {α σ : Type} (h : Op → σ → Res × σ) : Prog α → σ → α × σ
  | .ret a, s => (a, s)
  | .op o next, s => (next (h o s).1).run h (h o s).2

/-- Only reading calls. -/
inductive Reads {α : Type} : Prog α → Prop where
  | ret (a : α) : Reads (.ret a)
  | op (o : Op) (next : Res → Prog α) : Spec.Reading o → (∀ r, Reads (next r)) → Reads (.op o next)

/-- Run a program on a plain byte stream. -/
abbrev flat {α : Type} (p : Prog α) (s : Str) : α × Str := p.run Spec.readStep s

theorem run_ret {α σ : Type} (h : Op → σ → Res × σ) (a : α) (s : σ) : (Prog.ret a).run h s = (a, s) := rfl

theorem run_pure {α σ : Type} (h : Op → σ → Res × σ) (a : α) (s : σ) : (pure a : Prog α).run h s = (a, s) := rfl

theorem run_bind' {α β σ : Type} (h : Op → σ → Res × σ) (p : Prog α) (f : α → Prog β) :
    ∀ s, (p.bind f).run h s = (f (p.run h s).1).run h (p.run h s).2 := by
  induction p with
  | ret a => intro s; rfl
  | op o next ih => intro s; exact ih _ _

theorem run_bind {α β σ : Type} (h : Op → σ → Res × σ) (p : Prog α) (f : α → Prog β) (s : σ) :
    (p >>= f).run h s = (f (p.run h s).1).run h (p.run h s).2 := run_bind' h p f s

theorem flat_getc (s : Str) : getc.flat s = (s.head?, s.tail) := rfl

theorem flat_getline (n : Int) (s : Str) : (getline n).flat s = Spec.nextLine (if n < 0 then none else some n.toNat) s := by
  simp only [flat, getline, run, Spec.readStep]

theorem flat_read (n : Nat) (s : Str) : (read n).flat s = (s.take n, s.drop n) := rfl

theorem reads_pure {α : Type} (a : α) : Reads (pure a : Prog α) := .ret a

theorem reads_bind {α β : Type} {p : Prog α} {f : α → Prog β} (hp : Reads p) (hf : ∀ a, Reads (f a)) : Reads (p >>= f) := by
  induction hp with
  | ret a => exact hf a
  | op o next ho _ ih => exact .op o _ ho ih

theorem reads_getc : Reads getc := .op _ _ trivial fun _ => .ret _

theorem reads_getline (n : Int) : Reads (getline n) := .op _ _ trivial fun _ => .ret _

theorem reads_read (n : Nat) : Reads (read n) := .op _ _ trivial fun _ => .ret _

open Lemmas in
/-- On the socket, whatever the kernel does, the program does what it would do on some beginning of the stream. -/
theorem run_socket (k : Kernel) {α : Type} {p : Prog α} (hp : Reads p) :
    ∀ s, ∃ t, s.rd ++ s.incoming = t ++ ((p.run (step k) s).2.rd ++ (p.run (step k) s).2.incoming)
      ∧ ∀ u, Allowed (p.run (step k) s).2 u → Allowed s (t ++ u) ∧ p.flat (t ++ u) = ((p.run (step k) s).1, u) := by
  induction hp with
  | ret a => intro s; exact ⟨[], rfl, fun u hu => ⟨hu, rfl⟩⟩
  | op o next ho _ ih =>
    intro s
    obtain ⟨_, _, t, h1, h2⟩ := step_reading k o ho s
    obtain ⟨t', h3, h4⟩ := ih (step k o s).1 (step k o s).2
    refine ⟨t ++ t', ?_, fun u hu => ?_⟩
    · rw [h1, h3, List.append_assoc]; rfl
    · obtain ⟨h5, h6⟩ := h4 u hu
      obtain ⟨h7, h8⟩ := h2 _ h5
      rw [List.append_assoc]
      refine ⟨h7, ?_⟩
      show (next (Spec.readStep o (t ++ (t' ++ u))).1).flat (Spec.readStep o (t ++ (t' ++ u))).2 = _
      rw [h8]
      exact h6

open Lemmas in
/-- The state of the connection after a program, with a kernel that delivers. -/
theorem run_socket_open (k : Kernel) (hk : Spec.Delivers k) {α : Type} {p : Prog α} (hp : Reads p) :
    ∀ s : St, (s.connected = false → s.incoming = []) →
      ((p.run (step k) s).2.connected = false → (p.run (step k) s).2.incoming = []) := by
  induction hp with
  | ret a => intro s h; exact h
  | op o next ho _ ih =>
    intro s h
    exact ih _ _ ((step_reading k o ho s).2.1 hk h)

/-- With a kernel that delivers, however it cuts the stream, a reading program gives on the socket what it gives on the stream, and leaves
the same bytes. -/
theorem socket_eq_flat (k : Kernel) (hk : Spec.Delivers k) {α : Type} {p : Prog α} (hp : Reads p) (incoming : Str) :
    (p.run (step k) (Spec.fresh incoming)).1 = (p.flat incoming).1
      ∧ (p.run (step k) (Spec.fresh incoming)).2.rd ++ (p.run (step k) (Spec.fresh incoming)).2.incoming = (p.flat incoming).2 := by
  obtain ⟨t, h1, h2⟩ := run_socket k hp (Spec.fresh incoming)
  have h3 := run_socket_open k hk hp (Spec.fresh incoming) (fun h => by simp [Spec.fresh] at h)
  obtain ⟨_, h4⟩ := h2 _ ⟨_, rfl, List.prefix_refl _, h3⟩
  rw [← h1] at h4
  simp only [Spec.fresh, List.nil_append] at h4 ⊢
  rw [h4]
  exact ⟨rfl, rfl⟩

/-- With any kernel it gives what it gives on a beginning of the stream. -/
theorem socket_prefix (k : Kernel) {α : Type} {p : Prog α} (hp : Reads p) (incoming : Str) :
    ∃ q, q <+: incoming ∧ (p.run (step k) (Spec.fresh incoming)).1 = (p.flat q).1 := by
  obtain ⟨t, h1, h2⟩ := run_socket k hp (Spec.fresh incoming)
  obtain ⟨⟨q, h3, h4, _⟩, h5⟩ := h2 _ ⟨[], (by simp : (p.run (step k) (Spec.fresh incoming)).2.rd = _), List.nil_prefix, fun _ => rfl⟩
  refine ⟨_, ?_, (congrArg Prod.fst h5).symm⟩
  rw [h3]
  exact h4

end Prog

end Verif.Socket
