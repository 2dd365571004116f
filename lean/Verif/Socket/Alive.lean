import Verif.Socket.Prog
import Mathlib.Tactic.ByContra
/-! A program that does not read beyond what was sent leaves the connection open. -/

namespace Verif.Socket
open Spec Lemmas

/-- The call gets what it asks for without coming to the end of the stream. -/
def Covered : Op → Str → Prop
  | .getc, x => x ≠ []
  | .read n, x => n ≤ x.length
  | .getline n, x => 10 ∈ x ∨ (0 ≤ n ∧ n.toNat ≤ x.length)
  | _, _ => True

theorem getc_alive {k : Kernel} (hk : Delivers k) {s : St} (hc : s.connected = true) (h : s.rd ++ s.incoming ≠ []) :
    (getc k s).2.connected = true ∧ ∃ c, (getc k s).1 = some c ∧ s.rd ++ s.incoming = c :: ((getc k s).2.rd ++ (getc k s).2.incoming) := by
  have h3 := (getc_spec k s).2.2
  have hconn : (getc k s).2.connected = true ∧ (getc k s).1 ≠ none := by
    unfold getc
    cases hr : s.rd with
    | cons c rd => exact ⟨hc, by simp⟩
    | nil =>
      dsimp only
      unfold fillBuf
      rw [if_neg (by simp [hr])]
      rcases hq : recv k bufSize s with ⟨_ | d, s'⟩
      · have := recv_delivers hk (by decide) hc hq
        rw [hr, this] at h
        exact absurd rfl h
      · obtain ⟨_, _, _, _, h5, h6, _⟩ := recv_some hq
        dsimp only
        cases d with
        | nil => simp at h6
        | cons c d => exact ⟨h5, by simp⟩
  refine ⟨hconn.1, ?_⟩
  rcases h3 with ⟨c, h4, h5, _⟩ | ⟨h4, _⟩
  · exact ⟨c, h4, h5⟩
  · exact absurd h4 hconn.2

theorem readLoop_alive {k : Kernel} (hk : Delivers k) : ∀ fuel n s, s.connected = true → n ≤ s.incoming.length →
    (readLoop k fuel n s).2.connected = true := by
  intro fuel
  induction fuel with
  | zero => intro n s hc _; exact hc
  | succ fuel ih =>
    intro n s hc h
    unfold readLoop
    split
    · exact hc
    · rename_i hn
      rcases hq : recv k n s with ⟨_ | d, s'⟩
      · have := recv_delivers hk (by omega) hc hq
        rw [this] at h
        simp at h
        exact absurd h hn
      · obtain ⟨_, _, h3, _, h5, h6, h7⟩ := recv_some hq
        refine ih _ s' h5 ?_
        rw [h3, List.length_append] at h
        omega

theorem getlineLoop_alive {k : Kernel} (hk : Delivers k) : ∀ fuel lim acc s, s.connected = true →
    (10 ∈ s.rd ++ s.incoming ∨ ∃ n, lim = some n ∧ n ≤ (s.rd ++ s.incoming).length) →
    (getlineLoop k fuel lim acc s).2.connected = true := by
  intro fuel
  induction fuel with
  | zero => intro lim acc s hc _; exact hc
  | succ fuel ih =>
    intro lim acc s hc h
    unfold getlineLoop
    split
    · exact hc
    · rename_i hl
      have hne : s.rd ++ s.incoming ≠ [] := by
        intro he
        rw [he] at h
        rcases h with h | ⟨n, h1, h2⟩
        · simp at h
        · simp at h2
          exact hl (h2 ▸ h1)
      obtain ⟨g1, c, g2, g3⟩ := getc_alive hk hc hne
      rcases hq : getc k s with ⟨r, s'⟩
      rw [hq] at g1 g2 g3
      dsimp only at g1 g2 g3 ⊢
      subst g2
      dsimp only
      split
      · exact g1
      · rename_i hc10
        refine ih _ _ s' g1 ?_
        rw [g3] at h
        rcases h with h | ⟨n, h1, h2⟩
        · left
          rcases List.mem_cons.1 h with h | h
          · exact absurd h.symm hc10
          · exact h
        · right
          refine ⟨n - 1, by rw [h1]; rfl, ?_⟩
          rw [List.length_cons] at h2
          omega

/-- A call that gets what it asks for leaves the connection open. -/
theorem step_alive {k : Kernel} (hk : Delivers k) {o : Op} (ho : Reading o) {s : St} (hc : s.connected = true)
    (h : Covered o (s.rd ++ s.incoming)) : (step k o s).2.connected = true := by
  cases o with
  | getc => exact (getc_alive hk hc h).1
  | read n =>
    show (read k n s).2.connected = true
    have h : n ≤ (s.rd ++ s.incoming).length := h
    rw [List.length_append] at h
    unfold read
    split
    · split
      · exact hc
      · exact readLoop_alive hk _ _ { s with rd := [] } hc (by show _ ≤ s.incoming.length; omega)
    · exact readLoop_alive hk _ _ s hc (by omega)
  | getline n =>
    show (getlineLoop k (left s + 1) (if n < 0 then none else some n.toNat) [] s).2.connected = true
    refine getlineLoop_alive hk _ _ _ s hc ?_
    rcases h with h | ⟨h1, h2⟩
    · exact .inl h
    · exact .inr ⟨n.toNat, by rw [if_neg (by omega)], h2⟩
  | write _ => exact ho.elim
  | puts _ => exact ho.elim
  | flush => exact ho.elim

/-- What a reading call leaves is an end of the stream. -/
theorem readStep_suffix (o : Op) (x : Str) : (readStep o x).2 <:+ x := by
  cases o with
  | getc => exact List.tail_suffix x
  | read n => exact List.drop_suffix n x
  | getline n =>
    show (nextLine (if n < 0 then none else some n.toNat) x).2 <:+ x
    generalize (if n < 0 then none else some n.toNat) = lim
    unfold nextLine
    dsimp only
    split
    · exact List.drop_suffix _ _
    · split
      · exact List.drop_suffix _ _
      · exact List.nil_suffix
  | write _ => exact List.suffix_refl x
  | puts _ => exact List.suffix_refl x
  | flush => exact List.suffix_refl x

theorem takeWhile_append_mem {x u : Str} (h : 10 ∈ x) : (x ++ u).takeWhile (· ≠ 10) = x.takeWhile (· ≠ 10) := by
  induction x with
  | nil => simp at h
  | cons c x ih =>
    by_cases hc : c = 10
    · subst hc; simp
    · have : 10 ∈ x := by
        rcases List.mem_cons.1 h with h | h
        · exact absurd h.symm hc
        · exact h
      rw [List.cons_append, List.takeWhile_cons_of_pos (by simpa using hc), List.takeWhile_cons_of_pos (by simpa using hc), ih this]

theorem takeWhile_le {x : Str} : (x.takeWhile (· ≠ 10)).length ≤ x.length := (List.takeWhile_prefix _).length_le

theorem takeWhile_lt {x : Str} (h : 10 ∈ x) : (x.takeWhile (· ≠ 10)).length < x.length := by
  induction x with
  | nil => simp at h
  | cons c x ih =>
    by_cases hc : c = 10
    · subst hc; simp
    · have : 10 ∈ x := by
        rcases List.mem_cons.1 h with h | h
        · exact absurd h.symm hc
        · exact h
      rw [List.takeWhile_cons_of_pos (by simpa using hc), List.length_cons, List.length_cons]
      have := ih this
      omega

theorem takeWhile_all {x : Str} (u : Str) (h : 10 ∉ x) : (x ++ u).takeWhile (· ≠ 10) = x ++ u.takeWhile (· ≠ 10) := by
  induction x with
  | nil => rfl
  | cons c x ih =>
    rw [List.mem_cons, not_or] at h
    rw [List.cons_append, List.takeWhile_cons_of_pos (by simpa using Ne.symm h.1), ih h.2, List.cons_append]

theorem drop_cancel {x y u : Str} {n : Nat} (hu : u ≠ []) (h : (x ++ u).drop n = y ++ u) : n ≤ x.length ∧ x.drop n = y := by
  have hpos : 0 < u.length := List.length_pos_iff.2 hu
  have hl := congrArg List.length h
  rw [List.length_drop, List.length_append, List.length_append] at hl
  have hn : n ≤ x.length := by omega
  refine ⟨hn, ?_⟩
  rw [List.drop_append_of_le_length hn] at h
  exact List.append_cancel_right h

/-- What a call gives does not depend on what it leaves, if it leaves something. -/
theorem readStep_cancel {o : Op} (ho : Reading o) {x y u : Str} {r : Res} (hu : u ≠ []) (h : readStep o (x ++ u) = (r, y ++ u)) :
    readStep o x = (r, y) ∧ Covered o x := by
  cases o with
  | getc =>
    obtain ⟨h1, h2⟩ := Prod.mk.inj h
    cases x with
    | nil =>
      have hl := congrArg List.length h2
      have hpos : 0 < u.length := List.length_pos_iff.2 hu
      simp at hl
      omega
    | cons c x =>
      simp at h1 h2
      subst h1 h2
      exact ⟨rfl, by simp [Covered]⟩
  | read n =>
    obtain ⟨h1, h2⟩ := Prod.mk.inj h
    obtain ⟨h3, h4⟩ := drop_cancel hu h2
    rw [List.take_append_of_le_length h3] at h1
    subst h1 h4
    exact ⟨rfl, h3⟩
  | getline n =>
    have hs : ∀ x, readStep (.getline n) x
      = (.line (nextLine (if n < 0 then none else some n.toNat) x).1, (nextLine (if n < 0 then none else some n.toNat) x).2) := fun _ => rfl
    rw [hs] at h ⊢
    obtain ⟨h1, h2⟩ := Prod.mk.inj h
    have hlim : ∀ m, (if n < 0 then none else some n.toNat) = some m → 0 ≤ n ∧ n.toNat = m := by
      intro m hm
      split at hm
      · simp at hm
      · exact ⟨by omega, by simpa using hm⟩
    generalize (if n < 0 then none else some n.toNat) = lim at h1 h2 hlim ⊢
    unfold nextLine at h1 h2
    dsimp only at h1 h2
    split at h1
    · rename_i hc
      obtain ⟨m, rfl, hm⟩ := hc
      rw [if_pos ⟨m, rfl, hm⟩] at h2
      dsimp only [Option.getD] at h1 h2
      obtain ⟨h3, h4⟩ := drop_cancel hu h2
      rw [List.take_append_of_le_length h3] at h1
      have hm' : m ≤ (x.takeWhile (· ≠ 10)).length := by
        by_cases h10 : 10 ∈ x
        · rw [takeWhile_append_mem h10] at hm; exact hm
        · have := takeWhile_all [] h10
          simp only [List.append_nil, List.takeWhile_nil] at this
          rw [this]; exact h3
      obtain ⟨g1, g2⟩ := hlim m rfl
      refine ⟨?_, .inr ⟨g1, by omega⟩⟩
      unfold nextLine
      dsimp only
      rw [if_pos ⟨m, rfl, hm'⟩]
      dsimp only [Option.getD]
      rw [← h1, h4]
    · rename_i hc
      rw [if_neg hc] at h2
      split at h1
      · rename_i h10
        rw [if_pos h10] at h2
        obtain ⟨h3, h4⟩ := drop_cancel hu h2
        have hx : 10 ∈ x := by
          by_contra hx
          rw [takeWhile_all _ hx, List.length_append] at h3
          omega
        rw [takeWhile_append_mem hx] at h1 h4 hc
        refine ⟨?_, .inl hx⟩
        unfold nextLine
        dsimp only
        rw [if_neg hc, if_pos hx]
        dsimp only
        rw [← h1, h4]
      · rename_i h10
        rw [if_neg h10] at h2
        dsimp only at h2
        exact absurd (List.append_eq_nil_iff.1 h2.symm).2 hu
  | write _ => exact ho.elim
  | puts _ => exact ho.elim
  | flush => exact ho.elim

namespace Prog

theorem flat_suffix {α : Type} {p : Prog α} (hp : Reads p) : ∀ x, (p.flat x).2 <:+ x := by
  induction hp with
  | ret a => intro x; exact List.suffix_refl x
  | op o next _ _ ih => intro x; exact (ih _ _).trans (readStep_suffix o x)

/-- A program that leaves something of a longer stream does the same on the socket with the shorter one, and leaves the connection open and the
output as it was. -/
theorem run_alive {k : Kernel} (hk : Delivers k) {α : Type} {p : Prog α} (hp : Reads p) :
    ∀ (s : St) (y u : Str) (a : α), u ≠ [] → s.connected = true → p.flat (s.rd ++ s.incoming ++ u) = (a, y ++ u) →
      (p.run (step k) s).1 = a ∧ (p.run (step k) s).2.connected = true ∧ (p.run (step k) s).2.wr = s.wr ∧ (p.run (step k) s).2.wire = s.wire
        ∧ (p.run (step k) s).2.rd ++ (p.run (step k) s).2.incoming = y := by
  induction hp with
  | ret a =>
    intro s y u b _ hc h
    obtain ⟨h1, h2⟩ := Prod.mk.inj h
    exact ⟨h1, hc, rfl, rfl, List.append_cancel_right h2⟩
  | op o next ho hr ih =>
    intro s y u a hu hc h
    rcases hz : readStep o (s.rd ++ s.incoming ++ u) with ⟨r, z⟩
    have h : (next r).flat z = (a, y ++ u) := by
      have : (Prog.op o next).flat (s.rd ++ s.incoming ++ u)
        = (next (readStep o (s.rd ++ s.incoming ++ u)).1).flat (readStep o (s.rd ++ s.incoming ++ u)).2 := rfl
      rw [this, hz] at h
      exact h
    obtain ⟨w, hw⟩ : ∃ w, z = w ++ u := by
      obtain ⟨v, hv⟩ := flat_suffix (hr r) z
      rw [h] at hv
      exact ⟨v ++ y, by rw [← hv, List.append_assoc]⟩
    subst hw
    obtain ⟨g1, g2⟩ := readStep_cancel ho hu hz
    have g3 := step_alive hk ho hc g2
    obtain ⟨⟨f1, f2, _⟩, _, t, f4, f5⟩ := step_reading k o ho s
    obtain ⟨_, f6⟩ := f5 _ ⟨_, rfl, List.prefix_refl _, fun h => by rw [g3] at h; simp at h⟩
    rw [← f4, g1] at f6
    obtain ⟨f7, f8⟩ := Prod.mk.inj f6
    obtain ⟨e1, e2, e3, e4, e5⟩ := ih r (step k o s).2 y u a hu g3 (by rw [← f8]; exact h)
    have hrun : (Prog.op o next).run (step k) s = (next r).run (step k) (step k o s).2 := by
      rw [f7]; rfl
    rw [hrun]
    exact ⟨e1, e2, e3.trans f1, e4.trans f2, e5⟩

end Prog

end Verif.Socket
