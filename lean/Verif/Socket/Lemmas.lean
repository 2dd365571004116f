import Verif.Socket.Spec
/-! Lemmas about the stream socket. -/

namespace Verif.Socket.Lemmas
open Verif.Socket Verif.Socket.Spec

/-! ### Sending -/

/-- What sending leaves alone. -/
def SendFrame (s s' : St) : Prop :=
  s'.rd = s.rd ∧ s'.incoming = s.incoming ∧ (s'.connected = true → s.connected = true)

theorem SendFrame.refl (s : St) : SendFrame s s := ⟨rfl, rfl, id⟩

theorem SendFrame.trans {a b c : St} (h : SendFrame a b) (h' : SendFrame b c) : SendFrame a c :=
  ⟨h'.1.trans h.1, h'.2.1.trans h.2.1, fun x => h.2.2 (h'.2.2 x)⟩

theorem send_spec (k : Kernel) (dat : Str) (s : St) :
    SendFrame s (send k dat s).2 ∧ (send k dat s).2.wr = s.wr
      ∧ ((send k dat s).1 ≤ 0 → (send k dat s).2.connected = false ∧ (send k dat s).2.wire = s.wire)
      ∧ (0 < (send k dat s).1 → (send k dat s).1 ≤ dat.length ∧ s.connected = true ∧ (send k dat s).2.connected = true
          ∧ (send k dat s).2.wire = s.wire ++ dat.take (send k dat s).1.toNat) := by
  unfold send
  split
  · rename_i h
    exact ⟨SendFrame.refl s, rfl, fun _ => ⟨by simpa using h, rfl⟩, fun h => absurd h (by simp)⟩
  · rename_i h
    dsimp only
    split
    · rename_i h'
      exact ⟨⟨rfl, rfl, by simp [close]⟩, rfl, fun _ => ⟨rfl, rfl⟩, fun h'' => by dsimp only at h''; omega⟩
    · rename_i h'
      refine ⟨⟨rfl, rfl, fun _ => by simpa using h⟩, rfl, fun h'' => absurd h'' h', fun _ => ⟨?_, by simpa using h, by simpa using h, rfl⟩⟩
      dsimp only
      omega

theorem sendLoop_spec (k : Kernel) : ∀ fuel dat s, dat.length ≤ fuel →
    SendFrame s (sendLoop k fuel dat s).2 ∧ (sendLoop k fuel dat s).2.wr = s.wr
      ∧ (sendLoop k fuel dat s).1 ≤ dat.length
      ∧ (sendLoop k fuel dat s).2.wire = s.wire ++ dat.take (sendLoop k fuel dat s).1
      ∧ ((sendLoop k fuel dat s).1 < dat.length → (sendLoop k fuel dat s).2.connected = false)
      ∧ ((sendLoop k fuel dat s).1 = dat.length → (sendLoop k fuel dat s).2.connected = s.connected)
      ∧ (s.connected = false → (sendLoop k fuel dat s).1 = 0) := by
  intro fuel
  induction fuel with
  | zero =>
    intro dat s h
    have : dat = [] := List.length_eq_zero_iff.1 (by omega)
    subst this
    simp [sendLoop, SendFrame.refl]
  | succ fuel ih =>
    intro dat s h
    unfold sendLoop
    split
    · rename_i hd
      subst hd
      simp [SendFrame.refl]
    · rename_i hd
      have hpos : 0 < dat.length := List.length_pos_iff.2 hd
      obtain ⟨h1, h2, h3, h4⟩ := send_spec k dat s
      rcases hs : send k dat s with ⟨n, s1⟩
      rw [hs] at h1 h2 h3 h4
      dsimp only at h1 h2 h3 h4 ⊢
      split
      · rename_i hn
        obtain ⟨h5, h6⟩ := h3 hn
        refine ⟨h1, h2, by simp, by simp [h6], fun _ => h5, ?_, fun _ => rfl⟩
        dsimp only
        omega
      · rename_i hn
        obtain ⟨h5, h6, h7, h8⟩ := h4 (by omega)
        obtain ⟨i1, i2, i3, i4, i5, i6, i7⟩ := ih (dat.drop n.toNat) s1 (by simp; omega)
        rcases hl : sendLoop k fuel (dat.drop n.toNat) s1 with ⟨m, s2⟩
        rw [hl] at i1 i2 i3 i4 i5 i6 i7
        dsimp only at i1 i2 i3 i4 i5 i6 i7 ⊢
        rw [List.length_drop] at i3 i5 i6
        refine ⟨h1.trans i1, i2.trans h2, by omega, ?_, fun h => i5 (by omega), fun h => ?_, fun h => ?_⟩
        · rw [i4, h8, List.append_assoc, ← List.take_add]
        · rw [i6 (by omega), h7, h6]
        · rw [h6] at h
          exact absurd h (by simp)

theorem sendAll_spec (k : Kernel) (dat : Str) (s : St) :
    SendFrame s (sendAll k dat s).2 ∧ (sendAll k dat s).2.wr = s.wr
      ∧ (sendAll k dat s).1 ≤ dat.length
      ∧ (sendAll k dat s).2.wire = s.wire ++ dat.take (sendAll k dat s).1
      ∧ ((sendAll k dat s).1 < dat.length → (sendAll k dat s).2.connected = false)
      ∧ ((sendAll k dat s).1 = dat.length → (sendAll k dat s).2.connected = s.connected)
      ∧ (s.connected = false → (sendAll k dat s).1 = 0) :=
  sendLoop_spec k _ dat s (Nat.le_refl _)

/-- With a kernel that accepts, everything is sent. -/
theorem sendLoop_accepts (k : Kernel) (hk : Accepts k) : ∀ fuel dat s, dat.length ≤ fuel → s.connected = true →
    (sendLoop k fuel dat s).1 = dat.length := by
  intro fuel
  induction fuel with
  | zero => intro dat s h _; simp [sendLoop]; omega
  | succ fuel ih =>
    intro dat s h hc
    unfold sendLoop
    split
    · rename_i hd; subst hd; rfl
    · rename_i hd
      have hpos : 0 < dat.length := List.length_pos_iff.2 hd
      have hp : 0 < (send k dat s).1 := by
        unfold send
        have := hk s.calls
        rw [if_neg (by simp [hc])]
        dsimp only
        rw [if_neg (by omega)]
        dsimp only
        omega
      obtain ⟨_, _, _, h4⟩ := send_spec k dat s
      rcases hs : send k dat s with ⟨n, s1⟩
      rw [hs] at h4 hp
      obtain ⟨h5, h6, h7, h8⟩ := h4 hp
      dsimp only at h5 h6 h7 h8 hp ⊢
      rw [if_neg (by omega)]
      have := ih (dat.drop n.toNat) s1 (by simp; omega) h7
      dsimp only
      rw [this, List.length_drop]
      omega

/-- `flush`: the number of bytes sent, and what follows from it. -/
theorem flush_spec (k : Kernel) (s : St) :
    ∃ n, n ≤ s.wr.length ∧ SendFrame s (flush k s).2 ∧ (flush k s).2.wr = []
      ∧ (flush k s).2.wire = s.wire ++ s.wr.take n
      ∧ (n = s.wr.length → (flush k s).1 = -1 ∧ (flush k s).2.connected = s.connected)
      ∧ (n < s.wr.length → (flush k s).1 = n ∧ (flush k s).2.connected = false)
      ∧ (s.connected = false → n = 0) := by
  obtain ⟨h1, h2, h3, h4, h5, h6, h7⟩ := sendAll_spec k s.wr s
  unfold flush
  split
  · refine ⟨(sendAll k s.wr s).1, h3, h1, rfl, h4, fun h => ⟨?_, h6 h⟩, fun h => ⟨?_, h5 h⟩, h7⟩
    · dsimp only; rw [if_pos h]
    · dsimp only; rw [if_neg (by omega)]
  · rename_i h
    refine ⟨0, by omega, SendFrame.refl s, List.length_eq_zero_iff.1 (by dsimp only; omega), by simp, fun _ => ⟨rfl, rfl⟩, fun h' => absurd h' h, fun _ => rfl⟩

/-- `writeRest`: the number of bytes of the argument that are sent (`n`) when something fails, and the whole of it else. -/
theorem writeRest_spec (k : Kernel) (done : Nat) (dat : Str) (s : St) (hw : s.wr = [] ∨ dat = []) :
    SendFrame s (writeRest k done dat s).2
      ∧ (s.wr.length < bufSize → (writeRest k done dat s).2.wr.length < bufSize)
      ∧ ∃ n, n ≤ dat.length ∧ (writeRest k done dat s).1 = (done + n : Nat)
        ∧ (n = dat.length → (writeRest k done dat s).2.wire ++ (writeRest k done dat s).2.wr = s.wire ++ s.wr ++ dat
            ∧ (writeRest k done dat s).2.connected = s.connected
            ∧ s.wire <+: (writeRest k done dat s).2.wire)
        ∧ (n < dat.length → (writeRest k done dat s).2.wire = s.wire ++ dat.take n
            ∧ (writeRest k done dat s).2.connected = false)
        ∧ (s.connected = false → (writeRest k done dat s).2.wire = s.wire) := by
  obtain ⟨h1, h2, h3, h4, h5, h6, h7⟩ := sendAll_spec k dat s
  unfold writeRest
  split
  · rename_i hb
    have hd : dat ≠ [] := by
      intro h
      subst h
      simp [bufSize] at hb
    have hwr : s.wr = [] := hw.resolve_right hd
    refine ⟨h1, fun h => by dsimp only; rw [h2]; exact h, (sendAll k dat s).1, h3, rfl, fun h => ⟨?_, h6 h, ?_⟩, fun h => ⟨h4, h5 h⟩, fun h => ?_⟩
    · dsimp only
      rw [h4, h2, hwr, h, List.take_length]
      simp
    · dsimp only
      rw [h4]
      exact List.prefix_append _ _
    · dsimp only
      rw [h4, h7 h]
      simp
  · rename_i hb
    refine ⟨⟨rfl, rfl, id⟩, fun h => ?_, dat.length, Nat.le_refl _, rfl, fun _ => ⟨?_, rfl, List.prefix_refl _⟩, fun h => absurd h (by omega), fun _ => rfl⟩
    · dsimp only
      rcases hw with hw | hw
      · rw [hw]; simp; omega
      · rw [hw]; simpa using h
    · simp

/-- `write` from a state with room in the buffer: how many bytes of the argument count as taken (`n`), and what that means. -/
theorem write_spec (k : Kernel) (dat : Str) (s : St) (hr : s.wr.length < bufSize) :
    SendFrame s (write k dat s).2
      ∧ (write k dat s).2.wr.length < bufSize
      ∧ s.wire <+: (write k dat s).2.wire
      ∧ (s.connected = false → (write k dat s).2.wire = s.wire)
      ∧ ∃ n, n ≤ dat.length ∧ (write k dat s).1 = (n : Nat)
        ∧ (n = dat.length → (write k dat s).2.wire ++ (write k dat s).2.wr = s.wire ++ s.wr ++ dat
            ∧ (write k dat s).2.connected = s.connected)
        ∧ (n < dat.length → (write k dat s).2.connected = false
            ∧ ((write k dat s).2.wire = s.wire ++ s.wr ++ dat.take n ∨ n = 0 ∧ (write k dat s).2.wire <+: s.wire ++ s.wr)) := by
  unfold write
  generalize hs1 : ({ s with wr := s.wr ++ dat.take (bufSize - s.wr.length) } : St) = s1
  have e1 : s1.wr = s.wr ++ dat.take (bufSize - s.wr.length) := by rw [← hs1]
  have e2 : s1.wire = s.wire := by rw [← hs1]
  have e3 : SendFrame s s1 := by rw [← hs1]; exact ⟨rfl, rfl, id⟩
  have e4 : s1.connected = s.connected := by rw [← hs1]
  have hlen : s1.wr.length = s.wr.length + min (bufSize - s.wr.length) dat.length := by
    rw [e1, List.length_append, List.length_take]
  have htd : dat.take (bufSize - s.wr.length) ++ dat.drop (bufSize - s.wr.length) = dat := List.take_append_drop _ _
  have hl : (dat.take (bufSize - s.wr.length)).length + (dat.drop (bufSize - s.wr.length)).length = dat.length := by
    rw [← List.length_append, htd]
  unfold writeAt
  split
  · rename_i hfull
    obtain ⟨m, m1, m2, m3, m4, m5, m6, m7⟩ := flush_spec k s1
    rcases hf : flush k s1 with ⟨res, s2⟩
    rw [hf] at m2 m3 m4 m5 m6
    dsimp only at m2 m3 m4 m5 m6 ⊢
    split
    · rename_i hres
      have hm : m < s1.wr.length := by
        rcases Nat.lt_or_ge m s1.wr.length with h | h
        · exact h
        · have := (m5 (by omega)).1
          omega
      obtain ⟨m8, m9⟩ := m6 hm
      refine ⟨e3.trans m2, ?_, ?_, ?_, m - s.wr.length, ?_, ?_, ?_, fun h => ⟨m9, ?_⟩⟩
      · dsimp only; rw [m3]; simp [bufSize]
      · dsimp only; rw [m4, e2]; exact List.prefix_append _ _
      · intro h
        dsimp only
        rw [m4, m7 (e4.trans h), e2]
        simp
      · omega
      · dsimp only; rw [m8]; omega
      · intro h; exfalso; omega
      · dsimp only
        rw [m4, e2, e1]
        rcases Nat.lt_or_ge m s.wr.length with h' | h'
        · refine Or.inr ⟨by omega, ?_⟩
          rw [List.take_append_of_le_length (by omega)]
          exact (List.prefix_append_right_inj _).2 (List.take_prefix _ _)
        · left
          rw [List.take_append, List.take_of_length_le h', List.append_assoc, List.take_take, Nat.min_eq_left (by omega)]
    · rename_i hres
      have hm : m = s1.wr.length := by
        rcases Nat.lt_or_ge m s1.wr.length with h | h
        · have := (m6 h).1
          omega
        · omega
      obtain ⟨m8, m9⟩ := m5 hm
      have hw2 : s2.wire ++ dat.drop (bufSize - s.wr.length) = s.wire ++ s.wr ++ dat := by
        rw [m4, hm, List.take_length, e1, e2, ← List.append_assoc, List.append_assoc _ (List.take _ _), htd]
      obtain ⟨n1, n2, n, n3, n4, n5, n6, n7⟩ := writeRest_spec k (dat.take (bufSize - s.wr.length)).length (dat.drop (bufSize - s.wr.length)) s2 (Or.inl m3)
      have hpre : s.wire <+: s2.wire := by rw [m4, e2]; exact List.prefix_append _ _
      refine ⟨e3.trans (m2.trans n1), n2 (by rw [m3]; simp [bufSize]), ?_, ?_, (dat.take (bufSize - s.wr.length)).length + n, by omega, n4, fun h => ?_, fun h => ?_⟩
      · rcases Nat.lt_or_ge n (dat.drop (bufSize - s.wr.length)).length with h | h
        · rw [(n6 h).1]; exact hpre.trans (List.prefix_append _ _)
        · exact hpre.trans (n5 (by omega)).2.2
      · intro h
        rw [n7 (by rw [m9, e4, h]), m4, m7 (e4.trans h), e2]
        simp
      · obtain ⟨p1, p2, _⟩ := n5 (by omega)
        refine ⟨?_, by rw [p2, m9, e4]⟩
        rw [p1, m3, List.append_nil, hw2]
      · obtain ⟨p1, p2⟩ := n6 (by omega)
        refine ⟨p2, Or.inl ?_⟩
        rw [p1, m4, hm, List.take_length, e1, e2, ← List.append_assoc, List.append_assoc _ (List.take _ _)]
        congr 1
        have : dat.take ((dat.take (bufSize - s.wr.length)).length + n)
            = dat.take (bufSize - s.wr.length) ++ (dat.drop (bufSize - s.wr.length)).take n := by
          have := List.take_length_add_append (l₁ := dat.take (bufSize - s.wr.length)) (l₂ := dat.drop (bufSize - s.wr.length)) n
          rwa [htd] at this
        rw [this]
  · rename_i hfull
    have hd : dat.drop (bufSize - s.wr.length) = [] := List.drop_eq_nil_iff.2 (by omega)
    have ht : dat.take (bufSize - s.wr.length) = dat := List.take_of_length_le (by omega)
    rw [hd, ht]
    rw [ht] at e1
    obtain ⟨n1, n2, n, n3, n4, n5, n6, n7⟩ := writeRest_spec k dat.length [] s1 (Or.inr rfl)
    have hn : n = 0 := by simpa using n3
    subst hn
    obtain ⟨p1, p2, p3⟩ := n5 rfl
    refine ⟨e3.trans n1, n2 (by omega), e2 ▸ p3, fun h => by rw [n7 (e4.trans h), e2], dat.length, Nat.le_refl _, n4, fun _ => ⟨?_, p2.trans e4⟩, fun h => absurd h (Nat.lt_irrefl _)⟩
    rw [p1, e1, e2]
    simp

/-! ### Receiving -/

/-- What receiving leaves alone. -/
def RecvFrame (s s' : St) : Prop :=
  s'.wr = s.wr ∧ s'.wire = s.wire ∧ (s'.connected = true → s.connected = true)

theorem RecvFrame.refl (s : St) : RecvFrame s s := ⟨rfl, rfl, id⟩

theorem RecvFrame.trans {a b c : St} (h : RecvFrame a b) (h' : RecvFrame b c) : RecvFrame a c :=
  ⟨h'.1.trans h.1, h'.2.1.trans h.2.1, fun x => h.2.2 (h'.2.2 x)⟩

theorem recv_none {k : Kernel} {n : Nat} {s s' : St} (h : recv k n s = (none, s')) :
    RecvFrame s s' ∧ s'.rd = s.rd ∧ s'.incoming = s.incoming ∧ s'.connected = false := by
  unfold recv at h
  split at h
  · rename_i hc
    obtain ⟨_, rfl⟩ := Prod.mk.inj h
    exact ⟨RecvFrame.refl _, rfl, rfl, by simpa using hc⟩
  · dsimp only at h
    split at h
    · obtain ⟨_, rfl⟩ := Prod.mk.inj h
      exact ⟨⟨rfl, rfl, by simp [close]⟩, rfl, rfl, rfl⟩
    · simp at h

theorem recv_some {k : Kernel} {n : Nat} {s s' : St} {d : Str} (h : recv k n s = (some d, s')) :
    RecvFrame s s' ∧ s'.rd = s.rd ∧ s.incoming = d ++ s'.incoming ∧ s.connected = true ∧ s'.connected = true
      ∧ 0 < d.length ∧ d.length ≤ n := by
  unfold recv at h
  split at h
  · simp at h
  · rename_i hc
    dsimp only at h
    split at h
    · simp at h
    · rename_i hn
      simp only [Prod.mk.injEq, Option.some.injEq] at h
      obtain ⟨rfl, rfl⟩ := h
      have hc' : s.connected = true := by simpa using hc
      refine ⟨⟨rfl, rfl, fun _ => hc'⟩, rfl, by simp, hc', hc', ?_, ?_⟩
      · rw [List.length_take]; omega
      · rw [List.length_take]; omega

/-- With a kernel that delivers, a failing `recv` means the end of the stream. -/
theorem recv_delivers {k : Kernel} (hk : Delivers k) {n : Nat} (hn : 0 < n) {s s' : St} (hc : s.connected = true)
    (h : recv k n s = (none, s')) : s.incoming = [] := by
  have := hk s.calls
  unfold recv at h
  rw [if_neg (by simp [hc])] at h
  dsimp only at h
  split at h
  · exact List.length_eq_zero_iff.1 (by omega)
  · simp at h

theorem readLoop_spec (k : Kernel) : ∀ fuel n s, n ≤ fuel → s.rd = [] →
    RecvFrame s (readLoop k fuel n s).2 ∧ (readLoop k fuel n s).2.rd = []
      ∧ s.incoming = (readLoop k fuel n s).1 ++ (readLoop k fuel n s).2.incoming
      ∧ (readLoop k fuel n s).1.length ≤ n
      ∧ ((readLoop k fuel n s).1.length < n → (readLoop k fuel n s).2.connected = false)
      ∧ (s.connected = false → (readLoop k fuel n s).1 = [])
      ∧ (Delivers k → (s.connected = false → s.incoming = []) →
          ((readLoop k fuel n s).2.connected = false → (readLoop k fuel n s).2.incoming = [])) := by
  intro fuel
  induction fuel with
  | zero =>
    intro n s h hr
    exact ⟨RecvFrame.refl s, hr, rfl, Nat.zero_le _, fun h' => by simp [readLoop] at h'; omega, fun _ => rfl, fun _ h => h⟩
  | succ fuel ih =>
    intro n s h hr
    unfold readLoop
    split
    · rename_i hn
      subst hn
      exact ⟨RecvFrame.refl s, hr, rfl, Nat.le_refl _, fun h' => absurd h' (by simp), fun _ => rfl, fun _ h => h⟩
    · rename_i hn
      split
      · rename_i s' he
        obtain ⟨h1, h2, h3, h4⟩ := recv_none he
        refine ⟨h1, h2.trans hr, h3.symm, Nat.zero_le _, fun _ => h4, fun _ => rfl, fun hk hi _ => ?_⟩
        rw [h3]
        by_cases hc : s.connected = true
        · exact recv_delivers hk (by omega) hc he
        · exact hi (by simpa using hc)
      · rename_i d s' he
        obtain ⟨h1, h2, h3, h4, h5, h6, h7⟩ := recv_some he
        obtain ⟨i1, i2, i3, i4, i5, i6, i7⟩ := ih (n - d.length) s' (by omega) (h2.trans hr)
        dsimp only
        refine ⟨h1.trans i1, i2, ?_, ?_, ?_, ?_, ?_⟩
        · rw [h3, List.append_assoc, ← i3]
        · rw [List.length_append]; omega
        · rw [List.length_append]
          intro h'
          exact i5 (by omega)
        · rw [h4]
          intro h'
          exact absurd h' (by simp)
        · intro hk _
          exact i7 hk (by simp [h5])

/-- `getc`, in one of two ways. -/
theorem getc_spec (k : Kernel) (s : St) :
    RecvFrame s (getc k s).2
      ∧ (Delivers k → (s.connected = false → s.incoming = []) →
          ((getc k s).2.connected = false → (getc k s).2.incoming = []))
      ∧ ((∃ c, (getc k s).1 = some c ∧ s.rd ++ s.incoming = c :: ((getc k s).2.rd ++ (getc k s).2.incoming)
            ∧ (s.rd = c :: (getc k s).2.rd ∧ (getc k s).2.incoming = s.incoming
                ∨ s.rd = [] ∧ s.connected = true ∧ s.incoming = (c :: (getc k s).2.rd) ++ (getc k s).2.incoming))
          ∨ ((getc k s).1 = none ∧ s.rd = [] ∧ (getc k s).2.rd = [] ∧ (getc k s).2.incoming = s.incoming
              ∧ (getc k s).2.connected = false)) := by
  unfold getc
  split
  · rename_i c rd h
    refine ⟨⟨rfl, rfl, id⟩, fun _ h => h, Or.inl ⟨c, rfl, by simp [h], Or.inl ⟨h, rfl⟩⟩⟩
  · rename_i h
    dsimp only
    have hf : fillBuf k s = match recv k bufSize s with
        | (none, s) => { s with rd := [] }
        | (some d, s) => { s with rd := d } := by
      unfold fillBuf
      rw [if_neg (by simp [h])]
      rfl
    rcases he : recv k bufSize s with ⟨r, s'⟩
    rw [he] at hf
    cases r with
    | none =>
      obtain ⟨h1, h2, h3, h4⟩ := recv_none he
      dsimp only at hf
      rw [hf]
      dsimp only
      refine ⟨h1, ?_, Or.inr ⟨rfl, h, rfl, h3, h4⟩⟩
      intro hk hi _
      show s'.incoming = []
      rw [h3]
      by_cases hc : s.connected = true
      · exact recv_delivers hk (by decide) hc he
      · exact hi (by simpa using hc)
    | some d =>
      obtain ⟨h1, h2, h3, h4, h5, h6, h7⟩ := recv_some he
      dsimp only at hf
      rw [hf]
      dsimp only
      cases d with
      | nil => simp at h6
      | cons c d =>
        dsimp only
        refine ⟨h1, ?_, Or.inl ⟨c, rfl, ?_, Or.inr ⟨h, h4, ?_⟩⟩⟩
        · intro _ _ h'
          rw [h5] at h'
          exact absurd h' (by simp)
        · rw [h, h3]; rfl
        · rw [h3]

/-- A stream that the socket may still deliver from a state: all that is received, some of what comes, nothing of it if the connection is closed. -/
def Allowed (s : St) (p : Str) : Prop :=
  ∃ q, p = s.rd ++ q ∧ q <+: s.incoming ∧ (s.connected = false → q = [])

/-- The call does to the state what `f` does to any allowed stream. -/
def Sim (f : Str → Res × Str) (s : St) (r : Res) (s' : St) : Prop :=
  ∃ t, s.rd ++ s.incoming = t ++ (s'.rd ++ s'.incoming)
    ∧ ∀ p, Allowed s' p → Allowed s (t ++ p) ∧ f (t ++ p) = (r, p)

theorem read_spec (k : Kernel) (n : Nat) (s : St) :
    RecvFrame s (read k n s).2
      ∧ (Delivers k → (s.connected = false → s.incoming = []) →
          ((read k n s).2.connected = false → (read k n s).2.incoming = []))
      ∧ s.rd ++ s.incoming = (read k n s).1 ++ ((read k n s).2.rd ++ (read k n s).2.incoming)
      ∧ (read k n s).1.length ≤ n
      ∧ ((read k n s).1.length < n → (read k n s).2.connected = false ∧ (read k n s).2.rd = [])
      ∧ (s.rd = (read k n s).1 ++ (read k n s).2.rd ∧ (read k n s).2.incoming = s.incoming
          ∨ (read k n s).2.rd = [] ∧ ∃ d, (read k n s).1 = s.rd ++ d ∧ s.incoming = d ++ (read k n s).2.incoming ∧ (s.connected = false → d = [])) := by
  unfold read
  split
  · rename_i h
    split
    · rename_i h'
      refine ⟨⟨rfl, rfl, id⟩, fun _ h => h, ?_, ?_, ?_, Or.inl ⟨by simp, rfl⟩⟩
      · simp [← List.append_assoc]
      · simp; omega
      · simp; omega
    · rename_i h'
      obtain ⟨i1, i2, i3, i4, i5, i6, i7⟩ := readLoop_spec k (n - s.rd.length) (n - s.rd.length) { s with rd := [] } (Nat.le_refl _) rfl
      dsimp only
      refine ⟨⟨i1.1, i1.2.1, i1.2.2⟩, i7, ?_, ?_, ?_, Or.inr ⟨i2, _, rfl, i3, i6⟩⟩
      · rw [i2]
        dsimp only at i3
        rw [List.append_assoc, List.nil_append, ← i3]
      · rw [List.length_append]; omega
      · rw [List.length_append]
        intro h''
        exact ⟨i5 (by omega), i2⟩
  · rename_i h
    have hr : s.rd = [] := List.length_eq_zero_iff.1 (by omega)
    obtain ⟨i1, i2, i3, i4, i5, i6, i7⟩ := readLoop_spec k n n s (Nat.le_refl _) hr
    refine ⟨i1, i7, ?_, i4, fun h' => ⟨i5 h', i2⟩, Or.inr ⟨i2, _, by rw [hr]; rfl, i3, i6⟩⟩
    rw [i2, hr, List.nil_append, List.nil_append, ← i3]

theorem read_sim (k : Kernel) (n : Nat) (s : St) :
    Sim (readStep (.read n)) s (.bytes (read k n s).1) (read k n s).2 := by
  obtain ⟨h1, _, h2, h3, h4, h5⟩ := read_spec k n s
  refine ⟨(read k n s).1, h2, fun p hp => ⟨?_, ?_⟩⟩
  · obtain ⟨q, rfl, hq, hc⟩ := hp
    rcases h5 with ⟨h5, h6⟩ | ⟨h5, d, h6, h7, h8⟩
    · refine ⟨q, by rw [h5]; simp, h6 ▸ hq, fun h => hc ?_⟩
      cases hx : (read k n s).2.connected with
      | false => rfl
      | true => rw [h1.2.2 hx] at h; simp at h
    · refine ⟨d ++ q, by rw [h6, h5]; simp, ?_, fun h => ?_⟩
      · rw [h7]; exact (List.prefix_append_right_inj _).2 hq
      · rw [h8 h, List.nil_append]
        refine hc ?_
        cases hx : (read k n s).2.connected with
        | false => rfl
        | true => rw [h1.2.2 hx] at h; simp at h
  · have hd : (read k n s).1.length = n ∨ p = [] := by
      rcases Nat.lt_or_ge (read k n s).1.length n with h | h
      · obtain ⟨h6, h7⟩ := h4 h
        obtain ⟨q, rfl, _, hc⟩ := hp
        right
        rw [h7, hc h6]; rfl
      · left; omega
    show (Res.bytes _, _) = _
    rcases hd with h | h
    · rw [List.take_append_of_le_length (by omega), List.take_of_length_le h3, List.drop_append_of_le_length (by omega),
        List.drop_eq_nil_iff.2 h3, List.nil_append]
    · subst h
      rw [List.append_nil, List.take_of_length_le h3, List.drop_eq_nil_iff.2 h3]

theorem allowed_getc {k : Kernel} {s : St} {p : Str} (hp : Allowed (getc k s).2 p) {c : UInt8} (hc : (getc k s).1 = some c) :
    Allowed s (c :: p) := by
  obtain ⟨h1, _, h3⟩ := getc_spec k s
  obtain ⟨q, rfl, hq, hcl⟩ := hp
  have hcl' : s.connected = false → q = [] := by
    intro h
    refine hcl ?_
    cases hx : (getc k s).2.connected with
    | false => rfl
    | true => rw [h1.2.2 hx] at h; simp at h
  rcases h3 with ⟨c', h4, _, h5⟩ | ⟨h4, _⟩
  · rw [hc] at h4
    cases h4
    rcases h5 with ⟨h5, h6⟩ | ⟨h5, h6, h7⟩
    · exact ⟨q, by rw [h5]; rfl, h6 ▸ hq, hcl'⟩
    · refine ⟨c :: (getc k s).2.rd ++ q, by rw [h5]; rfl, ?_, fun h => by rw [h6] at h; simp at h⟩
      rw [h7]
      exact (List.prefix_append_right_inj _).2 hq
  · rw [hc] at h4
    simp at h4

theorem allowed_eof {k : Kernel} {s : St} {p : Str} (hp : Allowed (getc k s).2 p) (hc : (getc k s).1 = none) :
    p = [] ∧ Allowed s [] := by
  obtain ⟨h1, _, h3⟩ := getc_spec k s
  obtain ⟨q, rfl, hq, hcl⟩ := hp
  rcases h3 with ⟨c', h4, _, h5⟩ | ⟨h4, h5, h6, h7, h8⟩
  · rw [hc] at h4
    simp at h4
  · exact ⟨by rw [h6, hcl h8]; rfl, [], by rw [h5]; rfl, List.nil_prefix, fun _ => rfl⟩

theorem getc_sim (k : Kernel) (s : St) : Sim (readStep .getc) s (.char (getc k s).1) (getc k s).2 := by
  obtain ⟨h1, _, h3⟩ := getc_spec k s
  rcases h3 with ⟨c, h4, h5, _⟩ | ⟨h4, h5, h6, h7, h8⟩
  · refine ⟨[c], h5, fun p hp => ⟨allowed_getc hp h4, ?_⟩⟩
    rw [h4]; rfl
  · refine ⟨[], by rw [h5, h6, h7]; rfl, fun p hp => ?_⟩
    obtain ⟨h9, h10⟩ := allowed_eof hp h4
    subst h9
    exact ⟨h10, by rw [h4]; rfl⟩

/-! ### Lines -/

/-- `Spec.nextLine` byte by byte, behind what is read. -/
def lineFrom : Option Nat → Str → Str → Option Str × Str
  | lim, acc, [] => if lim = some 0 then (some acc, []) else (if acc = [] then none else some acc, [])
  | lim, acc, c :: s =>
    if lim = some 0 then (some acc, c :: s)
    else if c = 10 then (some (dropCR acc), s)
    else lineFrom (lim.map (· - 1)) (acc ++ [c]) s

theorem lineFrom_eq : ∀ (s : Str) (lim : Option Nat) (acc : Str), lineFrom lim acc s =
    if ∃ n, lim = some n ∧ n ≤ (s.takeWhile (· ≠ 10)).length then (some (acc ++ s.take (lim.getD 0)), s.drop (lim.getD 0))
    else if 10 ∈ s then (some (dropCR (acc ++ s.takeWhile (· ≠ 10))), s.drop ((s.takeWhile (· ≠ 10)).length + 1))
    else (if acc ++ s = [] then none else some (acc ++ s), []) := by
  intro s
  induction s with
  | nil =>
    intro lim acc
    unfold lineFrom
    by_cases h : lim = some 0
    · subst h; simp
    · have h' : ¬ ∃ n, lim = some n ∧ n ≤ (([] : Str).takeWhile (· ≠ 10)).length := by
        rintro ⟨n, rfl, hn⟩
        exact h (congrArg some (Nat.le_zero.1 hn))
      rw [if_neg h, if_neg h']
      simp
  | cons c s ih =>
    intro lim acc
    unfold lineFrom
    by_cases h : lim = some 0
    · subst h; simp
    · rw [if_neg h]
      by_cases hc : c = 10
      · subst hc
        rw [if_pos rfl, if_neg (by simpa using h), if_pos (by simp)]
        simp
      · rw [if_neg hc, ih]
        have ht : (c :: s).takeWhile (· ≠ 10) = c :: s.takeWhile (· ≠ 10) := by simp [hc]
        rw [ht]
        have h10 : (10 ∈ c :: s) ↔ 10 ∈ s := by simp [Ne.symm hc]
        cases lim with
        | none => simp [h10]
        | some n =>
          cases n with
          | zero => exact absurd rfl h
          | succ n => simp [h10]

theorem lineFrom_nextLine (lim : Option Nat) (s : Str) : lineFrom lim [] s = nextLine lim s := by
  rw [lineFrom_eq]
  rfl

theorem cr_eq (acc : Str) :
    (if acc.length ≥ 1 ∧ acc.getLast? = some 13 then acc.take (acc.length - 1) else acc) = dropCR acc := by
  unfold dropCR
  by_cases h : acc.getLast? = some 13
  · have : acc.length ≥ 1 := by
      cases acc with
      | nil => simp at h
      | cons _ _ => simp
    rw [if_pos ⟨this, h⟩, if_pos h, List.dropLast_eq_take]
  · rw [if_neg (fun h' => h h'.2), if_neg h]

theorem getlineLoop_spec (k : Kernel) : ∀ fuel lim acc s, left s < fuel →
    RecvFrame s (getlineLoop k fuel lim acc s).2
      ∧ (Delivers k → (s.connected = false → s.incoming = []) →
          ((getlineLoop k fuel lim acc s).2.connected = false → (getlineLoop k fuel lim acc s).2.incoming = []))
      ∧ ∃ t, s.rd ++ s.incoming = t ++ ((getlineLoop k fuel lim acc s).2.rd ++ (getlineLoop k fuel lim acc s).2.incoming)
          ∧ ∀ p, Allowed (getlineLoop k fuel lim acc s).2 p →
              Allowed s (t ++ p) ∧ lineFrom lim acc (t ++ p) = ((getlineLoop k fuel lim acc s).1, p) := by
  intro fuel
  induction fuel with
  | zero => intro lim acc s h; omega
  | succ fuel ih =>
    intro lim acc s h
    unfold getlineLoop
    split
    · rename_i hl
      subst hl
      refine ⟨RecvFrame.refl s, fun _ h => h, [], rfl, fun p hp => ⟨hp, ?_⟩⟩
      cases p <;> simp [lineFrom]
    · rename_i hl
      obtain ⟨h1, h2, h3⟩ := getc_spec k s
      have ha := @allowed_getc k s
      have hb := @allowed_eof k s
      rcases he : getc k s with ⟨r, s'⟩
      rw [he] at h1 h2 h3 ha hb
      cases r with
      | none =>
        dsimp only at h1 h2 h3 ha hb ⊢
        rcases h3 with ⟨c, h4, _⟩ | ⟨_, h5, h6, h7, h8⟩
        · simp at h4
        · refine ⟨h1, h2, [], by rw [h5, h6, h7]; rfl, fun p hp => ?_⟩
          obtain ⟨hp', hs⟩ := hb hp rfl
          subst hp'
          refine ⟨hs, ?_⟩
          simp only [List.append_nil, lineFrom, if_neg hl]
          simp
      | some c =>
        dsimp only at h1 h2 h3 ha hb ⊢
        rcases h3 with ⟨c', h4, h5, _⟩ | ⟨h4, _⟩
        · cases h4
          split
          · rename_i hc
            subst hc
            refine ⟨h1, h2, [10], h5, fun p hp => ⟨ha hp rfl, ?_⟩⟩
            simp only [List.cons_append, List.nil_append, lineFrom, if_neg hl, if_true, cr_eq]
          · rename_i hc
            have hlt : left s' < fuel := by
              have := congrArg List.length h5
              simp only [List.length_append, List.length_cons] at this
              unfold left at h ⊢
              omega
            obtain ⟨i1, i2, t, i3, i4⟩ := ih (lim.map (· - 1)) (acc ++ [c]) s' hlt
            refine ⟨h1.trans i1, fun hk hi => i2 hk (h2 hk hi), c :: t, by rw [h5, i3]; rfl, fun p hp => ?_⟩
            obtain ⟨i5, i6⟩ := i4 p hp
            refine ⟨ha i5 rfl, ?_⟩
            rw [List.cons_append, lineFrom, if_neg hl, if_neg hc, i6]
        · simp at h4

theorem getline_spec (k : Kernel) (n : Int) (s : St) :
    RecvFrame s (getline k n s).2
      ∧ (Delivers k → (s.connected = false → s.incoming = []) →
          ((getline k n s).2.connected = false → (getline k n s).2.incoming = []))
      ∧ Sim (readStep (.getline n)) s (.line (getline k n s).1) (getline k n s).2 := by
  obtain ⟨h1, h2, t, h3, h4⟩ := getlineLoop_spec k (left s + 1) (if n < 0 then none else some n.toNat) [] s (Nat.lt_succ_self _)
  refine ⟨h1, h2, t, h3, fun p hp => ?_⟩
  obtain ⟨h5, h6⟩ := h4 p hp
  refine ⟨h5, ?_⟩
  rw [lineFrom_nextLine] at h6
  simp only [readStep, h6]
  rfl

/-! ### Runs -/

/-- A reading call. -/
theorem step_reading (k : Kernel) (o : Op) (ho : Reading o) (s : St) :
    RecvFrame s (step k o s).2
      ∧ (Delivers k → (s.connected = false → s.incoming = []) →
          ((step k o s).2.connected = false → (step k o s).2.incoming = []))
      ∧ Sim (readStep o) s (step k o s).1 (step k o s).2 := by
  cases o with
  | write d => exact ho.elim
  | puts d => exact ho.elim
  | flush => exact ho.elim
  | read n => exact ⟨(read_spec k n s).1, (read_spec k n s).2.1, read_sim k n s⟩
  | getc => exact ⟨(getc_spec k s).1, (getc_spec k s).2.1, getc_sim k s⟩
  | getline n => exact getline_spec k n s

/-- A writing call leaves the input alone. -/
theorem step_writing_frame (k : Kernel) (o : Op) (ho : Writing o) (s : St) (hr : s.wr.length < bufSize) :
    SendFrame s (step k o s).2 := by
  cases o with
  | write d => exact (write_spec k d s hr).1
  | puts d => exact (write_spec k d s hr).1
  | flush =>
    obtain ⟨n, _, h, _⟩ := flush_spec k s
    exact h
  | read n => exact ho.elim
  | getc => exact ho.elim
  | getline n => exact ho.elim

theorem written_reading {o : Op} (ho : Reading o) (os : List Op) : written (o :: os) = written os := by
  cases o <;> first | rfl | exact ho.elim

theorem reading_or_writing (o : Op) : Reading o ∨ Writing o := by
  cases o <;> simp [Reading, Writing]

/-- One call, for the output: the bytes on the wire grow, those still in the buffer follow them. -/
theorem step_output (k : Kernel) (o : Op) (s : St) (hr : s.wr.length < bufSize) :
    (step k o s).2.wr.length < bufSize
      ∧ s.wire <+: (step k o s).2.wire
      ∧ (s.connected = false → (step k o s).2.wire = s.wire ∧ (step k o s).2.connected = false)
      ∧ (step k o s).2.wire <+: s.wire ++ s.wr ++ written [o]
      ∧ (Good o (step k o s).1 → (step k o s).2.wire ++ (step k o s).2.wr = s.wire ++ s.wr ++ written [o])
      ∧ ((step k o s).2.connected = true → Good o (step k o s).1) := by
  rcases reading_or_writing o with ho | ho
  · obtain ⟨h1, _, _⟩ := step_reading k o ho s
    rw [written_reading ho]
    obtain ⟨h2, h3, h4⟩ := h1
    rw [h2, h3]
    refine ⟨hr, List.prefix_refl _, fun h => ⟨rfl, ?_⟩, ?_, fun _ => by simp [written], fun _ => ?_⟩
    · cases hx : (step k o s).2.connected with
      | false => rfl
      | true => rw [h4 hx] at h; simp at h
    · simp [written]
    · cases o <;> first | trivial | exact ho.elim
  · have key : ∀ d : Str, (write k d s).2.wr.length < bufSize
        ∧ s.wire <+: (write k d s).2.wire
        ∧ (s.connected = false → (write k d s).2.wire = s.wire ∧ (write k d s).2.connected = false)
        ∧ (write k d s).2.wire <+: s.wire ++ s.wr ++ d
        ∧ ((write k d s).1 = d.length → (write k d s).2.wire ++ (write k d s).2.wr = s.wire ++ s.wr ++ d)
        ∧ ((write k d s).2.connected = true → (write k d s).1 = d.length) := by
      intro d
      obtain ⟨h1, h2, h3, h4, n, h5, h6, h7, h8⟩ := write_spec k d s hr
      refine ⟨h2, h3, fun h => ⟨h4 h, ?_⟩, ?_, ?_, ?_⟩
      · cases hx : (write k d s).2.connected with
        | false => rfl
        | true => rw [h1.2.2 hx] at h; simp at h
      · rcases Nat.lt_or_ge n d.length with h | h
        · rcases (h8 h).2 with h9 | ⟨_, h9⟩
          · rw [h9]; exact (List.prefix_append_right_inj _).2 (List.take_prefix _ _)
          · exact h9.trans (List.prefix_append _ _)
        · rw [← (h7 (by omega)).1]; exact List.prefix_append _ _
      · intro h
        exact (h7 (by omega)).1
      · intro h
        rcases Nat.lt_or_ge n d.length with h' | h'
        · rw [(h8 h').1] at h; simp at h
        · omega
    cases o with
    | write d =>
      obtain ⟨h1, h2, h3, h4, h5, h6⟩ := key d
      have hw : written [.write d] = d := by simp [written]
      rw [hw]
      exact ⟨h1, h2, h3, h4, fun h => h5 (Res.int.inj h), fun h => congrArg Res.int (h6 h)⟩
    | puts d =>
      obtain ⟨h1, h2, h3, h4, h5, h6⟩ := key d
      have hw : written [.puts d] = d := by simp [written]
      rw [hw]
      refine ⟨h1, h2, h3, h4, fun h => h5 ?_, fun h => ?_⟩
      · exact of_decide_eq_true (Res.bool.inj h)
      · exact congrArg Res.bool (decide_eq_true (h6 h))
    | flush =>
      obtain ⟨n, h1, h2, h3, h4, h5, h6, h7⟩ := flush_spec k s
      have hw : written [.flush] = [] := by simp [written]
      rw [hw, List.append_nil]
      have e : (step k .flush s).2 = (flush k s).2 := rfl
      have e' : (step k .flush s).1 = .int (flush k s).1 := rfl
      rw [e, e', h3, h4]
      refine ⟨by simp [bufSize], List.prefix_append _ _, fun h => ⟨by rw [h7 h]; simp, ?_⟩, (List.prefix_append_right_inj _).2 (List.take_prefix _ _), fun h => ?_, fun h => ?_⟩
      · cases hx : (flush k s).2.connected with
        | false => rfl
        | true => rw [h2.2.2 hx] at h; simp at h
      · rcases Nat.lt_or_ge n s.wr.length with h' | h'
        · have := Res.int.inj h
          have := (h6 h').1
          omega
        · rw [List.take_of_length_le h', List.append_nil]
      · rcases Nat.lt_or_ge n s.wr.length with h' | h'
        · rw [(h6 h').2] at h; simp at h
        · rw [(h5 (by omega)).1]; rfl
    | read n => exact ho.elim
    | getc => exact ho.elim
    | getline n => exact ho.elim

theorem written_cons (o : Op) (os : List Op) : written (o :: os) = written [o] ++ written os := by
  cases o <;> simp [written]

theorem run_output (k : Kernel) : ∀ ops s, s.wr.length < bufSize →
    (run k ops s).2.wr.length < bufSize
      ∧ s.wire <+: (run k ops s).2.wire
      ∧ (s.connected = false → (run k ops s).2.wire = s.wire ∧ (run k ops s).2.connected = false)
      ∧ (run k ops s).2.wire <+: s.wire ++ s.wr ++ written ops
      ∧ ((∀ x ∈ ops.zip (run k ops s).1, Good x.1 x.2) → (run k ops s).2.wire ++ (run k ops s).2.wr = s.wire ++ s.wr ++ written ops)
      ∧ ((run k ops s).2.connected = true → ∀ x ∈ ops.zip (run k ops s).1, Good x.1 x.2) := by
  intro ops
  induction ops with
  | nil =>
    intro s h
    refine ⟨h, List.prefix_refl _, fun h => ⟨rfl, h⟩, ?_, fun _ => by simp [run, written], fun _ => by simp⟩
    simp [run, written]
  | cons o os ih =>
    intro s h
    obtain ⟨h1, h2, h3, h4, h5, h6⟩ := step_output k o s h
    rcases hs : step k o s with ⟨r, s1⟩
    rw [hs] at h1 h2 h3 h4 h5 h6
    dsimp only at h1 h2 h3 h4 h5 h6
    obtain ⟨i1, i2, i3, i4, i5, i6⟩ := ih s1 h1
    have e : run k (o :: os) s = (r :: (run k os s1).1, (run k os s1).2) := by
      simp only [run, hs]
    rw [e, written_cons]
    dsimp only
    refine ⟨i1, h2.trans i2, fun h => ?_, ?_, fun hg => ?_, fun hc => ?_⟩
    · obtain ⟨h7, h8⟩ := h3 h
      obtain ⟨h9, h10⟩ := i3 h8
      exact ⟨h9.trans h7, h10⟩
    · by_cases hg : Good o r
      · rw [h5 hg, List.append_assoc] at i4
        exact i4
      · have hc : s1.connected = false := by
          cases hx : s1.connected with
          | false => rfl
          | true => exact absurd (h6 hx) hg
        rw [(i3 hc).1, ← List.append_assoc]
        exact h4.trans (List.prefix_append _ _)
    · rw [i5 (fun x hx => hg x (by simp [hx])), h5 (hg (o, r) (by simp))]
      simp
    · have hc1 : s1.connected = true := by
        cases hx : s1.connected with
        | true => rfl
        | false => rw [(i3 hx).2] at hc; simp at hc
      intro x hx
      rw [List.zip_cons_cons, List.mem_cons] at hx
      rcases hx with rfl | hx
      · exact h6 hc1
      · exact i6 hc x hx

theorem reads_reading {o : Op} (ho : Reading o) (os : List Op) (r : Res) (rs : List Res) :
    reads (o :: os) (r :: rs) = (o :: (reads os rs).1, r :: (reads os rs).2) := by
  cases o <;> first | rfl | exact ho.elim

theorem reads_writing {o : Op} (ho : Writing o) (os : List Op) (r : Res) (rs : List Res) :
    reads (o :: os) (r :: rs) = reads os rs := by
  cases o <;> first | rfl | exact ho.elim

/-- Any calls at all: from some point of the incoming stream on nothing arrives any more, and up to there the reading calls get what they
would get from a stream that ends there. -/
theorem run_input (k : Kernel) : ∀ ops s, s.wr.length < bufSize →
    ∃ t, s.rd ++ s.incoming = t ++ ((run k ops s).2.rd ++ (run k ops s).2.incoming)
      ∧ ∀ p, Allowed (run k ops s).2 p → Allowed s (t ++ p)
          ∧ readRun (reads ops (run k ops s).1).1 (t ++ p) = ((reads ops (run k ops s).1).2, p) := by
  intro ops
  induction ops with
  | nil => intro s _; exact ⟨[], rfl, fun p hp => ⟨hp, rfl⟩⟩
  | cons o os ih =>
    intro s h
    have h1 := (step_output k o s h).1
    have hrd := step_reading k o
    have hwr := step_writing_frame k o
    rcases hs : step k o s with ⟨r, s1⟩
    rw [hs] at h1
    obtain ⟨t, h2, h3⟩ := ih s1 h1
    have e : run k (o :: os) s = (r :: (run k os s1).1, (run k os s1).2) := by
      simp only [run, hs]
    rw [e]
    dsimp only
    rcases reading_or_writing o with ho | ho
    · obtain ⟨_, _, u, h4, h5⟩ := hrd ho s
      rw [hs] at h4 h5
      dsimp only at h4 h5
      refine ⟨u ++ t, by rw [h4, h2, List.append_assoc], fun p hp => ?_⟩
      obtain ⟨h6, h7⟩ := h3 p hp
      obtain ⟨h8, h9⟩ := h5 _ h6
      rw [List.append_assoc, reads_reading ho]
      refine ⟨h8, ?_⟩
      simp only [readRun, h9, h7]
    · have hf := hwr ho s h
      rw [hs] at hf
      obtain ⟨f1, f2, f3⟩ := hf
      dsimp only at f1 f2 f3
      refine ⟨t, by rw [← f1, ← f2, h2], fun p hp => ?_⟩
      obtain ⟨h6, h7⟩ := h3 p hp
      rw [reads_writing ho]
      refine ⟨?_, h7⟩
      obtain ⟨q, h8, h9, h10⟩ := h6
      refine ⟨q, by rw [h8, f1], by rw [← f2]; exact h9, fun hc => h10 ?_⟩
      cases hx : s1.connected with
      | false => rfl
      | true => rw [f3 hx] at hc; simp at hc

/-- With a kernel that delivers, reading calls end the connection only at the end of the stream. -/
theorem run_delivers (k : Kernel) (hk : Delivers k) : ∀ ops, (∀ o ∈ ops, Reading o) → ∀ s, (s.connected = false → s.incoming = []) →
    ((run k ops s).2.connected = false → (run k ops s).2.incoming = []) ∧ reads ops (run k ops s).1 = (ops, (run k ops s).1) := by
  intro ops
  induction ops with
  | nil => intro _ s h; exact ⟨h, rfl⟩
  | cons o os ih =>
    intro ho s h
    have h1 := (step_reading k o (ho o (by simp)) s).2.1 hk h
    rcases hs : step k o s with ⟨r, s1⟩
    rw [hs] at h1
    obtain ⟨i1, i2⟩ := ih (fun o h => ho o (by simp [h])) s1 h1
    have e : run k (o :: os) s = (r :: (run k os s1).1, (run k os s1).2) := by
      simp only [run, hs]
    rw [e]
    refine ⟨i1, ?_⟩
    dsimp only
    rw [reads_reading (ho o (by simp)), i2]

/-- With a kernel that accepts, writing calls do not end the connection. -/
theorem step_accepts (k : Kernel) (hk : Accepts k) (o : Op) (ho : Writing o) (s : St) (hc : s.connected = true) :
    (step k o s).2.connected = true := by
  have hsend : ∀ d s, s.connected = true → (sendAll k d s).1 = d.length := fun d s h => sendLoop_accepts k hk _ d s (Nat.le_refl _) h
  have hsc : ∀ d s, s.connected = true → (sendAll k d s).2.connected = true := fun d s h =>
    ((sendAll_spec k d s).2.2.2.2.2.1 (hsend d s h)).trans h
  have hflush : ∀ s, s.connected = true → (flush k s).1 = -1 ∧ (flush k s).2.connected = true := by
    intro s h
    unfold flush
    split
    · dsimp only
      rw [if_pos (hsend _ _ h)]
      exact ⟨rfl, hsc _ _ h⟩
    · exact ⟨rfl, h⟩
  have hrest : ∀ n d s, s.connected = true → (writeRest k n d s).2.connected = true := by
    intro n d s h
    unfold writeRest
    split
    · exact hsc _ _ h
    · exact h
  have hwrite : ∀ d, (write k d s).2.connected = true := by
    intro d
    unfold write writeAt
    dsimp only
    split
    · obtain ⟨h1, h2⟩ := hflush { s with wr := s.wr ++ d.take (bufSize - s.wr.length) } hc
      rcases hf : flush k { s with wr := s.wr ++ d.take (bufSize - s.wr.length) } with ⟨res, s2⟩
      rw [hf] at h1 h2
      dsimp only at h1 h2 ⊢
      rw [if_neg (by omega)]
      exact hrest _ _ _ h2
    · exact hrest _ _ _ hc
  cases o with
  | write d => exact hwrite d
  | puts d => exact hwrite d
  | flush => exact (hflush s hc).2
  | read n => exact ho.elim
  | getc => exact ho.elim
  | getline n => exact ho.elim

theorem run_accepts (k : Kernel) (hk : Accepts k) : ∀ ops, (∀ o ∈ ops, Writing o) → ∀ s, s.wr.length < bufSize → s.connected = true →
    (run k ops s).2.connected = true := by
  intro ops
  induction ops with
  | nil => intro _ s _ h; exact h
  | cons o os ih =>
    intro ho s hr h
    have e : run k (o :: os) s = ((step k o s).1 :: (run k os (step k o s).2).1, (run k os (step k o s).2).2) := rfl
    rw [e]
    exact ih (fun o h => ho o (by simp [h])) _ (step_output k o s hr).1 (step_accepts k hk o (ho o (by simp)) s h)

end Verif.Socket.Lemmas
