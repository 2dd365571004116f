import Verif.Descr.Spec
/-! Helper lemmas. -/

namespace Verif.Descr.Lemmas
open Verif.Descr Verif.Descr.Spec

/-- The descriptor is open and of the program. -/
def Mine (w : World) (n : Nat) : Prop := w.table n = some .mine

/-- One descriptor is exchanged for another, which is new or the same. -/
structure Trans (w : World) (a : Option Nat) (w' : World) (b : Option Nat) : Prop where
  harm : w'.harm = w.harm
  mine : ∀ m, Mine w' m ↔ (Mine w m ∧ a ≠ some m) ∨ b = some m
  new : ∀ n, b = some n → ¬ Mine w n ∨ a = some n

theorem Trans.trans {w w1 w2 : World} {a b c : Option Nat} (h : Trans w a w1 b) (g : Trans w1 b w2 c) : Trans w a w2 c := by
  refine ⟨g.harm.trans h.harm, fun m => ?_, fun n e => ?_⟩
  · rw [g.mine, h.mine]
    constructor
    · rintro (⟨⟨h1, h2⟩ | h1, h3⟩ | h1)
      · exact .inl ⟨h1, h2⟩
      · exact absurd h1 h3
      · exact .inr h1
    · rintro (⟨h1, h2⟩ | h1)
      · by_cases e : b = some m
        · rcases h.new m e with h3 | h3
          · exact absurd h1 h3
          · exact absurd h3 h2
        · exact .inl ⟨.inl ⟨h1, h2⟩, e⟩
      · exact .inr h1
  · rcases g.new n e with h1 | h1
    · rw [h.mine] at h1
      by_cases h2 : a = some n
      · exact .inr h2
      · exact .inl fun h3 => h1 (.inl ⟨h3, h2⟩)
    · exact h.new n h1

/-- A change that leaves the descriptors of the program alone. -/
structure Same (w w' : World) : Prop where
  harm : w'.harm = w.harm
  mine : ∀ m, Mine w' m ↔ Mine w m

theorem Same.refl (w : World) : Same w w := ⟨rfl, fun _ => Iff.rfl⟩

theorem Same.trans {a b c : World} (h : Same a b) (g : Same b c) : Same a c := ⟨g.harm.trans h.harm, fun m => (g.mine m).trans (h.mine m)⟩

theorem Same.to {w w' : World} (h : Same w w') {a : Option Nat} (ha : ∀ n, a = some n → Mine w n) : Trans w a w' a := by
  refine ⟨h.harm, fun m => ?_, fun n e => .inr e⟩
  rw [h.mine]
  constructor
  · intro h1
    by_cases e : a = some m
    · exact .inr e
    · exact .inl ⟨h1, e⟩
  · rintro (h1 | h1)
    · exact h1.1
    · exact ha m h1

theorem Trans.same {w w' : World} (h : Trans w none w' none) : Same w w' :=
  ⟨h.harm, fun m => (h.mine m).trans ⟨fun h => h.elim And.left (fun e => by cases e), fun h => .inl ⟨h, fun e => by cases e⟩⟩⟩

theorem Same.nothing {w w' : World} (h : Same w w') : Trans w none w' none := h.to (fun _ e => by cases e)

/-- The new descriptor remains when the old one is given back. -/
theorem Trans.swap {w w1 w2 : World} {a : Option Nat} {n : Nat} (ha : ∀ m, a = some m → Mine w m) (h : Trans w none w1 (some n)) (g : Trans w1 a w2 none) : Trans w a w2 (some n) := by
  have hn : ¬ Mine w n := (h.new n rfl).elim id (fun e => by cases e)
  refine ⟨g.harm.trans h.harm, fun m => ?_, fun m e => ?_⟩
  · rw [g.mine, h.mine]
    constructor
    · rintro (⟨⟨h1, _⟩ | h1, h2⟩ | h1)
      · exact .inl ⟨h1, h2⟩
      · exact .inr h1
      · cases h1
    · rintro (⟨h1, h2⟩ | h1)
      · exact .inl ⟨.inl ⟨h1, fun e => by cases e⟩, h2⟩
      · refine .inl ⟨.inr h1, fun e => ?_⟩
        injection h1 with h1
        subst h1
        exact hn (ha _ e)
  · injection e with e
    subst e
    exact .inl hn

theorem Trans.mine_of {w w' : World} {a : Option Nat} {n : Nat} (h : Trans w a w' (some n)) : Mine w' n := (h.mine n).2 (.inr rfl)

/-! ### System calls -/

theorem apply_mine (t : Table) (v : Move) (m : Nat) : v.apply t m = some .mine ↔ t m = some .mine := by
  cases v with
  | take n =>
    unfold Move.apply
    by_cases h : t n = none
    · simp only [if_pos h, Table.put]
      by_cases e : m = n
      · subst e
        rw [if_pos rfl, h]
        exact ⟨(fun e => by cases e), (fun e => by cases e)⟩
      · rw [if_neg e]
    · simp only [if_neg h]
  | give n =>
    unfold Move.apply
    by_cases h : t n = some .other
    · simp only [if_pos h, Table.put]
      by_cases e : m = n
      · subst e
        rw [if_pos rfl, h]
        exact ⟨(fun e => by cases e), (fun e => by cases e)⟩
      · rw [if_neg e]
    · simp only [if_neg h]

theorem settle_same (k : Kernel) (w : World) : Same w (settle k w) := by
  refine ⟨rfl, fun m => ?_⟩
  show (k.env w.calls).foldl Move.apply w.table m = some .mine ↔ w.table m = some .mine
  generalize w.table = t
  induction k.env w.calls generalizing t with
  | nil => exact Iff.rfl
  | cons v vs ih => exact (ih _).trans (apply_mine t v m)

theorem fresh_trans (k : Kernel) (i : Nat) (w : World) : Trans w none (fresh k i w).2 (fresh k i w).1 := by
  unfold fresh
  cases k.fd i with
  | none => exact (Same.refl w).nothing
  | some n =>
    by_cases h : w.table n = none
    · simp only [if_pos h]
      refine ⟨rfl, fun m => ?_, fun m e => ?_⟩
      · show (if m = n then some File.mine else w.table m) = some .mine ↔ _
        by_cases e : m = n
        · subst e
          rw [if_pos rfl]
          exact ⟨fun _ => .inr rfl, fun _ => rfl⟩
        · rw [if_neg e]
          exact ⟨fun h => .inl ⟨h, fun e => by cases e⟩, fun h => h.elim And.left (fun g => absurd (Option.some.inj g).symm e)⟩
      · injection e with e
        subst e
        refine .inl fun g => ?_
        have g : w.table n = some .mine := g
        rw [h] at g
        cases g
    · simp only [if_neg h]
      exact (Same.refl w).nothing

theorem sysSocket_trans (k : Kernel) (w : World) : Trans w none (sysSocket k w).2 (sysSocket k w).1 :=
  ((settle_same k w).nothing).trans (fresh_trans k _ _)

theorem sysUse_same (k : Kernel) {n : Nat} {w : World} (h : Mine w n) : Same w (sysUse k n w).2 := by
  unfold sysUse
  have hs := settle_same k w
  rw [if_pos (show (settle k w).table n = some .mine from (hs.mine n).2 h)]
  exact hs

theorem sysAccept_trans (k : Kernel) {n : Nat} {w : World} (h : Mine w n) : Trans w none (sysAccept k n w).2 (sysAccept k n w).1 := by
  unfold sysAccept
  have hs := settle_same k w
  rw [if_pos (show (settle k w).table n = some .mine from (hs.mine n).2 h)]
  exact hs.nothing.trans (fresh_trans k _ _)

theorem sysClose_spec (k : Kernel) {n : Nat} {w : World} (h : Mine w n) : Trans w (some n) (sysClose k n w).2 none ∧ (sysClose k n w).1 = k.close w.calls := by
  unfold sysClose
  have hs := settle_same k w
  have hm : (settle k w).table n = some .mine := (hs.mine n).2 h
  simp only [hm]
  refine ⟨⟨rfl, fun m => ?_, fun _ e => by cases e⟩, trivial⟩
  show (if m = n then none else (settle k w).table m) = some .mine ↔ _
  by_cases e : m = n
  · subst e
    rw [if_pos rfl]
    exact ⟨fun e => (by cases e), fun h => h.elim (fun g => absurd rfl g.2) (fun e => by cases e)⟩
  · rw [if_neg e]
    exact ⟨fun g => .inl ⟨(hs.mine m).1 g, fun e' => e (Option.some.inj e').symm⟩, fun g => g.elim (fun g => (hs.mine m).2 g.1) (fun e => by cases e)⟩

/-- `close` is never interrupted. -/
def Calm (k : Kernel) : Prop := ∀ i, k.close i ≠ .intr

theorem noIntrClose_trans {k : Kernel} (hk : Calm k) {n : Nat} {w : World} (h : Mine w n) : Trans w (some n) (noIntrClose k n w).2 none := by
  have hs := sysClose_spec k h
  unfold noIntrClose closeLoop
  cases hc : sysClose k n w with
  | mk r v =>
    rw [hc] at hs
    cases r with
    | ok => exact hs.1
    | err => exact hs.1
    | intr => exact absurd hs.2.symm (hk _)

theorem noIntrClose_ok {k : Kernel} (hk : ∀ i, k.close i = .ok) {n : Nat} {w : World} (h : Mine w n) : (noIntrClose k n w).1 = true := by
  have hs := sysClose_spec k h
  unfold noIntrClose closeLoop
  cases hc : sysClose k n w with
  | mk r v =>
    rw [hc] at hs
    have : r = .ok := hs.2.trans (hk _)
    subst this
    rfl

theorem connectAny_same (k : Kernel) {n : Nat} : ∀ (addrs : Nat) {w : World}, Mine w n → Same w (connectAny k n addrs w).2
  | 0, w, _ => Same.refl w
  | addrs + 1, w, h => by
    have hs := sysUse_same k h
    unfold connectAny
    cases hc : sysUse k n w with
    | mk r v =>
      rw [hc] at hs
      cases r with
      | true => exact hs
      | false => exact hs.trans (connectAny_same k addrs ((hs.mine n).2 h))

theorem useAll_same (k : Kernel) {n : Nat} : ∀ (calls : Nat) {w : World}, Mine w n → Same w (useAll k n calls w).2
  | 0, w, _ => Same.refl w
  | calls + 1, w, h => by
    have hs := sysUse_same k h
    unfold useAll
    cases hc : sysUse k n w with
    | mk r v =>
      rw [hc] at hs
      cases r with
      | true => exact hs.trans (useAll_same k calls ((hs.mine n).2 h))
      | false => exact hs

/-! ### MessagePack-RPC -/

theorem connectSock_trans {k : Kernel} (hk : Calm k) (addrs : Nat) (w : World) : Trans w none (connectSock k addrs w).2 (connectSock k addrs w).1 := by
  have h1 := sysSocket_trans k w
  unfold connectSock
  cases hc : sysSocket k w with
  | mk r v =>
    rw [hc] at h1
    cases r with
    | none => exact h1
    | some n =>
      have hm : Mine v n := h1.mine_of
      have h2 := connectAny_same k addrs hm
      simp only
      cases hd : connectAny k n addrs v with
      | mk r u =>
        rw [hd] at h2
        have h3 : Trans w none u (some n) := h1.trans (h2.to (fun m e => by injection e with e; subst e; exact hm))
        cases r with
        | true => exact h3
        | false => exact h3.trans (noIntrClose_trans hk h3.mine_of)

theorem listenSock_trans {k : Kernel} (hk : Calm k) (w : World) : Trans w none (listenSock k w).2 (listenSock k w).1 := by
  have h1 := sysSocket_trans k w
  unfold listenSock
  cases hc : sysSocket k w with
  | mk r v =>
    rw [hc] at h1
    cases r with
    | none => exact h1
    | some n =>
      have hm : Mine v n := h1.mine_of
      have h2 := useAll_same k 4 hm
      simp only
      cases hd : useAll k n 4 v with
      | mk r u =>
        rw [hd] at h2
        have h3 : Trans w none u (some n) := h1.trans (h2.to (fun m e => by injection e with e; subst e; exact hm))
        cases r with
        | true => exact h3
        | false => exact h3.trans (noIntrClose_trans hk h3.mine_of)

theorem sockClose_trans {k : Kernel} (hk : Calm k) {fd : Option Nat} {w : World} (h : ∀ n, fd = some n → Mine w n) : Trans w fd (sockClose k fd w).2 none := by
  unfold sockClose
  cases fd with
  | none => exact (Same.refl w).nothing
  | some n =>
    have hs := sysUse_same k (h n rfl)
    exact (hs.to h).trans (noIntrClose_trans hk ((hs.mine n).2 (h n rfl)))

theorem sockConnect_trans {k : Kernel} (hk : Calm k) (addrs : Nat) {fd : Option Nat} {w : World} (h : ∀ n, fd = some n → Mine w n) :
    Trans w fd (sockConnect k addrs fd w).2 (sockConnect k addrs fd w).1.2 := by
  have h1 := connectSock_trans hk addrs w
  unfold sockConnect
  cases hc : connectSock k addrs w with
  | mk r v =>
    rw [hc] at h1
    cases r with
    | none => exact (Trans.same h1).to h
    | some n => exact Trans.swap h h1 (sockClose_trans hk (fun m e => (h1.mine m).2 (.inl ⟨h m e, fun e => by cases e⟩)))

theorem sockListen_trans {k : Kernel} (hk : Calm k) {fd : Option Nat} {w : World} (h : ∀ n, fd = some n → Mine w n) :
    Trans w fd (sockListen k fd w).2 (sockListen k fd w).1.2 := by
  have h1 := listenSock_trans hk w
  unfold sockListen
  cases hc : listenSock k w with
  | mk r v =>
    rw [hc] at h1
    cases r with
    | none => exact (Trans.same h1).to h
    | some n => exact Trans.swap h h1 (sockClose_trans hk (fun m e => (h1.mine m).2 (.inl ⟨h m e, fun e => by cases e⟩)))

theorem setOptions_same (k : Kernel) {fd : Option Nat} {w : World} (h : ∀ n, fd = some n → Mine w n) : Same w (setOptions k fd w).2 := by
  unfold setOptions
  cases fd with
  | none => exact Same.refl w
  | some n => exact useAll_same k 2 (h n rfl)

theorem streamDestroy_trans (k : Kernel) {fd : Option Nat} {w : World} (h : ∀ n, fd = some n → Mine w n) : Trans w fd (streamDestroy k fd w) none := by
  unfold streamDestroy
  cases fd with
  | none => exact (Same.refl w).nothing
  | some n =>
    have hs := sysUse_same k (h n rfl)
    exact (hs.to h).trans (sysClose_spec k ((hs.mine n).2 (h n rfl))).1

theorem Same.keep {w w' : World} (h : Same w w') {a : Option Nat} (ha : ∀ n, a = some n → Mine w n) : ∀ n, a = some n → Mine w' n :=
  fun n e => (h.mine n).2 (ha n e)

theorem ifOptions_same (k : Kernel) (t : Bool) {fd : Option Nat} {w : World} (h : ∀ n, fd = some n → Mine w n) :
    Same w (if t then setOptions k fd w else (true, w)).2 := by
  cases t with
  | true => exact setOptions_same k h
  | false => exact Same.refl w

theorem tryConnect_trans {k : Kernel} (hk : Calm k) (addrs : Nat) (timeout : Bool) (w : World) :
    Trans w none (tryConnect k addrs timeout w).2 (tryConnect k addrs timeout w).1 := by
  have h1 := sockConnect_trans hk addrs (fd := none) (w := w) (fun _ e => by cases e)
  unfold tryConnect
  cases hc : sockConnect k addrs none w with
  | mk r v =>
    rw [hc] at h1
    obtain ⟨b, fd⟩ := r
    have hm : ∀ n, fd = some n → Mine v n := fun n e => (h1.mine n).2 (.inr e)
    cases b with
    | false => exact h1.trans (sockClose_trans hk hm)
    | true =>
      have h2 := ifOptions_same k timeout hm
      simp only
      cases hd : (if timeout then setOptions k fd v else (true, v)) with
      | mk r u =>
        rw [hd] at h2
        have hm2 := Same.keep h2 hm
        have h3 := h1.trans (h2.to hm)
        cases r with
        | false => exact h3.trans (sockClose_trans hk hm2)
        | true =>
          have h4 := setOptions_same k hm2
          simp only
          cases he : setOptions k fd u with
          | mk r x =>
            rw [he] at h4
            have hm3 := Same.keep h4 hm2
            have h5 := h3.trans (h4.to hm2)
            cases r with
            | false => exact h5.trans (sockClose_trans hk hm3)
            | true => exact h5

theorem getConnection_trans {k : Kernel} (hk : Calm k) (addrs : Nat) (timeout : Bool) {ss : Option Nat} {w : World} (h : ∀ n, ss = some n → Mine w n) :
    Trans w ss (getConnection k addrs timeout ss w).2 (getConnection k addrs timeout ss w).1 := by
  unfold getConnection
  cases ss with
  | some n => exact (Same.refl w).to h
  | none =>
    have h1 := tryConnect_trans hk addrs timeout w
    simp only
    cases hc : tryConnect k addrs timeout w with
    | mk r v =>
      rw [hc] at h1
      cases r with
      | some n => exact h1
      | none => exact h1.trans (tryConnect_trans hk addrs timeout v)

theorem acceptStream_trans {k : Kernel} (hk : Calm k) (timeout : Bool) {l : Option Nat} {w : World} (h : ∀ n, l = some n → Mine w n) :
    Trans w none (acceptStream k timeout l w).2 (acceptStream k timeout l w).1 := by
  unfold acceptStream
  cases l with
  | none => exact (Same.refl w).nothing
  | some l =>
    have h1 := sysAccept_trans k (h l rfl)
    simp only
    cases hc : sysAccept k l w with
    | mk r v =>
      rw [hc] at h1
      cases r with
      | none => exact h1
      | some n =>
        have hm : ∀ m, some n = some m → Mine v m := fun m e => (h1.mine m).2 (.inr e)
        have h2 := setOptions_same k hm
        have hm2 := Same.keep h2 hm
        have h3 := h1.trans (h2.to hm)
        have h4 := ifOptions_same k timeout hm2
        simp only
        cases hd : (if timeout then setOptions k (some n) (setOptions k (some n) v).2 else (true, (setOptions k (some n) v).2)) with
        | mk r x =>
          rw [hd] at h4
          have hm3 := Same.keep h4 hm2
          have h5 := h3.trans (h4.to hm2)
          cases r with
          | false => exact h5.trans (sockClose_trans hk hm3)
          | true => exact h5

/-! ### `stream_socket` and `server_socket` -/

theorem netOpen_trans (k : Kernel) {s : Net} {w : World} (h : ∀ n, s.fd = some n → Mine w n) : Trans w s.fd (netOpen k s w).2 (netOpen k s w).1.2.fd := by
  unfold netOpen
  cases hf : s.fd with
  | some n =>
    simp only
    rw [hf]
    rw [hf] at h
    exact (Same.refl w).to h
  | none =>
    have h1 := sysSocket_trans k w
    simp only
    cases hc : sysSocket k w with
    | mk r v =>
      rw [hc] at h1
      cases r with
      | none =>
        simp only
        rw [hf]
        exact h1
      | some n => exact h1

theorem netNew_trans (k : Kernel) (w : World) : Trans w none (netNew k w).2 (netNew k w).1.fd :=
  netOpen_trans k (s := {}) (fun _ e => by cases e)

theorem netClose_trans {k : Kernel} (hk : Calm k) {s : Net} {w : World} (h : ∀ n, s.fd = some n → Mine w n) :
    Trans w s.fd (netClose k s w).2 (netClose k s w).1.2.fd ∧ (netClose k s w).1.2.fd = none := by
  unfold netClose
  cases hf : s.fd with
  | none =>
    simp only
    rw [hf]
    exact ⟨(Same.refl w).nothing, rfl⟩
  | some n => exact ⟨noIntrClose_trans hk (h n hf), rfl⟩

theorem mine_after {w w' : World} {a b : Option Nat} (h : Trans w a w' b) : ∀ n, b = some n → Mine w' n := fun n e => (h.mine n).2 (.inr e)

theorem netDial_trans {k : Kernel} (hk : Calm k) (addrs : Nat) {s : Net} {w : World} (h : ∀ n, s.fd = some n → Mine w n) :
    Trans w s.fd (netDial k addrs s w).2 (netDial k addrs s w).1.2.fd := by
  unfold netDial
  cases hf : s.fd with
  | none =>
    simp only
    rw [hf]
    exact (Same.refl w).nothing
  | some n =>
    have h1 := connectAny_same k addrs (h n hf)
    simp only
    cases hc : connectAny k n addrs w with
    | mk r v =>
      rw [hc] at h1
      have h2 : Trans w (some n) v (some n) := h1.to (fun m e => h m (hf.trans e))
      cases r with
      | true => exact hf ▸ h2
      | false =>
        have h3 := (netClose_trans hk (s := s) (w := v) (Same.keep h1 h)).1
        rw [hf] at h3
        exact h2.trans h3

theorem netConnect_trans {k : Kernel} (hk : Calm k) (addrs : Nat) {s : Net} {w : World} (h : ∀ n, s.fd = some n → Mine w n) :
    Trans w s.fd (netConnect k addrs s w).2 (netConnect k addrs s w).1.2.fd := by
  unfold netConnect
  cases hf : s.fd with
  | none =>
    simp only
    rw [hf]
    exact (Same.refl w).nothing
  | some n =>
    simp only
    by_cases hcn : s.connected = true
    · rw [if_pos hcn]
      have h1 := (netClose_trans hk h).1
      rw [hf] at h1
      cases hc : netClose k s w with
      | mk r v =>
        obtain ⟨b, t⟩ := r
        rw [hc] at h1
        cases b with
        | false => exact h1
        | true =>
          have h2 := netOpen_trans k (mine_after h1)
          simp only
          cases hd : netOpen k t v with
          | mk r x =>
            obtain ⟨b, u⟩ := r
            rw [hd] at h2
            cases b with
            | false => exact h1.trans h2
            | true => exact (h1.trans h2).trans (netDial_trans hk addrs (mine_after h2))
    · rw [if_neg hcn, ← hf]
      exact netDial_trans hk addrs h

theorem netShutdown_trans {k : Kernel} (hk : Calm k) {s : Net} {w : World} (h : ∀ n, s.fd = some n → Mine w n) :
    Trans w s.fd (netShutdown k s w).2 (netShutdown k s w).1.2.fd := by
  have h1 := (netClose_trans hk h).1
  unfold netShutdown
  cases hc : netClose k s w with
  | mk r v =>
    obtain ⟨b, t⟩ := r
    rw [hc] at h1
    cases b with
    | false => exact h1
    | true => exact h1.trans (netOpen_trans k (mine_after h1))

theorem netIo_trans {k : Kernel} (hk : Calm k) {s : Net} {w : World} (h : ∀ n, s.fd = some n → Mine w n) :
    Trans w s.fd (netIo k s w).2 (netIo k s w).1.2.fd := by
  unfold netIo
  by_cases hcn : s.connected = false
  · rw [if_pos hcn]
    exact (Same.refl w).to h
  · rw [if_neg hcn]
    cases hf : s.fd with
    | none =>
      simp only
      rw [hf]
      exact (Same.refl w).nothing
    | some n =>
      have h1 := sysUse_same k (h n hf)
      simp only
      cases hc : sysUse k n w with
      | mk r v =>
        rw [hc] at h1
        have h2 : Trans w (some n) v (some n) := h1.to (fun m e => h m (hf.trans e))
        cases r with
        | true => exact hf ▸ h2
        | false =>
          have h3 := (netClose_trans hk (s := s) (w := v) (Same.keep h1 h)).1
          rw [hf] at h3
          exact h2.trans h3

theorem netIos_trans {k : Kernel} (hk : Calm k) : ∀ (calls : Nat) {s : Net} {w : World}, (∀ n, s.fd = some n → Mine w n) →
    Trans w s.fd (netIos k calls s w).2 (netIos k calls s w).1.fd
  | 0, _, w, h => (Same.refl w).to h
  | calls + 1, s, w, h => by
    have h1 := netIo_trans hk h
    unfold netIos
    cases hc : netIo k s w with
    | mk r v =>
      obtain ⟨b, t⟩ := r
      rw [hc] at h1
      cases b with
      | true => exact h1.trans (netIos_trans hk calls (mine_after h1))
      | false => exact h1

theorem netDestroy_trans {k : Kernel} (hk : Calm k) (calls : Nat) {s : Net} {w : World} (h : ∀ n, s.fd = some n → Mine w n) :
    Trans w s.fd (netDestroy k calls s w) none := by
  have h1 := netIos_trans hk calls h
  have h2 := netClose_trans hk (mine_after h1)
  unfold netDestroy
  have h3 := h1.trans h2.1
  rw [h2.2] at h3
  exact h3

theorem srvCreate_trans {k : Kernel} (hk : Calm k) (p : Bool) {s : Net} {w : World} (hs : s.connected = false) :
    Trans w none (srvCreate k p s w).2 (held (.srv (srvCreate k p s w).1.2)) := by
  have h1 := sysSocket_trans k w
  unfold srvCreate
  cases hc : sysSocket k w with
  | mk r v =>
    rw [hc] at h1
    cases r with
    | none =>
      simp only [held, hs]
      exact h1
    | some n =>
      have hm : Mine v n := h1.mine_of
      have h2 := useAll_same k (if p then 5 else 4) hm
      simp only
      cases hd : useAll k n (if p then 5 else 4) v with
      | mk r u =>
        rw [hd] at h2
        have h3 : Trans w none u (some n) := h1.trans (h2.to (fun m e => by injection e with e; subst e; exact hm))
        cases r with
        | true => exact h3
        | false =>
          simp only [held, hs]
          exact h3.trans (noIntrClose_trans hk h3.mine_of)

theorem srvClose_trans {k : Kernel} (hk : Calm k) {s : Net} {w : World} (h : ∀ n, held (.srv s) = some n → Mine w n) :
    Trans w (held (.srv s)) (srvClose k s w).2 (held (.srv (srvClose k s w).1.2)) ∧ held (.srv (srvClose k s w).1.2) = none := by
  unfold srvClose
  by_cases hc : s.connected = false
  · rw [if_pos hc]
    have : held (.srv s) = none := by simp only [held, hc]; rfl
    simp only [this]
    exact ⟨(Same.refl w).nothing, trivial⟩
  · rw [if_neg hc]
    have hc' : s.connected = true := by simpa using hc
    have : held (.srv s) = s.fd := by simp only [held, hc']; rfl
    rw [this] at h ⊢
    cases hf : s.fd with
    | none => exact ⟨(Same.refl w).nothing, rfl⟩
    | some n => exact ⟨noIntrClose_trans hk (h n hf), rfl⟩

theorem bindSocket_trans {k : Kernel} (hk : ∀ i, k.close i = .ok) {n : Nat} {s : Net} {w w0 : World} (h0 : Trans w0 none w (some n)) {v : World} (hs : Trans w none v s.fd) :
    Trans w0 none (bindSocket k n s v).2 (bindSocket k n s v).1.2.fd := by
  have hk' : Calm k := fun i e => by rw [hk i] at e; cases e
  unfold bindSocket
  cases hf : s.fd with
  | none =>
    rw [hf] at hs
    exact h0.trans ((Trans.same hs).to (mine_after h0))
  | some m =>
    have hm : ∀ j, s.fd = some j → Mine v j := mine_after hs
    have h1 := netClose_trans hk' hm
    have h2 : (netClose k s v).1.1 = true := by
      unfold netClose
      rw [hf]
      exact noIntrClose_ok hk (hm m hf)
    simp only
    cases hc : netClose k s v with
    | mk r u =>
      obtain ⟨b, t⟩ := r
      rw [hc] at h1 h2
      have hb : b = true := h2
      subst hb
      have h4 := h1.1
      rw [h1.2] at h4
      have h3 : Trans w none u none := hs.trans h4
      exact h0.trans ((Trans.same h3).to (mine_after h0))

theorem srvAccept_trans {k : Kernel} (hk : ∀ i, k.close i = .ok) {s : Net} {w : World} (h : ∀ n, held (.srv s) = some n → Mine w n) :
    Trans w none (srvAccept k s w).2 ((srvAccept k s w).1.bind Net.fd) := by
  unfold srvAccept
  by_cases hc : s.connected = false
  · rw [if_pos hc]
    exact (Same.refl w).nothing
  · rw [if_neg hc]
    have hc' : s.connected = true := by simpa using hc
    have : held (.srv s) = s.fd := by simp only [held, hc']; rfl
    rw [this] at h
    cases hf : s.fd with
    | none => exact (Same.refl w).nothing
    | some l =>
      have h1 := sysAccept_trans k (h l hf)
      simp only
      cases hd : sysAccept k l w with
      | mk r v =>
        rw [hd] at h1
        cases r with
        | none => exact h1
        | some n => exact bindSocket_trans hk h1 (netNew_trans k v)

/-! ### Programs -/

theorem tidy_set {st : State} (ht : Tidy st) {i : Nat} {o o' : Obj} (ho : st.objs[i]? = some o) {w' : World} (h : Trans st.w (held o) w' (held o')) : Tidy ⟨st.objs.set i o', w'⟩ := by
  have hlt : i < st.objs.length := (List.getElem?_eq_some_iff.1 ho).1
  have hget : ∀ j n, Holds ⟨st.objs.set i o', w'⟩ j n ↔ (j = i ∧ held o' = some n) ∨ (j ≠ i ∧ Holds st j n) := by
    intro j n
    by_cases e : j = i
    · subst e
      constructor
      · rintro ⟨p, h1, h2⟩
        have h1 : (st.objs.set j o')[j]? = some p := h1
        rw [List.getElem?_set_self hlt] at h1
        injection h1 with h1
        subst h1
        exact .inl ⟨rfl, h2⟩
      · rintro (⟨_, h2⟩ | ⟨h2, _⟩)
        · exact ⟨o', List.getElem?_set_self hlt, h2⟩
        · exact absurd rfl h2
    · constructor
      · rintro ⟨p, h1, h2⟩
        have h1 : (st.objs.set i o')[j]? = some p := h1
        rw [List.getElem?_set_ne (Ne.symm e)] at h1
        exact .inr ⟨e, p, h1, h2⟩
      · rintro (⟨h2, _⟩ | ⟨_, p, h1, h2⟩)
        · exact absurd h2 e
        · exact ⟨p, (List.getElem?_set_ne (Ne.symm e)).trans h1, h2⟩
  refine ⟨h.harm.trans ht.harmless, fun n => ?_, fun a b n h1 h2 => ?_⟩
  · show Mine w' n ↔ _
    rw [h.mine]
    constructor
    · rintro (⟨h1, h2⟩ | h1)
      · obtain ⟨j, hj⟩ := (ht.kept n).1 h1
        refine ⟨j, (hget j n).2 (.inr ⟨fun e => ?_, hj⟩)⟩
        subst e
        obtain ⟨p, hp, hq⟩ := hj
        rw [ho] at hp
        injection hp with hp
        subst hp
        exact h2 hq
      · exact ⟨i, (hget i n).2 (.inl ⟨rfl, h1⟩)⟩
    · rintro ⟨j, hj⟩
      rcases (hget j n).1 hj with ⟨_, h1⟩ | ⟨h1, h2⟩
      · exact .inr h1
      · exact .inl ⟨(ht.kept n).2 ⟨j, h2⟩, fun e => h1 (ht.apart j i n h2 ⟨o, ho, e⟩)⟩
  · have key : ∀ j, j ≠ i → Holds st j n → held o' = some n → False := by
      intro j hj hh he
      rcases h.new n he with h3 | h3
      · exact h3 ((ht.kept n).2 ⟨j, hh⟩)
      · exact hj (ht.apart j i n hh ⟨o, ho, h3⟩)
    rcases (hget a n).1 h1 with ⟨h3, h4⟩ | ⟨h3, h4⟩ <;> rcases (hget b n).1 h2 with ⟨h5, h6⟩ | ⟨h5, h6⟩
    · exact h3.trans h5.symm
    · exact (key b h5 h6 h4).elim
    · exact (key a h3 h4 h6).elim
    · exact ht.apart a b n h4 h6

theorem tidy_push {st : State} (ht : Tidy st) {o' : Obj} {w' : World} (h : Trans st.w none w' (held o')) : Tidy ⟨st.objs ++ [o'], w'⟩ := by
  have hget : ∀ j n, Holds ⟨st.objs ++ [o'], w'⟩ j n ↔ (j = st.objs.length ∧ held o' = some n) ∨ Holds st j n := by
    intro j n
    constructor
    · rintro ⟨p, h1, h2⟩
      have h1 : (st.objs ++ [o'])[j]? = some p := h1
      by_cases e : j < st.objs.length
      · rw [List.getElem?_append_left e] at h1
        exact .inr ⟨p, h1, h2⟩
      · rw [List.getElem?_append_right (by omega)] at h1
        have : j - st.objs.length = 0 := by
          have := (List.getElem?_eq_some_iff.1 h1).1
          simp only [List.length_cons, List.length_nil] at this
          omega
        rw [this] at h1
        injection h1 with h1
        subst h1
        exact .inl ⟨by omega, h2⟩
    · rintro (⟨h1, h2⟩ | ⟨p, h1, h2⟩)
      · subst h1
        refine ⟨o', ?_, h2⟩
        show (st.objs ++ [o'])[st.objs.length]? = some o'
        rw [List.getElem?_append_right (Nat.le_refl _), Nat.sub_self]
        rfl
      · refine ⟨p, ?_, h2⟩
        show (st.objs ++ [o'])[j]? = some p
        rw [List.getElem?_append_left (List.getElem?_eq_some_iff.1 h1).1]
        exact h1
  have hlen : ∀ j n, Holds st j n → j < st.objs.length := fun j n ⟨p, h1, _⟩ => (List.getElem?_eq_some_iff.1 h1).1
  refine ⟨h.harm.trans ht.harmless, fun n => ?_, fun a b n h1 h2 => ?_⟩
  · show Mine w' n ↔ _
    rw [h.mine]
    constructor
    · rintro (⟨h1, _⟩ | h1)
      · obtain ⟨j, hj⟩ := (ht.kept n).1 h1
        exact ⟨j, (hget j n).2 (.inr hj)⟩
      · exact ⟨_, (hget _ n).2 (.inl ⟨rfl, h1⟩)⟩
    · rintro ⟨j, hj⟩
      rcases (hget j n).1 hj with ⟨_, h1⟩ | h2
      · exact .inr h1
      · exact .inl ⟨(ht.kept n).2 ⟨j, h2⟩, fun e => by cases e⟩
  · have key : ∀ j, Holds st j n → held o' = some n → False := by
      intro j hh he
      rcases h.new n he with h3 | h3
      · exact h3 ((ht.kept n).2 ⟨j, hh⟩)
      · cases h3
    rcases (hget a n).1 h1 with ⟨h3, h4⟩ | h4 <;> rcases (hget b n).1 h2 with ⟨h5, h6⟩ | h6
    · exact h3.trans h5.symm
    · exact (key b h6 h4).elim
    · exact (key a h4 h6).elim
    · exact ht.apart a b n h4 h6

theorem tidy_same {st : State} (ht : Tidy st) {w' : World} (h : Same st.w w') : Tidy ⟨st.objs, w'⟩ :=
  ⟨h.harm.trans ht.harmless, fun n => (h.mine n).trans (ht.kept n), ht.apart⟩

theorem mine_obj {st : State} (ht : Tidy st) {i : Nat} {o : Obj} (ho : st.objs[i]? = some o) : ∀ n, held o = some n → Mine st.w n :=
  fun n e => (ht.kept n).2 ⟨i, o, ho, e⟩

theorem tidy_step {k : Kernel} (hk : Calm k) {st : State} (ht : Tidy st) (c : Cmd)
    (hc : ∀ i p s, c = .create i p → st.objs[i]? = some (.srv s) → s.connected = false)
    (ha : (∃ i t s, c = .accept i t ∧ st.objs[i]? = some (.srv s)) → ∀ i, k.close i = .ok) : Tidy (step k st c) := by
  cases c with
  | newSock => exact tidy_push ht (Same.refl _).nothing
  | newStream addrs => exact tidy_push ht (connectSock_trans hk addrs st.w)
  | newClient => exact tidy_push ht (Same.refl _).nothing
  | newNet => exact tidy_push ht (netNew_trans k st.w)
  | newSrv => exact tidy_push ht (Same.refl _).nothing
  | close i =>
    unfold step
    simp only
    cases ho : st.objs[i]? with
    | none => exact ht
    | some o =>
      have hm := mine_obj ht ho
      cases o with
      | sock fd => exact tidy_set ht ho (o' := .sock none) (sockClose_trans hk hm)
      | srv s => exact tidy_set ht ho (srvClose_trans hk hm).1
      | stream fd => exact ht
      | client fd => exact ht
      | net s => exact ht
      | gone => exact ht
  | connect i addrs =>
    unfold step
    simp only
    cases ho : st.objs[i]? with
    | none => exact ht
    | some o =>
      have hm := mine_obj ht ho
      cases o with
      | sock fd => exact tidy_set ht ho (o' := .sock _) (sockConnect_trans hk addrs hm)
      | net s => exact tidy_set ht ho (o' := .net _) (netConnect_trans hk addrs hm)
      | stream fd => exact ht
      | client fd => exact ht
      | srv s => exact ht
      | gone => exact ht
  | listen i =>
    unfold step
    simp only
    cases ho : st.objs[i]? with
    | none => exact ht
    | some o =>
      have hm := mine_obj ht ho
      cases o with
      | sock fd => exact tidy_set ht ho (o' := .sock _) (sockListen_trans hk hm)
      | net s => exact ht
      | stream fd => exact ht
      | client fd => exact ht
      | srv s => exact ht
      | gone => exact ht
  | options i =>
    unfold step
    simp only
    cases ho : st.objs[i]? with
    | none => exact ht
    | some o =>
      have hm := mine_obj ht ho
      cases o with
      | sock fd => exact tidy_same ht (setOptions_same k hm)
      | net s => exact tidy_same ht (setOptions_same k hm)
      | srv s =>
        by_cases e : s.connected = true
        · simp only [if_pos e]
          refine tidy_same ht (setOptions_same k fun n en => hm n ?_)
          simp only [held, if_pos e]
          exact en
        · simp only [if_neg e]
          exact ht
      | stream fd => exact ht
      | client fd => exact ht
      | gone => exact ht
  | accept i t =>
    unfold step
    simp only
    cases ho : st.objs[i]? with
    | none => exact ht
    | some o =>
      have hm := mine_obj ht ho
      cases o with
      | sock fd =>
        have h1 := acceptStream_trans hk t hm
        have h1 : Trans st.w none (acceptStream k t fd st.w).2 (acceptStream k t fd st.w).1 := h1
        simp only
        cases hd : acceptStream k t fd st.w with
        | mk r v =>
          rw [hd] at h1
          cases r with
          | none => exact tidy_same ht (Trans.same h1)
          | some n => exact tidy_push ht h1
      | srv s =>
        have h1 := srvAccept_trans (ha ⟨i, t, s, rfl, ho⟩) hm
        simp only
        cases hd : srvAccept k s st.w with
        | mk r v =>
          rw [hd] at h1
          cases r with
          | none => exact tidy_same ht (Trans.same h1)
          | some c => exact tidy_push ht h1
      | net s => exact ht
      | stream fd => exact ht
      | client fd => exact ht
      | gone => exact ht
  | getConnection i addrs t =>
    unfold step
    simp only
    cases ho : st.objs[i]? with
    | none => exact ht
    | some o =>
      have hm := mine_obj ht ho
      cases o with
      | client fd => exact tidy_set ht ho (o' := .client _) (getConnection_trans hk addrs t hm)
      | sock fd => exact ht
      | net s => exact ht
      | stream fd => exact ht
      | srv s => exact ht
      | gone => exact ht
  | io i calls =>
    unfold step
    simp only
    cases ho : st.objs[i]? with
    | none => exact ht
    | some o =>
      have hm := mine_obj ht ho
      cases o with
      | client fd =>
        cases fd with
        | none => exact ht
        | some n => exact tidy_same ht (useAll_same k calls (hm n rfl))
      | stream fd =>
        cases fd with
        | none => exact ht
        | some n => exact tidy_same ht (useAll_same k calls (hm n rfl))
      | sock fd => exact ht
      | net s => exact tidy_set ht ho (o' := .net _) (netIos_trans hk calls hm)
      | srv s => exact ht
      | gone => exact ht
  | shutdown i =>
    unfold step
    simp only
    cases ho : st.objs[i]? with
    | none => exact ht
    | some o =>
      have hm := mine_obj ht ho
      cases o with
      | net s => exact tidy_set ht ho (o' := .net _) (netShutdown_trans hk hm)
      | sock fd => exact ht
      | stream fd => exact ht
      | client fd => exact ht
      | srv s => exact ht
      | gone => exact ht
  | create i p =>
    unfold step
    simp only
    cases ho : st.objs[i]? with
    | none => exact ht
    | some o =>
      have hm := mine_obj ht ho
      cases o with
      | srv s =>
        have hs := hc i p s rfl ho
        have h0 : held (.srv s) = none := by simp only [held, hs]; rfl
        refine tidy_set ht ho ?_
        rw [h0]
        exact srvCreate_trans hk p hs
      | sock fd => exact ht
      | stream fd => exact ht
      | client fd => exact ht
      | net s => exact ht
      | gone => exact ht
  | destroy i calls =>
    unfold step
    simp only
    cases ho : st.objs[i]? with
    | none => exact ht
    | some o =>
      have hm := mine_obj ht ho
      cases o with
      | srv s =>
        have h1 := srvClose_trans hk hm
        refine tidy_set ht ho ?_
        have h2 := h1.1
        rw [h1.2] at h2
        exact h2
      | sock fd => exact tidy_set ht ho (o' := .gone) (sockClose_trans hk hm)
      | stream fd => exact tidy_set ht ho (o' := .gone) (streamDestroy_trans k hm)
      | client fd => exact tidy_set ht ho (o' := .gone) (streamDestroy_trans k hm)
      | net s => exact tidy_set ht ho (o' := .gone) (netDestroy_trans hk calls hm)
      | gone => exact ht

theorem tidy_run {k : Kernel} (hk : Calm k) : ∀ (cs : List Cmd) {st : State}, Tidy st → Careful k cs st → (Accepting k cs st → ∀ i, k.close i = .ok) → Tidy (run k cs st)
  | [], _, ht, _, _ => ht
  | c :: cs, _, ht, hc, ha => tidy_run hk cs (tidy_step hk ht c hc.1 (fun h => ha (.inl h))) hc.2 (fun h => ha (.inr h))

/-- A test for `Careful`. -/
def carefulTest (k : Kernel) : List Cmd → State → Bool
  | [], _ => true
  | c :: cs, st =>
    (match c with
      | .create i _ => (match st.objs[i]? with | some (.srv s) => !s.connected | _ => true)
      | _ => true) && carefulTest k cs (step k st c)

theorem careful_of (k : Kernel) : ∀ (cs : List Cmd) (st : State), carefulTest k cs st = true → Careful k cs st
  | [], _, _ => trivial
  | c :: cs, st, h => by
    unfold carefulTest at h
    rw [Bool.and_eq_true] at h
    refine ⟨fun i p s e ho => ?_, careful_of k cs _ h.2⟩
    subst e
    have h1 := h.1
    simp only [ho] at h1
    simpa using h1

end Verif.Descr.Lemmas
