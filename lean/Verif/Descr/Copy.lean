import Verif.Descr.Lemmas
/-! Copies of `stream_socket` and `server_socket`, which have no copy constructors of their own. -/

namespace Verif.Descr

/-- The copy constructors that the compiler makes for `/repo/src/network/socket.h:53-116` and 118-140 copy the members; the program gets one more object. Other classes of the
model cannot be copied (`/repo/src/network/mprpc/socket.h:47`; `/repo/src/network/mprpc/object_stream.h:59` holds an unpacker) or share their stream. -/
def copy (i : Nat) (st : State) : State :=
  match st.objs[i]? with
  | some (.net s) => ⟨st.objs ++ [.net s], st.w⟩
  | some (.srv s) => ⟨st.objs ++ [.srv s], st.w⟩
  | _ => st

end Verif.Descr

namespace Verif.Descr.Lemmas
open Verif.Descr Verif.Descr.Spec

/-- The process has harmed somebody, or the number is not one of its own. -/
def Lost (n : Nat) (w : World) : Prop := w.harm = true ∨ ¬ Mine w n

theorem sysUse_lost {k : Kernel} {m n : Nat} {w : World} (h : Lost n w) : Lost n (sysUse k m w).2 := by
  have hs := settle_same k w
  simp only [sysUse]
  split
  · rcases h with h | h
    · exact .inl (hs.harm.trans h)
    · exact .inr fun g => h ((hs.mine n).1 g)
  · exact .inl rfl

theorem sysUse_harm {k : Kernel} {n : Nat} {w : World} (h : Lost n w) : (sysUse k n w).2.harm = true := by
  have hs := settle_same k w
  simp only [sysUse]
  split
  · rename_i h'
    rcases h with h | h
    · exact hs.harm.trans h
    · exact absurd ((hs.mine n).1 h') h
  · rfl

theorem sysUse_keeps {k : Kernel} {n : Nat} {w : World} (h : w.harm = true) : (sysUse k n w).2.harm = true := sysUse_harm (.inl h)

theorem sysClose_keeps {k : Kernel} {n : Nat} {w : World} (h : w.harm = true) : (sysClose k n w).2.harm = true := by
  have hs := settle_same k w
  simp only [sysClose]
  split
  · exact hs.harm.trans h
  · rfl
  · rfl

theorem sysClose_lost (k : Kernel) (n : Nat) (w : World) : Lost n (sysClose k n w).2 := by
  simp only [sysClose]
  split
  · right
    intro g
    simp only [Mine, Table.put, if_true] at g
    cases g
  · exact .inl rfl
  · exact .inl rfl

theorem sysClose_harm {k : Kernel} {n : Nat} {w : World} (h : Lost n w) : (sysClose k n w).2.harm = true := by
  have hs := settle_same k w
  simp only [sysClose]
  split
  · rename_i h'
    rcases h with h | h
    · exact hs.harm.trans h
    · exact absurd ((hs.mine n).1 h') h
  · rfl
  · rfl

theorem closeLoop_keeps {k : Kernel} {n : Nat} : ∀ (fuel : Nat) {w : World}, w.harm = true → (closeLoop k n fuel w).2.harm = true
  | 0, _, h => h
  | fuel + 1, w, h => by
    have hk := sysClose_keeps (k := k) (n := n) h
    simp only [closeLoop]
    split
    · rename_i e; rw [e] at hk; exact hk
    · rename_i e; rw [e] at hk; exact hk
    · rename_i e; rw [e] at hk; exact closeLoop_keeps fuel hk

theorem closeLoop_lost {k : Kernel} {n : Nat} : ∀ (fuel : Nat) {w : World}, Lost n w → Lost n (closeLoop k n fuel w).2
  | 0, _, h => h
  | fuel + 1, w, _ => by
    have hk := sysClose_lost k n w
    simp only [closeLoop]
    split
    · rename_i e; rw [e] at hk; exact hk
    · rename_i e; rw [e] at hk; exact hk
    · rename_i e; rw [e] at hk; exact closeLoop_lost fuel hk

theorem noIntrClose_lost (k : Kernel) (n : Nat) (w : World) : Lost n (noIntrClose k n w).2 := by
  have hk := sysClose_lost k n w
  simp only [noIntrClose, closeLoop]
  split
  · rename_i e; rw [e] at hk; exact hk
  · rename_i e; rw [e] at hk; exact hk
  · rename_i e; rw [e] at hk; exact closeLoop_lost k.limit hk

theorem noIntrClose_harm {k : Kernel} {n : Nat} {w : World} (h : Lost n w) : (noIntrClose k n w).2.harm = true := by
  have hk := sysClose_harm (k := k) h
  simp only [noIntrClose, closeLoop]
  split
  · rename_i e; rw [e] at hk; exact hk
  · rename_i e; rw [e] at hk; exact hk
  · rename_i e; rw [e] at hk; exact closeLoop_keeps k.limit hk

/-- After calls on a socket it still has its descriptor, or it is closed and the descriptor is lost. -/
theorem netIos_fd (k : Kernel) (n : Nat) : ∀ (calls : Nat) (s : Net) (w : World), s.fd = some n →
    (netIos k calls s w).1.fd = some n ∨ (netIos k calls s w).1.fd = none ∧ Lost n (netIos k calls s w).2
  | 0, _, _, h => .inl h
  | calls + 1, s, w, h => by
    simp only [netIos, netIo, h]
    by_cases hc : s.connected = false
    · rw [if_pos hc]
      exact .inl h
    · rw [if_neg hc]
      cases e : sysUse k n w with
      | mk b w' =>
        cases b
        · simp only [netClose, h]
          exact .inr ⟨trivial, noIntrClose_lost k n w'⟩
        · exact netIos_fd k n calls s w' h

/-- Calls on a socket whose descriptor is lost leave it so, or do harm. -/
theorem netIos_harm (k : Kernel) (n : Nat) : ∀ (calls : Nat) (s : Net) (w : World), s.fd = some n → Lost n w →
    (netIos k calls s w).2.harm = true ∨ (netIos k calls s w).1.fd = some n ∧ Lost n (netIos k calls s w).2
  | 0, _, _, h, hl => .inr ⟨h, hl⟩
  | calls + 1, s, w, h, hl => by
    simp only [netIos, netIo, h]
    by_cases hc : s.connected = false
    · rw [if_pos hc]
      exact .inr ⟨h, hl⟩
    · rw [if_neg hc]
      have hu := sysUse_harm (k := k) hl
      cases e : sysUse k n w with
      | mk b w' =>
        rw [e] at hu
        cases b
        · simp only [netClose, h]
          exact .inl (noIntrClose_harm (.inl hu))
        · exact netIos_harm k n calls s w' h (.inl hu)

theorem netDestroy_lost (k : Kernel) (calls : Nat) {s : Net} {n : Nat} (h : s.fd = some n) (w : World) : Lost n (netDestroy k calls s w) := by
  simp only [netDestroy]
  rcases netIos_fd k n calls s w h with e | ⟨e, hl⟩
  · simp only [netClose, e]
    exact noIntrClose_lost k n _
  · simp only [netClose, e]
    exact hl

theorem netIos_keeps (k : Kernel) : ∀ (calls : Nat) (s : Net) (w : World), w.harm = true → (netIos k calls s w).2.harm = true
  | 0, _, _, h => h
  | calls + 1, s, w, h => by
    simp only [netIos, netIo]
    by_cases hc : s.connected = false
    · rw [if_pos hc]; exact h
    · rw [if_neg hc]
      cases hf : s.fd with
      | none => exact h
      | some n =>
        have hu := sysUse_keeps (k := k) (n := n) h
        dsimp only
        cases e : sysUse k n w with
        | mk b w' =>
          rw [e] at hu
          cases b
          · simp only [netClose, hf]
            exact noIntrClose_harm (.inl hu)
          · exact netIos_keeps k calls s w' hu

theorem netClose_keeps {k : Kernel} {s : Net} {w : World} (h : w.harm = true) : (netClose k s w).2.harm = true := by
  simp only [netClose]
  split
  · exact h
  · exact noIntrClose_harm (.inl h)

theorem netDestroy_harm (k : Kernel) (calls : Nat) {s : Net} {n : Nat} (h : s.fd = some n) {w : World} (hl : Lost n w) : (netDestroy k calls s w).harm = true := by
  simp only [netDestroy]
  rcases netIos_harm k n calls s w h hl with e | ⟨e, hl'⟩
  · exact netClose_keeps e
  · simp only [netClose, e]
    exact noIntrClose_harm hl'

end Verif.Descr.Lemmas
