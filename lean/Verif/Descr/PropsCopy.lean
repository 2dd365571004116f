import Verif.Descr.Copy
/-! C78: copies of the sockets of `/repo/src/network/socket.h`. -/

namespace Verif.Descr.Props
open Verif.Descr Verif.Descr.Spec Verif.Descr.Lemmas

/-- Whatever the kernel answers and other threads do: when an object that is responsible for a descriptor was copied and both are destroyed, a system call is made on a descriptor
that is not open or belongs to somebody else. -/
theorem copy_harms (k : Kernel) (st : State) (i : Nat) (o : Obj) (ho : st.objs[i]? = some o) (hk : (∃ s, o = .net s) ∨ ∃ s, o = .srv s) (n : Nat) (hn : held o = some n)
    (a b : Nat) : (run k [.destroy i a, .destroy st.objs.length b] (copy i st)).w.harm = true := by
  have hi : i < st.objs.length := (List.getElem?_eq_some_iff.1 ho).1
  rcases hk with ⟨s, rfl⟩ | ⟨s, rfl⟩
  · have e0 : (st.objs ++ [Obj.net s])[i]? = some (.net s) := by rw [List.getElem?_append_left hi]; exact ho
    have e1 : ((st.objs ++ [Obj.net s]).set i .gone)[st.objs.length]? = some (.net s) := by
      rw [List.getElem?_set_ne (by omega)]
      simp
    simp only [run, copy, ho, step, e0, e1]
    exact netDestroy_harm k b hn (netDestroy_lost k a hn st.w)
  · have e0 : (st.objs ++ [Obj.srv s])[i]? = some (.srv s) := by rw [List.getElem?_append_left hi]; exact ho
    have e1 : ((st.objs ++ [Obj.srv s]).set i .gone)[st.objs.length]? = some (.srv s) := by
      rw [List.getElem?_set_ne (by omega)]
      simp
    simp only [held] at hn
    split at hn
    · rename_i hc
      have hc' : ¬ s.connected = false := by rw [hc]; decide
      simp only [run, copy, ho, step, e0, e1, srvClose, if_neg hc', hn]
      exact noIntrClose_harm (noIntrClose_lost k n st.w)
    · cases hn

example : held (.net ⟨some 3, true⟩) = some 3 := rfl
example : (run ⟨fun _ => [], fun i => some (3 + i), fun _ => true, fun _ => .ok, 0⟩ [.newNet] {}).objs = [.net ⟨some 3, false⟩] := by decide +kernel

/-- Before that all is well: a copy and its original are both good for the same descriptor, and nothing is lost while both live. -/
theorem copy_shares (st : State) (i : Nat) (s : Net) (n : Nat) (ho : st.objs[i]? = some (.net s)) (hn : s.fd = some n) :
    Holds (copy i st) i n ∧ Holds (copy i st) st.objs.length n ∧ (copy i st).w = st.w := by
  have hi : i < st.objs.length := (List.getElem?_eq_some_iff.1 ho).1
  simp only [copy, ho]
  refine ⟨⟨.net s, ?_, hn⟩, ⟨.net s, ?_, hn⟩, trivial⟩
  · rw [List.getElem?_append_left hi]; exact ho
  · simp

/-- The number can have gone to another socket of the program in the meantime: then it is this one that loses its connection. The kernel gives out the lowest number that is free. -/
theorem copy_closes_another : ∃ k : Kernel, (∀ i, k.close i = .ok) ∧ ∃ st : State, st = run k [.destroy 0 0, .newNet] (copy 0 (run k [.newNet] {})) ∧
    Holds st 2 3 ∧ st.w.table 3 = some .mine ∧ st.w.harm = false ∧ Holds (run k [.destroy 1 0] st) 2 3 ∧ (run k [.destroy 1 0] st).w.table 3 = none := by
  refine ⟨⟨fun _ => [], fun _ => some 3, fun _ => true, fun _ => .ok, 0⟩, fun _ => rfl, _, rfl, ⟨.net ⟨some 3, false⟩, ?_, rfl⟩, ?_, ?_, ⟨.net ⟨some 3, false⟩, ?_, rfl⟩, ?_⟩ <;> decide +kernel

end Verif.Descr.Props
