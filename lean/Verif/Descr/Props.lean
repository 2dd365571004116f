import Verif.Descr.Lemmas
/-! C78: the network classes neither leak file descriptors nor touch those of others. -/

namespace Verif.Descr.Props
open Verif.Descr Verif.Descr.Spec Verif.Descr.Lemmas

/-- Whatever the program does with its objects, however the kernel answers, and whatever other threads do in between: every system call was made on a descriptor of the program; its open
descriptors are those its objects are responsible for; no two objects have the same. Missing: kernels where `close` is interrupted (`interrupted_close`); errors of `close` during
`server_socket::accept` (`accept_leaks`); a second `create` of a `server_socket` that is listening (`create_twice_leaks`, `create_twice_harms`). -/
theorem tidy_partial (k : Kernel) (hk : ∀ i, k.close i ≠ .intr) (cs : List Cmd) (hc : Careful k cs {}) (ha : Accepting k cs {} → ∀ i, k.close i = .ok) : Tidy (run k cs {}) := by
  refine tidy_run hk cs ⟨rfl, fun n => ⟨(fun h => by cases h), fun ⟨i, o, h, _⟩ => by cases h⟩, fun i j n h => ?_⟩ hc ha
  obtain ⟨o, h1, _⟩ := h
  cases h1

/-- So when all objects are destroyed, no descriptor is left. -/
theorem all_closed_partial (k : Kernel) (hk : ∀ i, k.close i ≠ .intr) (cs : List Cmd) (hc : Careful k cs {}) (ha : Accepting k cs {} → ∀ i, k.close i = .ok)
    (hg : ∀ o ∈ (run k cs {}).objs, o = .gone) : ∀ n, (run k cs {}).w.table n ≠ some .mine := by
  intro n h
  obtain ⟨i, o, h1, h2⟩ := ((tidy_partial k hk cs hc ha).kept n).1 h
  rw [hg o (List.mem_of_getElem? h1)] at h2
  cases h2

/-- Descriptors 3, 4, ... are given out, all calls succeed. -/
def easy : Kernel := ⟨fun _ => [], fun i => some (3 + i), fun _ => true, fun _ => .ok, 0⟩

/-- A second `create` forgets the descriptor of the first. -/
theorem create_twice_leaks : ∃ cs, (run easy cs {}).w.table 3 = some .mine ∧ ∀ i, ¬ Holds (run easy cs {}) i 3 := by
  refine ⟨[.newSrv, .create 0 false, .create 0 false], by decide +kernel, ?_⟩
  rintro i ⟨o, h1, h2⟩
  have e : (run easy [.newSrv, .create 0 false, .create 0 false] {}).objs = [.srv ⟨some 8, true⟩] := by decide +kernel
  rw [e] at h1
  cases i with
  | zero =>
    injection h1 with h1
    subst h1
    cases h2
  | succ i => cases h1

/-- The second `create` fails, for instance since the port is in use; the socket says that it is alive, and its destructor closes a file of another thread that has got the number. -/
theorem create_twice_harms : ∃ k : Kernel, (∀ i, k.close i = .ok) ∧ ∃ cs, (run k cs {}).objs = [.srv ⟨some 8, true⟩] ∧
    ∃ n, (settle k (run k cs {}).w).table n = some .other ∧ (run k (cs ++ [.destroy 0 0]) {}).w.table n = none ∧ (run k (cs ++ [.destroy 0 0]) {}).w.harm = true :=
  ⟨⟨fun i => if i = 9 then [.take 8] else [], fun i => some (3 + i), fun i => i != 7, fun _ => .ok, 0⟩, fun _ => rfl, [.newSrv, .create 0 false, .create 0 false], by decide +kernel, 8, by decide +kernel,
    by decide +kernel, by decide +kernel⟩

/-- An interrupted `close` is repeated, although the descriptor is free already: a file of another thread is closed. -/
theorem interrupted_close : ∃ k : Kernel, k.env 2 = [.take 3] ∧ (run k [.newNet, .destroy 0 0] {}).w.table 3 = none ∧ (run k [.newNet, .destroy 0 0] {}).w.harm = true :=
  ⟨⟨fun i => if i = 2 then [.take 3] else [], fun i => some (3 + i), fun _ => true, fun i => if i = 1 then .intr else .ok, 1⟩, rfl, by decide +kernel, by decide +kernel⟩

/-- `accept` loses the connection when the descriptor that the constructor of the new socket made cannot be closed without an error. -/
theorem accept_leaks : ∃ k : Kernel, (∀ i, k.close i = .err) ∧ ∃ cs, (run k cs {}).objs = [.srv ⟨some 3, true⟩, .net {}] ∧ (run k cs {}).w.table 8 = some .mine :=
  ⟨⟨fun _ => [], fun i => some (3 + i), fun _ => true, fun _ => .err, 0⟩, fun _ => rfl, [.newSrv, .create 0 false, .accept 0 false], by decide +kernel, by decide +kernel⟩

/-! A case that meets the hypotheses: all kinds of objects are made, some calls fail, another thread takes descriptors. -/

def busy : Kernel := ⟨fun i => [.take (i % 7), .give (i % 5)], fun i => some (i % 11), fun i => i % 7 != 1, fun _ => .ok, 0⟩

def session : List Cmd :=
  [.newSock, .listen 0, .newClient, .getConnection 1 2 true, .accept 0 true, .newSrv, .create 3 true, .accept 3 false, .newNet, .connect 5 2, .io 5 2, .newStream 3, .io 6 1,
    .shutdown 5, .connect 0 1, .options 0]

example : ∀ i, busy.close i = .ok := fun _ => rfl

example : Careful busy session {} := careful_of busy session {} (by decide +kernel)
example : 2 ≤ ((run busy session {}).objs.filterMap held).length := by decide +kernel
example : Careful easy session {} := careful_of easy session {} (by decide +kernel)
example : 7 ≤ ((run easy session {}).objs.filterMap held).length := by decide +kernel
example : (run easy [.newNet, .connect 0 1, .newSock, .listen 1, .destroy 0 2, .destroy 1 0] {}).objs = [.gone, .gone] := by decide +kernel

/-- `open` says whether there is a new descriptor. -/
theorem open_tells (k : Kernel) (s : Net) (w : World) :
    (netOpen k s w).1.1 = true ↔ s.fd = none ∧ (netOpen k s w).1.2.fd.isSome := by
  unfold netOpen
  cases hs : s.fd with
  | some n => simp
  | none => cases he : sysSocket k w with
    | mk r w' => cases r <;> simp [hs]

example : (netOpen easy {} {}).1 = (true, ⟨some 3, false⟩) ∧ (netOpen easy ⟨some 3, false⟩ {}).1 = (false, ⟨some 3, false⟩) ∧
    (netOpen { easy with fd := fun _ => none } {} {}).1 = (false, {}) := by decide +kernel

/-- `close` of a server says `true` only if there was an open server and the kernel reported no error; either way it is closed. -/
theorem server_close_tells (k : Kernel) (s : Net) (w : World) :
    ((srvClose k s w).1.1 = true ↔ s.connected = true ∧ ∃ n, s.fd = some n ∧ (noIntrClose k n w).1 = true) ∧
    (s.connected = true → (srvClose k s w).1.2 = {}) := by
  unfold srvClose
  cases hc : s.connected with
  | false => simp
  | true => cases hs : s.fd <;> simp

example : (srvClose easy (srvCreate easy false {} {}).1.2 (srvCreate easy false {} {}).2).1 = (true, {}) ∧ (srvClose easy ⟨none, true⟩ {}).1 = (false, {}) := by
  decide +kernel

/-- A socket that `accept` gives is connected exactly if it has the descriptor of the new connection, that is, unless the descriptor made by its
constructor could not be closed. -/
theorem accepted_connected (k : Kernel) (s : Net) (w : World) (t : Net) (h : (srvAccept k s w).1 = some t) :
    ∃ l n w', s.fd = some l ∧ s.connected = true ∧ sysAccept k l w = (some n, w') ∧ (t = ⟨some n, true⟩ ∨ t = {}) := by
  unfold srvAccept at h
  cases hc : s.connected with
  | false => simp [hc] at h
  | true =>
    cases hs : s.fd with
    | none => simp [hc, hs] at h
    | some l =>
      cases ha : sysAccept k l w with
      | mk r w' =>
        cases r with
        | none => simp [hc, hs, ha] at h
        | some n =>
          simp only [hc, hs, ha, Bool.true_eq_false, if_false, Option.some.injEq] at h
          refine ⟨l, n, w', rfl, rfl, ha, ?_⟩
          rw [← h]
          unfold bindSocket
          cases hf : (netNew k w').1.fd with
          | none => exact .inl rfl
          | some m =>
            simp only [netClose, hf]
            cases hb : (noIntrClose k m (netNew k w').2).1 with
            | false => exact .inr rfl
            | true => exact .inl rfl

example : ((srvAccept easy (srvCreate easy false {} {}).1.2 (srvCreate easy false {} {}).2).1.map (·.connected)) = some true := by decide +kernel

end Verif.Descr.Props
