import Verif.TmpStream.Lemmas
/-!
# `serialization::stream` and its temporary files (C96)
-/
namespace Verif.TmpStream.Props
open Verif.TmpStream Verif.TmpStream.Spec Verif.TmpStream.Lemmas
open Verif.Serial (escape unescape)
open Verif.Serial.Spec (archive)

/-! ### Objects -/

/-- Whatever is done with objects, copies and assignments included: as long as an
object exists whose temporary file could be made, or that refers to a stream of the
client, its stream is open. -/
theorem never_dangling (w : World) (x : Nat) (o : Obj) (hr : Reachable w) (hx : Is w x o) (hs : Sound o) : (content w o).isSome := by
  obtain ⟨names, clients, ops, h⟩ := hr
  have hi := inv_run (inv_start names clients) h
  have hm := mem_of_find hx
  unfold content
  cases hp : o.pios with
  | null => exact (hs hp).elim
  | client u => rfl
  | own k => exact (hi.alive _ hm k ((hi.shape _ hm k).1 hp)).1

/-- No descriptor is leaked: a file that is open is held by an object. -/
theorem no_descriptor_leak (w : World) (h : Nat) (hr : Reachable w) (ho : (w.files h).isSome) : ∃ x o, Is w x o ∧ o.pios = .own h := by
  obtain ⟨names, clients, ops, hrun⟩ := hr
  have hi := inv_run (inv_start names clients) hrun
  obtain ⟨e, he, heq⟩ := hi.used h ho
  exact ⟨e.1, e.2, (AssocMap.find_eq_some_iff hi.keys).2 he, (hi.shape e he h).2 heq⟩

/-- An object and a copy of it, one of which is gone. -/
def oneLeft : List Op := [.create 0 (.ok [97]), .copy 1 0, .use 1 (put [7, 8]), .destroy 0]

example : ∃ w, run (start (fun _ => false) (fun _ => newString)) oneLeft = .ok w ∧ Is w 1 ⟨[97], some 0, .own 0⟩ ∧
    content w ⟨[97], some 0, .own 0⟩ = some ⟨[7, 8], 2, 2, true, false⟩ := by
  refine ⟨_, rfl, rfl, ?_⟩
  decide +kernel

/-- What happens to other objects and to files does not change the stream of an
object: neither which one it is nor what is in it. -/
theorem stream_survives (w w' : World) (op : Op) (x : Nat) (o : Obj) (hr : Reachable w) (hx : Is w x o)
    (hop : (∃ y r, op = .create y r) ∨ (∃ y u, op = .wrap y u) ∨ (∃ y z, op = .copy y z) ∨ (∃ y z, y ≠ x ∧ op = .assign y z) ∨
      (∃ y, y ≠ x ∧ op = .destroy y) ∨ (∃ n, op = .foreign n)) (h : step w op = .ok w') :
    Is w' x o ∧ content w' o = content w o := by
  obtain ⟨names, clients, ops, hrun⟩ := hr
  have hi := inv_run (inv_start names clients) hrun
  have hm := mem_of_find hx
  have hlive : ∀ k, o.pios = .own k → (w.files k).isSome ∧ k < w.next := fun k hk =>
    ⟨(hi.alive _ hm k ((hi.shape _ hm k).1 hk)).1, (hi.alive _ hm k ((hi.shape _ hm k).1 hk)).2.1⟩
  have cont : ∀ v : World, v.clients = w.clients → (∀ k, o.pios = .own k → v.files k = w.files k) → content v o = content w o := by
    intro v h1 h2
    unfold content
    cases hp : o.pios with
    | null => rfl
    | client u => simp only [h1]
    | own k => exact h2 k hp
  unfold Is at hx ⊢
  rcases hop with ⟨y, r, rfl⟩ | ⟨y, u, rfl⟩ | ⟨y, z, rfl⟩ | ⟨y, z, hy, rfl⟩ | ⟨y, hy, rfl⟩ | ⟨n, rfl⟩
  · simp only [step] at h
    split at h
    · cases h
    rename_i hn
    have hne : x ≠ y := by rintro rfl; rw [hx] at hn; exact hn rfl
    cases r with
    | ok n =>
      simp only at h
      split at h
      · cases h
      injection h with h
      subst h
      refine ⟨by rw [AssocMap.find_upsert, if_neg hne, hx], cont _ rfl ?_⟩
      intro k hk
      simp only [upd]
      rw [if_neg (by have := (hlive k hk).2; omega)]
    | failed n =>
      simp only at h
      injection h with h
      subst h
      exact ⟨by rw [AssocMap.find_upsert, if_neg hne, hx], cont _ rfl (fun _ _ => rfl)⟩
  · simp only [step] at h
    split at h
    · cases h
    rename_i hn
    have hne : x ≠ y := by rintro rfl; rw [hx] at hn; exact hn rfl
    injection h with h
    subst h
    exact ⟨by rw [AssocMap.find_upsert, if_neg hne, hx], cont _ rfl (fun _ _ => rfl)⟩
  · simp only [step] at h
    split at h
    · rename_i o' hy' _
      have hne : x ≠ y := by rintro rfl; rw [hx] at hy'; cases hy'
      injection h with h
      subst h
      exact ⟨by rw [AssocMap.find_upsert, if_neg hne, hx], cont _ rfl (fun _ _ => rfl)⟩
    · cases h
  · simp only [step] at h
    split at h
    · injection h with h
      subst h
      rename_i a o' _ _
      obtain ⟨h1, h2, h3, h4⟩ := release_objs { w with objs := AssocMap.upsert w.objs y o' } a.spios
      have hf : AssocMap.find (AssocMap.upsert w.objs y o') x = some o := by
        rw [AssocMap.find_upsert, if_neg (fun e => hy e.symm), hx]
      refine ⟨by rw [h1]; exact hf, cont _ h4 ?_⟩
      intro k hk
      rw [release_files, if_neg]
      rintro ⟨-, hc⟩
      have : held (AssocMap.upsert w.objs y o') k = true := held_iff.2 ⟨_, mem_of_find hf, (hi.shape _ hm k).1 hk⟩
      simp only at hc
      rw [this] at hc
      cases hc
    · cases h
  · simp only [step] at h
    split at h
    · injection h with h
      subst h
      rename_i a _
      obtain ⟨h1, h2, h3, h4⟩ := release_objs { w with objs := AssocMap.erase w.objs y } a.spios
      obtain ⟨g1, g2, g3, g4⟩ := unlink_objs (release { w with objs := AssocMap.erase w.objs y } a.spios) a.fname
      have hf : AssocMap.find (AssocMap.erase w.objs y) x = some o := by
        rw [AssocMap.find_erase, if_neg (fun e => hy e.symm), hx]
      refine ⟨by rw [g1, h1]; exact hf, cont _ (by rw [g4, h4]) ?_⟩
      intro k hk
      rw [g2, release_files, if_neg]
      rintro ⟨-, hc⟩
      have : held (AssocMap.erase w.objs y) k = true := held_iff.2 ⟨_, mem_of_find hf, (hi.shape _ hm k).1 hk⟩
      simp only at hc
      rw [this] at hc
      cases hc
    · cases h
  · simp only [step] at h
    split at h
    · cases h
    injection h with h
    subst h
    exact ⟨hx, cont _ rfl (fun _ _ => rfl)⟩

/-- A copy is the same stream: what is done through one is seen through the other. -/
theorem copies_share (w w' : World) (x y : Nat) (h : step w (.copy x y) = .ok w') :
    ∃ o, Is w' x o ∧ Is w' y o ∧ Is w y o := by
  simp only [step] at h
  split at h
  · rename_i o hx hy
    injection h with h
    subst h
    have hne : y ≠ x := by rintro rfl; rw [hx] at hy; cases hy
    exact ⟨o, by unfold Is; rw [AssocMap.find_upsert, if_pos rfl], by unfold Is; rw [AssocMap.find_upsert, if_neg hne, hy], hy⟩
  · cases h

example : ∃ w w', run (start (fun _ => false) (fun _ => newString)) [.create 0 (.ok [97])] = .ok w ∧ step w (.copy 1 0) = .ok w' :=
  ⟨_, _, rfl, rfl⟩

/-! ### Files -/

/-- As long as objects are not assigned to each other no temporary file stays
behind: its name is that of an object that holds it. In particular there are none
when there are no objects. -/
theorem no_file_left_partial (names : Name → Bool) (clients : Nat → S) (ops : List Op) (w : World) (n : Name) (f : File)
    (hq : ∀ op ∈ ops, NoAssign op) (h : run (start names clients) ops = .ok w) (hd : w.dir n = some f) :
    f = .other ∨ ∃ x o k, Is w x o ∧ o.fname = n ∧ o.pios = .own k ∧ f = .tmp k := by
  have hi := inv_run (inv_start names clients) h
  cases f with
  | other => exact .inl rfl
  | tmp k =>
    obtain ⟨e, he, h1, h2⟩ := named_run hq h n k hd
    exact .inr ⟨e.1, e.2, k, (AssocMap.find_eq_some_iff hi.keys).2 he, h1, (hi.shape e he k).2 h2, rfl⟩

example : (∀ op ∈ oneLeft, NoAssign op) ∧
    ∃ w, run (start (fun n => n = [98]) (fun _ => newString)) oneLeft = .ok w ∧ w.dir [98] = some .other := by
  refine ⟨?_, _, rfl, by decide +kernel⟩
  intro op h
  simp only [oneLeft, List.mem_cons, List.not_mem_nil, or_false] at h
  rcases h with rfl | rfl | rfl | rfl <;> trivial

/-- As long as objects are neither copied nor assigned and all temporary files can
be made: the name of an object is that of its file, so that the file can be opened
with it. -/
theorem own_name_partial (names : Name → Bool) (clients : Nat → S) (ops : List Op) (w : World) (x : Nat) (o : Obj) (k : Nat)
    (hq : ∀ op ∈ ops, Plain op) (h : run (start names clients) ops = .ok w) (hx : Is w x o) (ho : o.pios = .own k) :
    w.dir o.fname = some (.tmp k) := by
  obtain ⟨hi, hown⟩ := own_run hq h
  have hm := mem_of_find hx
  exact hown.name _ hm k ((hi.shape _ hm k).1 ho)

/-- And files of others are never removed. -/
theorem others_files_stay_partial (names : Name → Bool) (clients : Nat → S) (ops ops' : List Op) (w w' : World) (n : Name)
    (hq : ∀ op ∈ ops, Plain op) (hq' : ∀ op ∈ ops', Plain op) (h : run (start names clients) ops = .ok w) (h' : run w ops' = .ok w')
    (hn : w.dir n = some .other) : w'.dir n = some .other :=
  (run_keeps (P := fun w => Inv w ∧ Own w ∧ w.dir n = some .other)
    (fun _ _ _ hp hq h => ⟨inv_step hp.1 h, own_step hp.1 hp.2.1 hq h, other_step hp.2.1 hq h hp.2.2⟩) ops' w w'
    ⟨(own_run hq h).1, (own_run hq h).2, hn⟩ hq' h').2.2

/-- Two objects, one of which is gone, and a file of somebody else. -/
def twoFiles : List Op := [.create 0 (.ok [97]), .create 1 (.ok [98]), .foreign [99], .wrap 2 5, .destroy 0]

example : (∀ op ∈ twoFiles, Plain op) ∧ ∃ w, run (start (fun _ => false) (fun _ => newString)) twoFiles = .ok w ∧
    Is w 1 ⟨[98], some 1, .own 1⟩ ∧ w.dir [98] = some (.tmp 1) ∧ w.dir [97] = none ∧ w.dir [99] = some .other := by
  refine ⟨?_, _, rfl, rfl, ?_⟩
  · intro op h
    simp only [twoFiles, List.mem_cons, List.not_mem_nil, or_false] at h
    rcases h with rfl | rfl | rfl | rfl | rfl <;> trivial
  · decide +kernel

/-- An assignment leaves the file of the object that is assigned to behind, even
when all objects are gone. -/
theorem assignment_leaves_file (clients : Nat → S) (names : Name → Bool) (n m : Name) (hn : n ≠ []) (hm : m ≠ []) (hd : n ≠ m)
    (h1 : names n = false) (h2 : names m = false) :
    ∃ w, run (start names clients) [.create 0 (.ok n), .create 1 (.ok m), .assign 0 1, .destroy 0, .destroy 1] = .ok w ∧
      w.objs = [] ∧ w.dir n = some (.tmp 0) := by
  have hd' : ¬ m = n := fun h => hd h.symm
  simp [run, step, start, h1, h2, hn, hm, hd, hd', upd, AssocMap.find, AssocMap.upsert, AssocMap.erase, release, held, unlink]

example : ([1] : Name) ≠ [] ∧ ([1] : Name) ≠ [2] := by decide

/-- When a copy is gone the file of the object that remains has no name, and if somebody else makes a
file with that name, it is removed with that object. -/
theorem copy_removes_file_of_other (clients : Nat → S) (names : Name → Bool) (n : Name) (hn : n ≠ []) (h1 : names n = false) :
    (∃ w, run (start names clients) [.create 0 (.ok n), .copy 1 0, .destroy 1] = .ok w ∧ Is w 0 ⟨n, some 0, .own 0⟩ ∧ w.dir n = none) ∧
    (∃ w, run (start names clients) [.create 0 (.ok n), .copy 1 0, .destroy 1, .foreign n] = .ok w ∧ w.dir n = some .other) ∧
    ∃ w, run (start names clients) [.create 0 (.ok n), .copy 1 0, .destroy 1, .foreign n, .destroy 0] = .ok w ∧ w.dir n = none := by
  refine ⟨?_, ?_, ?_⟩ <;>
    simp [run, step, start, h1, hn, upd, AssocMap.find, AssocMap.upsert, AssocMap.erase, release, held, unlink, Is]

example : ([1] : Name) ≠ [] := by decide

/-- If no temporary file can be made, using the object is undefined behaviour. When
it is destroyed the file with the name that is left in the template is removed. -/
theorem failed_file (w : World) (x : Nat) (n : Name) (hx : AssocMap.find w.objs x = none) (hn : n ≠ []) :
    ∃ w', step w (.create x (.failed n)) = .ok w' ∧ (∀ f, step w' (.use x f) = .error .ub) ∧
      ∃ w'', step w' (.destroy x) = .ok w'' ∧ w''.dir n = none := by
  have hf : AssocMap.find (AssocMap.upsert w.objs x ⟨n, none, .null⟩) x = some ⟨n, none, .null⟩ := by
    rw [AssocMap.find_upsert, if_pos rfl]
  refine ⟨{ w with objs := AssocMap.upsert w.objs x ⟨n, none, .null⟩ }, by simp [step, hx], ?_, ?_⟩
  · intro f
    simp [step, hf]
  · refine ⟨unlink { w with objs := AssocMap.erase (AssocMap.upsert w.objs x ⟨n, none, .null⟩) x } n, by simp [step, hf, release], ?_⟩
    rw [unlink_dir, if_pos ⟨rfl, hn⟩]

example : AssocMap.find (start (fun _ => true) (fun _ => newString)).objs 3 = none ∧ ([1] : Name) ≠ [] := by decide

/-- An object that refers to a stream of the client neither makes nor removes files. -/
theorem wrapped_no_files (w w' w'' : World) (x u : Nat) (h : step w (.wrap x u) = .ok w') (h' : step w' (.destroy x) = .ok w'') :
    w'.dir = w.dir ∧ w''.dir = w.dir ∧ w''.files = w.files ∧ w''.clients = w.clients := by
  simp only [step] at h
  split at h
  · cases h
  injection h with h
  subst h
  simp only [step, AssocMap.find_upsert, if_true, release, unlink, Except.ok.injEq] at h'
  subst h'
  exact ⟨rfl, rfl, rfl, rfl⟩

example : ∃ w w', step (start (fun _ => true) (fun _ => newString)) (.wrap 0 4) = .ok w ∧ step w (.destroy 0) = .ok w' := ⟨_, _, rfl, rfl⟩

/-! ### What is sent and received -/

/-- What is left to read in one stream is sent through an archive to a new one, and it can be read
there from the beginning. -/
theorem send_receive (s t : S) (tail : List UInt8) (fuel : Nat) (hf : (s.data.drop s.gpos).length < fuel)
    (ht : t = newFile ∨ t = newString) :
    ∃ t', recv fuel (archive ((send s).1 ++ tail)) t = some (archive tail, t') ∧ t'.data = s.data.drop s.gpos ∧
      (takeAll t').1 = s.data.drop s.gpos := by
  have h := Serial.Props.embed_round_trip (s.data.drop s.gpos) tail fuel hf
  rcases ht with rfl | rfl <;>
    simp [recv, send, takeAll, h, seek0, put, setP, setG, newFile, newString]

example : (([1, 2, 3] : List UInt8).drop 1).length < 3 := by decide

/-- Sending the same stream again sends nothing, also for an object that is
`const`. -/
theorem second_send_empty (s : S) : (send (send s).2).1 = escape [] := by
  simp only [send, takeAll, setG]
  congr 1
  rw [List.drop_eq_nil_iff, List.length_drop]
  omega

/-- What was just written into a temporary file is not sent: the position is behind
it. With a `stringstream` it is. -/
theorem written_file_not_sent (bs : List UInt8) : (send (put bs newFile)).1 = escape [] ∧ (send (put bs newString)).1 = escape bs := by
  simp [send, takeAll, put, setP, newFile, newString]

/-- A stream that is received into a file that had contents, and is read from the
beginning, is followed by the rest of the old contents. -/
theorem old_contents_stay (new : List UInt8) (t : S) (tail : List UInt8) (fuel : Nat) (hf : new.length < fuel)
    (hj : t.joint = true) (hp : t.ppos = 0) (hfail : t.fail = false) :
    ∃ t', recv fuel (archive (escape new ++ tail)) t = some (archive tail, t') ∧ (takeAll t').1 = new ++ t.data.drop new.length := by
  have h := Serial.Props.embed_round_trip new tail fuel hf
  simp [recv, h, takeAll, seek0, put, setP, setG, hj, hp, hfail]

/-- A file in which "abc" was received, and then "x", contains "xbc". -/
example : ∃ t t', recv 9 (archive (escape [97, 98, 99])) newFile = some (archive [], t) ∧
    recv 9 (archive (escape [120])) t = some (archive [], t') ∧ (takeAll t').1 = [120, 98, 99] :=
  ⟨_, _, rfl, rfl, rfl⟩

/-- A `stringstream` contains all that it ever received instead. -/
theorem strings_pile_up (a b : List UInt8) (tail tail' : List UInt8) (fuel fuel' : Nat) (hf : a.length < fuel) (hf' : b.length < fuel') :
    ∃ t t', recv fuel (archive (escape a ++ tail)) newString = some (archive tail, t) ∧
      recv fuel' (archive (escape b ++ tail')) t = some (archive tail', t') ∧ (takeAll t').1 = a ++ b := by
  have h := Serial.Props.embed_round_trip a tail fuel hf
  have h' := Serial.Props.embed_round_trip b tail' fuel' hf'
  refine ⟨seek0 (put a newString), seek0 (put b (seek0 (put a newString))), by simp only [recv, h, Option.map_some],
    by simp only [recv, h', Option.map_some], ?_⟩
  simp [takeAll, seek0, put, setP, setG, newString]

example : ([1, 2] : List UInt8).length < 3 := by decide

/-- Nothing can be read after receiving into a file that was read to its end with
`>>`: the position is not moved back. -/
theorem drained_file_stays_at_end (new : List UInt8) (t : S) (tail : List UInt8) (fuel : Nat) (hf : new.length < fuel)
    (hj : t.joint = true) (hp : t.gpos ≤ t.data.length) :
    ∃ t', recv fuel (archive (escape new ++ tail)) (drain t) = some (archive tail, t') ∧ (takeAll t').1 = [] ∧ t'.data = t.data ++ new := by
  have h := Serial.Props.embed_round_trip new tail fuel hf
  have e : t.gpos + (t.data.length - t.gpos) = t.data.length := by omega
  simp [recv, h, takeAll, seek0, put, setP, setG, drain, hj, e]

example : newFile.joint = true ∧ newFile.gpos ≤ newFile.data.length := by decide

end Verif.TmpStream.Props
