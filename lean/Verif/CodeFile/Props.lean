import Verif.CodeFile.Lemmas
import Verif.Code.Props

namespace Verif.CodeFile.Props
open Verif.CodeFile Verif.CodeFile.Spec Verif.CodeFile.Lemmas

/-- **C103.** Any program that makes, attaches, reads, detaches and destroys decoders, without copying one, never frees an array twice and never reads one that is freed, and at every point the arrays
that are there are those of the decoders that are there. -/
theorem owned_partial (cs : List Cmd) (hc : CarefulRun cs {}) : ∃ st, run cs {} = some st ∧ Tidy st := run_tidy cs tidy_start hc

/-- **C103.** When all decoders are destroyed, all arrays are freed. -/
theorem all_freed_partial (cs : List Cmd) (hc : CarefulRun cs {}) {st : State} (hr : run cs {} = some st) (hd : ∀ i, ¬ There st i) : ∀ id, ¬ Live st id := by
  obtain ⟨st', e, ht⟩ := owned_partial cs hc
  rw [hr] at e; cases e
  intro id hl
  obtain ⟨i, d, h, -⟩ := (ht.kept id).1 hl
  exact hd i ⟨d, h⟩

/-- A decoder that reads a file, then a stream, then memory of the user. -/
def life : List Cmd := [.new, .new, .attachFile 0 (some ⟨[1, 2, 3], some 3⟩) true, .attachStream 1 [9] 1 true, .read 0 2, .attachStream 0 [7, 8] 2 true, .read 0 1, .attachBuf 0 [some 5], .read 0 0, .destroy 0, .destroy 1]

example : run life {} = some ⟨[none, none, none], [none, none]⟩ := by decide +kernel

/-- What the sixth call leaves. -/
example : (run (life.take 6) {}).map (·.heap.map Option.isSome) = some [false, true, true] := by decide +kernel

example : CarefulRun life {} := by
  simp only [life, CarefulRun, Careful, There, Sees]
  refine ⟨trivial, fun _ _ h => ?_⟩; cases h
  refine ⟨trivial, fun _ _ h => ?_⟩; cases h
  refine ⟨⟨⟨_, rfl⟩, fun g hg => by cases hg; decide⟩, fun _ _ h => ?_⟩; cases h
  refine ⟨⟨⟨_, rfl⟩, by decide⟩, fun _ _ h => ?_⟩; cases h
  refine ⟨⟨_, 3, ⟨_, rfl, Or.inr ⟨0, rfl, rfl⟩⟩, rfl⟩, fun _ _ h => ?_⟩; cases h
  refine ⟨⟨⟨_, rfl⟩, by decide⟩, fun _ _ h => ?_⟩; cases h
  refine ⟨⟨_, 8, ⟨_, rfl, Or.inr ⟨2, rfl, rfl⟩⟩, rfl⟩, fun _ _ h => ?_⟩; cases h
  refine ⟨⟨_, rfl⟩, fun _ _ h => ?_⟩; cases h
  refine ⟨⟨_, 5, ⟨_, rfl, Or.inl rfl⟩, rfl⟩, fun _ _ h => ?_⟩; cases h
  refine ⟨⟨_, rfl⟩, fun _ _ h => ?_⟩; cases h
  exact ⟨⟨_, rfl⟩, fun _ _ h => trivial⟩

/-- **C103.** What is done with other decoders does not change what a decoder reads from. -/
theorem apart_partial (cs : List Cmd) (hc : CarefulRun cs {}) {st st' : State} (hr : run cs {} = some st) {i : Nat} {m : Mem} (hs : Sees st i m) {c : Cmd} (ht : target st c ≠ i) {r : Res}
    (e : step st c = some (st', r)) : Sees st' i m := by
  obtain ⟨st1, e1, h1⟩ := owned_partial cs hc
  rw [hr] at e1; cases e1
  exact step_other h1 hs ht e

example : ∃ st, run (life.take 6) {} = some st ∧ Sees st 1 [some 9, some 0, some 0, some 0, some 0, some 0, some 0, some 0, some 0] ∧ target st (.attachBuf 0 []) ≠ 1 :=
  ⟨_, rfl, ⟨_, rfl, Or.inr ⟨1, rfl, rfl⟩⟩, by decide⟩

/-- **C103.** A file of fewer than `2^31 - 8` bytes is read entirely, whatever the decoder was attached to before: the decoder has its bytes and eight zeros. -/
theorem file_read_partial {st : State} (ht : Tidy st) {i : Nat} (hi : There st i) (data : Str) (hl : data.length < 2 ^ 31 - 8) :
    ∃ st', step st (.attachFile i (some ⟨data, some data.length⟩) true) = some (st', .int 0) ∧ Sees st' i ((Code.attachStream data).map some) := by
  rw [file_step, fileSize_mod _ rfl, if_pos (by omega), Nat.mod_eq_of_lt (by omega)]
  obtain ⟨st', e, hs⟩ := stream_sees ht hi data data.length
  refine ⟨st', e, ?_⟩
  have : content data data.length = (Code.attachStream data).map some := by
    have : data.length + 8 < 2 ^ 31 := by omega
    simp [content, Code.attachStream, this]
  rw [← this]; exact hs

/-- **C103.** What an encoder writes to such a file, a decoder that is attached to the file gives back. -/
theorem file_roundtrip_partial {st : State} (ht : Tidy st) {i : Nat} (hi : There st i) (ops : List Code.Op) (hv : ∀ o ∈ ops, Code.Spec.Valid o) (hal : Code.Spec.BytesAligned 0 ops) :
    ∃ e, Code.Enc.new.run ops = some e ∧ (e.flush.1.length < 2 ^ 31 - 8 →
      ∃ st' m, step st (.attachFile i (some ⟨e.flush.1, some e.flush.1.length⟩) true) = some (st', .int 0) ∧ Sees st' i (m.map some) ∧
        Code.Dec.run m Code.Dec.new ops = some (ops.map Code.Spec.value)) := by
  obtain ⟨e, he, hd⟩ := Code.Props.roundtrip_partial ops hv hal
  refine ⟨e, he, fun hl => ?_⟩
  obtain ⟨st', h1, h2⟩ := file_read_partial ht hi e.flush.1 hl
  exact ⟨st', _, h1, h2, hd⟩

example : ∃ st, run [.new, .attachBuf 0 [none]] {} = some st ∧ Tidy st ∧ There st 0 := by
  refine ⟨_, rfl, ?_, ⟨_, rfl⟩⟩
  obtain ⟨st, h, ht⟩ := owned_partial [.new, .attachBuf 0 [none]] ⟨trivial, fun _ _ h => (by cases h; exact ⟨⟨_, rfl⟩, fun _ _ _ => trivial⟩)⟩
  cases h; exact ht

/-- **C103.** A file that cannot be opened is reported, and the decoder keeps what it had. -/
theorem missing_file {st : State} {i : Nat} (hi : There st i) (room : Bool) : step st (.attachFile i none room) = some (st, .int (-1)) := by
  obtain ⟨d, hd⟩ := hi
  obtain ⟨hl, e⟩ := List.getElem?_eq_some_iff.1 hd
  simp only [step, hd, attachFile, put, Option.map_some]
  rw [← e, List.set_getElem_self]

/-- **C103.** A heap without room is reported with an exception, and the decoder is closed. -/
theorem no_room {st : State} (ht : Tidy st) {i : Nat} (hi : There st i) (data : Str) (n : Nat) :
    ∃ st', step st (.attachStream i data n false) = some (st', .threw) ∧ Tidy st' ∧ st'.decs[i]? = some (some {}) := by
  obtain ⟨d, hd⟩ := hi
  obtain ⟨h', e, -, ht'⟩ := detach_tidy ht hd clean_empty
  have hil : i < st.decs.length := (List.getElem?_eq_some_iff.1 hd).1
  simp only [step, hd, attachStream, e, Option.bind_some]
  rw [if_neg (by omega), if_neg (by omega)]
  exact ⟨_, rfl, ht', by simp [hil]⟩

/-- **C103, negation.** A stream that ends early is not reported: the call returns 0, and reading any byte behind the end of the stream is undefined. -/
theorem short_not_reported {st : State} (ht : Tidy st) {i : Nat} (hi : There st i) (data : Str) (n : Nat) (hn : data.length < n) :
    ∃ st', step st (.attachStream i data n true) = some (st', .int 0) ∧ ∀ pos, data.length ≤ pos → pos < n → step st' (.read i pos) = none := by
  obtain ⟨st', e, d, hd, hs⟩ := stream_sees ht hi data n
  refine ⟨st', e, fun pos h1 h2 => ?_⟩
  have hg : (content data n)[pos]? = some none := by
    unfold content
    rw [List.getElem?_append_left (by simp; omega), List.getElem?_append_right (by simp; omega)]
    rw [List.getElem?_replicate, if_pos (by simp; omega)]
  simp only [step, hd]
  rcases hs with h | ⟨id, h, hm⟩
  · simp [readByte, h, hg]
  · simp [readByte, h, hm, hg]

example : Tidy ⟨[], [some {}]⟩ ∧ There ⟨[], [some {}]⟩ 0 ∧ ([1, 2] : Str).length < 4 := ⟨new_tidy tidy_start, ⟨_, rfl⟩, by decide⟩

/-- **C103, negation.** A file that is gone between opening it and asking for its size: zeros are written in front of the array. -/
theorem vanished_file_undefined (st : State) (i : Nat) (data : Str) (room : Bool) : step st (.attachFile i (some ⟨data, none⟩) room) = none := by
  rw [file_step]
  have : fileSize ⟨data, none⟩ = -1 := by show Int.bmod (-1) (2 ^ 32) = -1; decide
  rw [this]
  simp only [step]
  split
  · rename_i d _
    cases h : detach st.heap d <;> simp [attachStream, h]
  · rfl

example : step ⟨[], [some {}]⟩ (.attachFile 0 (some ⟨[1], none⟩) true) = none := by decide +kernel

/-- **C103, negation.** The size of a file is taken modulo `2^32`: of a file with `k * 2^32 + n` bytes only the first `n` are read, and this is not reported. -/
theorem large_file_cut {st : State} (ht : Tidy st) {i : Nat} (hi : There st i) (data : Str) (k n : Nat) (hl : data.length = k * 2 ^ 32 + n) (hn : n < 2 ^ 31 - 8) :
    ∃ st', step st (.attachFile i (some ⟨data, some data.length⟩) true) = some (st', .int 0) ∧ Sees st' i ((Code.attachStream (data.take n)).map some) := by
  rw [file_step, fileSize_mod _ rfl]
  have hm : data.length % 2 ^ 32 = n := by omega
  rw [hm, if_pos (by omega)]
  obtain ⟨st', e, hs⟩ := stream_sees ht hi data n
  refine ⟨st', e, ?_⟩
  have : content data n = (Code.attachStream (data.take n)).map some := by
    have h1 : n + 8 < 2 ^ 31 := by omega
    have h2 : n - data.length = 0 := by omega
    simp [content, Code.attachStream, h1, h2, List.map_take]
  rw [← this]; exact hs

example : (List.replicate (2 ^ 32 + 3) (0 : UInt8)).length = 1 * 2 ^ 32 + 3 ∧ 3 < 2 ^ 31 - 8 := ⟨by rw [List.length_replicate], by decide⟩

/-- **C103, negation.** A file whose size modulo `2^32` is from `2^31` to `2^32 - 9` cannot be read; with a size of `2^32 - 8` to `2^32 - 1` memory is overwritten. -/
theorem large_file_refused {st : State} (ht : Tidy st) {i : Nat} (hi : There st i) (data : Str) (room : Bool) :
    (2 ^ 31 ≤ data.length % 2 ^ 32 → data.length % 2 ^ 32 < 2 ^ 32 - 8 → ∃ st', step st (.attachFile i (some ⟨data, some data.length⟩) room) = some (st', .threw)) ∧
    (2 ^ 32 - 8 ≤ data.length % 2 ^ 32 → step st (.attachFile i (some ⟨data, some data.length⟩) room) = none) := by
  obtain ⟨d, hd⟩ := hi
  obtain ⟨h', e, -, -⟩ := detach_tidy ht hd clean_empty
  have hf := fileSize_mod ⟨data, some data.length⟩ rfl
  rw [file_step]
  generalize fileSize ⟨data, some data.length⟩ = size at hf
  constructor
  · intro h1 h2
    have hs : size < -8 := by rw [if_neg (by omega)] at hf; omega
    have := (stream_refused e data room).1 hs
    simp only [step, hd, this]
    exact ⟨_, rfl⟩
  · intro h1
    have hs : -8 ≤ size ∧ size < 0 := by rw [if_neg (by omega)] at hf; omega
    have := (stream_refused e data room).2 hs
    simp only [step, hd, this, Option.map_none]

example : 2 ^ 31 ≤ (List.replicate (2 ^ 31) (0 : UInt8)).length % 2 ^ 32 ∧ 2 ^ 32 - 8 ≤ (List.replicate (2 ^ 32 - 1) (0 : UInt8)).length % 2 ^ 32 := by
  rw [List.length_replicate, List.length_replicate]; decide

/-- **C103, negation.** A copy of a decoder that read a file or a stream frees the array again: whichever of the two is destroyed last, and also when one is detached before. -/
theorem copy_frees_twice {st : State} (ht : Tidy st) {i id : Nat} (ho : Owns st i id) :
    run [.copy i, .destroy i, .destroy st.decs.length] st = none ∧ run [.copy i, .destroy st.decs.length, .destroy i] st = none ∧
    run [.copy i, .detach i, .destroy st.decs.length] st = none := by
  obtain ⟨m, hm⟩ := (ht.kept id).2 ⟨i, ho⟩
  obtain ⟨d, hd, hn, hb⟩ := ho
  have hil : i < st.decs.length := (List.getElem?_eq_some_iff.1 hd).1
  have hid : id < st.heap.length := (List.getElem?_eq_some_iff.1 hm).1
  have h1 : (st.decs ++ [some d])[i]? = some (some d) := by rw [List.getElem?_append_left hil]; exact hd
  have h2 : (st.decs ++ [some d])[st.decs.length]? = some (some d) := by simp
  have h3 : ∀ o, ((st.decs ++ [some d]).set i o)[st.decs.length]? = some (some d) := fun o => by rw [List.getElem?_set_ne (by omega)]; exact h2
  have h4 : ∀ o, ((st.decs ++ [some d]).set st.decs.length o)[i]? = some (some d) := fun o => by rw [List.getElem?_set_ne (by omega)]; exact h1
  have dt : detach st.heap d = some (st.heap.set id none) := by simp [detach, hb, hn, hm]
  have dt2 : detach (st.heap.set id none) d = none := by simp [detach, hb, hn, hid]
  simp only [run, step, hd, h1, h2, dt, Option.map_some, h3, h4, dt2, Option.map_none, and_self]

/-- **C103, negation.** After such a copy is destroyed, each read of the other decoder is a read of freed memory. -/
theorem copy_reads_freed {st : State} (ht : Tidy st) {i id : Nat} (ho : Owns st i id) (pos : Nat) : run [.copy i, .destroy st.decs.length, .read i pos] st = none := by
  obtain ⟨m, hm⟩ := (ht.kept id).2 ⟨i, ho⟩
  obtain ⟨d, hd, hn, hb⟩ := ho
  have hil : i < st.decs.length := (List.getElem?_eq_some_iff.1 hd).1
  have hid : id < st.heap.length := (List.getElem?_eq_some_iff.1 hm).1
  have h1 : (st.decs ++ [some d])[i]? = some (some d) := by rw [List.getElem?_append_left hil]; exact hd
  have h2 : (st.decs ++ [some d])[st.decs.length]? = some (some d) := by simp
  have h4 : ∀ o, ((st.decs ++ [some d]).set st.decs.length o)[i]? = some (some d) := fun o => by rw [List.getElem?_set_ne (by omega)]; exact h1
  have dt : detach st.heap d = some (st.heap.set id none) := by simp [detach, hb, hn, hm]
  have rd : readByte (st.heap.set id none) d pos = none := by simp [readByte, hb, hid]
  simp only [run, step, hd, h2, dt, Option.map_some, h4, rd, Option.map_none]

/-- **C103, negation.** Assigning to a decoder that read a file or a stream loses its array: it is there, and no decoder owns it. -/
theorem assign_leaks {st st' : State} (ht : Tidy st) {i j id : Nat} (ho : Owns st i id) (hij : i ≠ j) {r : Res} (e : step st (.assign i j) = some (st', r)) :
    Live st' id ∧ ∀ k, ¬ Owns st' k id := by
  obtain ⟨m, hm⟩ := (ht.kept id).2 ⟨i, ho⟩
  simp only [step] at e
  split at e
  · rename_i d0 d h0 h1
    cases e
    refine ⟨⟨m, hm⟩, ?_⟩
    rintro k ⟨d', hd', hn, hb⟩
    rcases set_get hd' with ⟨-, e'⟩ | ⟨hne, h⟩
    · cases e'; exact hij (ht.apart i j id ho ⟨d, h1, hn, hb⟩)
    · exact hne (ht.apart i k id ho ⟨d', h, hn, hb⟩)
  · cases e

example : ∃ st, run [.new, .new, .attachStream 0 [1] 1 true] {} = some st ∧ Tidy st ∧ Owns st 0 0 ∧ (step st (.assign 0 1)).isSome := by
  refine ⟨_, rfl, ?_, ⟨_, rfl, rfl, rfl⟩, by decide⟩
  obtain ⟨st, h, ht⟩ := owned_partial [.new, .new, .attachStream 0 [1] 1 true]
    ⟨trivial, fun _ _ h => (by cases h; exact ⟨trivial, fun _ _ h => (by cases h; exact ⟨⟨⟨_, rfl⟩, by decide⟩, fun _ _ _ => trivial⟩)⟩)⟩
  cases h; exact ht

end Verif.CodeFile.Props
