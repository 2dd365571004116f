import Verif.Serial.LemmasCost
import Verif.Serial.Lemmas
/-! C99: what it costs to read an archive. -/
namespace Verif.Serial.PropsCost
open Verif.Serial Verif.Serial.Spec Verif.Serial.LemmasCost

/-- Reading that succeeds reads from the stream at most as often as it takes bytes, whatever the object was before. -/
theorem success_linear (t : Ty) (ht : Real t) (old : Val t) (bs : List UInt8) (h : (read t old (archive bs)).2.good = true) :
    cost t old (archive bs) + (read t old (archive bs)).2.rest.length ≤ bs.length := paid_read t ht old (archive bs) h

example : Real (.map .str (.vec (.prim 8 true))) ∧
    (read (.map .str (.vec (.prim 2 true))) [] (archive [1, 0, 0, 0, 1, 0, 0, 0, 97, 1, 0, 0, 0, 7, 0, 5])).2 = ⟨[5], true, false⟩ ∧
    cost (.map .str (.vec (.prim 2 true))) [] (archive [1, 0, 0, 0, 1, 0, 0, 0, 97, 1, 0, 0, 0, 7, 0, 5]) = 5 :=
  ⟨⟨trivial, show 0 < 8 by decide⟩, by decide +kernel, by decide +kernel⟩

/-- Reading into a new object ends, whatever the bytes, after as many reads as there are bytes and `excess t` more. -/
theorem any_bytes_bounded (t : Ty) (ht : Real t) (bs : List UInt8) : cost t (dflt t) (archive bs) ≤ bs.length + excess t := by
  have := (lim_read t ht).any (archive bs)
  have h2 : (archive bs).rest = bs := rfl
  rw [h2] at this
  omega

example : excess (.vec (.pair .str (.prim 4 true))) = 2 ^ 32 + 2 + (2 ^ 32 - 1) * 2 := by decide

/-- Four bytes are enough for any number of elements below 2^32: a vector, a deque or a list then has that many, all new. -/
theorem four_bytes_fill (t : Ty) (ht : Real t) (n : Nat) (hn : n < 2 ^ 32) :
    (read (.vec t) [] (archive (sizeField n))).1 = List.replicate n (dflt t) ∧ (sizeField n).length = 4 ∧
    cost (.vec t) [] (archive (sizeField n)) = 1 + n * fields t ∧
    read (.deque t) [] (archive (sizeField n)) = read (.vec t) [] (archive (sizeField n)) ∧
    read (.list t) [] (archive (sizeField n)) = read (.vec t) [] (archive (sizeField n)) := by
  have e : readPrim 4 0 (archive (sizeField n)) = (n, archive []) := by
    have := Lemmas.readPrim_size n 0 [] false
    rw [List.append_nil, Nat.mod_eq_of_lt hn] at this
    exact this
  obtain ⟨h1, h2, _⟩ := hollow_push (hollow_read t ht) n (archive []) rfl
  refine ⟨?_, by rw [sizeField, Lemmas.length_toLE], ?_, rfl, rfl⟩
  · simp only [read, readSeq, List.length_nil, Nat.zero_mod, e, List.take_nil, readInPlace, List.nil_append, Nat.sub_zero]
    exact h2
  · simp only [cost, costSeq, List.length_nil, Nat.zero_mod, e, List.take_nil, costInPlace, readInPlace, Nat.add_zero, Nat.sub_zero, h1]

example : sizeField (2 ^ 32 - 1) = [255, 255, 255, 255] ∧ Real (.str) := ⟨by decide, trivial⟩

/-- The same for strings. -/
theorem four_bytes_string (n : Nat) (hn : n < 2 ^ 32) :
    (read .str [] (archive (sizeField n))).1 = List.replicate n 0 ∧ cost .str [] (archive (sizeField n)) = 1 + n := by
  have e : readPrim 4 0 (archive (sizeField n)) = (n, archive []) := by
    have := Lemmas.readPrim_size n 0 [] false
    rw [List.append_nil, Nat.mod_eq_of_lt hn] at this
    exact this
  constructor
  · simp only [read, readStr_eq, List.length_nil, Nat.zero_mod, e, List.take_nil, List.nil_append, Nat.sub_zero]
    exact (hollow_inPlace hollow_char n (archive []) rfl).2.1
  · simp only [cost, costStr, List.length_nil, Nat.zero_mod, e]

/-- Sets and maps take as many turns, although they have one element at most afterwards. -/
theorem four_bytes_turns (k v t : Ty) (hk : Real k) (hv : Real v) (ht : Real t) (n : Nat) (hn : n < 2 ^ 32) :
    cost (.map k v) [] (archive (sizeField n)) = 1 + n * (fields k + fields v) ∧
    cost (.umap k v) [] (archive (sizeField n)) = 1 + n * (fields k + fields v) ∧
    cost (.set t) [] (archive (sizeField n)) = 1 + n * fields t ∧ cost (.uset t) [] (archive (sizeField n)) = 1 + n * fields t := by
  have e : readPrim 4 0 (archive (sizeField n)) = (n, archive []) := by
    have := Lemmas.readPrim_size n 0 [] false
    rw [List.append_nil, Nat.mod_eq_of_lt hn] at this
    exact this
  have h1 := hollow_insert (hollow_pair (hollow_read k hk) (hollow_read v hv)) false n (archive []) rfl
  have h2 := hollow_insert (hollow_read t ht) (indet t) n (archive []) rfl
  refine ⟨?_, ?_, ?_, ?_⟩ <;> simp only [cost, costAssoc, List.length_nil, Nat.zero_mod, e, h1, h2]

example : cost (.set .str) [] (archive (sizeField 9)) = 10 ∧ (read (.set .str) [] (archive (sizeField 9))).1 = [[]] := by decide +kernel

/-- So the costs are not proportional to the length of the archive, not even with a factor of a thousand million. -/
theorem not_linear (t : Ty) (ht : Real t) (hf : 0 < fields t) : ¬ ∀ bs, cost (.vec t) [] (archive bs) ≤ 1000000000 * bs.length := by
  intro h
  have h1 := h (sizeField (2 ^ 32 - 1))
  obtain ⟨-, h2, h3, -⟩ := four_bytes_fill t ht (2 ^ 32 - 1) (by decide)
  rw [h2, h3] at h1
  have : (2 ^ 32 - 1) * 1 ≤ (2 ^ 32 - 1) * fields t := Nat.mul_le_mul_left _ hf
  omega

example : 0 < fields (.pair .str (.prim 4 true)) := by decide

end Verif.Serial.PropsCost
