import Verif.Endian.Lemmas
/-! Property C32. -/

namespace Verif.Endian.Props
open Verif.Endian Verif.Endian.Spec Verif.Endian.Lemmas

/-- In the model an object is laid out in memory as its host's byte order says. -/
theorem store_eq {n : Nat} (v : BitVec (8 * n)) :
    store .little v = littleEndian v ∧ store .big v = bigEndian v :=
  ⟨store_little v, store_big v⟩

/-- C32. `is_little` and `is_big` tell the byte order of the machine. -/
theorem is_little_iff (h : Host) : (isLittle h = true ↔ h = .little) ∧ (isBig h = true ↔ h = .big) := by
  cases h <;> decide

/-- C32. For every type, `reverse` is defined and reverses the byte order. -/
theorem reverse_reverses (h : Host) (t : Ty) (v : BitVec (8 * t.size)) :
    ∃ w, reverse h t v = some w ∧ littleEndian w = bigEndian v ∧ store h w = (store h v).reverse := by
  obtain ⟨w, h1, h2⟩ := reverse_le h t v
  refine ⟨w, h1, h2, ?_⟩
  cases h
  · rw [store_little, store_little, h2, bigEndian_eq]
  · rw [store_big, store_big, bigEndian_eq w, h2]

example : reverse .little .uint 0x12345678#32 = some 0x78563412#32 := by decide
example : reverse .big .short 0xff01#16 = some 0x01ff#16 := by decide
example : reverse .little (.other 3) 0x010203#24 = some 0x030201#24 := by decide +kernel

/-- C32. `reverse` is an involution. -/
theorem reverse_involutive (h : Host) (t : Ty) (v : BitVec (8 * t.size)) :
    (reverse h t v).bind (reverse h t) = some v := by
  obtain ⟨w, h1, h2⟩ := reverse_le h t v
  obtain ⟨x, h3, h4⟩ := reverse_le h t w
  rw [h1, Option.bind_some, h3]
  congr 1
  apply littleEndian_inj
  rw [h4, bigEndian_eq, h2, bigEndian_eq, List.reverse_reverse]

/-- C32. On both kinds of host, `to_little` of a value, written from memory, is the little-endian representation of the value. -/
theorem to_little_bytes (h : Host) (t : Ty) (v : BitVec (8 * t.size)) :
    ∃ w, toLittle h t v = some w ∧ store h w = littleEndian v :=
  toLittle_eq h t v

/-- C32. On both kinds of host, `to_big` of a value, written from memory, is the big-endian representation of the value. -/
theorem to_big_bytes (h : Host) (t : Ty) (v : BitVec (8 * t.size)) :
    ∃ w, toBig h t v = some w ∧ store h w = bigEndian v :=
  toBig_eq h t v

example : (toBig .little .uint 0x12345678#32).map (store (n := 4) .little) = some [0x12, 0x34, 0x56, 0x78] := by decide
example : (toLittle .big .int 0x12345678#32).map (store (n := 4) .big) = some [0x78, 0x56, 0x34, 0x12] := by decide

/-- C32. Bytes sent by a host of one kind and received by a host of any kind carry the value over, little-endian. -/
theorem little_transfer (h h' : Host) (t : Ty) (v : BitVec (8 * t.size)) :
    ∃ w, toLittle h t v = some w ∧ fromLittle h' t (load h' t.size (store h w)) = some v := by
  obtain ⟨w, h1, h2⟩ := toLittle_eq h t v
  refine ⟨w, h1, ?_⟩
  obtain ⟨x, h3, h4⟩ := toLittle_eq h' t (load h' t.size (store h w))
  rw [fromLittle, h3]
  congr 1
  have h5 := store_load h' (store h w) (length_store h w)
  rw [h2] at h4 h5
  cases h' with
  | little =>
    rw [store_little] at h4 h5
    exact littleEndian_inj (h4.trans h5)
  | big =>
    rw [store_big, bigEndian_eq] at h4 h5
    apply littleEndian_inj
    apply List.reverse_inj.mp
    rw [h4, ← List.reverse_inj, h5, List.reverse_reverse]

/-- C32. Bytes sent by a host of one kind and received by a host of any kind carry the value over, big-endian. -/
theorem big_transfer (h h' : Host) (t : Ty) (v : BitVec (8 * t.size)) :
    ∃ w, toBig h t v = some w ∧ fromBig h' t (load h' t.size (store h w)) = some v := by
  obtain ⟨w, h1, h2⟩ := toBig_eq h t v
  refine ⟨w, h1, ?_⟩
  obtain ⟨x, h3, h4⟩ := toBig_eq h' t (load h' t.size (store h w))
  rw [fromBig, h3]
  congr 1
  have h5 := store_load h' (store h w) (length_store h w)
  rw [h2] at h4 h5
  cases h' with
  | little =>
    rw [store_little] at h4 h5
    rw [bigEndian_eq, bigEndian_eq, ] at *
    apply littleEndian_inj
    rw [h4, h5, List.reverse_reverse]
  | big =>
    rw [store_big] at h4 h5
    rw [h5, bigEndian_eq, bigEndian_eq] at h4
    exact littleEndian_inj (List.reverse_inj.mp h4)

/-- C32. On one host the conversions are inverse to each other in both orders. -/
theorem from_to (h : Host) (t : Ty) (v : BitVec (8 * t.size)) :
    (toLittle h t v).bind (fromLittle h t) = some v ∧ (fromLittle h t v).bind (toLittle h t) = some v ∧
    (toBig h t v).bind (fromBig h t) = some v ∧ (fromBig h t v).bind (toBig h t) = some v := by
  have hl : ∀ v, load h t.size (store h v) = v := fun v => store_inj h (store_load h _ (length_store h v))
  obtain ⟨w, h1, h2⟩ := little_transfer h h t v
  obtain ⟨x, h3, h4⟩ := big_transfer h h t v
  rw [hl] at h2 h4
  have a : (toLittle h t v).bind (fromLittle h t) = some v := by rw [h1]; exact h2
  have b : (toBig h t v).bind (fromBig h t) = some v := by rw [h3]; exact h4
  exact ⟨a, a, b, b⟩

example : (toBig .little (.other 8) 0x0102030405060708#64) = some 0x0807060504030201#64 := by decide +kernel

end Verif.Endian.Props
