import Verif.Md5.Lemmas
/-!
# Properties of MD5 (C19)

The sine table is a parameter throughout; with the RFC's table the result is
MD5. That the floating-point computation of the table yields the RFC's table
is proved in `Verif.Md5.PropsTable`.
-/
namespace Verif.Md5.Props
open Verif.Md5 Verif.Md5.Lemmas

/-- **C19.** For every message and every table, the computed registers are
those of RFC 1321: the padded message, block by block, through the four
rounds. -/
theorem md5_eq_rfc (tbl : Nat → UInt32) (m : List UInt8) : md5 tbl m = Spec.md5 tbl m := by
  unfold md5 Spec.md5 Buf.new
  rw [calcLoop_spec tbl _ m _ 0 rfl (by decide), Nat.zero_add]
  rfl

/- The RFC's test suite: "", "abc" and the 80-digit message. -/
example : String.ofList (print (md5 Spec.T [])) = "d41d8cd98f00b204e9800998ecf8427e" := by
  decide +kernel
example : String.ofList (print (md5 Spec.T [97, 98, 99])) = "900150983cd24fb0d6963f7d28e17f72" := by
  decide +kernel

/-- **C19, padding.** The padded message is a whole number of 64-byte blocks,
begins with the message, and the padding is the shortest possible: at most 63
zero bytes. -/
theorem pad_blocks (m : List UInt8) :
    (Spec.pad m).length % 64 = 0 ∧ m <+: Spec.pad m ∧ Spec.zeroCount m.length < 64 := by
  refine ⟨?_, ?_, ?_⟩
  · simp only [Spec.pad, List.length_append, List.length_cons, List.length_nil, List.length_replicate,
      lengthBytes_length, Spec.zeroCount]
    omega
  · simp only [Spec.pad, List.append_assoc]; exact List.prefix_append _ _
  · simp only [Spec.zeroCount]; omega

example : (Spec.pad (List.replicate 56 7)).length = 128 ∧ (Spec.pad (List.replicate 55 7)).length = 64 := by
  decide +kernel

/-- **C19, output.** `operator<<` prints the sixteen digest bytes, low-order
byte first, as 32 hexadecimal digits. -/
theorem print_eq (r : Regs) : print r = Spec.hex (Spec.digest r) := by
  unfold print Spec.digest
  simp only [hexWord_eq, List.flatMap_cons, List.flatMap_nil, List.append_nil, hex_append,
    List.append_assoc]

/-- **C19, output.** Different digests print differently. -/
theorem print_inj (r s : Regs) (h : print r = print s) : r = s := by
  rw [print_eq, print_eq] at h
  exact digest_inj _ _ (hex_inj _ _ h)

example : print ⟨0x67452301, 0, 0, 0⟩ ≠ print ⟨0x67452301, 0, 0, 1⟩ := by decide +kernel

/-- **C19, order.** `operator<` on digests is a strict total order, so digests
can be keys of ordered containers. -/
theorem lt_strict_total (x y z : Regs) :
    lt x x = false ∧ (lt x y = true → lt y z = true → lt x z = true) ∧
      (lt x y = true ∨ x = y ∨ lt y x = true) := by
  have e : x = y ↔ x.a.toNat = y.a.toNat ∧ x.b.toNat = y.b.toNat ∧ x.c.toNat = y.c.toNat ∧
      x.d.toNat = y.d.toNat := by
    cases x; cases y
    simp [UInt32.toNat_inj]
  refine ⟨?_, ?_, ?_⟩
  · rw [← Bool.not_eq_true, lt_iff]; omega
  · rw [lt_iff, lt_iff, lt_iff]; omega
  · rw [lt_iff, lt_iff, e]; omega

example : lt ⟨1, 5, 0, 0⟩ ⟨1, 5, 0, 1⟩ = true ∧ lt ⟨1, 5, 0, 1⟩ ⟨1, 6, 0, 0⟩ = true := by decide

end Verif.Md5.Props
