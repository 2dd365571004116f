import Verif.Code.Model
/-!
# Specification for the bit codes (C17)

Written in terms of the calls a client makes.
-/
namespace Verif.Code.Spec

/-- The value a call writes. -/
def value : Op → Nat
  | .byte v => v.toNat
  | .word v _ => v
  | .gamma v => v
  | .delta v => v
  | .rice v _ => v
  | .prefixCode v => v

/-- Arguments the codes are defined for: 32-bit values that fit the field,
positive values for gamma and delta, a Rice parameter below 31 and a Rice
quotient that can be incremented. -/
def Valid : Op → Prop
  | .byte _ => True
  | .word v len => len ≤ 32 ∧ v < 2 ^ len
  | .gamma v => 0 < v ∧ v < 2 ^ 32
  | .delta v => 0 < v ∧ v < 2 ^ 32
  | .rice v k => k < 31 ∧ v < 2 ^ 32 ∧ (k = 0 → v < 2 ^ 32 - 1)
  | .prefixCode v => v < 2 ^ 32

instance : DecidablePred Valid := fun o => by cases o <;> simp only [Valid] <;> infer_instance

/-- Number of bits of the Elias gamma code of `v`. -/
def gammaBits (v : Nat) : Nat := 2 * Nat.log2 v + 1

/-- Number of bits of the Elias delta code of `v`. -/
def deltaBits (v : Nat) : Nat := gammaBits (Nat.log2 v + 1) + Nat.log2 v

/-- The next multiple of eight. -/
def roundUp (p : Nat) : Nat := (p + 7) / 8 * 8

/-- Number of 7-bit groups of `v`. -/
def groups (v : Nat) : Nat := if v < 128 then 1 else 1 + groups (v / 128)
termination_by v
decreasing_by omega

/-- Position in bits after a call that starts at position `p`: byte-oriented
calls first move to a byte boundary. -/
def after (p : Nat) : Op → Nat
  | .byte _ => roundUp p + 8
  | .word _ len => p + len
  | .gamma v => p + gammaBits v
  | .delta v => p + deltaBits v
  | .rice v k => p + deltaBits (v / 2 ^ k + 1) + k
  | .prefixCode v => roundUp p + 8 * groups v

/-- `byte` is only called at a byte boundary. -/
def BytesAligned (p : Nat) : List Op → Prop
  | [] => True
  | o :: os => ((∃ v, o = .byte v) → p % 8 = 0) ∧ BytesAligned (after p o) os

/-- Position after a sequence of calls. -/
def endPos (p : Nat) : List Op → Nat
  | [] => p
  | o :: os => endPos (after p o) os

end Verif.Code.Spec
