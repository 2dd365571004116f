import Verif.Ipv4.Model
/-! Dotted decimal addresses, independent of the code. -/

namespace Verif.Ipv4.Spec
open Verif.Ipv4

/-- The characters of a decimal number without leading zeros. -/
def decimal (n : Nat) : Str := (toString n).toList.map (fun c => UInt8.ofNat c.toNat)

/-- `a.b.c.d`. -/
def dotted (x : Addr) : Str :=
  decimal x.a.toNat ++ [46] ++ decimal x.b.toNat ++ [46] ++ decimal x.c.toNat ++ [46] ++ decimal x.d.toNat

/-- What digits stand for. -/
def number : Str → Nat
  | [] => 0
  | d :: ds => (d.toNat - 48) * 10 ^ ds.length + number ds

/-- A digit. -/
def Digit (c : UInt8) : Prop := 48 ≤ c.toNat ∧ c.toNat ≤ 57

/-- White space. -/
def Space (c : UInt8) : Prop := c.toNat ∈ [9, 10, 11, 12, 13, 32]

/-- A decimal number with white space before it and possibly a sign. -/
def Number (t : Str) (v : Int) : Prop :=
  ∃ ws sg ds : Str, t = ws ++ sg ++ ds ∧ (∀ c ∈ ws, Space c) ∧ ds ≠ [] ∧ (∀ c ∈ ds, Digit c) ∧
    ((sg = [] ∧ v = number ds) ∨ (sg = [43] ∧ v = number ds) ∨ (sg = [45] ∧ v = - (number ds : Int)))

/-- The text begins with numbers separated by dots, and the last of them is not cut short. -/
def Begins : List Int → Str → Prop
  | [], _ => False
  | [v], s => ∃ t rest, s = t ++ rest ∧ Number t v ∧ ∀ c, rest.head? = some c → ¬ Digit c
  | v :: w :: vs, s => ∃ t rest, s = t ++ 46 :: rest ∧ Number t v ∧ Begins (w :: vs) rest

/-- The address as a number. -/
def toNat (x : Addr) : Nat := x.a.toNat * 256 ^ 3 + x.b.toNat * 256 ^ 2 + x.c.toNat * 256 + x.d.toNat

end Verif.Ipv4.Spec
