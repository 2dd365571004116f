import Verif.Serial.Model
/-!
# Specification for serialization (C20, C21, C22)
-/
namespace Verif.Serial.Spec
open Verif.Serial

/-- Values the format can carry: every container has fewer than 2^32
elements; arrays have their declared length; maps and sets have distinct keys
(enumerated in key order). -/
def WF : (t : Ty) → Val t → Prop
  | .prim _ _ => fun _ => True
  | .bool => fun _ => True
  | .str => fun v => v.length < 2 ^ 32
  | .arr n t => fun v => v.length = n ∧ ∀ x ∈ v, WF t x
  | .vec t => fun v => v.length < 2 ^ 32 ∧ ∀ x ∈ v, WF t x
  | .deque t => fun v => v.length < 2 ^ 32 ∧ ∀ x ∈ v, WF t x
  | .list t => fun v => v.length < 2 ^ 32 ∧ ∀ x ∈ v, WF t x
  | .pair a b => fun v => WF a v.1 ∧ WF b v.2
  | .map k v => fun m => m.length < 2 ^ 32 ∧ m.Pairwise (fun x y => vlt k x.1 y.1 = true) ∧
      ∀ x ∈ m, WF k x.1 ∧ WF v x.2
  | .set t => fun m => m.length < 2 ^ 32 ∧ m.Pairwise (fun x y => vlt t x y = true) ∧
      ∀ x ∈ m, WF t x
  | .umap k v => fun m => m.length < 2 ^ 32 ∧ m.Pairwise (fun x y => vlt k x.1 y.1 = true) ∧
      ∀ x ∈ m, WF k x.1 ∧ WF v x.2
  | .uset t => fun m => m.length < 2 ^ 32 ∧ m.Pairwise (fun x y => vlt t x y = true) ∧
      ∀ x ∈ m, WF t x

/-- Any C++ object of the type: arrays have their declared length, nothing
else is required. -/
def Shape : (t : Ty) → Val t → Prop
  | .prim _ _ => fun _ => True
  | .bool => fun _ => True
  | .str => fun _ => True
  | .arr n t => fun v => v.length = n ∧ ∀ x ∈ v, Shape t x
  | .vec t => fun v => ∀ x ∈ v, Shape t x
  | .deque t => fun v => ∀ x ∈ v, Shape t x
  | .list t => fun v => ∀ x ∈ v, Shape t x
  | .pair a b => fun v => Shape a v.1 ∧ Shape b v.2
  | .map _ _ => fun _ => True
  | .set _ => fun _ => True
  | .umap _ _ => fun _ => True
  | .uset _ => fun _ => True

/-- Not an arithmetic type. -/
def Compound : Ty → Prop
  | .prim _ _ => False
  | .bool => False
  | _ => True

/-- Types in which no `bool` and no set of arithmetic values occurs. -/
def Safe : Ty → Prop
  | .prim _ _ => True
  | .bool => False
  | .str => True
  | .arr _ t => Safe t
  | .vec t => Safe t
  | .deque t => Safe t
  | .list t => Safe t
  | .pair a b => Safe a ∧ Safe b
  | .map k v => Safe k ∧ Safe v
  | .set t => Safe t ∧ Compound t
  | .umap k v => Safe k ∧ Safe v
  | .uset t => Safe t ∧ Compound t

/-- Types in which no set of arithmetic values occurs. -/
def NoJunk : Ty → Prop
  | .prim _ _ => True
  | .bool => True
  | .str => True
  | .arr _ t => NoJunk t
  | .vec t => NoJunk t
  | .deque t => NoJunk t
  | .list t => NoJunk t
  | .pair a b => NoJunk a ∧ NoJunk b
  | .map k v => NoJunk k ∧ NoJunk v
  | .set t => NoJunk t ∧ Compound t
  | .umap k v => NoJunk k ∧ NoJunk v
  | .uset t => NoJunk t ∧ Compound t

/-- A fresh archive on some bytes. -/
def archive (bs : List UInt8) : Strm := ⟨bs, true, false⟩

end Verif.Serial.Spec
