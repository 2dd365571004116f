import Verif.Reflect.Streams
import Verif.Serial.Spec
/-!
# Specification of types that contain streams (C79)
-/
namespace Verif.Reflect.Spec
open Verif.Reflect

mutual
/-- No stream occurs in the type. -/
def NoStream : Ty → Prop
  | .stream => False
  | .vec t => NoStream t
  | .map k v => NoStream k ∧ NoStream v
  | .cls body => NoStreamBody body
  | _ => True
/-- In no member. -/
def NoStreamBody : List Act → Prop
  | [] => True
  | .name _ :: as => NoStreamBody as
  | .member _ t :: as => NoStream t ∧ NoStreamBody as
  | .plain t :: as => NoStream t ∧ NoStreamBody as
end

mutual
/-- No stream occurs in the key of a map. -/
def PlainKeys : Ty → Prop
  | .vec t => PlainKeys t
  | .map k v => NoStream k ∧ PlainKeys v
  | .cls body => PlainKeysBody body
  | _ => True
/-- In no member. -/
def PlainKeysBody : List Act → Prop
  | [] => True
  | .name _ :: as => PlainKeysBody as
  | .member _ t :: as => PlainKeys t ∧ PlainKeysBody as
  | .plain t :: as => PlainKeys t ∧ PlainKeysBody as
end

/-- Values that the format can carry: containers have fewer than 2^32
elements, maps have distinct keys, in their order. Streams are any. -/
def FWF : (t : Form) → FVal t → Prop
  | .plain t => Serial.Spec.WF t
  | .stream => fun _ => True
  | .vec t => fun v => v.length < 2 ^ 32 ∧ ∀ x ∈ v, FWF t x
  | .map k v => fun m => m.length < 2 ^ 32 ∧ m.Pairwise (fun x y => Serial.vlt k x.1 y.1 = true) ∧
      ∀ x ∈ m, Serial.Spec.WF k x.1 ∧ FWF v x.2
  | .pair a b => fun v => FWF a v.1 ∧ FWF b v.2

/-- Objects to read into: any, except that their streams have not been used. -/
def Unused : (t : Form) → FVal t → Prop
  | .plain t => Serial.Spec.Shape t
  | .stream => fun s => s = TmpStream.newFile
  | .vec t => fun v => ∀ x ∈ v, Unused t x
  | .map _ _ => fun _ => True
  | .pair a b => fun v => Unused a v.1 ∧ Unused b v.2

/-- What should arrive: the value, with every stream replaced by a file that
holds what was left to read and is to be read from its beginning. -/
def arrives : (t : Form) → FVal t → FVal t
  | .plain _ => fun v => v
  | .stream => fun s => ⟨s.data.drop s.gpos, 0, 0, true, false⟩
  | .vec t => fun v => v.map (arrives t)
  | .map _ v => fun m => m.map fun p => (p.1, arrives v p.2)
  | .pair a b => fun v => (arrives a v.1, arrives b v.2)

end Verif.Reflect.Spec
