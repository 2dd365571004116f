import Verif.GenHs.Model
import Verif.GenPhp.Spec
/-!
# Specification of generated Haskell clients (C95)

When a Haskell value stands for a C++ value, which C++ types a Haskell client can
handle, and which values come through.
-/
namespace Verif.GenHs.Spec
open Verif.GenHs
open Verif.GenPhp.Spec (Each CSig typesOf bodyNames)
open Verif.Reflect (Rep Mem Act)

mutual
/-- `Stands T w v h`: the Haskell value `h` of type `T` stands for the C++ value
`v`, of a type written as `w`. Integers are equal as numbers; floating point
numbers have the same bits; characters have the code of the byte; lists have the
same elements; maps have the same entries; classes have the same members. -/
def Stands : HTy → (w : Serial.Ty) → Serial.Val w → HV → Prop
  | .int, .prim n s, v, h => n = 4 ∧ h = .int (if s then v.toInt else v.toNat)
  | .dbl, .prim n _, v, h => n = 8 ∧ h = .dbl (BitVec.ofNat 64 v.toNat)
  | .chr, .prim n _, v, h => n = 1 ∧ h = .chr v.toNat
  | .list t, .str, v, h => t = .chr ∧ h = text v
  | .list t, .vec w, v, h => ∃ hs, h = .list hs ∧ Each (Stands t w) v hs
  | .map k t, .map a b, v, h => ∃ es m, h = .map es ∧ m.Perm v ∧
      Each (fun (x : Serial.Val a × Serial.Val b) e => Stands k a x.1 (keyVal e.1) ∧ Stands t b x.2 e.2) m es
  | .cls n ms, w, v, h => ∃ hs, h = .record n hs ∧ StandsMems ms w v hs
  | _, _, _, _ => False
/-- All members. -/
def StandsMems : HMems → (w : Serial.Ty) → Serial.Val w → List HV → Prop
  | .nil, .arr 0 _, v, hs => v = [] ∧ hs = []
  | .cons t ms, .pair a b, v, h :: hs => Stands t a v.1 h ∧ StandsMems ms b v.2 hs
  | _, _, _, _ => False
end

/-- Types of keys that are followed. -/
def IsKey : HTy → Prop
  | .int => True
  | .chr => True
  | .list t => t = .chr
  | _ => False

mutual
/-- `Fits T w`: the Haskell type `T` is right for a C++ type written as `w`. -/
def Fits : HTy → Serial.Ty → Prop
  | .int, .prim n _ => n = 4
  | .dbl, .prim n _ => n = 8
  | .chr, .prim n _ => n = 1
  | .list t, .str => t = .chr
  | .list t, .vec w => Fits t w
  | .map k t, .map a b => IsKey k ∧ Fits k a ∧ Fits t b
  | .cls _ ms, w => FitsMems ms w
  | _, _ => False
/-- All members. -/
def FitsMems : HMems → Serial.Ty → Prop
  | .nil, .arr n _ => n = 0
  | .cons t ms, .pair a b => Fits t a ∧ FitsMems ms b
  | _, _ => False
end

/-- A double other than negative zero and NaN. -/
def Plain (b : BitVec 64) : Prop := b ≠ 0x8000000000000000 ∧ b.toNat % 2 ^ 63 ≤ 0x7ff0000000000000

/-- `realToFrac` keeps plain numbers. -/
def Keeps (rf : BitVec 64 → BitVec 64) : Prop := ∀ b, Plain b → rf b = b

mutual
/-- Values in which all doubles are plain and, unless `neg`, no integer is
negative. -/
def Within (neg : Bool) : HTy → (w : Serial.Ty) → Serial.Val w → Prop
  | .int, .prim _ s, v => neg = true ∨ s = false ∨ 0 ≤ v.toInt
  | .dbl, .prim _ _, v => Plain (BitVec.ofNat 64 v.toNat)
  | .list t, .vec w, v => ∀ x ∈ v, Within neg t w x
  | .map k t, .map a b, v => ∀ x ∈ v, Within neg k a x.1 ∧ Within neg t b x.2
  | .cls _ ms, w, v => WithinMems neg ms w v
  | _, _, _ => True
/-- All members. -/
def WithinMems (neg : Bool) : HMems → (w : Serial.Ty) → Serial.Val w → Prop
  | .cons t ms, .pair a b, v => Within neg t a v.1 ∧ WithinMems neg ms b v.2
  | _, _, _ => True
end

/-! ### C++ types -/

/-- Integers, characters and strings. -/
def KeyTy : Reflect.Ty → Prop
  | .int _ _ => True
  | .char => True
  | .str => True
  | _ => False

mutual
/-- C++ types that a Haskell client can handle: integers of four bytes, `double`,
`char`, strings, vectors, maps from integers, characters or strings, and classes
that have a name and members. -/
def Handled : Reflect.Ty → Prop
  | .int _ n => n = 4
  | .float n => n = 8
  | .char => True
  | .str => True
  | .vec t => Handled t
  | .map k v => KeyTy k ∧ Handled k ∧ Handled v
  | .cls body => Reflect.Spec.nameOf body ≠ [] ∧ bodyNames body ≠ [] ∧ HandledBody body
  | _ => False
/-- All members. -/
def HandledBody : List Act → Prop
  | [] => True
  | .name _ :: as => HandledBody as
  | .member _ t :: as => Handled t ∧ HandledBody as
  | .plain t :: as => Handled t ∧ HandledBody as
end

/-- `Occurs sigs n ms`: a class called `n` with the members `ms` occurs in an
interface. -/
def Occurs (sigs : List CSig) (n : Str) (ms : List Mem) : Prop :=
  ∃ m ∈ sigs, ∃ t ∈ typesOf m, Reflect.Spec.Part (.cls n ms) (Reflect.Spec.desc t)

/-- The names of an interface cause no trouble: classes have names that begin with
letters and, with a capital letter, are not those of Haskell; different
classes have different names, also with a capital letter; the members of a class
have different names; the names made for members and methods are
different. -/
structure GoodNames (sigs : List CSig) : Prop where
  methods : (sigs.map (·.1)).Nodup
  letter : ∀ n ms, Occurs sigs n ms → ∃ c s, n = c :: s ∧ (65 ≤ c ∧ c ≤ 90 ∨ 97 ≤ c ∧ c ≤ 122)
  free : ∀ n ms, Occurs sigs n ms → capital n ∉ taken
  same : ∀ n ms n' ms', Occurs sigs n ms → Occurs sigs n' ms' → capital n = capital n' → n = n' ∧ ms = ms'
  members : ∀ n ms, Occurs sigs n ms → (ms.map memName).Nodup
  fields : ∀ n ms n' ms', Occurs sigs n ms → Occurs sigs n' ms' → ∀ x ∈ ms, ∀ y ∈ ms',
    field n (memName x) = field n' (memName y) → n = n'
  calls : ∀ n ms, Occurs sigs n ms → ∀ x ∈ ms, ∀ m ∈ sigs, field n (memName x) ≠ callName m.1

/-- A table of classes has those within a description. -/
def Has (tab : List (Str × List Mem)) (r : Rep) : Prop :=
  ∀ n ms, Reflect.Spec.Part (.cls n ms) r → AssocMap.find tab n = some ms

/-- Haskell arguments that stand for the arguments of a function. -/
def StandsAll : List HTy → (ws : List Serial.Ty) → Serial.Val (GenPhp.Spec.pairs ws) → List HV → Prop
  | [], [], v, hs => v = [] ∧ hs = []
  | t :: ts, w :: ws, v, h :: hs => Stands t w v.1 h ∧ StandsAll ts ws v.2 hs
  | _, _, _, _ => False

/-- `Within` for arguments. -/
def WithinAll : List HTy → (ws : List Serial.Ty) → Serial.Val (GenPhp.Spec.pairs ws) → Prop
  | t :: ts, w :: ws, v => Within true t w v.1 ∧ WithinAll ts ws v.2
  | _, _, _ => True

/-- A client with a connection on which nothing is under way. -/
def fresh (log : List Rpc.Call) : Client := ⟨[], ⟨[], [], true, true⟩, log⟩

end Verif.GenHs.Spec
