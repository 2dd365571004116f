import Verif.GenPhp.Model
import Verif.Rpc.Spec
import Verif.Reflect.Spec
/-!
# Specification of generated PHP clients (C94)

When a PHP value stands for a C++ value, which C++ types a PHP client can
handle, and which values come through.
-/
namespace Verif.GenPhp.Spec
open Verif.GenPhp
open Verif.Reflect (Rep Mem Act)

/-- Two lists of the same length with related elements. -/
inductive Each {α β : Type} (R : α → β → Prop) : List α → List β → Prop
  | nil : Each R [] []
  | cons {a b as bs} (h : R a b) (t : Each R as bs) : Each R (a :: as) (b :: bs)

mutual
/-- `Stands T w v p`: the PHP value `p` of the described type `T` stands for
the C++ value `v`, of a type written as `w`. Integers are equal as numbers;
floating point numbers have the same bits; arrays have the elements under 0, 1,
2 and so on; maps have the same entries in some order; of objects, members with
the right names stand for the members. -/
def Stands : PTy → (w : Serial.Ty) → Serial.Val w → PV → Prop
  | .int s n, .prim m s', v, p => n = m ∧ s = s' ∧ p = .int (if s then v.toInt else v.toNat)
  | .float, .prim 8 _, v, p => p = .float v
  | .str, .str, v, p => p = .str v
  | .arr t, .vec w, v, p => ∃ ps, p = .arr (number 0 ps) ∧ Each (Stands t w) v ps
  | .map k t, .map a b, v, p => ∃ es m, p = .arr es ∧ m.Perm v ∧
      Each (fun (x : Serial.Val a × Serial.Val b) e => (∃ q, Stands k a x.1 q ∧ asKey q = .key e.1) ∧ Stands t b x.2 e.2) m es
  | .cls n ms, w, v, p => ∃ ps, p = .obj n ps ∧ StandsMems ms w v ps
  | _, _, _, _ => False
/-- All members. -/
def StandsMems : PMems → (w : Serial.Ty) → Serial.Val w → List (Str × PV) → Prop
  | .nil, .arr 0 _, v, _ => v = []
  | .cons n t ms, .pair a b, v, ps => (∃ p, get ps n = some p ∧ Stands t a v.1 p) ∧ StandsMems ms b v.2 ps
  | _, _, _, _ => False
end

/-- Types of keys that PHP arrays have. -/
def IsKey : PTy → Prop
  | .int _ _ => True
  | .str => True
  | _ => False

/-- The names of members. -/
def memNames : PMems → List Str
  | .nil => []
  | .cons n _ ms => n :: memNames ms

mutual
/-- `Fits T w`: the type object `T` is right for a C++ type written as `w`. -/
def Fits : PTy → Serial.Ty → Prop
  | .int s n, .prim m s' => n = m ∧ s = s' ∧ (n = 1 ∨ n = 2 ∨ n = 4)
  | .float, .prim 8 _ => True
  | .str, .str => True
  | .arr t, .vec w => Fits t w
  | .map k t, .map a b => IsKey k ∧ Fits k a ∧ Fits t b
  | .cls _ ms, w => (memNames ms).Nodup ∧ FitsMems ms w
  | _, _ => False
/-- All members. -/
def FitsMems : PMems → Serial.Ty → Prop
  | .nil, .arr 0 _ => True
  | .cons _ t ms, .pair a b => Fits t a ∧ FitsMems ms b
  | _, _ => False
end

/-- Values without empty strings. -/
def NoEmpty : (w : Serial.Ty) → Serial.Val w → Prop
  | .str => fun v => v ≠ []
  | .vec t => fun v => ∀ x ∈ v, NoEmpty t x
  | .arr _ t => fun v => ∀ x ∈ v, NoEmpty t x
  | .pair a b => fun v => NoEmpty a v.1 ∧ NoEmpty b v.2
  | .map a b => fun v => ∀ x ∈ v, NoEmpty a x.1 ∧ NoEmpty b x.2
  | _ => fun _ => True

/-! ### C++ types -/

/-- The names of the members of a class. -/
def bodyNames : List Act → List Str
  | [] => []
  | .name _ :: as => bodyNames as
  | .member n _ :: as => n :: bodyNames as
  | .plain _ :: as => [] :: bodyNames as

/-- Integers and strings. -/
def KeyTy : Reflect.Ty → Prop
  | .int _ _ => True
  | .str => True
  | _ => False

mutual
/-- C++ types that a PHP client can handle: integers of one, two or four bytes,
`double`, strings, vectors, maps from integers or strings, and classes that have
a name and whose members have different names. -/
def Handled : Reflect.Ty → Prop
  | .int _ n => n = 1 ∨ n = 2 ∨ n = 4
  | .float n => n = 8
  | .str => True
  | .vec t => Handled t
  | .map k v => KeyTy k ∧ Handled k ∧ Handled v
  | .cls body => Reflect.Spec.nameOf body ≠ [] ∧ [] ∉ bodyNames body ∧ (bodyNames body).Nodup ∧ HandledBody body
  | _ => False
/-- All members. -/
def HandledBody : List Act → Prop
  | [] => True
  | .name _ :: as => HandledBody as
  | .member _ t :: as => Handled t ∧ HandledBody as
  | .plain t :: as => Handled t ∧ HandledBody as
end

/-- Methods by their C++ types. -/
abbrev CSig := Str × Reflect.Ty × List Reflect.Ty

/-- The description of a method. -/
def describe (m : CSig) : Sig := (m.1, Reflect.Spec.desc m.2.1, m.2.2.map Reflect.Spec.desc)

/-- The types of a method. -/
def typesOf (m : CSig) : List Reflect.Ty := m.2.1 :: m.2.2

/-- No two different classes of some interfaces have the same name. -/
def Clear (refs : List (List CSig)) : Prop :=
  ∀ m ∈ refs.flatten, ∀ t ∈ typesOf m, ∀ m' ∈ refs.flatten, ∀ t' ∈ typesOf m', ∀ n ms ms',
    Reflect.Spec.Part (.cls n ms) (Reflect.Spec.desc t) → Reflect.Spec.Part (.cls n ms') (Reflect.Spec.desc t') → ms = ms'

/-- A member as a name with a type. -/
def memPair : Mem → Str × Rep
  | .mk n t => (n, t)

/-- A table of classes has those within a description. -/
def Has (tab : List (Str × List (Str × Rep))) (r : Rep) : Prop :=
  ∀ n ms, Reflect.Spec.Part (.cls n ms) r → AssocMap.find tab n = some (ms.map memPair)

/-- The arguments of a method as the server takes them: one after the other. -/
def pairs : List Serial.Ty → Serial.Ty
  | [] => .arr 0 .bool
  | w :: ws => .pair w (pairs ws)

/-- The same for a server function, where no arguments are a case of their own. -/
def argTy : List Serial.Ty → Option Serial.Ty
  | [] => none
  | ws => some (pairs ws)

/-- PHP arguments that stand for the arguments of a function. -/
def StandsAll : List PTy → (ws : List Serial.Ty) → Serial.Val (pairs ws) → List PV → Prop
  | [], [], v, ps => v = [] ∧ ps = []
  | t :: ts, w :: ws, v, p :: ps => Stands t w v.1 p ∧ StandsAll ts ws v.2 ps
  | _, _, _, _ => False

/-- The arguments as a server function gets them. -/
def argVal : (ws : List Serial.Ty) → Serial.Val (pairs ws) → Rpc.Arg (argTy ws)
  | [], _ => ()
  | _ :: _, v => v

/-- A client with a connection on which nothing is under way. -/
def fresh (log : List Rpc.Call) : Client := ⟨⟨[], []⟩, ⟨[], [], true, true⟩, log⟩

/-- A connection as PHP has it: it asks the system for at most 8192 bytes at a
time. -/
def Small (s : St) : Prop := s.buf.length ≤ 8192 ∧ ∀ p ∈ s.net, p.length ≤ 8192

end Verif.GenPhp.Spec
