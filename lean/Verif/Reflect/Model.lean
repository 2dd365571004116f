import Verif.Decimal
import Verif.AssocMap
import Verif.Serial.Model
/-!
# Model of `pfi::data::serialization::reflection` and `pfi::network::rpc::reflect_base`

Source: `/repo/src/data/serialization/reflect.h`, the overloads for `reflection`
in `string.h`, `vector.h`, `map.h` and `iostream.h` beside it, and
`/repo/src/network/rpc/reflect.h`.

`get_type<T>()` runs the `serialize` of `T` with an archive that builds a
description of the type. Types for which this does not compile are not in the
universe `Ty`: pairs, arrays, lists and the other containers, for which the
overload for any archive and the one for `reflection` are ambiguous.
Objects are default-constructed on the way (`T v;`), which is not modelled;
for a `stream` this makes and removes a file.
-/
namespace Verif.Reflect

abbrev Str := List UInt8

/-- The bytes of a text in the program. -/
def txt (s : String) : Str := s.toList.map (fun c => UInt8.ofNat c.toNat)

mutual
/-- Types that `get_type` accepts. A class is what its `serialize` does.
`int` stands for the ten integer types by sign and size
(`/repo/src/data/serialization/reflect.h:211-226`). -/
inductive Ty
  | bool
  | char
  | int (sign : Bool) (size : Nat)
  | float (size : Nat)
  | str
  | stream
  | vec (t : Ty)
  | map (k v : Ty)
  | cls (body : List Act)
/-- The steps of the `serialize` of a class: `ar & NAME(x)`,
`ar & NAMED_MEMBER(n, x)` (`MEMBER(x)` is the same with the text of `x`), and
`ar & x` (`/repo/src/data/serialization/reflect.h:298-305`). -/
inductive Act
  | name (s : Str)
  | member (n : Str) (t : Ty)
  | plain (t : Ty)
end

mutual
/-- Descriptions: `type_rep` and the classes derived from it
(`/repo/src/data/serialization/reflect.h:49-145`, `string.h:56-63`,
`vector.h:68-87`, `map.h:68-101`, `iostream.h:145-156`). -/
inductive Rep
  | bool
  | char
  | int (sign : Bool) (size : Nat)
  | float
  | str
  | stream
  | arr (r : Rep)
  | map (k v : Rep)
  | cls (name : Str) (ms : List Mem)
/-- A member of a class: its name, empty if it has none, and its type
(`/repo/src/data/serialization/reflect.h:101`). -/
inductive Mem
  | mk (name : Str) (type : Rep)
end

/-- The archive `reflection`: the members collected so far and the name of
each class that has been entered (`/repo/src/data/serialization/reflect.h:189-192`);
tops of the stacks first. -/
structure Refl where
  stk : List (List Mem)
  names : List Str

/-- `enter_class` (`/repo/src/data/serialization/reflect.h:153-156`). -/
def enterClass (r : Refl) : Refl := ⟨[] :: r.stk, [] :: r.names⟩

/-- The constructor (`/repo/src/data/serialization/reflect.h:149-151`). -/
def Refl.new : Refl := enterClass ⟨[], []⟩

/-- `add` (`/repo/src/data/serialization/reflect.h:179-181`); `none` is
undefined behaviour, as the top of an empty stack. -/
def add (n : Str) (t : Rep) (r : Refl) : Option Refl :=
  match r.stk with
  | [] => none
  | ms :: st => some { r with stk := (ms ++ [.mk n t]) :: st }

/-- `leave_class` (`/repo/src/data/serialization/reflect.h:158-172`). -/
def leaveClass (r : Refl) : Option Refl :=
  match r.stk, r.names with
  | ms :: st, n :: ns => add [] (.cls n ms) ⟨st, ns⟩
  | _, _ => none

/-- `set_name` (`/repo/src/data/serialization/reflect.h:174-177`). -/
def setName (n : Str) (r : Refl) : Option Refl :=
  match r.names with
  | [] => none
  | _ :: ns => some { r with names := n :: ns }

/-- `get` (`/repo/src/data/serialization/reflect.h:183-185`). -/
def get (r : Refl) : Option Rep :=
  match r.stk with
  | (.mk _ t :: _) :: _ => some t
  | _ => none

/-- A new `reflection`, what is done with it, and `get`
(`/repo/src/data/serialization/reflect.h:246-249`). -/
def viaNew (f : Refl → Option Refl) : Option Rep := (f Refl.new).bind get

mutual
/-- `serialize(reflection &, T &)`, found by `ref << v` and `ref & v`: for
arithmetic types (`/repo/src/data/serialization/reflect.h:204-226`), for
strings (`string.h:65-69`), streams (`iostream.h:158-162`), vectors
(`vector.h:89-93`), maps (`map.h:103-108`) and classes
(`/repo/src/data/serialization/reflect.h:194-200`). -/
def serialize : Ty → Refl → Option Refl
  | .bool, r => add [] .bool r
  | .char, r => add [] .char r
  | .int s n, r => add [] (.int s n) r
  | .float _, r => add [] .float r
  | .str, r => add [] .str r
  | .stream, r => add [] .stream r
  | .vec t, r => (viaNew (serialize t)).bind fun e => add [] (.arr e) r
  | .map k v, r => (viaNew (serialize k)).bind fun a => (viaNew (serialize v)).bind fun b =>
      add [] (.map a b) r
  | .cls body, r => (serBody body (enterClass r)).bind leaveClass
/-- The `serialize` of a class, step by step
(`/repo/src/data/serialization/base.h:47-50`). -/
def serBody : List Act → Refl → Option Refl
  | [], r => some r
  | a :: as, r => (serAct a r).bind (serBody as)
/-- One step of it: `class_name` (`/repo/src/data/serialization/reflect.h:289-292`),
`named_value` (`/repo/src/data/serialization/reflect.h:271-275`) or a bare member. -/
def serAct : Act → Refl → Option Refl
  | .name s, r => setName s r
  | .member n t, r => (viaNew (serialize t)).bind fun e => add n e r
  | .plain t, r => serialize t r
end

/-- `get_type<T>()` (`/repo/src/data/serialization/reflect.h:243-250`). -/
def getType (t : Ty) : Option Rep := viaNew (serialize t)

/-- The text after the type of a member
(`/repo/src/data/serialization/reflect.h:135-137`). -/
def nameText (n : Str) : Str := if n ≠ [] then txt ":" ++ n else []

mutual
/-- `print` (`/repo/src/data/serialization/reflect.h:60-62`,
`/repo/src/data/serialization/reflect.h:72-74`, `/repo/src/data/serialization/reflect.h:85-87`,
`/repo/src/data/serialization/reflect.h:94-96`, `/repo/src/data/serialization/reflect.h:130-140`,
`string.h:60-62`, `vector.h:77-81`, `map.h:82-88`, `iostream.h:153-155`). -/
def print : Rep → Str
  | .bool => txt "bool"
  | .char => txt "char"
  | .int s n => (if s then txt "int" else txt "uint") ++ (txt "(" ++ (Decimal.digits n ++ txt ")"))
  | .float => txt "float"
  | .str => txt "string"
  | .stream => txt "stream"
  | .arr r => txt "array<" ++ (print r ++ txt ">")
  | .map k v => txt "map<" ++ (print k ++ (txt "," ++ (print v ++ txt ">")))
  | .cls n ms => txt "class(" ++ (n ++ (txt "){" ++ (printMems true ms ++ txt "}")))
/-- The loop over the members; a comma before all but the first
(`/repo/src/data/serialization/reflect.h:132-138`). -/
def printMems : Bool → List Mem → Str
  | _, [] => []
  | first, m :: ms => (if first then [] else txt ",") ++ (printMem m ++ printMems false ms)
/-- One member (`/repo/src/data/serialization/reflect.h:134-137`). -/
def printMem : Mem → Str
  | .mk n t => print t ++ nameText n
end

mutual
/-- `traverse`: the descriptions that the function is called with, in order
(`/repo/src/data/serialization/reflect.h:52`, `/repo/src/data/serialization/reflect.h:124-128`,
`vector.h:72-75`, `map.h:76-80`, `iostream.h:149-151`). -/
def traverse : Rep → List Rep
  | .arr r => .arr r :: traverse r
  | .map k v => .map k v :: (traverse k ++ traverse v)
  | .cls n ms => .cls n ms :: traverseMems ms
  | .bool => [.bool]
  | .char => [.char]
  | .int s n => [.int s n]
  | .float => [.float]
  | .str => [.str]
  | .stream => [.stream]
/-- The loop over the members (`/repo/src/data/serialization/reflect.h:126-127`). -/
def traverseMems : List Mem → List Rep
  | [] => []
  | m :: ms => traverseMem m ++ traverseMems ms
/-- One member (`/repo/src/data/serialization/reflect.h:127`). -/
def traverseMem : Mem → List Rep
  | .mk _ t => traverse t
end

/-! ### The same types with a binary archive -/

mutual
/-- How the binary archives write a type, as one of the types of the model of
serialization: arithmetic types and containers as they are; a class is its
members one after the other, where names are passed over
(`/repo/src/data/serialization/reflect.h:265-269`, `/repo/src/data/serialization/reflect.h:284-287`).
`none` for types with streams, whose form that model describes apart.
`char` is signed, as on the platforms the project runs on. -/
def wire : Ty → Option Serial.Ty
  | .bool => some .bool
  | .char => some (.prim 1 true)
  | .int s n => some (.prim n s)
  | .float n => some (.prim n true)
  | .str => some .str
  | .stream => none
  | .vec t => (wire t).map .vec
  | .map k v => (wire k).bind fun a => (wire v).map fun b => .map a b
  | .cls body => wireBody body
/-- The members; behind the last one comes nothing, which is written as no
element of an array (`/repo/src/data/serialization/base.h:47-50`). -/
def wireBody : List Act → Option Serial.Ty
  | [] => some (.arr 0 .bool)
  | .name _ :: as => wireBody as
  | .member _ t :: as => (wire t).bind fun a => (wireBody as).map fun b => .pair a b
  | .plain t :: as => (wire t).bind fun a => (wireBody as).map fun b => .pair a b
end

/-! ### Interfaces of RPC servers -/

/-- `extract`, for functions of up to nine arguments
(`/repo/src/network/rpc/reflect.h:42-165`): the type of the result, then the
types of the arguments are pushed one by one. -/
def extract (ret : Ty) (args : List Ty) : Option (Rep × List Rep) :=
  (getType ret).bind fun r =>
    (args.foldl (fun acc t => acc.bind fun l => (getType t).map fun a => l ++ [a]) (some [])).map
      fun l => (r, l)

/-- `reflect_base` (`/repo/src/network/rpc/reflect.h:190-194`); `version` has
no value at first. -/
structure Base where
  name : Str
  version : Option Int
  mem : List (Str × Rep × List Rep)

/-- The constructor that `REFLECT_RPC_PROC` makes
(`/repo/src/network/rpc/reflect.h:204-206`). -/
def procCtor (p : Str × Ty × List Ty) (b : Base) : Option Base :=
  (extract p.2.1 p.2.2).map fun m => { b with mem := AssocMap.upsert b.mem p.1 m }

/-- The bases are constructed one after the other
(`/repo/src/network/rpc/reflect.h:212`). -/
def procCtors : List (Str × Ty × List Ty) → Base → Option Base
  | [], b => some b
  | p :: ps, b => (procCtor p b).bind (procCtors ps)

/-- An object of the class that `REFLECT_RPC_GEN` makes
(`/repo/src/network/rpc/reflect.h:210-220`). -/
def generate (version : Int) (base : Str) (procs : List (Str × Ty × List Ty)) : Option Base :=
  (procCtors procs ⟨[], none, []⟩).map fun b => { b with name := base, version := some version }

end Verif.Reflect
