import Verif.GenPhp.Model
/-!
# Model of Haskell clients made by `genrpc --haskell`

Source: `/repo/tools/genrpc/gen_hs.h`, which writes the program, and
`/repo/tools/genrpc/PFIRPC.hs`, the library it uses.

Haskell itself is modelled as documented: `Int` has 64 bits, `BS.hGet` waits
until all bytes are there, `Map.fromList` keeps the last of several values of a
key. Whether a program is accepted by the compiler is modelled by the checks
that can fail for what `genrpc` writes: `Compiles` and `eval`. Names of methods,
classes and members are taken to be C++ identifiers.

The server is that of `Verif/Rpc/Model.lean`.
-/
namespace Verif.GenHs
open Verif.Reflect (Rep Mem)
open Verif.GenPhp (Sig pack concat)

abbrev Str := List UInt8

/-- Keys of maps that are followed: numbers, characters and strings. -/
inductive HKey
  | int (i : Int)
  | chr (n : Nat)
  | str (s : List Nat)
deriving DecidableEq

/-- Values. A double is given by its bits, a character by its code. A string is a
list of characters. -/
inductive HV
  | int (i : Int)
  | dbl (b : BitVec 64)
  | chr (n : Nat)
  | list (xs : List HV)
  | map (es : List (HKey × HV))
  | record (name : Str) (xs : List HV)

mutual
/-- Types that have an instance of `RPCType`
(`/repo/tools/genrpc/PFIRPC.hs:89-127`, `/repo/tools/genrpc/gen_hs.h:104-120`). -/
inductive HTy
  | int
  | dbl
  | chr
  | list (t : HTy)
  | map (k t : HTy)
  | cls (name : Str) (ms : HMems)
/-- The types of the members of a class. -/
inductive HMems
  | nil
  | cons (t : HTy) (ms : HMems)
end

/-! ### Maps -/

/-- The order of keys. -/
def HKey.lt : HKey → HKey → Bool
  | .int a, .int b => a < b
  | .chr a, .chr b => a < b
  | .str a, .str b => a < b
  | _, _ => false

/-- `Map.insert`. -/
def insert (k : HKey) (v : HV) : List (HKey × HV) → List (HKey × HV)
  | [] => [(k, v)]
  | e :: es => if k = e.1 then (k, v) :: es else if k.lt e.1 then (k, v) :: e :: es else e :: insert k v es

/-- `Map.fromList` (`/repo/tools/genrpc/PFIRPC.hs:127`). -/
def fromList (l : List (HKey × HV)) : List (HKey × HV) := l.foldl (fun m e => insert e.1 e.2 m) []

/-- The code of a character. -/
def code : HV → Option Nat
  | .chr n => some n
  | _ => none

/-- A value as a key; `none` for those that are not followed. -/
def asKey : HV → Option HKey
  | .int i => some (.int i)
  | .chr n => some (.chr n)
  | .list xs => (xs.mapM code).map .str
  | _ => none

/-- A key as a value. -/
def keyVal : HKey → HV
  | .int i => .int i
  | .chr n => .chr n
  | .str s => .list (s.map .chr)

/-! ### Writing -/

/-- `realToFrac` from `Double` to `CDouble` and back, as compiled without
optimisation: by way of a fraction, which has neither a negative zero nor NaN.
-/
def viaRational (b : BitVec 64) : BitVec 64 :=
  if b = 0x8000000000000000 then 0
  else if b.toNat % 2 ^ 63 > 0x7ff0000000000000 then 0xfff0000000000000
  else b

mutual
/-- `sendValue` (`/repo/tools/genrpc/PFIRPC.hs:61-69`,
`/repo/tools/genrpc/PFIRPC.hs:74-80`, `/repo/tools/genrpc/PFIRPC.hs:89-104`,
`/repo/tools/genrpc/PFIRPC.hs:120-123`, `/repo/tools/genrpc/gen_hs.h:105-109`).
`rf` is `realToFrac`. `none` for a value that is not of the type. -/
def write (rf : BitVec 64 → BitVec 64) : HTy → HV → Option (List UInt8)
  | .int, .int i => some (pack 4 i)
  | .dbl, .dbl b => some (Serial.toLE 8 (rf b).toNat)
  | .chr, .chr n => some [UInt8.ofNat (n % 256)]
  | .list t, .list xs => (concat (xs.map (write rf t))).map fun b => pack 4 xs.length ++ b
  | .map k t, .map es =>
    (concat (es.map fun e => (write rf k (keyVal e.1)).bind fun a => (write rf t e.2).map fun b => a ++ b)).map
      fun b => pack 4 es.length ++ b
  | .cls n ms, .record n' xs => if n = n' then writeMems rf ms xs else none
  | _, _ => none
/-- The members in turn (`/repo/tools/genrpc/gen_hs.h:106-109`). -/
def writeMems (rf : BitVec 64 → BitVec 64) : HMems → List HV → Option (List UInt8)
  | .nil, [] => some []
  | .cons t ms, x :: xs => (write rf t x).bind fun a => (writeMems rf ms xs).map fun b => a ++ b
  | _, _ => none
end

/-! ### Reading -/

/-- `recv` (`/repo/tools/genrpc/PFIRPC.hs:158`): waits for all the bytes. `none`
if they do not come. -/
def recv (n : Nat) (s : List UInt8) : Option (List UInt8 × List UInt8) :=
  if n ≤ s.length then some (s.take n, s.drop n) else none

/-- `recvValue` of `Int` (`/repo/tools/genrpc/PFIRPC.hs:70-72`,
`/repo/tools/genrpc/PFIRPC.hs:93-95`). The four bytes are put together in an `Int` of 64
bits, so that the result is not negative. -/
def readInt (s : List UInt8) : Option (Nat × List UInt8) := (recv 4 s).map fun r => (Serial.ofLE r.1, r.2)

/-- `replicateM`. -/
def readMany {α : Type} (f : List UInt8 → Option (α × List UInt8)) : Nat → List UInt8 → Option (List α × List UInt8)
  | 0, s => some ([], s)
  | n + 1, s => (f s).bind fun r => (readMany f n r.2).map fun q => (r.1 :: q.1, q.2)

/-- One entry of a map (`/repo/tools/genrpc/PFIRPC.hs:126`). -/
def readEntry (f g : List UInt8 → Option (HV × List UInt8)) (s : List UInt8) : Option ((HKey × HV) × List UInt8) :=
  (f s).bind fun r => (g r.2).bind fun q => (asKey r.1).map fun k => ((k, q.1), q.2)

mutual
/-- `recvValue` (`/repo/tools/genrpc/PFIRPC.hs:63`, `/repo/tools/genrpc/PFIRPC.hs:70-72`,
`/repo/tools/genrpc/PFIRPC.hs:82-99`, `/repo/tools/genrpc/PFIRPC.hs:105-107`,
`/repo/tools/genrpc/PFIRPC.hs:124-127`, `/repo/tools/genrpc/gen_hs.h:110-120`). -/
def read (rf : BitVec 64 → BitVec 64) : HTy → List UInt8 → Option (HV × List UInt8)
  | .int, s => (readInt s).map fun r => (.int r.1, r.2)
  | .dbl, s => (recv 8 s).map fun r => (.dbl (rf (BitVec.ofNat 64 (Serial.ofLE r.1))), r.2)
  | .chr, s => (recv 1 s).map fun r => (.chr (Serial.ofLE r.1), r.2)
  | .list t, s => (readInt s).bind fun r => (readMany (read rf t) r.1 r.2).map fun q => (.list q.1, q.2)
  | .map k t, s => (readInt s).bind fun r =>
      (readMany (readEntry (read rf k) (read rf t)) r.1 r.2).map fun q => (.map (fromList q.1), q.2)
  | .cls n ms, s => (readMems rf ms s).map fun r => (.record n r.1, r.2)
/-- The members in turn (`/repo/tools/genrpc/gen_hs.h:111-114`). -/
def readMems (rf : BitVec 64 → BitVec 64) : HMems → List UInt8 → Option (List HV × List UInt8)
  | .nil, s => some ([], s)
  | .cons t ms, s => (read rf t s).bind fun r => (readMems rf ms r.2).map fun q => (r.1 :: q.1, q.2)
end

/-! ### The program that is written -/

/-- The name of a class in the program
(`/repo/tools/genrpc/gen_hs.h:87-88`, `/repo/tools/genrpc/gen_hs.h:199-200`). -/
def capital : Str → Str
  | [] => []
  | c :: s => (if 97 ≤ c ∧ c ≤ 122 then c - 32 else c) :: s

/-- `tolower` of the first character (`/repo/tools/genrpc/gen_hs.h:90`). -/
def small : Str → Str
  | [] => []
  | c :: s => (if 65 ≤ c ∧ c ≤ 90 then c + 32 else c) :: s

/-- The name of the field for a member of a class
(`/repo/tools/genrpc/gen_hs.h:89-91`, `/repo/tools/genrpc/gen_hs.h:97`). -/
def field (cls mem : Str) : Str := small (capital cls) ++ 95 :: mem

/-- The name of the function for a method
(`/repo/tools/genrpc/gen_hs.h:130`, `/repo/tools/genrpc/gen_hs.h:140`). -/
def callName (n : Str) : Str := Reflect.txt "call_" ++ n

/-- Names of types, classes and constructors that the program imports: those of
`Prelude`, `Map` (`/repo/tools/genrpc/gen_hs.h:76-78`) and those of `PFIRPC`
(`/repo/tools/genrpc/PFIRPC.hs:8-15`). A second one with such a name is
ambiguous. -/
def taken : List Str :=
  ["Bool", "Maybe", "Either", "Ordering", "Char", "String", "Int", "Integer", "Float", "Double", "Rational", "Word", "IO", "ShowS",
    "ReadS", "FilePath", "IOError", "Eq", "Ord", "Enum", "Bounded", "Num", "Real", "Integral", "Fractional", "Floating", "RealFrac",
    "RealFloat", "Functor", "Applicative", "Monad", "MonadFail", "Foldable", "Traversable", "Semigroup", "Monoid", "Show", "Read",
    "False", "True", "Nothing", "Just", "Left", "Right", "LT", "EQ", "GT", "Map", "RPCClient", "RPCType", "RPCValue",
    "BinaryRPCClient"].map Reflect.txt

/-- The name of a member. -/
def memName : Mem → Str
  | .mk n _ => n

/-- The type of a member. -/
def memRep : Mem → Rep
  | .mk _ t => t

/-- Whether the declarations are accepted: each class has a name that begins with
a capital letter, that is not taken and that only it has, and at least one
member, as there is a closing brace but no opening one otherwise
(`/repo/tools/genrpc/gen_hs.h:93-101`); all fields and functions have different
names. Left out: a class `mapM` or `sequence` with a member that has no name gets a
field called as a function of `Prelude`. -/
def Compiles (tab : List (Str × List Mem)) (sigs : List Sig) : Prop :=
  (tab.map fun e => capital e.1).Nodup ∧
  (∀ e ∈ tab, (∃ c ∈ e.1.head?, 65 ≤ c ∧ c ≤ 90 ∨ 97 ≤ c ∧ c ≤ 122) ∧ capital e.1 ∉ taken ∧ e.2 ≠ []) ∧
  ((tab.flatMap fun e => e.2.map fun m => field e.1 (memName m)) ++ sigs.map fun m => callName m.1).Nodup

instance (tab : List (Str × List Mem)) (sigs : List Sig) : Decidable (Compiles tab sigs) := by
  unfold Compiles; infer_instance

mutual
/-- Types that can be ordered, as the keys of a map must be. Classes
are not (`/repo/tools/genrpc/gen_hs.h:101`). -/
def ordered : HTy → Bool
  | .int => true
  | .dbl => true
  | .chr => true
  | .list t => ordered t
  | .map k t => ordered k && ordered t
  | .cls _ _ => false
end

/-- The members of a class. -/
def HMems.ofList : List HTy → HMems
  | [] => .nil
  | t :: l => .cons t (HMems.ofList l)

/-- The type that `print_typename` writes (`/repo/tools/genrpc/gen_hs.h:168-205`). `none` where the
compiler does not accept it: `Bool` has no instance, and for a stream nothing is
written, which is a wrong type or `()`. -/
def eval (tab : List (Str × List Mem)) : Nat → Rep → Option HTy
  | 0, _ => none
  | _ + 1, .bool => none
  | _ + 1, .char => some .chr
  | _ + 1, .stream => none
  | _ + 1, .int _ _ => some .int
  | _ + 1, .float => some .dbl
  | _ + 1, .str => some (.list .chr)
  | f + 1, .arr r => (eval tab f r).map .list
  | f + 1, .map k v => (eval tab f k).bind fun a => if ordered a then (eval tab f v).map fun b => .map a b else none
  | f + 1, .cls n _ => (AssocMap.find tab n).bind fun ms =>
      (ms.mapM fun m => eval tab f (memRep m)).map fun l => .cls n (.ofList l)

/-- A function of the program. -/
structure Method where
  name : Str
  ret : HTy
  args : List HTy

/-- The types of one function (`/repo/tools/genrpc/gen_hs.h:130-138`). -/
def evalSig (tab : List (Str × List Mem)) (fuel : Nat) (m : Sig) : Option Method :=
  (eval tab fuel m.2.1).bind fun r => (m.2.2.mapM (eval tab fuel)).map fun l => ⟨m.1, r, l⟩

/-- The functions of the program for an interface
(`/repo/tools/genrpc/gen_hs.h:32-153`), and `none` if it is not accepted. -/
def client (sigs : List Sig) : Option (List Method) :=
  let named := (GenPhp.nameSigs 0 sigs).2
  let tab := GenPhp.table [named]
  if Compiles tab named then named.mapM (evalSig tab (1 + (reps named).length)) else none
where
  /-- All descriptions. -/
  reps (sigs : List Sig) : List Rep := GenPhp.reps sigs

/-- `generate` for a file with several interfaces
(`/repo/tools/genrpc/gen_hs.h:26-29`): only the first one is used. `none` is
undefined behaviour, as `ref[0]` of an empty vector. -/
def generate (refs : List (List Sig)) : Option (Option (List Method)) := refs.head?.map client

/-! ### Calls -/

/-- A client: bytes that have come and were not read, the connection, and the
record of the functions called. -/
structure Client where
  buf : List UInt8
  conn : Rpc.Conn
  log : List Rpc.Call

/-- How a call ends: with a result, or with `error`
(`/repo/tools/genrpc/PFIRPC.hs:133`, `/repo/tools/genrpc/PFIRPC.hs:137`). -/
inductive Answer
  | value (v : HV)
  | noPong
  | wrongCode (code : HV)

/-- Ways in which a call does not end as modelled. -/
inductive Stop
  /-- it waits for bytes, or the connection has ended -/
  | noData
  /-- values that are not of the types -/
  | types
  /-- the server stops -/
  | server (s : Rpc.Stop)
deriving DecidableEq

/-- `flush`: the bytes are sent and the server reacts. -/
def exchange (E : Rpc.Encoder) (sv : Rpc.Server) (msg : List UInt8) (c : Client) : Except Stop Client :=
  match Rpc.send E sv msg c.conn c.log with
  | .error e => .error (.server e)
  | .ok (conn, log) => .ok ⟨c.buf ++ conn.outbox, { conn with outbox := [] }, log⟩

/-- A string as a value. -/
def text (s : Str) : HV := .list (s.map fun b => .chr b.toNat)

/-- `v == "text"`. -/
def isText (v : HV) (s : Str) : Bool :=
  match v with
  | .list xs => xs.mapM code == some (s.map fun b => b.toNat)
  | _ => false

/-- The arguments in turn (`/repo/tools/genrpc/PFIRPC.hs:144`). -/
def writeAll (rf : BitVec 64 → BitVec 64) : List HTy → List HV → Option (List UInt8)
  | [], [] => some []
  | t :: ts, v :: vs => (write rf t v).bind fun a => (writeAll rf ts vs).map fun b => a ++ b
  | _, _ => none

/-- What is sent for a call (`/repo/tools/genrpc/PFIRPC.hs:142-144`); the version is
always 1 (`/repo/tools/genrpc/gen_hs.h:145`). -/
def request (rf : BitVec 64 → BitVec 64) (m : Method) (args : List HV) : Option (List UInt8) :=
  (write rf (.list .chr) (text m.name)).bind fun n => (writeAll rf m.args args).map fun b => n ++ pack 4 1 ++ b

/-- `pingPong` (`/repo/tools/genrpc/PFIRPC.hs:129-133`). -/
def pingPong (E : Rpc.Encoder) (rf : BitVec 64 → BitVec 64) (sv : Rpc.Server) (c : Client) : Except Stop (Bool × Client) :=
  match write rf (.list .chr) (text Rpc.pingMsg) with
  | none => .error .types
  | some msg =>
    match exchange E sv msg c with
    | .error e => .error e
    | .ok c =>
      match read rf (.list .chr) c.buf with
      | none => .error .noData
      | some (v, b) => .ok (isText v Rpc.pongMsg, { c with buf := b })

/-- `call` (`/repo/tools/genrpc/PFIRPC.hs:135-147`). -/
def call (E : Rpc.Encoder) (rf : BitVec 64 → BitVec 64) (sv : Rpc.Server) (m : Method) (args : List HV) (c : Client) :
    Except Stop (Answer × Client) :=
  match pingPong E rf sv c with
  | .error e => .error e
  | .ok (false, c) => .ok (.noPong, c)
  | .ok (true, c) =>
    match request rf m args with
    | none => .error .types
    | some msg =>
      match exchange E sv msg c with
      | .error e => .error e
      | .ok c =>
        match read rf (.list .chr) c.buf with
        | none => .error .noData
        | some (code, b) =>
          if isText code Rpc.okMsg then
            match read rf m.ret b with
            | none => .error .noData
            | some (v, b) => .ok (.value v, { c with buf := b })
          else .ok (.wrongCode code, { c with buf := b })

end Verif.GenHs
