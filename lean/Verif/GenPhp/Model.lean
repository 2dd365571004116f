import Verif.Reflect.Model
import Verif.Rpc.Model
/-!
# Model of the PHP clients that `genrpc` makes

Source: `/repo/tools/genrpc/gen_php.h` (what is written for an interface) and
`/repo/tools/genrpc/pfi_rpc.php` (the library that the written program uses).

The written program is modelled by what it does and not as text, so names of
classes, members and methods are taken to be such that PHP reads them as names.
PHP is version 5 or 7 on a little-endian machine with integers of 64 bits.
Conversions between PHP types, other than those of array keys and of integers
to strings, are not followed.
-/
namespace Verif.GenPhp
open Verif.Reflect (Rep Mem)

abbrev Str := List UInt8

/-- The keys of a PHP array. -/
inductive Key
  | int (i : Int)
  | str (s : Str)
deriving DecidableEq, Repr

/-- PHP values. An array is its entries in order, an object its class and its
members. -/
inductive PV
  | null
  | false
  | int (i : Int)
  | float (bits : BitVec 64)
  | str (s : Str)
  | arr (es : List (Key × PV))
  | obj (cls : Str) (ps : List (Str × PV))

mutual
/-- The objects that describe types
(`/repo/tools/genrpc/pfi_rpc.php:104-111`, `/repo/tools/genrpc/pfi_rpc.php:140`,
`/repo/tools/genrpc/pfi_rpc.php:153`, `/repo/tools/genrpc/pfi_rpc.php:162-167`,
`/repo/tools/genrpc/pfi_rpc.php:185-192`, `/repo/tools/genrpc/pfi_rpc.php:215-222`).
There are none for `bool` and `char`. -/
inductive PTy
  | int (sign : Bool) (size : Nat)
  | float
  | str
  | arr (t : PTy)
  | map (k v : PTy)
  | cls (name : Str) (elems : PMems)
/-- The array of the types of the members by their names
(`/repo/tools/genrpc/pfi_rpc.php:217`). -/
inductive PMems
  | nil
  | cons (name : Str) (t : PTy) (rest : PMems)
end

/-! ### Arrays -/

/-- `$a[$k]`. -/
def get {K X : Type} [DecidableEq K] (es : List (K × X)) (k : K) : Option X := (es.find? (fun e => e.1 = k)).map (·.2)

/-- `$a[$k]=$v`: an entry with the key keeps its place. -/
def put {K X : Type} [DecidableEq K] (es : List (K × X)) (k : K) (x : X) : List (K × X) :=
  match es with
  | [] => [(k, x)]
  | e :: es => if e.1 = k then (k, x) :: es else e :: put es k x

/-- `$a[]=$v` again and again: the keys are the numbers from `i` on. -/
def number (i : Nat) : List PV → List (Key × PV)
  | [] => []
  | v :: vs => (.int i, v) :: number (i + 1) vs

/-- A string that is the decimal form of an integer of 64 bits is that integer
as a key. -/
def normKey (s : Str) : Key :=
  let i : Int := if s.head? = some 45 then -(Decimal.value s.tail) else Decimal.value s
  if Rpc.showInt i = s ∧ -2 ^ 63 ≤ i ∧ i < 2 ^ 63 then .int i else .str s

/-- A floating point number as a key: the part after the point is dropped.
`none` for numbers that are not finite. -/
def truncate (b : BitVec 64) : Option Int :=
  let e := b.toNat / 2 ^ 52 % 2 ^ 11
  let f := b.toNat % 2 ^ 52
  let m := if e = 0 then f else 2 ^ 52 + f
  let n : Nat := if 1075 ≤ e then m * 2 ^ (e - 1075) else m / 2 ^ (1075 - max e 1)
  if e = 2047 then none else some (if b.toNat < 2 ^ 63 then (n : Int) else -n)

/-- What PHP makes of a value used as a key. -/
inductive AsKey
  | key (k : Key)
  /-- "Illegal offset type": nothing is stored -/
  | illegal
  /-- not followed -/
  | unknown

/-- See `AsKey`. -/
def asKey : PV → AsKey
  | .null => .key (.str [])
  | .false => .key (.int 0)
  | .int i => .key (.int i)
  | .float b =>
    match truncate b with
    | some i => if -2 ^ 63 ≤ i ∧ i < 2 ^ 63 then .key (.int i) else .unknown
    | none => .unknown
  | .str s => .key (normKey s)
  | .arr _ => .illegal
  | .obj _ _ => .illegal

/-- A key as a value, as `foreach` gives it. -/
def keyVal : Key → PV
  | .int i => .int i
  | .str s => .str s

/-! ### Writing -/

/-- `pack('V', …)`, `pack('v', …)` and `pack('C', …)`: the lowest bytes of an
integer (`/repo/tools/genrpc/pfi_rpc.php:57-82`). -/
def pack (n : Nat) (i : Int) : List UInt8 := Serial.toLE n (i % 2 ^ (8 * n)).toNat

/-- `int_type::write` (`/repo/tools/genrpc/pfi_rpc.php:126-137`): there is no
branch for other sizes. The sign makes no difference. -/
def writeInt (size : Nat) (i : Int) : List UInt8 :=
  if size = 1 then pack 1 i else if size = 2 then pack 2 i else if size = 4 then pack 4 i else []

/-- `string_type::write` (`/repo/tools/genrpc/pfi_rpc.php:146-150`). -/
def writeStr (s : Str) : List UInt8 := pack 4 s.length ++ s

/-- One element after the other; `none` if one cannot be written. -/
def concat : List (Option (List UInt8)) → Option (List UInt8)
  | [] => some []
  | x :: xs => x.bind fun a => (concat xs).map fun b => a ++ b

mutual
/-- `write` of the type objects: what is appended to the buffer
(`/repo/tools/genrpc/pfi_rpc.php:98-101`, `/repo/tools/genrpc/pfi_rpc.php:126-137`,
`/repo/tools/genrpc/pfi_rpc.php:146-150`, `/repo/tools/genrpc/pfi_rpc.php:157-159`,
`/repo/tools/genrpc/pfi_rpc.php:177-182`, `/repo/tools/genrpc/pfi_rpc.php:205-212`,
`/repo/tools/genrpc/pfi_rpc.php:232-236`). `none` where PHP converts a value in
a way that is not followed. -/
def write : PTy → PV → Option (List UInt8)
  | .int _ n, .int i => some (writeInt n i)
  | .float, .float b => some (Serial.toLE 8 b.toNat)
  | .str, .str s => some (writeStr s)
  | .str, .int i => some (writeStr (Rpc.showInt i))
  | .arr t, .arr es =>
    (concat ((List.range es.length).map fun (i : Nat) => (get es (.int (i : Int))).bind (write t))).map fun b => pack 4 es.length ++ b
  | .map k t, .arr es =>
    (concat (es.map fun e => (write k (keyVal e.1)).bind fun a => (write t e.2).map fun b => a ++ b)).map
      fun b => pack 4 es.length ++ b
  | .cls _ ms, .obj _ ps => writeMems ms ps
  | _, _ => none
/-- The loop over the members (`/repo/tools/genrpc/pfi_rpc.php:233-235`). -/
def writeMems : PMems → List (Str × PV) → Option (List UInt8)
  | .nil, _ => some []
  | .cons n t ms, ps => ((get ps n).bind (write t)).bind fun a => (writeMems ms ps).map fun b => a ++ b
end

/-! ### Reading -/

/-- The connection as a PHP stream: bytes that PHP has taken from the system
and not given to the program, and the pieces in which the system will give the
bytes that come. -/
structure St where
  buf : List UInt8
  net : List (List UInt8)
deriving DecidableEq

/-- Ways in which the program does not go on as modelled. -/
inductive Stop
  /-- no bytes, so that it waits, or the connection has ended -/
  | noData
  /-- a conversion that is not followed, as after a message of PHP -/
  | untyped
  /-- the server stops -/
  | server (s : Rpc.Stop)
deriving DecidableEq

/-- `fread($f, $n)` (`/repo/tools/genrpc/pfi_rpc.php:94-96`). PHP gives what it
has, and if this is not enough asks the system once for more. For no bytes the
answer is a message and `FALSE`; this is `none`. -/
def fread (n : Nat) (s : St) : Except Stop (Option (List UInt8) × St) :=
  if n = 0 then .ok (none, s)
  else if n ≤ s.buf.length then .ok (some (s.buf.take n), { s with buf := s.buf.drop n })
  else
    match s.net with
    | [] => .error .noData
    | p :: ps => .ok (some (s.buf ++ p.take (n - s.buf.length)), ⟨p.drop (n - s.buf.length), ps⟩)

/-- `unpack` of what was read; with fewer bytes it fails. -/
def unpack (n : Nat) (s : St) : Except Stop (Nat × St) :=
  match fread n s with
  | .error e => .error e
  | .ok (some bs, s') => if bs.length = n then .ok (Serial.ofLE bs, s') else .error .untyped
  | .ok (none, _) => .error .untyped

/-- `read_s8`, `read_s16`, `read_s32`: a number with the highest bit set stands
for a negative one (`/repo/tools/genrpc/pfi_rpc.php:18-25`,
`/repo/tools/genrpc/pfi_rpc.php:33-37`, `/repo/tools/genrpc/pfi_rpc.php:45-49`). -/
def signed (n v : Nat) : Int := if 2 ^ (8 * n - 1) ≤ v then (v : Int) - 2 ^ (8 * n) else v

/-- `int_type::read` (`/repo/tools/genrpc/pfi_rpc.php:113-124`). -/
def readInt (sign : Bool) (n : Nat) (s : St) : Except Stop (PV × St) :=
  if n = 1 ∨ n = 2 ∨ n = 4 then
    match unpack n s with
    | .error e => .error e
    | .ok (v, s') => .ok (.int (if sign then signed n v else v), s')
  else .ok (.null, s)

/-- `string_type::read` (`/repo/tools/genrpc/pfi_rpc.php:141-144`). -/
def readStr (s : St) : Except Stop (PV × St) :=
  match unpack 4 s with
  | .error e => .error e
  | .ok (n, s') =>
    match fread n s' with
    | .error e => .error e
    | .ok (some bs, s'') => .ok (.str bs, s'')
    | .ok (none, s'') => .ok (.false, s'')

/-- The loop of `array_type::read` (`/repo/tools/genrpc/pfi_rpc.php:172-173`). -/
def readMany (f : St → Except Stop (PV × St)) : Nat → St → Except Stop (List PV × St)
  | 0, s => .ok ([], s)
  | n + 1, s =>
    match f s with
    | .error e => .error e
    | .ok (v, s') =>
      match readMany f n s' with
      | .error e => .error e
      | .ok (vs, s'') => .ok (v :: vs, s'')

/-- The loop of `map_type::read` (`/repo/tools/genrpc/pfi_rpc.php:197-201`). -/
def readMap (f g : St → Except Stop (PV × St)) : Nat → List (Key × PV) → St → Except Stop (List (Key × PV) × St)
  | 0, es, s => .ok (es, s)
  | n + 1, es, s =>
    match f s with
    | .error e => .error e
    | .ok (k, s') =>
      match g s' with
      | .error e => .error e
      | .ok (v, s'') =>
        match asKey k with
        | .key k => readMap f g n (put es k v) s''
        | .illegal => readMap f g n es s''
        | .unknown => .error .untyped

mutual
/-- `read` of the type objects (`/repo/tools/genrpc/pfi_rpc.php:113-124`,
`/repo/tools/genrpc/pfi_rpc.php:141-144`, `/repo/tools/genrpc/pfi_rpc.php:154-156`,
`/repo/tools/genrpc/pfi_rpc.php:169-175`, `/repo/tools/genrpc/pfi_rpc.php:194-203`,
`/repo/tools/genrpc/pfi_rpc.php:224-230`). -/
def read : PTy → St → Except Stop (PV × St)
  | .int s n, st => readInt s n st
  | .float, st =>
    match unpack 8 st with
    | .error e => .error e
    | .ok (v, st') => .ok (.float (BitVec.ofNat 64 v), st')
  | .str, st => readStr st
  | .arr t, st =>
    match unpack 4 st with
    | .error e => .error e
    | .ok (n, st') =>
      match readMany (read t) n st' with
      | .error e => .error e
      | .ok (vs, st'') => .ok (.arr (number 0 vs), st'')
  | .map k t, st =>
    match unpack 4 st with
    | .error e => .error e
    | .ok (n, st') =>
      match readMap (read k) (read t) n [] st' with
      | .error e => .error e
      | .ok (es, st'') => .ok (.arr es, st'')
  | .cls n ms, st =>
    match readMems ms [] st with
    | .error e => .error e
    | .ok (ps, st') => .ok (.obj n ps, st')
/-- The loop over the members (`/repo/tools/genrpc/pfi_rpc.php:226-228`). -/
def readMems : PMems → List (Str × PV) → St → Except Stop (List (Str × PV) × St)
  | .nil, ps, st => .ok (ps, st)
  | .cons n t ms, ps, st =>
    match read t st with
    | .error e => .error e
    | .ok (v, st') => readMems ms (put ps n v) st'
end

/-! ### The program that is written -/

/-- A method of an interface: its name, the description of its result and those
of its arguments (`/repo/src/network/rpc/reflect.h:190-194`). -/
abbrev Sig := Str × Rep × List Rep

/-- A name made from a word and a number
(`/repo/tools/genrpc/gen_php.h:71-73`, `/repo/tools/genrpc/gen_php.h:186-188`). -/
def made (s : String) (n : Nat) : Str := Reflect.txt s ++ Decimal.digits n

mutual
/-- `add_type`, called for each description within one: classes without a name
get one; the number is that of the next one
(`/repo/tools/genrpc/gen_php.h:182-193`). -/
def nameRep : Nat → Rep → Nat × Rep
  | a, .arr r => ((nameRep a r).1, .arr (nameRep a r).2)
  | a, .map k v => ((nameRep (nameRep a k).1 v).1, .map (nameRep a k).2 (nameRep (nameRep a k).1 v).2)
  | a, .cls n ms =>
    if n = [] then ((nameMems (a + 1) ms).1, .cls (made "anonymous" a) (nameMems (a + 1) ms).2)
    else ((nameMems a ms).1, .cls n (nameMems a ms).2)
  | a, .bool => (a, .bool)
  | a, .char => (a, .char)
  | a, .int s n => (a, .int s n)
  | a, .float => (a, .float)
  | a, .str => (a, .str)
  | a, .stream => (a, .stream)
/-- The members one after the other (`/repo/src/data/serialization/reflect.h:126-127`). -/
def nameMems : Nat → List Mem → Nat × List Mem
  | a, [] => (a, [])
  | a, m :: ms => ((nameMems (nameMem a m).1 ms).1, (nameMem a m).2 :: (nameMems (nameMem a m).1 ms).2)
/-- One member. -/
def nameMem : Nat → Mem → Nat × Mem
  | a, .mk n t => ((nameRep a t).1, .mk n (nameRep a t).2)
end

/-- Several descriptions in turn. -/
def nameReps : Nat → List Rep → Nat × List Rep
  | a, [] => (a, [])
  | a, r :: rs => ((nameReps (nameRep a r).1 rs).1, (nameRep a r).2 :: (nameReps (nameRep a r).1 rs).2)

/-- The methods in turn, the result before the arguments
(`/repo/tools/genrpc/gen_php.h:47-52`). -/
def nameSigs : Nat → List Sig → Nat × List Sig
  | a, [] => (a, [])
  | a, m :: ms =>
    let r := nameRep a m.2.1
    let l := nameReps r.1 m.2.2
    let q := nameSigs l.1 ms
    (q.1, (m.1, r.2, l.2) :: q.2)

/-- The interfaces in turn (`/repo/tools/genrpc/gen_php.h:44-53`). -/
def nameRefs : Nat → List (List Sig) → List (List Sig)
  | _, [] => []
  | a, r :: rs => (nameSigs a r).2 :: nameRefs (nameSigs a r).1 rs

/-- All descriptions of some methods, in the order in which they are visited. -/
def reps (sigs : List Sig) : List Rep := sigs.flatMap fun m => (m.2.1 :: m.2.2).flatMap Reflect.traverse

/-- A step of `add_type` (`/repo/tools/genrpc/gen_php.h:191`): of classes with
the same name the last one is kept. -/
def addType (tab : List (Str × List Mem)) : Rep → List (Str × List Mem)
  | .cls n ms => AssocMap.upsert tab n ms
  | _ => tab

/-- `types` after the classes have been collected
(`/repo/tools/genrpc/gen_php.h:40-53`). -/
def table (refs : List (List Sig)) : List (Str × List Mem) := (refs.flatMap reps).foldl addType []

/-- Members without a name get one (`/repo/tools/genrpc/gen_php.h:68-76`). -/
def nameAnon : Nat → List Mem → Nat × List (Str × Rep)
  | c, [] => (c, [])
  | c, .mk n t :: ms =>
    if n = [] then ((nameAnon (c + 1) ms).1, (made "anon" c, t) :: (nameAnon (c + 1) ms).2)
    else ((nameAnon c ms).1, (n, t) :: (nameAnon c ms).2)

/-- The classes that are defined, with their members
(`/repo/tools/genrpc/gen_php.h:59-90`). In the code they are in the order of
their names, which matters for the numbers in the names of members without a
name only. -/
def classes : Nat → List (Str × List Mem) → List (Str × List (Str × Rep))
  | _, [] => []
  | c, e :: es => (e.1, (nameAnon c e.2).2) :: classes (nameAnon c e.2).1 es

/-- An array of members by their names. -/
def PMems.ofList : List (Str × PTy) → PMems
  | [] => .nil
  | (n, t) :: l => .cons n t (PMems.ofList l)

/-- What the expression that `print_typeinfo` writes gives
(`/repo/tools/genrpc/gen_php.h:195-228`). `none` is an error that ends the
program: there are no classes `bool_type` and `char_type`, and nothing at all
is written for a stream. `Name::typeinfo()` makes an array of the members by
their names (`/repo/tools/genrpc/gen_php.h:78-88`). -/
def eval (tab : List (Str × List (Str × Rep))) : Nat → Rep → Option PTy
  | 0, _ => none
  | _ + 1, .bool => none
  | _ + 1, .char => none
  | _ + 1, .stream => none
  | _ + 1, .int s n => some (.int s n)
  | _ + 1, .float => some .float
  | _ + 1, .str => some .str
  | f + 1, .arr r => (eval tab f r).map .arr
  | f + 1, .map k v => (eval tab f k).bind fun a => (eval tab f v).map fun b => .map a b
  | f + 1, .cls n _ => (AssocMap.find tab n).bind fun ms =>
      (ms.mapM fun m => (eval tab f m.2).map fun t => (m.1, t)).map fun l =>
        .cls n (.ofList (l.foldl (fun es e => put es e.1 e.2) []))

/-- A method of a client. -/
structure Method where
  name : Str
  ret : PTy
  args : List PTy

/-- The types of one method (`/repo/tools/genrpc/gen_php.h:120-128`). -/
def evalSig (tab : List (Str × List (Str × Rep))) (fuel : Nat) (m : Sig) : Option Method :=
  (eval tab fuel m.2.1).bind fun r => (m.2.2.mapM (eval tab fuel)).map fun l => ⟨m.1, r, l⟩

/-- `new …_client(…)` up to the connection
(`/repo/tools/genrpc/gen_php.h:112-129`): the types of all methods are made. -/
def construct (tab : List (Str × List (Str × Rep))) (fuel : Nat) (sigs : List Sig) : Option (List Method) :=
  sigs.mapM (evalSig tab fuel)

/-- The clients that are written for some interfaces
(`/repo/tools/genrpc/gen_php.h:37-180`); `none` if making an object of the
class ends with an error. -/
def clients (refs : List (List Sig)) : List (Option (List Method)) :=
  let named := nameRefs 0 refs
  named.map (construct (classes 0 (table named)) (1 + (named.flatMap reps).length))

/-! ### Calls -/

/-- A client with its connection, and the record of the functions called. -/
structure Client where
  st : St
  conn : Rpc.Conn
  log : List Rpc.Call

/-- How a call ends: with a result or with an exception that has the text of
the answer (`/repo/tools/genrpc/gen_php.h:141-148`). -/
inductive Answer
  | value (v : PV)
  | noPong
  | notOk (code : PV)

/-- `flush` (`/repo/tools/genrpc/pfi_rpc.php:89-92`): the bytes are sent and
the server reacts. `deliver` tells in which pieces its answer comes. -/
def exchange (E : Rpc.Encoder) (sv : Rpc.Server) (deliver : List UInt8 → List (List UInt8)) (msg : List UInt8) (c : Client) :
    Except Stop Client :=
  match Rpc.send E sv msg c.conn c.log with
  | .error e => .error (.server e)
  | .ok (conn, log) => .ok ⟨{ c.st with net := c.st.net ++ deliver conn.outbox }, { conn with outbox := [] }, log⟩

/-- `$v=="text"`, for a text that is not a number. -/
def isText (v : PV) (s : Str) : Bool :=
  match v with
  | .str t => t == s
  | _ => false

/-- The arguments one after the other (`/repo/tools/genrpc/gen_php.h:165-167`). -/
def writeAll : List PTy → List PV → Option (List UInt8)
  | [], [] => some []
  | t :: ts, v :: vs => (write t v).bind fun a => (writeAll ts vs).map fun b => a ++ b
  | _, _ => none

/-- What is sent for a call; the version is always 1
(`/repo/tools/genrpc/gen_php.h:163-167`). -/
def request (m : Method) (args : List PV) : Option (List UInt8) :=
  (writeAll m.args args).map fun b => writeStr m.name ++ pack 4 1 ++ b

/-- `ping_pong` (`/repo/tools/genrpc/gen_php.h:137-143`): whether the answer is
the right one. -/
def pingPong (E : Rpc.Encoder) (sv : Rpc.Server) (deliver : List UInt8 → List (List UInt8)) (c : Client) :
    Except Stop (Bool × Client) :=
  match exchange E sv deliver (writeStr Rpc.pingMsg) c with
  | .error e => .error e
  | .ok c =>
    match readStr c.st with
    | .error e => .error e
    | .ok (v, st) => .ok (isText v Rpc.pongMsg, { c with st := st })

/-- `call_…` (`/repo/tools/genrpc/gen_php.h:145-173`). -/
def call (E : Rpc.Encoder) (sv : Rpc.Server) (deliver : List UInt8 → List (List UInt8)) (m : Method) (args : List PV) (c : Client) :
    Except Stop (Answer × Client) :=
  match pingPong E sv deliver c with
  | .error e => .error e
  | .ok (false, c) => .ok (.noPong, c)
  | .ok (true, c) =>
    match request m args with
    | none => .error .untyped
    | some msg =>
      match exchange E sv deliver msg c with
      | .error e => .error e
      | .ok c =>
        match readStr c.st with
        | .error e => .error e
        | .ok (code, st) =>
          if isText code Rpc.okMsg then
            match read m.ret st with
            | .error e => .error e
            | .ok (v, st) => .ok (.value v, { c with st := st })
          else .ok (.notOk code, { c with st := st })

end Verif.GenPhp
