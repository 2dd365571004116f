import Verif.Reflect.Model
import Verif.TmpStream.Model
/-!
# Model of types that contain streams, in the archives

Source: `/repo/src/data/serialization/iostream.h`, `vector.h`, `map.h` and `base.h` beside it.

The types of `Verif/Serial` have no streams. Here types are built from those, streams,
vectors, maps and the members of classes. The streams of a value are
temporary files of their own: two that are copies of each other, and so share
one file (`Verif/TmpStream`), are not modelled here.
-/
namespace Verif.Reflect
open Verif.Serial (Strm)
open Verif.TmpStream (S)

/-- How a type that may contain streams is written. Keys of maps contain none:
streams have no order. -/
inductive Form
  | plain (t : Serial.Ty)
  | stream
  | vec (t : Form)
  | map (k : Serial.Ty) (v : Form)
  | pair (a b : Form)
deriving DecidableEq

mutual
/-- As `wire`, with streams (`/repo/src/data/serialization/iostream.h:133-143`). -/
def form : Ty → Option Form
  | .bool => some (.plain .bool)
  | .char => some (.plain (.prim 1 true))
  | .int s n => some (.plain (.prim n s))
  | .float n => some (.plain (.prim n true))
  | .str => some (.plain .str)
  | .stream => some .stream
  | .vec t => (form t).map .vec
  | .map k v => (wire k).bind fun a => (form v).map fun b => .map a b
  | .cls body => formBody body
/-- As `wireBody` (`/repo/src/data/serialization/base.h:47-50`). -/
def formBody : List Act → Option Form
  | [] => some (.plain (.arr 0 .bool))
  | .name _ :: as => formBody as
  | .member _ t :: as => (form t).bind fun a => (formBody as).map fun b => .pair a b
  | .plain t :: as => (form t).bind fun a => (formBody as).map fun b => .pair a b
end

/-- Values. -/
@[reducible] def FVal : Form → Type
  | .plain t => Serial.Val t
  | .stream => S
  | .vec t => List (FVal t)
  | .map k v => List (Serial.Val k × FVal v)
  | .pair a b => FVal a × FVal b

/-- A value-initialised object; a stream makes a new file
(`/repo/src/data/serialization/iostream.h:62-66`). -/
def fdflt : (t : Form) → FVal t
  | .plain t => Serial.dflt t
  | .stream => TmpStream.newFile
  | .vec _ => []
  | .map _ _ => []
  | .pair a b => (fdflt a, fdflt b)

/-- Reader of a stream (`/repo/src/data/serialization/iostream.h:101-116`, `133-137`). The loop is
given two iterations more than there are bytes; one that has not ended by then never
ends (`Props.never_ends`), which is counted as undefined here. -/
def readStream (old : S) (s : Strm) : S × Strm :=
  match TmpStream.recv (s.rest.length + 2) s old with
  | some r => (r.2, r.1)
  | none => (old, { s with ub := true })

/-- `ar & v` on a `binary_iarchive` (`/repo/src/data/serialization/vector.h:44-66`, `map.h:45-66`, `pair.h:43-47`,
`iostream.h:133-137`). -/
def fread : (t : Form) → FVal t → Strm → FVal t × Strm
  | .plain t => Serial.read t
  | .stream => readStream
  | .vec t => Serial.readSeq (fread t) (fdflt t)
  | .map k v => Serial.readAssoc (Serial.readPair (Serial.read k) (fread v)) (Serial.dflt k, fdflt v)
      (Serial.keyLt (Serial.vlt k)) false
  | .pair a b => Serial.readPair (fread a) (fread b)

/-- `ar & v` on a `binary_oarchive`: the bytes that are written for a value
(`/repo/src/data/serialization/vector.h:61-65`, `map.h:59-65`, `pair.h:43-47`, `iostream.h:117-130`). -/
def FWrites : (t : Form) → FVal t → List UInt8 → Prop
  | .plain t => Serial.Writes t
  | .stream => fun v bs => bs = (TmpStream.send v).1
  | .vec t => fun v bs => ∃ body, bs = Serial.sizeField v.length ++ body ∧
      Serial.WritesAll (FWrites t) (v.take (v.length % 2 ^ 32)) body
  | .map k v => fun m bs => ∃ body, bs = Serial.sizeField m.length ++ body ∧
      Serial.WritesAll (fun p bs => ∃ x y, bs = x ++ y ∧ Serial.Writes k p.1 x ∧ FWrites v p.2 y) m body
  | .pair a b => fun v bs => ∃ x y, bs = x ++ y ∧ FWrites a v.1 x ∧ FWrites b v.2 y

end Verif.Reflect
