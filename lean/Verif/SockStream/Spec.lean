import Verif.SockStream.Model
/-! What a user of a `socketstream` expects: a stream in memory, from which the incoming bytes are read and to which the outgoing bytes are written. -/

namespace Verif.SockStream.Spec
open Verif.Socket Verif.SockStream

/-- A stream in memory. -/
structure Mem where
  bits : Bits := {}
  input : Str
  output : Str := []
deriving DecidableEq

/-- The operations on a stream in memory. -/
def memOp (op : Op) (m : Mem) : Res × Mem :=
  if m.bits.good then
    match op with
    | .get => match m.input with
      | [] => (.char none, { m with bits := { m.bits with eof := true, fail := true } })
      | c :: r => (.char (some c), { m with input := r })
    | .peek => match m.input with
      | [] => (.char none, { m with bits := { m.bits with eof := true } })
      | c :: _ => (.char (some c), m)
    | .read n =>
      (.bytes (m.input.take n), { m with
        input := m.input.drop n, bits := if m.input.length < n then { m.bits with eof := true, fail := true } else m.bits })
    | .getline =>
      if 10 ∈ m.input then (.line (some (m.input.takeWhile (· ≠ 10))), { m with input := (m.input.dropWhile (· ≠ 10)).tail })
      else (.line (some m.input), { m with input := [], bits := { m.bits with eof := true, fail := decide (m.input = []) } })
    | .put c => (.done, { m with output := m.output ++ [c] })
    | .write d => (.done, { m with output := m.output ++ d })
    | .flush => (.done, m)
  else (op.refused, { m with bits := { m.bits with fail := true } })

/-- Operations in sequence. -/
def memRun : List Op → Mem → List Res × Mem
  | [], m => ([], m)
  | op :: ops, m => ((memOp op m).1 :: (memRun ops (memOp op m).2).1, (memRun ops (memOp op m).2).2)

/-- Operations that read. -/
def Reading : Op → Prop
  | .get | .peek | .read _ | .getline => True
  | _ => False

/-- What the operations are asked to write. -/
def asked : List Op → Str
  | [] => []
  | .put c :: ops => c :: asked ops
  | .write d :: ops => d ++ asked ops
  | _ :: ops => asked ops

end Verif.SockStream.Spec
