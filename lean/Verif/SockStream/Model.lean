import Verif.Socket.Prog
/-! Model of `socketstream`, `/repo/src/network/iostream.h`, on the socket of `Verif/Socket`, with the parts of `std::iostream` that use it. The stream buffer has neither a get
area nor a put area, so that the library calls its virtual functions for each access. -/

namespace Verif.SockStream
open Verif.Socket

/-- The state of a stream: `eofbit`, `failbit` and `badbit`. -/
structure Bits where
  eof : Bool := false
  fail : Bool := false
  bad : Bool := false
deriving DecidableEq, Repr

/-- `good()`. -/
def Bits.good (b : Bits) : Bool := !b.eof && !b.fail && !b.bad

/-- The stream without its socket: the bits, and `buf`, `/repo/src/network/iostream.h:134`, with `none` for `eof()`. -/
structure Io where
  bits : Bits := {}
  buf : Option UInt8 := none
deriving DecidableEq, Repr

/-! ### The stream buffer, with a socket -/

/-- `underflow`, `/repo/src/network/iostream.h:125-131`: the result and `buf`. -/
def underflow (buf : Option UInt8) : Prog (Option UInt8 × Option UInt8) :=
  match buf with
  | some c => .ret (some c, some c)
  | none => Prog.getc.bind fun c => .ret (c, c)

/-- `uflow`, `/repo/src/network/iostream.h:119-123`. -/
def uflow (buf : Option UInt8) : Prog (Option UInt8 × Option UInt8) :=
  (underflow buf).bind fun r => .ret (r.1, none)

/-- `xsputn`, `/repo/src/network/iostream.h:99-104`. -/
def xsputn (d : Str) : Prog Nat :=
  .op (.write d) fun r => .ret (match r with | .int n => if n < 0 then 0 else n.toNat | _ => 0)

/-- `overflow`, `/repo/src/network/iostream.h:106-112`: whether it does not return `eof()`. -/
def overflow (c : UInt8) : Prog Bool :=
  .op (.write [c]) fun r => .ret (match r with | .int n => if n < 0 then false else decide (n ≠ 0) | _ => false)

/-- `sync`, `/repo/src/network/iostream.h:114-117`: `flush` of a socket gives a negative number when it succeeds. -/
def sync : Prog Int :=
  .op .flush fun r => .ret (match r with | .int n => if n < 0 then 0 else -1 | _ => -1)

/-! ### The library, as far as it depends on the stream buffer -/

/-- `streambuf::xsgetn` without a get area: `uflow` for each byte, until there are enough or the end is reached. -/
def xsgetn : Nat → Option UInt8 → Prog (Str × Option UInt8)
  | 0, buf => .ret ([], buf)
  | n + 1, buf => (uflow buf).bind fun r =>
    match r.1 with
    | none => .ret ([], r.2)
    | some c => (xsgetn n r.2).bind fun q => .ret (c :: q.1, q.2)

/-- The loop of `std::getline`: `c` is what `sgetc` or `snextc` gave. The result says whether the end was reached. The line ends after at most `fuel` bytes. -/
def getlineLoop : Nat → Option UInt8 → Option UInt8 → Str → Prog (Str × Bool × Option UInt8)
  | 0, _, buf, acc => .ret (acc, true, buf)
  | fuel + 1, c, buf, acc =>
    match c with
    | none => .ret (acc, true, buf)
    | some c =>
      if c = 10 then (uflow buf).bind fun r => .ret (acc, false, r.2)
      else (uflow buf).bind fun r => (underflow r.2).bind fun q => getlineLoop fuel q.1 q.2 (acc ++ [c])

/-- What a user does with a stream: `get()`, `peek()`, `read(p, n)`, `std::getline`, `put(c)`, `write(p, n)`, `flush()`. -/
inductive Op
  | get | peek | read (n : Nat) | getline | put (c : UInt8) | write (d : Str) | flush
deriving DecidableEq, Repr

/-- What they give: a byte or the end; the bytes that were stored; the line (`none`: the string is left alone). -/
inductive Res
  | char (c : Option UInt8) | bytes (d : Str) | line (l : Option Str) | done
deriving DecidableEq, Repr

/-- The result when the stream is not good at the beginning. -/
def Op.refused : Op → Res
  | .get | .peek => .char none
  | .read _ => .bytes []
  | .getline => .line none
  | _ => .done

/-- One operation on a stream with a socket. A stream that is not good does nothing but set `failbit`. -/
def opProg (fuel : Nat) (op : Op) (io : Io) : Prog (Res × Io) :=
  if io.bits.good then
    match op with
    | .get => (uflow io.buf).bind fun r =>
      .ret (.char r.1, ⟨if r.1.isNone then { io.bits with eof := true, fail := true } else io.bits, r.2⟩)
    | .peek => (underflow io.buf).bind fun r =>
      .ret (.char r.1, ⟨if r.1.isNone then { io.bits with eof := true } else io.bits, r.2⟩)
    | .read n => (xsgetn n io.buf).bind fun r =>
      .ret (.bytes r.1, ⟨if r.1.length ≠ n then { io.bits with eof := true, fail := true } else io.bits, r.2⟩)
    | .getline => (underflow io.buf).bind fun r => (getlineLoop fuel r.1 r.2 []).bind fun q =>
      .ret (.line (some q.1), ⟨if q.2.1 then { io.bits with eof := true, fail := decide (q.1 = []) } else io.bits, q.2.2⟩)
    | .put c => (overflow c).bind fun ok => .ret (.done, ⟨if ok then io.bits else { io.bits with bad := true }, io.buf⟩)
    | .write d => (xsputn d).bind fun n => .ret (.done, ⟨if n ≠ d.length then { io.bits with bad := true } else io.bits, io.buf⟩)
    | .flush => sync.bind fun n => .ret (.done, ⟨if n = -1 then { io.bits with bad := true } else io.bits, io.buf⟩)
  else .ret (op.refused, { io with bits := { io.bits with fail := true } })

/-- Operations in sequence. -/
def runProg (fuel : Nat) : List Op → Io → Prog (List Res × Io)
  | [], io => .ret ([], io)
  | op :: ops, io => (opProg fuel op io).bind fun r => (runProg fuel ops r.2).bind fun q => .ret (r.1 :: q.1, q.2)

/-! ### Streams and their sockets -/

/-- `sock`, `/repo/src/network/iostream.h:135`: not set (a null `shared_ptr`), a holder of a null pointer, or a socket. -/
inductive Sock
  | unset | null | live (s : St)
deriving DecidableEq

/-- A `socketstream`. -/
structure Stream where
  io : Io := {}
  sock : Sock := .unset
deriving DecidableEq

/-- The default constructor, `/repo/src/network/iostream.h:50-53` and 141-143. -/
def Stream.new : Stream := {}

/-- The operations of a stream whose holder has a null pointer. `none`: `sync` does not look whether there is a socket. -/
def nullOp (op : Op) (io : Io) : Option (Res × Io) :=
  if io.bits.good then
    match op, io.buf with
    | .get, some c => some (.char (some c), ⟨io.bits, none⟩)
    | .get, none => some (.char none, ⟨{ io.bits with eof := true, fail := true }, none⟩)
    | .peek, some c => some (.char (some c), io)
    | .peek, none => some (.char none, ⟨{ io.bits with eof := true }, none⟩)
    | .read 0, b => some (.bytes [], ⟨io.bits, b⟩)
    | .read 1, some c => some (.bytes [c], ⟨io.bits, none⟩)
    | .read _, b => some (.bytes b.toList, ⟨{ io.bits with eof := true, fail := true }, none⟩)
    | .getline, some c =>
      if c = 10 then some (.line (some []), ⟨io.bits, none⟩) else some (.line (some [c]), ⟨{ io.bits with eof := true }, none⟩)
    | .getline, none => some (.line (some []), ⟨{ io.bits with eof := true, fail := true }, none⟩)
    | .put _, b => some (.done, ⟨{ io.bits with bad := true }, b⟩)
    | .write d, b => some (.done, ⟨if d = [] then io.bits else { io.bits with bad := true }, b⟩)
    | .flush, _ => none
  else some (op.refused, { io with bits := { io.bits with fail := true } })

/-- An operation on a stream. `none`: a null pointer is followed. -/
def Stream.op (k : Kernel) (fuel : Nat) (st : Stream) (op : Op) : Option (Res × Stream) :=
  match st.sock with
  | .unset => if st.io.bits.good then none else some (op.refused, { st with io.bits.fail := true })
  | .null => (nullOp op st.io).map fun r => (r.1, { st with io := r.2 })
  | .live s => let r := (opProg fuel op st.io).run (step k) s
    some (r.1.1, ⟨r.1.2, .live r.2⟩)

/-- Operations in sequence. -/
def Stream.run (k : Kernel) (fuel : Nat) : List Op → Stream → Option (List Res × Stream)
  | [], st => some ([], st)
  | op :: ops, st => match st.op k fuel op with
    | none => none
    | some (r, st) => (Stream.run k fuel ops st).map fun q => (r :: q.1, q.2)

/-- `is_connected()`, `/repo/src/network/iostream.h:88-91`. -/
def Stream.isConnected (st : Stream) : Option Bool :=
  match st.sock with
  | .unset => none
  | .null => some false
  | .live s => some s.connected

/-- `setsock`, `/repo/src/network/iostream.h:83-86` and 166-170. -/
def Stream.setsock (st : Stream) (s : Option St) : Stream :=
  { st with sock := match s with | none => .null | some s => .live s, io.bits := {} }

/-- `connect`, `/repo/src/network/iostream.h:58-64` and 159-164, when the kernel makes a socket. -/
def Stream.connect (net : Net) (st : Stream) : Stream :=
  let r := Socket.connect net Socket.new
  { st with sock := .live r.2, io.bits := if r.1 then {} else { st.io.bits with fail := true } }

/-- What the destructor of the stream, or another socket in place of the socket, does with a socket that nobody else has, `/repo/src/network/socket.cpp:85-89`. -/
def release (k : Kernel) (s : St) : St := close (flush k s).2

end Verif.SockStream
