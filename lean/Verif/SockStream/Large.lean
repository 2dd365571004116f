import Verif.SockStream.Model
/-! Writes of any length: `stream_socket::write` takes an `int`, its callers have a `streamsize` or a `size_t` of 64 bits. -/

namespace Verif.SockStream
open Verif.Socket

/-- What a length of 64 bits becomes when it is passed as `int size`, `/repo/src/network/socket.cpp:241,316` and
`/repo/src/network/iostream.h:101` (`sizeof(char_type)` is 1). -/
def asInt (n : Nat) : Int := Int.bmod n (2 ^ 32)

/-- `write(dat, length)`, `/repo/src/network/socket.cpp:241-268`, with a length of 64 bits. `none`: the length arrives negative and `q=p+size`
(245) points before the data, which is undefined. -/
def writeAny (k : Kernel) (d : Str) (s : St) : Option (Int × St) :=
  if asInt d.length < 0 then none else some (write k (d.take (asInt d.length).toNat) s)

/-- `puts`, `/repo/src/network/socket.cpp:314-318`. -/
def putsAny (k : Kernel) (d : Str) (s : St) : Option (Bool × St) :=
  (writeAny k d s).map fun r => (r.1 == asInt d.length, r.2)

/-- `write(p, n)` of a good stream with a socket: `xsputn`, `/repo/src/network/iostream.h:99-104`, and the library, which sets `badbit`
when fewer bytes than wanted were taken. -/
def writeStream (k : Kernel) (d : Str) (io : Io) (s : St) : Option (Io × St) :=
  (writeAny k d s).map fun r =>
    (if (if r.1 < 0 then (0 : Int) else r.1) ≠ (d.length : Int) then { io with bits := { io.bits with bad := true } } else io, r.2)

end Verif.SockStream
