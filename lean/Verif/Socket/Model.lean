/-! Model of the buffered stream socket, `/repo/src/network/socket.cpp:71-427`.

The kernel is an arbitrary sequence of answers, one for each call of `send` and `recv`: how many bytes the call would move, or a failure
if the number is not positive. `NO_INTR` (`/repo/src/system/syscall.h:38-44`) repeats a call that a signal interrupted, so the answers
here are those of the last repetition. `recv` answers 0 when the peer's stream is used up. Sizes are not negative (a negative size given
to `read` makes its `memcpy` undefined) and below 2^31. -/

namespace Verif.Socket

abbrev Str := List UInt8

/-- `/repo/src/network/socket.cpp:54`. -/
def bufSize : Nat := 8 * 1024

/-- The answers of the kernel to the system calls, by number of the call. -/
structure Kernel where
  send : Nat → Int
  recv : Nat → Int

/-- The fields of `stream_socket`, `/repo/src/network/socket.h:98-112`, and its surroundings.
`rd` is `rdbuf` from `rdbuf_p` up to `rdbuf_end`, `wr` is `wrbuf` up to `wrbuf_size`; `incoming` is what the peer of the current connection
sends and the kernel has not delivered yet, `wire` what the kernel has accepted for that peer, `calls` the number of calls made. -/
structure St where
  opened : Bool := false
  connected : Bool := false
  rd : Str := []
  wr : Str := []
  incoming : Str := []
  wire : Str := []
  calls : Nat := 0
  deriving DecidableEq

/-- `close`, `/repo/src/network/socket.cpp:179-198`: the state after it does not depend on its result. -/
def close (s : St) : St := { s with opened := false, connected := false }

/-- `recv`, `/repo/src/network/socket.cpp:367-380`: `none` is a result that is not positive. -/
def recv (k : Kernel) (size : Nat) (s : St) : Option Str × St :=
  if ¬ s.connected then (none, s)
  else
    let n := min (k.recv s.calls) (min size s.incoming.length)
    let s := { s with calls := s.calls + 1 }
    if n ≤ 0 then (none, close s)
    else (some (s.incoming.take n.toNat), { s with incoming := s.incoming.drop n.toNat })

/-- `send`, `/repo/src/network/socket.cpp:382-395`. -/
def send (k : Kernel) (dat : Str) (s : St) : Int × St :=
  if ¬ s.connected then (0, s)
  else
    let n := min (k.send s.calls) dat.length
    let s := { s with calls := s.calls + 1 }
    if n ≤ 0 then (n, close s)
    else (n, { s with wire := s.wire ++ dat.take n.toNat })

/-- The loop of `send_all`, `/repo/src/network/socket.cpp:397-408`. Each round but the last sends a byte at least. -/
def sendLoop (k : Kernel) : Nat → Str → St → Nat × St
  | 0, _, s => (0, s)
  | fuel + 1, dat, s =>
    if dat = [] then (0, s)
    else
      let (n, s) := send k dat s
      if n ≤ 0 then (0, s)
      else
        let (m, s) := sendLoop k fuel (dat.drop n.toNat) s
        (n.toNat + m, s)

/-- `send_all`, `/repo/src/network/socket.cpp:397-408`. -/
def sendAll (k : Kernel) (dat : Str) (s : St) : Nat × St := sendLoop k dat.length dat s

/-- `flush`, `/repo/src/network/socket.cpp:272-281`. -/
def flush (k : Kernel) (s : St) : Int × St :=
  if s.wr.length > 0 then
    let (n, s') := sendAll k s.wr s
    (if n = s.wr.length then -1 else n, { s' with wr := [] })
  else (-1, s)

/-- `write` from line 259 on, `/repo/src/network/socket.cpp:259-267`: `done` bytes of the argument are in the buffer or sent. -/
def writeRest (k : Kernel) (done : Nat) (dat : Str) (s : St) : Int × St :=
  if dat.length ≥ bufSize then
    let (n, s) := sendAll k dat s
    (done + n, s)
  else (done + dat.length, { s with wr := s.wr ++ dat })

/-- `write` after the first loop, `/repo/src/network/socket.cpp:251-267`; `init` is `init_size`, and the loop has put as much of `dat` into
the buffer as there was room for. -/
def writeAt (k : Kernel) (dat : Str) (init : Nat) (s : St) : Int × St :=
  if s.wr.length = bufSize then
    let (res, s) := flush k s
    if res ≥ 0 then (max 0 (res - init), s)
    else writeRest k (dat.take (bufSize - init)).length (dat.drop (bufSize - init)) s
  else writeRest k (dat.take (bufSize - init)).length (dat.drop (bufSize - init)) s

/-- `write`, `/repo/src/network/socket.cpp:241-268`. -/
def write (k : Kernel) (dat : Str) (s : St) : Int × St :=
  writeAt k dat s.wr.length { s with wr := s.wr ++ dat.take (bufSize - s.wr.length) }

/-- `puts`, `/repo/src/network/socket.cpp:314-318`. -/
def puts (k : Kernel) (str : Str) (s : St) : Bool × St :=
  let (n, s) := write k str s
  (n = str.length, s)

/-- The loop of `read`, `/repo/src/network/socket.cpp:232-236`. Each round but the last receives a byte at least. -/
def readLoop (k : Kernel) : Nat → Nat → St → Str × St
  | 0, _, s => ([], s)
  | fuel + 1, size, s =>
    if size = 0 then ([], s)
    else
      match recv k size s with
      | (none, s) => ([], s)
      | (some d, s) =>
        let (e, s) := readLoop k fuel (size - d.length) s
        (d ++ e, s)

/-- `read`, `/repo/src/network/socket.cpp:215-239`: the bytes stored at `dat`, whose number is the result. -/
def read (k : Kernel) (size : Nat) (s : St) : Str × St :=
  if s.rd.length > 0 then
    if s.rd.length ≥ size then (s.rd.take size, { s with rd := s.rd.drop size })
    else
      let (d, s') := readLoop k (size - s.rd.length) (size - s.rd.length) { s with rd := [] }
      (s.rd ++ d, s')
  else readLoop k size size s

/-- `fill_buf`, `/repo/src/network/socket.cpp:410-417`. -/
def fillBuf (k : Kernel) (s : St) : St :=
  if s.rd.length ≠ 0 then s
  else
    match recv k bufSize s with
    | (none, s) => { s with rd := [] }
    | (some d, s) => { s with rd := d }

/-- `getc`, `/repo/src/network/socket.cpp:283-289`: `none` is `EOF`. `inc_buf` (419-422) turns the byte into 0..255, so it is not `EOF`. -/
def getc (k : Kernel) (s : St) : Option UInt8 × St :=
  match s.rd with
  | c :: rd => (some c, { s with rd := rd })
  | [] =>
    let s := fillBuf k s
    match s.rd with
    | c :: rd => (some c, { s with rd := rd })
    | [] => (none, s)

/-- What is left to read, for the termination of `getline`. -/
def left (s : St) : Nat := s.rd.length + s.incoming.length

/-- The loop of `getline`, `/repo/src/network/socket.cpp:294-311`: `lim` is the number of rounds left, `none` without a limit. The answer
is the string assigned to `str`, `none` if `getline` returns false. -/
def getlineLoop (k : Kernel) : Nat → Option Nat → Str → St → Option Str × St
  | 0, _, _, s => (none, s)
  | fuel + 1, lim, acc, s =>
    if lim = some 0 then (some acc, s)
    else
      match getc k s with
      | (none, s) => (if acc.length = 0 then none else some acc, s)
      | (some c, s) =>
        if c = 10 then
          (some (if acc.length ≥ 1 ∧ acc.getLast? = some 13 then acc.take (acc.length - 1) else acc), s)
        else getlineLoop k fuel (lim.map (· - 1)) (acc ++ [c]) s

/-- `getline`, `/repo/src/network/socket.cpp:291-312`. A negative limit means none. -/
def getline (k : Kernel) (limit : Int) (s : St) : Option Str × St :=
  getlineLoop k (left s + 1) (if limit < 0 then none else some limit.toNat) [] s

/-- `open`, `/repo/src/network/socket.cpp:167-177`; `ok` is whether the kernel makes a socket. -/
def openSock (ok : Bool) (s : St) : Bool × St :=
  if s.opened then (false, s) else if ok then (true, { s with opened := true }) else (false, s)

/-- What the kernel does during `connect` and `shutdown`: the results of `close` and `socket`, whether one of the addresses answers, and
what the peer that answers will send. -/
structure Net where
  closeOk : Bool := true
  openOk : Bool := true
  answers : Bool := true
  incoming : Str := []

/-- `connect` from line 118 on, `/repo/src/network/socket.cpp:118-137`. -/
def dial (net : Net) (s : St) : Bool × St :=
  if net.answers then (true, { s with connected := true, incoming := net.incoming, wire := [] }) else (false, close s)

/-- `connect`, `/repo/src/network/socket.cpp:98-138`. -/
def connect (net : Net) (s : St) : Bool × St :=
  if ¬ s.opened then (false, s)
  else if s.connected then
    let s := close s
    if ¬ net.closeOk then (false, s)
    else
      let (ok, s) := openSock net.openOk s
      if ¬ ok then (false, s) else dial net s
  else dial net s

/-- `shutdown`, `/repo/src/network/socket.cpp:140-145`. `close` answers false without a socket (181-182). -/
def shutdown (net : Net) (s : St) : Bool × St :=
  if ¬ s.opened then (false, s)
  else
    let s := close s
    if ¬ net.closeOk then (false, s) else openSock net.openOk s

/-- The constructor, `/repo/src/network/socket.cpp:71-83`, when the kernel makes a socket. -/
def new : St := { opened := true }

/-- The calls of a user on one connection. -/
inductive Op where
  | write (dat : Str)
  | puts (str : Str)
  | flush
  | read (size : Nat)
  | getc
  | getline (limit : Int)

/-- What a call gives back. -/
inductive Res where
  | int (n : Int)
  | bool (b : Bool)
  | bytes (d : Str)
  | char (c : Option UInt8)
  | line (l : Option Str)
  deriving DecidableEq

/-- One call. -/
def step (k : Kernel) : Op → St → Res × St
  | .write d, s => let (n, s) := write k d s; (.int n, s)
  | .puts d, s => let (b, s) := puts k d s; (.bool b, s)
  | .flush, s => let (n, s) := flush k s; (.int n, s)
  | .read n, s => let (d, s) := read k n s; (.bytes d, s)
  | .getc, s => let (c, s) := getc k s; (.char c, s)
  | .getline n, s => let (l, s) := getline k n s; (.line l, s)

/-- Calls in sequence. -/
def run (k : Kernel) : List Op → St → List Res × St
  | [], s => ([], s)
  | o :: os, s =>
    let (r, s) := step k o s
    let (rs, s) := run k os s
    (r :: rs, s)

end Verif.Socket
