import Verif.Decimal
/-!
# Load and memory of the machine

`/repo/src/system/sysstat.cpp`, the parts for Linux. The files `/proc/loadavg` and `/proc/meminfo` are given by their contents; one that cannot be opened
is like an empty one. In this file the load is the text that `atof` gets; `Load.lean` has the number. Not modelled: the parts for Solaris and macOS.
-/
namespace Verif.Sysstat

abbrev Str := List UInt8

/-- ASCII text as bytes. -/
def ascii (s : String) : Str := s.toList.map fun c => UInt8.ofNat c.toNat

/-- `isspace` in the "C" locale, for `operator>>`. -/
def isspace (c : UInt8) : Bool := c == 32 || (9 ≤ c && c ≤ 13)

/-- What `while (getline(fin, s))` sees, `/repo/src/system/sysstat.cpp:119`; `acc` is the line so far. -/
def linesGo (acc : Str) : Str → List Str
  | [] => if acc = [] then [] else [acc]
  | c :: s => if c = 10 then acc :: linesGo [] s else linesGo (acc ++ [c]) s

/-- The lines of a file. -/
def lines (s : Str) : List Str := linesGo [] s

/-- `is >> str`: the word, and the rest; the empty word if there is none (`str` is empty before). -/
def word (s : Str) : Str × Str := ((s.dropWhile isspace).takeWhile (!isspace ·), (s.dropWhile isspace).dropWhile (!isspace ·))

/-- The second and the third word of a line, `/repo/src/system/sysstat.cpp:121-125`, `:159-163` and `:172-176`. -/
def words (s : Str) : Str × Str :=
  let (_, s) := word s
  let (mem, s) := word s
  let (kb, _) := word s
  (mem, kb)

/-- `atoi` (for 32 bits) and `atoll` (for 64). `none`: undefined, as the number is not one of the type. -/
def ato (bits : Nat) (s : Str) : Option Int :=
  let s := s.dropWhile isspace
  let neg := s.head? = some 45
  let s := if s.head? = some 45 ∨ s.head? = some 43 then s.tail else s
  let n : Int := Decimal.value (s.takeWhile Decimal.isDigit)
  let n := if neg then - n else n
  if - 2 ^ (bits - 1) ≤ n ∧ n < 2 ^ (bits - 1) then some n else none

/-- `if (mem!="") { x=ato(mem.c_str()); if (kb=="kB") x*=1000; }`, `/repo/src/system/sysstat.cpp:126-131`, `:164-169` and `:177-182`; `x` is a `uint64_t`. -/
def amount (bits : Nat) (s : Str) (x : Nat) : Option Nat :=
  let (mem, kb) := words s
  if mem ≠ [] then do
    let n ← ato bits mem
    let x := (n % 2 ^ 64).toNat
    some (if kb = ascii "kB" then x * 1000 % 2 ^ 64 else x)
  else some x

/-- `if (s.find(name)==0) …`, `/repo/src/system/sysstat.cpp:120`, `:158` and `:171`. -/
def onLine (name : Str) (bits : Nat) (s : Str) (x : Nat) : Option Nat := if name.isPrefixOf s then amount bits s x else some x

/-- `get_total_memory`, `/repo/src/system/sysstat.cpp:115-134`. -/
def totalMemory (meminfo : Str) : Option Nat :=
  (lines meminfo).foldlM (fun memtotal s => onLine (ascii "MemTotal") 64 s memtotal) 0

/-- The body of the loop of `get_free_memory`, `/repo/src/system/sysstat.cpp:158-183`. -/
def freeStep (st : Nat × Nat) (s : Str) : Option (Nat × Nat) := do
  let memfree ← onLine (ascii "MemFree") 32 s st.1
  let memcached ← onLine (ascii "Cached") 32 s st.2
  some (memfree, memcached)

/-- `get_free_memory`, `/repo/src/system/sysstat.cpp:152-186`. -/
def freeMemory (meminfo : Str) : Option Nat := do
  let (memfree, memcached) ← (lines meminfo).foldlM freeStep (0, 0)
  some ((memfree + memcached) % 2 ^ 64)

/-- `sysstat_ret`, `/repo/src/system/sysstat.h:41-45`. -/
structure Ret where
  load : Str
  total : Nat
  free : Nat
  deriving DecidableEq

/-- `get_sysstat`, `/repo/src/system/sysstat.cpp:77-83` and `:88-96`; it always returns 0. `none`: undefined. -/
def getSysstat (loadavg meminfo : Str) : Option Ret := do
  let total ← totalMemory meminfo
  let free ← freeMemory meminfo
  some ⟨(word loadavg).1, total, free⟩

end Verif.Sysstat
