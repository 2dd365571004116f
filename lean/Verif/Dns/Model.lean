import Verif.AssocMap
/-! Model of `cached_dns_resolver`, `/repo/src/network/dns.cpp:99-229`.

`resolve` consists of two critical sections under one recursive mutex with the call of the real resolver between them; each critical section
is one step here, and threads interleave between steps. Reading the clock and asking the resolver are inputs of the steps. The lock is
taken to succeed. The sizes are below 2^31, so that the cast of line 214 is exact. -/

namespace Verif.Dns
open Verif

/-- Host name and port. -/
abbrev Key := List UInt8 × UInt16

/-- IPv4 addresses, `/repo/src/network/ipv4.h`. -/
abbrev Addr := UInt8 × UInt8 × UInt8 × UInt8

/-- `cache` and `access_time`, `/repo/src/network/dns.cpp:113-116`. The second is in ascending order. -/
structure St where
  cache : List (Key × (List Addr × Int)) := []
  index : List (Int × Key) := []

/-- `<` on the elements of `access_time`. -/
def lt (x y : Int × Key) : Bool :=
  x.1 < y.1 || (x.1 == y.1 && (decide (x.2.1 < y.2.1) || (x.2.1 == y.2.1 && decide (x.2.2 < y.2.2))))

/-- `access_time.insert(x)`: behind the equal elements. -/
def insert (x : Int × Key) : List (Int × Key) → List (Int × Key)
  | [] => [x]
  | y :: l => if lt x y then x :: y :: l else y :: insert x l

/-- `access_time.erase(x)`: all equal elements. -/
def eraseAll (x : Int × Key) (l : List (Int × Key)) : List (Int × Key) := l.filter (· ≠ x)

/-- The first critical section of `resolve`, `/repo/src/network/dns.cpp:184-204`: the answer, if it returns there. -/
def lookup (expire cur : Int) (key : Key) (s : St) : Option (List Addr) × St :=
  match AssocMap.find s.cache key with
  | none => (none, s)
  | some (r, t) =>
    let s := { cache := AssocMap.upsert s.cache key (r, cur), index := insert (cur, key) (eraseAll (t, key) s.index) : St }
    if cur - cur < expire then (some r, s)
    else (none, { cache := AssocMap.erase s.cache key, index := eraseAll (cur, key) s.index })

/-- What can go wrong in the second critical section: the assertion of line 215 and `begin()` of an empty set. -/
inductive Err where
  | assertion
  | ub
deriving DecidableEq, Repr

/-- The loop at `/repo/src/network/dns.cpp:214-220`; `checked` is false when compiled with `NDEBUG`. -/
def evict (checked : Bool) (max : Int) (cache : List (Key × (List Addr × Int))) (index : List (Int × Key)) : Except Err St :=
  match index with
  | [] =>
    if (cache.length : Int) ≥ max then (if checked && cache.length != 0 then .error .assertion else .error .ub)
    else .ok { cache := cache, index := [] }
  | e :: rest =>
    if (cache.length : Int) ≥ max then
      (if checked && rest.length + 1 != cache.length then .error .assertion else evict checked max (AssocMap.erase cache e.2) rest)
    else .ok { cache := cache, index := e :: rest }

/-- The second critical section of `resolve`, `/repo/src/network/dns.cpp:210-226`. -/
def store (checked : Bool) (max cur : Int) (key : Key) (ret : List Addr) (s : St) : Except Err St :=
  (evict checked max s.cache s.index).bind fun s =>
    .ok { cache := AssocMap.upsert s.cache key (ret, cur), index := insert (cur, key) s.index }

/-- `clear_cache`, `/repo/src/network/dns.cpp:155-162`. -/
def clear (_ : St) : St := {}

/-- `delete_cache`, `/repo/src/network/dns.cpp:164-173`; `cache[key]` makes an entry with time 0 if there is none. -/
def delete (key : Key) (s : St) : St :=
  { cache := AssocMap.erase s.cache key,
    index := eraseAll (match AssocMap.find s.cache key with | some (_, t) => t | none => 0, key) s.index }

/-- The steps of all threads. -/
inductive Ev where
  | lookup (cur : Int) (key : Key)
  | store (cur : Int) (key : Key) (ret : List Addr)
  | delete (key : Key)
  | clear

/-- The members and the macro that do not change. -/
structure Cfg where
  checked : Bool
  max : Int
  expire : Int

/-- One step, with the answer if `resolve` returns one from the cache. -/
def step (c : Cfg) (s : St) : Ev → Except Err (Option (Key × List Addr) × St)
  | .lookup cur key => .ok (match lookup c.expire cur key s with | (some r, s) => (some (key, r), s) | (none, s) => (none, s))
  | .store cur key ret => (store c.checked c.max cur key ret s).map fun s => (none, s)
  | .delete key => .ok (none, delete key s)
  | .clear => .ok (none, clear s)

/-- Many steps; the answers given from the cache. -/
def run (c : Cfg) (s : St) : List Ev → Except Err (List (Key × List Addr) × St)
  | [] => .ok ([], s)
  | e :: es => (step c s e).bind fun (a, s) => (run c s es).map fun (as, s) => (a.toList ++ as, s)

/-- A whole call of `resolve` that no other call interrupts; `ret` is what the resolver answers if it is asked. -/
def resolve (c : Cfg) (cur : Int) (key : Key) (ret : List Addr) (s : St) : Except Err (List Addr × St) :=
  match lookup c.expire cur key s with
  | (some r, s) => .ok (r, s)
  | (none, s) => (store c.checked c.max cur key ret s).map fun s => (ret, s)

/-- Calls one after the other. -/
inductive Call where
  | resolve (cur : Int) (key : Key) (ret : List Addr)
  | delete (key : Key)
  | clear

/-- Calls one after the other. -/
def call (c : Cfg) (s : St) : Call → Except Err St
  | .resolve cur key ret => (resolve c cur key ret s).map (·.2)
  | .delete key => .ok (delete key s)
  | .clear => .ok (clear s)

/-- Calls one after the other. -/
def calls (c : Cfg) (s : St) : List Call → Except Err St
  | [] => .ok s
  | x :: xs => (call c s x).bind fun s => calls c s xs

end Verif.Dns
