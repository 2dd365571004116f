/-!
# Model of `pfi::system::time::clock_time`

Source: `/repo/src/system/time_util.h`.

`sec` is a `uint64_t`, which wraps around. `usec` is an `int32_t`; overflow of
it is undefined behaviour, the outcome `none`. The conversion to `double` is in
`Verif.Duration`, those to and from `calendar_time` are in `Verif.Calendar`.
-/
namespace Verif.Clock

/-- `clock_time` (`/repo/src/system/time_util.h:101-102`). -/
structure T where
  sec : UInt64
  usec : Int
deriving Repr, DecidableEq

/-- Values of `int32_t`. -/
def int32 (x : Int) : Prop := -2147483648 ≤ x ∧ x < 2147483648

instance (x : Int) : Decidable (int32 x) := inferInstanceAs (Decidable (_ ∧ _))

/-- An `int32_t` computation. -/
def chk (x : Int) : Option Int := if int32 x then some x else none

/-- `while(usec>=1000000){ sec+=1; usec-=1000000; }`
(`/repo/src/system/time_util.h:59-62`, again `:73-76`). -/
def carry (t : T) : T :=
  if 1000000 ≤ t.usec then carry ⟨t.sec + 1, t.usec - 1000000⟩ else t
termination_by t.usec.toNat
decreasing_by omega

/-- `while(usec<0){ sec-=1; usec+=1000000; }`
(`/repo/src/system/time_util.h:63-66`, again `:77-80`). -/
def borrow (t : T) : T :=
  if t.usec < 0 then borrow ⟨t.sec - 1, t.usec + 1000000⟩ else t
termination_by (-t.usec).toNat
decreasing_by omega

/-- `operator+=` and `operator+` (`/repo/src/system/time_util.h:56-68`, `:84-88`). -/
def add (a b : T) : Option T := do
  let u ← chk (a.usec + b.usec)
  return borrow (carry ⟨a.sec + b.sec, u⟩)

/-- `operator-=` and `operator-` (`/repo/src/system/time_util.h:70-82`, `:90-94`). -/
def sub (a b : T) : Option T := do
  let u ← chk (a.usec - b.usec)
  return borrow (carry ⟨a.sec - b.sec, u⟩)

/-- `operator<` (`/repo/src/system/time_util.h:96-99`). -/
def lt (a b : T) : Bool :=
  if a.sec ≠ b.sec then a.sec < b.sec else a.usec < b.usec

end Verif.Clock
