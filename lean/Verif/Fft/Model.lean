import Mathlib.Algebra.Ring.Defs
/-!
# Model of `pfi::math::fft`

Source: `/repo/src/math/fft.h`.

The elements come from any type `R` with an addition, a subtraction and a
multiplication: commutative rings for exact arithmetic, in particular the
complex numbers, and pairs of floating point numbers (`Verif.Fft.Float`). The number
`Complex(cos(theta*k), sin(theta*k))`, where `theta` depends on the length `n`
and the direction, is `tw n k`. Sequences are lists; an access outside is the
outcome `ub`. The indices do not overflow (`irev` is an `int`: lengths up to
`2^32`).
-/
namespace Verif.Fft

/-- Outcomes: a value, a thrown `length_error`, undefined behaviour. -/
inductive Out (α : Type)
  | ok (a : α)
  | throws
  | ub
deriving Repr, DecidableEq

/-- Sequencing. -/
def Out.bind {α β : Type} : Out α → (α → Out β) → Out β
  | .ok a, f => f a
  | .throws, _ => .throws
  | .ub, _ => .ub

variable {R : Type} [Add R] [Sub R] [Mul R] [Zero R]

/-- `for (k = …; k>(i^=k); k>>=1);` (`/repo/src/math/fft.h:57`, `:65`):
the new value of `i`. -/
def bump (k i : Nat) : Nat :=
  if k > i ^^^ k then bump (k / 2) (i ^^^ k) else i ^^^ k
termination_by k

/-- `swap(a[j], a[i])` (`/repo/src/math/fft.h:58`). -/
def swap (a : List R) (j i : Nat) : Out (List R) :=
  match a[j]?, a[i]? with
  | some x, some y => .ok ((a.set j y).set i x)
  | _, _ => .ub

/-- The loop at `/repo/src/math/fft.h:56-59`, with `cnt` rounds to go. -/
def permLoop (n : Nat) : Nat → Nat → Nat → List R → Out (List R)
  | 0, _, _, a => .ok a
  | cnt + 1, i, j, a =>
    let i := bump (n / 2) i
    (if j < i then swap a j i else .ok a).bind fun a => permLoop n cnt i (j + 1) a

/-- The loop at `/repo/src/math/fft.h:66-73`, with `cnt` rounds to go. Lines
71 and 72 are the product `w*x` of complex numbers written out. -/
def inner (w : R) (mh : Nat) : Nat → Nat → List R → Out (List R)
  | 0, _, a => .ok a
  | cnt + 1, j, a =>
    let k := j + mh
    match a[j]?, a[k]? with
    | some aj, some ak =>
      let x := aj - ak
      inner w mh cnt (j + 1) ((a.set j (aj + ak)).set k (w * x))
    | _, _ => .ub

/-- The loop at `/repo/src/math/fft.h:63-74`. The step `m = 2*mh` is never 0. -/
def blocks (tw : Nat → Nat → R) (n mh : Nat) (i irev : Nat) (a : List R) : Out (List R) :=
  if h : i < n ∧ 0 < mh then
    let w := tw n irev
    (inner w mh mh i a).bind fun a => blocks tw n mh (i + 2 * mh) (bump (n / 4) irev) a
  else .ok a
termination_by n - i

/-- The loop at `/repo/src/math/fft.h:61-75`, from `mh` on; `mh` is never 0. -/
def stages (tw : Nat → Nat → R) (n mh : Nat) (a : List R) : Out (List R) :=
  if h : 2 * mh ≤ n ∧ 0 < mh then
    (blocks tw n mh 0 0 a).bind fun a => stages tw n (2 * mh) a
  else .ok a
termination_by n - mh

/-- `fft_inner` (`/repo/src/math/fft.h:46-76`). The first loop runs for
`j = 1, …, n - 2`. -/
def fftInner (tw : Nat → Nat → R) (a : List R) : Out (List R) :=
  let n := a.length
  (permLoop n (n - 2) 0 1 a).bind fun a => stages tw n 1 a

/-- `is_pow2` (`/repo/src/math/fft.h:78-82`). -/
def isPow2 (s : Nat) : Bool := if s = 0 then false else s &&& (s - 1) == 0

/-- `fft_wrap` (`/repo/src/math/fft.h:84-90`). This is `fft` and `ifft`
(`/repo/src/math/fft.h:167-177`) with their respective `tw`. -/
def fft (tw : Nat → Nat → R) (a : List R) : Out (List R) :=
  if !isPow2 a.length then .throws else fftInner tw a

/-- `for (y…) fft_wrap(a+y*w, a+y*w+w, flip);`
(`/repo/src/math/fft.h:125-126`, `:132-133`), with `h` rounds to go on the
rest `a` of the array. -/
def rows (tw : Nat → Nat → R) (w : Nat) : Nat → List R → Out (List R)
  | 0, a => .ok a
  | h + 1, a =>
    (fft tw (a.take w)).bind fun r => (rows tw w h (a.drop w)).bind fun rest => .ok (r ++ rest)

/-- `c[x*h+y]=a[y*w+x];` (`/repo/src/math/fft.h:101`). -/
def transposeStep (h w : Nat) (a : List R) (c : Out (List R)) (y x : Nat) : Out (List R) :=
  c.bind fun c =>
    match a[y * w + x]? with
    | some v => if x * h + y < c.length then .ok (c.set (x * h + y) v) else .ub
    | none => .ub

/-- `transpose` (`/repo/src/math/fft.h:92-102`) from `a` into `c`. -/
def transpose (a c : List R) (pitch : Nat) : Out (List R) :=
  if pitch = 0 then .ub
  else
    let h := a.length / pitch
    let w := pitch
    (List.range h).foldl (fun c y => (List.range w).foldl (fun c x => transposeStep h w a c y x) c) (.ok c)

/-- `fft2d_wrap` on a linear array (`/repo/src/math/fft.h:115-136`). This is
`fft2d` and `ifft2d` (`/repo/src/math/fft.h:179-189`). -/
def fft2d (tw : Nat → Nat → R) (a : List R) (pitch : Nat) : Out (List R) :=
  if pitch = 0 then .ub
  else
    let h := a.length / pitch
    let w := pitch
    if h * w ≠ a.length then .throws
    else
      (rows tw w h a).bind fun a =>
      (transpose a (List.replicate (w * h) 0) w).bind fun t =>
      (rows tw h w t).bind fun t =>
      transpose t a h

/-- `c[x][y]=a[y][x];` (`/repo/src/math/fft.h:112`). -/
def transposeMStep (a : List (List R)) (c : Out (List (List R))) (y x : Nat) : Out (List (List R)) :=
  c.bind fun c =>
    match (a[y]?).bind (·[x]?), c[x]? with
    | some v, some r => if y < r.length then .ok (c.set x (r.set y v)) else .ub
    | _, _ => .ub

/-- `transpose` of matrices (`/repo/src/math/fft.h:104-113`) from `a` into `c`. -/
def transposeM (a c : List (List R)) : Out (List (List R)) :=
  match a[0]? with
  | none => .ub
  | some r0 =>
    let h := a.length
    let w := r0.length
    (List.range h).foldl (fun c y => (List.range w).foldl (fun c x => transposeMStep a c y x) c) (.ok c)

/-- `for (y…) fft_wrap(a[y].begin(), a[y].end(), flip);`
(`/repo/src/math/fft.h:152-153`, `:159-160`). -/
def rowsM (tw : Nat → Nat → R) : List (List R) → Out (List (List R))
  | [] => .ok []
  | r :: rs => (fft tw r).bind fun r => (rowsM tw rs).bind fun rs => .ok (r :: rs)

/-- `fft2d_wrap` on a matrix (`/repo/src/math/fft.h:138-163`). This is `fft2d`
and `ifft2d` (`/repo/src/math/fft.h:191-201`). -/
def fft2dM (tw : Nat → Nat → R) (a : List (List R)) : Out (List (List R)) :=
  let h := a.length
  if !isPow2 h then .throws
  else
    match a[0]? with
    | none => .ub
    | some r0 =>
      let w := r0.length
      if !isPow2 h then .throws
      else if a.any (fun r => r.length != w) then .throws
      else
        (rowsM tw a).bind fun a =>
        (transposeM a (List.replicate w (List.replicate h 0))).bind fun t =>
        (rowsM tw t).bind fun t =>
        transposeM t a

end Verif.Fft
