/-! Model of `/repo/src/data/string/algorithm.h`.

The tables are filled row by row and each row only reads itself and the row above, so the model keeps one row at a time.
Table entries are `int` in the code and natural numbers here (sequences of fewer than 2^31 elements). -/

namespace Verif.StrAlg

variable {α : Type} [DecidableEq α]

/-- The inner loop of `edit_distance`, `/repo/src/data/string/algorithm.h:49-52`: `x = a[i-1]`; the list argument is
`b[j-1], b[j], …`; `prev` is `tbl[i-1][j-1], tbl[i-1][j], …`; `left = tbl[i][j-1]`. Returns `tbl[i][j], tbl[i][j+1], …`. -/
def edRow (x : α) : List α → List Nat → Nat → List Nat
  | y :: b, diag :: up :: prev, left =>
    let v := min (diag + (if x ≠ y then 1 else 0)) (min up left + 1)
    v :: edRow x b (up :: prev) v
  | _, _, _ => []

/-- The outer loop of `edit_distance`, `/repo/src/data/string/algorithm.h:48`; `i` is the loop variable, `row = tbl[i-1]`;
`tbl[i][0] = i` is line 46. -/
def edRows (b : List α) : List α → Nat → List Nat → List Nat
  | [], _, row => row
  | x :: a, i, row => edRows b a (i + 1) (i :: edRow x b row i)

/-- `edit_distance`, `/repo/src/data/string/algorithm.h:44-54`. The first row (line 47) is `0, 1, …, b.size()`; the result is
the last entry of the last row. -/
def editDistance (a b : List α) : Option Nat :=
  (edRows b a 1 (List.range (b.length + 1)))[b.length]?

/-- The inner loop of `longest_common_subsequence`, `/repo/src/data/string/algorithm.h:60-63`. -/
def lcsRow (x : α) : List α → List Nat → Nat → List Nat
  | y :: b, diag :: up :: prev, left =>
    let v := max (diag + (if x = y then 1 else 0)) (max up left)
    v :: lcsRow x b (up :: prev) v
  | _, _, _ => []

/-- The outer loop, `/repo/src/data/string/algorithm.h:59`; column 0 is 0 everywhere. -/
def lcsRows (b : List α) : List α → List Nat → List Nat
  | [], row => row
  | x :: a, row => lcsRows b a (0 :: lcsRow x b row 0)

/-- `longest_common_subsequence`, `/repo/src/data/string/algorithm.h:57-65`. -/
def lcs (a b : List α) : Option Nat := (lcsRows b a (List.replicate (b.length + 1) 0))[b.length]?

/-- `INT_MAX`. -/
def intMax : Int := 2147483647

/-- Conversion to `int` when storing into `vector<int>`, `/repo/src/data/string/algorithm.h:74` (wraps; implementation-defined
before C++20, two's complement on the platforms supported). -/
def toInt32 (x : Int) : Int := (x + 2147483648) % 4294967296 - 2147483648

/-- `std::lower_bound(tbl.begin(), tbl.end(), x) - tbl.begin()`: first position whose element is not less than `x`.
(Documented behaviour on a sorted table; the loop keeps the table sorted, see `Lemmas.lean`.) -/
def lowerBound (tbl : List Int) (x : Int) : Nat := (tbl.takeWhile (fun y => y < x)).length

/-- The loop of `longest_increasing_subsequence`, `/repo/src/data/string/algorithm.h:72-75`, returning the list `id`.
`none`: write outside the table. -/
def lisLoop : List Int → List Int → Option (List Nat)
  | [], _ => some []
  | x :: rest, tbl =>
    let p := lowerBound tbl x
    if p < tbl.length then (lisLoop rest (tbl.set p (toInt32 x))).map (p :: ·) else none

/-- `longest_increasing_subsequence`, `/repo/src/data/string/algorithm.h:68-77`, for a sequence of integers of any width up
to 64 bits; `*max_element(id)+1`. -/
def lis (a : List Int) : Option Nat :=
  if a.length = 0 then some 0
  else match lisLoop a (List.replicate a.length intMax) with
    | some ids => ids.max?.map (· + 1)
    | none => none

end Verif.StrAlg
