import Batteries.Data.List.Basic
import Verif.Lexical.Spec
import Verif.Calendar.Spec
import Verif.Postgres.Model
/-! What PostgreSQL is told and what it answers, as its manual has it. -/

namespace Verif.Postgres.Spec
open Verif Verif.Sql Verif.Lexical.Spec

/-- Pieces of a text, with question marks between them. -/
def joined : List Str → Str
  | [] => []
  | [p] => p
  | p :: ps => p ++ 63 :: joined ps

/-- The pieces with `$i`, `$i+1` and so on between them. -/
inductive Numbered : Nat → List Str → Str → Prop
  | last (i : Nat) (p : Str) : Numbered i [p] p
  | next {i : Nat} {p n t : Str} {ps : List Str} : Digits n i → n.head? ≠ some 48 → Numbered (i + 1) ps t → Numbered i (p :: ps) (p ++ 36 :: n ++ t)

/-- A date and time of day as text, with six digits for the microseconds. -/
structure Stamp (k : Calendar.Cal) (s : Str) : Prop where
  parts : ∃ y m d h i c u : Str, s = y ++ [45] ++ m ++ [45] ++ d ++ [32] ++ h ++ [58] ++ i ++ [58] ++ c ++ [46] ++ u ∧
    y.length = 4 ∧ m.length = 2 ∧ d.length = 2 ∧ h.length = 2 ∧ i.length = 2 ∧ c.length = 2 ∧ u.length = 6 ∧
    ∃ y' m' d' h' i' c' u' : Nat, Digits y y' ∧ Digits m m' ∧ Digits d d' ∧ Digits h h' ∧ Digits i i' ∧ Digits c c' ∧ Digits u u' ∧
      k.year = y' ∧ k.mon = m' ∧ k.mday = d' ∧ k.hour = h' ∧ k.min = i' ∧ k.sec = c' ∧ k.usec = u'

/-- The finite `double` `d` is `± m * 2 ^ e`, by the standard for floating point numbers. -/
def Decodes (d : UInt64) (neg : Bool) (m : Nat) (e : Int) : Prop :=
  ∃ sign expo frac : Nat, d.toNat = sign * 2 ^ 63 + expo * 2 ^ 52 + frac ∧ sign < 2 ∧ expo < 2047 ∧ frac < 2 ^ 52 ∧ neg = decide (sign = 1) ∧
    (expo = 0 ∧ m = frac ∧ e = -1074 ∨ 0 < expo ∧ m = 2 ^ 52 + frac ∧ e = (expo : Int) - 1075)

/-- A number with ten digits behind the point, nearest to `± m * 2 ^ e`: `n` is ten to the tenth times the number, and differs by at most a half from ten
to the tenth times the other. `2 ^ f` makes integers of both. -/
def Nearest (neg : Bool) (m : Nat) (e : Int) (s : Str) : Prop :=
  ∃ (whole frac : Str) (a b : Nat), s = (if neg then [45] else []) ++ whole ++ [46] ++ frac ∧ Digits whole a ∧ Digits frac b ∧ frac.length = 10 ∧
    ∀ f g : Nat, (g : Int) - f = e →
      2 * ((a * 10 ^ 10 + b) * 2 ^ f) ≤ 2 * (m * 10 ^ 10 * 2 ^ g) + 2 ^ f ∧ 2 * (m * 10 ^ 10 * 2 ^ g) ≤ 2 * ((a * 10 ^ 10 + b) * 2 ^ f) + 2 ^ f

/-- The texts by which the server is told a value. A text has no 0 in it. -/
inductive Tells (z : Calendar.Zone) : Value → Str → Prop
  | yes : Tells z (.bool true) [116, 114, 117, 101]
  | no : Tells z (.bool false) [102, 97, 108, 115, 101]
  | string {s : Str} : 0 ∉ s → Tells z (.string s) s
  | unknown {s : Str} : 0 ∉ s → Tells z (.unknown s) s
  | int32 {n : Int} {s : Str} : Numeral s n → Tells z (.int32 n) s
  | int64 {n : Int} {s : Str} : Numeral s n → Tells z (.int64 n) s
  | float {d : UInt64} {neg : Bool} {m : Nat} {e : Int} {s : Str} : Decodes d neg m e → Nearest neg m e s → Tells z (.float d) s
  | timestamp {t : Clock.T} {k : Calendar.Cal} {s : Str} : Calendar.Spec.Shows z (Calendar.toTime t.sec) k → k.usec = t.usec → Stamp k s → Tells z (.timestamp t) s

/-- The values that there is a text for: no 0 in strings, numbers that are finite, times in years of four digits. -/
def Tellable (z : Calendar.Zone) : Value → Prop
  | .string s => 0 ∉ s
  | .unknown s => 0 ∉ s
  | .float d => ∃ neg m e, Decodes d neg m e
  | .timestamp t => ∃ k, Calendar.ofClock z t = some k ∧ 1000 ≤ k.year ∧ k.year ≤ 9999 ∧ 0 ≤ t.usec ∧ t.usec < 1000000
  | _ => True

/-- The texts by which the server tells a value, by the type of the column: `boolean`, `smallint`, `integer`, `bigint`, `text` and `varchar`. -/
inductive Shown : Nat → Value → Str → Prop
  | yes : Shown 16 (.bool true) [116]
  | no : Shown 16 (.bool false) [102]
  | small {n : Int} {s : Str} : -32768 ≤ n → n ≤ 32767 → Numeral s n → Shown 21 (.int32 n) s
  | int {n : Int} {s : Str} : -2147483648 ≤ n → n ≤ 2147483647 → Numeral s n → Shown 23 (.int32 n) s
  | big {n : Int} {s : Str} : -9223372036854775808 ≤ n → n ≤ 9223372036854775807 → Numeral s n → Shown 20 (.int64 n) s
  | text {s : Str} : Shown 25 (.string s) s
  | varchar {s : Str} : Shown 1043 (.string s) s

/-- A row: `none` is NULL on both sides. -/
inductive ShownRow : List Nat → List Ptr → List (Option Str) → Prop
  | nil : ShownRow [] [] []
  | null {t : Nat} {ts : List Nat} {vs : List Ptr} {cs : List (Option Str)} : ShownRow ts vs cs → ShownRow (t :: ts) (none :: vs) (none :: cs)
  | value {t : Nat} {ts : List Nat} {v : Value} {s : Str} {vs : List Ptr} {cs : List (Option Str)} :
      Shown t v s → ShownRow ts vs cs → ShownRow (t :: ts) (some v :: vs) (some s :: cs)

end Verif.Postgres.Spec
