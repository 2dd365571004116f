import Verif.Sysstat.Model
/-! The format of `/proc/meminfo` and `/proc/loadavg`. -/
namespace Verif.Sysstat.Spec
open Verif Verif.Sysstat

/-- A line of `/proc/meminfo`: a name, a number and for most of them the unit. -/
structure Field where
  name : Str
  pad : Nat
  number : Nat
  kB : Bool

/-- The text of a line. -/
def Field.text (f : Field) : Str :=
  f.name ++ ascii ":" ++ List.replicate (f.pad + 1) 32 ++ Decimal.digits f.number ++ (if f.kB then ascii " kB" else []) ++ [10]

/-- The text of the file. -/
def fileText (fs : List Field) : Str := fs.flatMap Field.text

/-- The names that matter. -/
def known : List Str := [ascii "MemTotal", ascii "MemFree", ascii "Cached"]

/-- A file as Linux makes it: names are not empty and have no spaces, none is there twice, and no other begins with one of those that matter. -/
structure Legal (fs : List Field) : Prop where
  names : ∀ f ∈ fs, ∀ c ∈ f.name, isspace c = false
  once : (fs.map (·.name)).Nodup
  begins : ∀ f ∈ fs, ∀ n ∈ known, n <+: f.name → f.name = n

/-- What a file says about a name, in bytes, if a kB is taken for `unit` bytes; 0 if it says nothing. -/
def says (unit : Nat) (fs : List Field) (n : Str) : Nat :=
  match fs.find? (fun f => f.name = n) with
  | none => 0
  | some f => if f.kB then f.number * unit else f.number

/-- The number of a name, below `b`. -/
def Below (b : Nat) (fs : List Field) (n : Str) : Prop := ∀ f ∈ fs, f.name = n → f.number < b

end Verif.Sysstat.Spec
