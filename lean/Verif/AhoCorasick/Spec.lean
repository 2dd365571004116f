import Verif.AhoCorasick.Model
/-!
# Specification for `aho_corasick` (C10)
-/
namespace Verif.AhoCorasick.Spec
open Verif.AhoCorasick

/-- What is to be reported for a piece of text that ends at `e`: the first index of the word, if it is one. Words that contain the character 0 are not
found by the program. -/
def report (words : List Str) (e : Nat) (w : Str) : List (Int × Nat) :=
  if w = [] ∨ 0 ∈ w then []
  else
    match words.idxOf? w with
    | some id => [(id, e)]
    | none => []

/-- All that is to be reported: for every end, the pieces of text that end there, from long to short. -/
def occurrences (words : List Str) (s : Str) : List (Int × Nat) :=
  (List.range s.length).flatMap fun i => (List.range (i + 1)).flatMap fun b => report words (i + 1) ((s.take (i + 1)).drop b)

end Verif.AhoCorasick.Spec
