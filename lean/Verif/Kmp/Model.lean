/-! Model of `/repo/src/data/string/kmp.h` (class `kmp`).

The `int` indices are natural numbers here: texts and queries of at most `INT_MAX` characters. `Option.none` stands for an
access outside `query` or `next` (undefined behaviour) or for a table link that does not decrease (an endless loop); the
theorems show it is reached only for the empty query and for negative offsets. -/

namespace Verif.Kmp

variable {α : Type} [DecidableEq α]

/-- `while (t>0 && c!=query[t]) t=next[t-1];`, `/repo/src/data/string/kmp.h:51` and `:61`.
The table entries not yet written by the constructor are absent here (they are 0 in the code, and are never read). -/
def failLoop (query : List α) (next : List Nat) (c : α) (t : Nat) : Option Nat :=
  if 0 < t then
    match query[t]? with
    | none => none
    | some q =>
      if c ≠ q then
        match next[t - 1]? with
        | none => none
        | some t' => if t' < t then failLoop query next c t' else none
      else some t
  else some t
termination_by t

/-- The loop of the constructor, `/repo/src/data/string/kmp.h:50-54`; `rest` are the characters `query[i], query[i+1], …`,
and `next` the entries `next[0..i)`. -/
def buildLoop (query : List α) : List α → List Nat → Nat → Option (List Nat)
  | [], next, _ => some next
  | c :: rest, next, t =>
    match failLoop query next c t with
    | none => none
    | some t =>
      match query[t]? with
      | none => none
      | some q =>
        if c = q then buildLoop query rest (next ++ [t + 1]) (t + 1)
        else buildLoop query rest (next ++ [0]) t

/-- The constructor, `/repo/src/data/string/kmp.h:46-55`: the table `next`. `next[0]=0` is out of bounds for an empty query. -/
def build : List α → Option (List Nat)
  | [] => none
  | c :: rest => buildLoop (c :: rest) rest [0] 0

/-- The loop of `find`, `/repo/src/data/string/kmp.h:60-64`; `rest` are the characters `text[i], text[i+1], …`.
`some none` is `npos`. -/
def findLoop (query : List α) (next : List Nat) : List α → Nat → Nat → Option (Option Nat)
  | [], _, _ => some none
  | c :: rest, i, t =>
    match failLoop query next c t with
    | none => none
    | some t =>
      match query[t]? with
      | none => none
      | some q =>
        let t := if c = q then t + 1 else t
        if t = query.length then some (some (i + 1 - query.length)) else findLoop query next rest (i + 1) t

/-- `kmp(query).find(text, offset)`, `/repo/src/data/string/kmp.h:57-66`. -/
def find (query text : List α) (offset : Int) : Option (Option Nat) :=
  match build query with
  | none => none
  | some next =>
    if offset < 0 ∧ text ≠ [] then none
    else findLoop query next (text.drop offset.toNat) offset.toNat 0

end Verif.Kmp
