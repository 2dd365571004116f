/-! Model of `/repo/src/data/string/utility.h`. Strings over any character type are lists; iterators are the remaining list. -/

namespace Verif.StrUtil

variable {α : Type} [DecidableEq α]

/-- `split(str, sep)` with a single character, `/repo/src/data/string/utility.h:45-56`: the `while` of line 50 is the span,
line 53 the end test, line 54 the step over the separator. -/
def splitChar (sep : α) (s : List α) : List (List α) :=
  match h : s.dropWhile (· ≠ sep) with
  | [] => [s.takeWhile (· ≠ sep)]
  | _ :: rest => s.takeWhile (· ≠ sep) :: splitChar sep rest
termination_by s.length
decreasing_by
  have := (List.dropWhile_sublist (· ≠ sep) (l := s)).length_le
  rw [h] at this
  simp only [List.length_cons] at this
  omega

/-- `std::search(bef, end, pat.begin(), pat.end())`: the text before the first occurrence, and the text from there on
(empty if there is none). -/
def search (pat : List α) : List α → List α × List α
  | [] => ([], [])
  | x :: xs => if pat.isPrefixOf (x :: xs) then ([], x :: xs) else let r := search pat xs; (x :: r.1, r.2)

theorem search_length (pat s : List α) : (search pat s).2.length ≤ s.length := by
  induction s with
  | nil => simp [search]
  | cons x xs ih =>
    rw [search]
    split
    · simp
    · simp only [List.length_cons]; omega

/-- The loop of `split(str, sep)` with a string, `/repo/src/data/string/utility.h:78-86`, for a non-empty separator
`c :: sep'`. -/
def splitLoop (c : α) (sep' s : List α) : List (List α) :=
  match h : (search (c :: sep') s).2 with
  | [] => [(search (c :: sep') s).1]
  | y :: ys => (search (c :: sep') s).1 :: splitLoop c sep' ((y :: ys).drop (c :: sep').length)
termination_by s.length
decreasing_by
  have := search_length (c :: sep') s
  rw [h] at this
  simp only [List.length_drop, List.length_cons] at *
  omega

/-- `split(str, sep)` with a string, `/repo/src/data/string/utility.h:73-87`. Nothing is produced for an empty separator (75). -/
def splitStr (sep s : List α) : List (List α) :=
  match sep with
  | [] => []
  | c :: sep' => splitLoop c sep' s

/-- The loop of `join`, `/repo/src/data/string/utility.h:180-184`. -/
def joinLoop (sep : List α) : Bool → List α → List (List α) → List α
  | _, ret, [] => ret
  | first, ret, p :: ps => joinLoop sep false ((if first then ret else ret ++ sep) ++ p) ps

/-- `join`, `/repo/src/data/string/utility.h:174-187`. -/
def join (ps : List (List α)) (sep : List α) : List α := joinLoop sep true [] ps

/-- The loop of `replace`, `/repo/src/data/string/utility.h:231-241`, for a non-empty `from`. -/
def replaceLoop (c : α) (from' dst s : List α) : List α :=
  match h : (search (c :: from') s).2 with
  | [] => (search (c :: from') s).1
  | y :: ys => (search (c :: from') s).1 ++ (dst ++ replaceLoop c from' dst ((y :: ys).drop (c :: from').length))
termination_by s.length
decreasing_by
  have := search_length (c :: from') s
  rw [h] at this
  simp only [List.length_drop, List.length_cons] at *
  omega

/-- `replace`, `/repo/src/data/string/utility.h:223-244`. -/
def replace (s frm dst : List α) : List α :=
  match frm with
  | [] => s
  | c :: from' => replaceLoop c from' dst s

/-- `starts_with`, `/repo/src/data/string/utility.h:209-214`. -/
def startsWith (s p : List α) : Bool :=
  if s.length < p.length then false else (p.zip s).all (fun x => x.1 = x.2)

/-- `ends_with`, `/repo/src/data/string/utility.h:216-221`. -/
def endsWith (s p : List α) : Bool :=
  if s.length < p.length then false else (p.reverse.zip s.reverse).all (fun x => x.1 = x.2)

/-- `isspace` in the "C" locale on glibc, whose table covers -128..255; outside of that the call is undefined (`none`). -/
def isspace (c : Int) : Option Bool :=
  if -128 ≤ c ∧ c ≤ 255 then some (c = 32 ∨ (9 ≤ c ∧ c ≤ 13)) else none

/-- `while (beg != end && isspace(*beg)) ++beg;`, `/repo/src/data/string/utility.h:109` and `:136`. Characters are integers:
`char` values are -128..127, `uchar` values are code points. -/
def skipSpaces : List Int → Option (List Int)
  | [] => some []
  | x :: xs => match isspace x with
    | none => none
    | some true => skipSpaces xs
    | some false => some (x :: xs)

/-- `lstrip`, `/repo/src/data/string/utility.h:131-139`. -/
def lstrip (s : List Int) : Option (List Int) := skipSpaces s

/-- `rstrip`, `/repo/src/data/string/utility.h:150-164`; the backward loop 155-161 is the forward loop on the reversal. -/
def rstrip (s : List Int) : Option (List Int) := (skipSpaces s.reverse).map List.reverse

/-- `strip`, `/repo/src/data/string/utility.h:104-120`. -/
def strip (s : List Int) : Option (List Int) := (skipSpaces s).bind rstrip

end Verif.StrUtil
