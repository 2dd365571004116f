import Verif.AssocMap
import Verif.UriCode.Model
import Verif.Http.Model
/-! Model of CGI requests, `/repo/src/network/cgi/base.cpp`: how the form values reach `run`.

Characters are bytes, the locale is "C", `char` is signed. An `istringstream` is what is left to read of it: once a read fails there is nothing
left. Maps are association lists whose order has no meaning. Numbers of characters are below 2^63. -/

namespace Verif.Cgi
open Verif Verif.AssocMap

/-- Byte strings. -/
abbrev Str := List UInt8

/-- The members that hold the form values, `/repo/src/network/cgi/base.h:79-82`. -/
structure St where
  query : List (Str × Str) := []
  multi : List (Str × List Str) := []
  file : List (Str × Str) := []
  info : List (Str × Http.Header) := []
  deriving DecidableEq

/-- `query[k]=v; multi_query[k].push_back(v);`, `/repo/src/network/cgi/base.cpp:150-151`, `155-156`, `266-267` and `273-274`. -/
def St.add (st : St) (k v : Str) : St :=
  { st with query := upsert st.query k v, multi := upsert st.multi k ((find st.multi k).getD [] ++ [v]) }

/-- `file[f]=body; file_info[f]=hd;`, `/repo/src/network/cgi/base.cpp:268-269` and `277-278`. -/
def St.addFile (st : St) (f body : Str) (hd : Http.Header) : St :=
  { st with file := upsert st.file f body, info := upsert st.info f hd }

/-! ### Query strings -/

/-- `strchr` for a character other than 0 in a string that a 0 character ends; `s` may go on behind it. -/
def strchr (c : UInt8) (s : Str) : Option Nat := (s.takeWhile (· ≠ 0)).findIdx? (· = c)

/-- One turn of the loop, `/repo/src/network/cgi/base.cpp:143-159`; `s` is what `p` points to, up to the end of the string. -/
def parseStep (s : Str) (st : St) : St × Str :=
  let q := (strchr 38 s).getD s.length
  let st := match strchr 61 s with
    | some r =>
      if r < q then st.add (UriCode.decode (s.take r)) (UriCode.decode ((s.take q).drop (r + 1)))
      else st.add (UriCode.decode (s.take q)) []
    | none => st.add (UriCode.decode (s.take q)) []
  (st, s.drop (if q < s.length then q + 1 else q))

/-- `parse_input`, `/repo/src/network/cgi/base.cpp:138-161`. -/
def parseInput (s : Str) (st : St) : St :=
  match s with
  | [] => st
  | c :: s =>
    if c = 0 then st
    else parseInput (parseStep (c :: s) st).2 (parseStep (c :: s) st).1
  termination_by s.length
  decreasing_by
    simp only [parseStep, List.length_drop]
    split <;> simp only [List.length_cons] at * <;> omega

/-! ### Multipart bodies -/

/-- What can be thrown: `http_exception` and `out_of_range`; `fuel` is a matter of the model. -/
inductive Err where
  | invalidHeader
  | outOfRange
  | fuel
  deriving DecidableEq

/-- `trim`, `/repo/src/network/cgi/base.cpp:163-169`. -/
def trim (s : Str) : Str := ((s.dropWhile Http.isspace).reverse.dropWhile Http.isspace).reverse

/-- `string_tolower`, `/repo/src/network/cgi/base.cpp:171-177`. -/
def stringTolower (s : Str) : Str := s.map Http.tolower

/-- `s.find(c, i)`. -/
def findChar (c : UInt8) (s : Str) (i : Nat) : Option Nat := ((s.drop i).findIdx? (· = c)).map (· + i)

/-- `s.find(p)`. -/
def findStr (p : Str) : Str → Option Nat
  | [] => if p.isPrefixOf [] then some 0 else none
  | c :: s => if p.isPrefixOf (c :: s) then some 0 else (findStr p s).map (· + 1)

/-- `s.substr(i)`. -/
def substr (s : Str) (i : Nat) : Except Err Str := if i ≤ s.length then .ok (s.drop i) else .error .outOfRange

/-- `extract_attr`, `/repo/src/network/cgi/base.cpp:179-190`. -/
def extractAttr (s : Str) : Str × Str :=
  match findChar 61 s 0 with
  | none => (stringTolower (trim s), [])
  | some ix =>
    let key := stringTolower (trim (s.take ix))
    match findChar 34 s (ix + 1) with
    | none => (key, [])
    | some jx =>
      match findChar 34 s (jx + 1) with
      | none => (key, [])
      | some kx => (key, (s.drop (jx + 1)).take (kx - jx - 1))

/-- The loop of `extract_header`, `/repo/src/network/cgi/base.cpp:201-206`; `i` is `cur` behind line 202, and `s` is what follows there. The second
argument of `substr` is a number of characters, but it is given `next`. -/
def attrs (i : Nat) (s : Str) (m : List (Str × Str)) : List (Str × Str) :=
  match h : s.findIdx? (· = 59) with
  | none => insertNew m (extractAttr s).1 (extractAttr s).2
  | some j =>
    let next := i + j
    attrs (next + 1) (s.drop (j + 1)) (insertNew m (extractAttr (s.take next)).1 (extractAttr (s.take next)).2)
  termination_by s.length
  decreasing_by
    have := (List.findIdx?_eq_some_iff_getElem.mp h).1
    rw [List.length_drop]
    omega

/-- `extract_header`, `/repo/src/network/cgi/base.cpp:192-209`. -/
def extractHeader (s : Str) : Str × List (Str × Str) :=
  match s.findIdx? (· = 59) with
  | none => (s, [])
  | some cur => (s.take cur, attrs (cur + 1) (s.drop (cur + 1)) [])

/-- Lines 213-222 of `parse_multipart_input`, `/repo/src/network/cgi/base.cpp:213-222`: what is left behind the first delimiter, or nothing if
it is the last one already. -/
def enter (b s : Str) : Option Str :=
  match h : s with
  | [] => some []
  | _ :: _ =>
    let line := s.takeWhile (· ≠ 10)
    let rest := s.drop (line.length + 1)
    if line.take (b.length + 2) = [45, 45] ++ b then
      if line.take (b.length + 4) = [45, 45] ++ b ++ [45, 45] then none else some rest
    else enter b rest
  termination_by s.length
  decreasing_by
    simp only [List.length_drop, h, List.length_cons]
    omega

/-- The rest of a delimiter's line, `/repo/src/network/cgi/base.cpp:232-236`: `end`, and what follows the line. -/
def delimiterTail : Int → Bool → Str → Bool × Str
  | _, fin, [] => (fin, [])
  | cnt, fin, a :: s =>
    if a = 10 then (fin, s)
    else if a = 45 then
      if 0 ≤ cnt then delimiterTail (cnt + 1) (fin || cnt + 1 == 2) s else delimiterTail cnt fin s
    else delimiterTail (-1) fin s

/-- Line 237-238, `/repo/src/network/cgi/base.cpp:237-238`. -/
def chop (str : Str) : Str := if str.getLast? = some 13 then str.dropLast else str

/-- What `iss.read(&chk[0], n)` leaves in `chk`, `/repo/src/network/cgi/base.cpp:229-230`. -/
def readChk (n : Nat) (s : Str) : Str := s.take n ++ List.replicate (n - s.length) 32

/-- The loop that looks for the end of a part, `/repo/src/network/cgi/base.cpp:227-248`: `str`, `end`, and what is left. The arguments `a`, `b`
and `cnt` are those of the program. -/
def scanPart (bd : Str) (a b : UInt8) (cnt : Nat) (str : Str) (s : Str) : Str × Bool × Str :=
  match s with
  | [] => (str, false, [])
  | c :: s =>
    if a = 10 ∧ b = 45 ∧ c = 45 then
      if readChk bd.length s = bd then (chop str, delimiterTail 0 false (s.drop bd.length))
      else scanPart bd b c 0 (str ++ [a] ++ [45, 45] ++ readChk bd.length s) (s.drop bd.length)
    else scanPart bd b c (cnt + 1) (if 2 ≤ cnt then str ++ [a] else str) s
  termination_by s.length
  decreasing_by
    · simp only [List.length_drop, List.length_cons]; omega
    · simp only [List.length_cons]; omega

/-- `boundary=`. -/
def boundaryEq : Str := [98, 111, 117, 110, 100, 97, 114, 121, 61]
/-- `multipart/`. -/
def multipartSlash : Str := [109, 117, 108, 116, 105, 112, 97, 114, 116, 47]
/-- `Content-Type`. -/
def contentType : Str := [67, 111, 110, 116, 101, 110, 116, 45, 84, 121, 112, 101]
/-- `Content-Disposition`. -/
def contentDisposition : Str := [67, 111, 110, 116, 101, 110, 116, 45, 68, 105, 115, 112, 111, 115, 105, 116, 105, 111, 110]
/-- `form-data`. -/
def formData : Str := [102, 111, 114, 109, 45, 100, 97, 116, 97]
/-- `attachment`. -/
def attachment : Str := [97, 116, 116, 97, 99, 104, 109, 101, 110, 116]
/-- `name`. -/
def nameKey : Str := [110, 97, 109, 101]
/-- `filename`. -/
def filenameKey : Str := [102, 105, 108, 101, 110, 97, 109, 101]

/-- `ct.find("boundary=")` and `substr(ix+9)`, `/repo/src/network/cgi/base.cpp:97-102` and `255-256`: `npos+9` is 8. -/
def boundaryOf (ct : Str) : Except Err Str :=
  match findStr boundaryEq ct with
  | some ix => substr ct (ix + 9)
  | none => substr ct 8

/-- Lines 250-252, `/repo/src/network/cgi/base.cpp:250-252`: header and body of a part. If the header goes on to the end of the part, the last
`getline` fails. Without a character it sets `failbit`, and the body is empty. With some characters, but no newline, it sets only `eofbit`; then
`tellg` gives -1, and `substr` throws. -/
def splitPart (str : Str) : Except Err (Http.Header × Str) :=
  match Http.headerOfStream str with
  | (.error .invalid, _) => .error .invalidHeader
  | (.error .fuel, _) => .error .fuel
  | (.ok hd, rest) => if rest = [] ∧ str.getLast? ≠ some 10 then .error .outOfRange else .ok (hd, rest)

/-- The branches for a part that is not itself multipart, `/repo/src/network/cgi/base.cpp:260-279`; `hd` has an entry for `Content-Type` from
line 253. -/
def addPart (hd : Http.Header) (body : Str) (st : St) : St :=
  let (cd, hd) := Http.get contentDisposition hd
  let (val, m) := extractHeader cd
  if val = formData ∧ (find m nameKey).isSome ∧ (find m filenameKey).isSome then
    let f := (find m filenameKey).getD []
    (st.add ((find m nameKey).getD []) f).addFile f body hd
  else if val = formData ∧ (find m nameKey).isSome then st.add ((find m nameKey).getD []) body
  else if val = attachment then st.addFile ((find m filenameKey).getD []) body hd
  else st

/-- The loop of `parse_multipart_input`, `/repo/src/network/cgi/base.cpp:224-281`, with its recursive call. -/
def parts : Nat → Str → Str → St → Except Err St
  | 0, _, _, _ => .error .fuel
  | n + 1, b, s, st => do
    let (str, fin, rest) := scanPart b 0 0 0 [] s
    let (hd, body) ← splitPart str
    let (ct, hd) := Http.get contentType hd
    let st ← if (findStr multipartSlash ct).isSome then do
        let bd ← boundaryOf ct
        match enter bd body with
        | none => .ok st
        | some s => parts n bd s st
      else .ok (addPart hd body st)
    if fin then .ok st else parts n b rest st

/-- `parse_multipart_input`, `/repo/src/network/cgi/base.cpp:211-282`. Every turn of the loop takes a newline from the text, so their number is
fuel enough. -/
def parseMultipart (s b : Str) (st : St) : Except Err St :=
  match enter b s with
  | none => .ok st
  | some s => parts (s.count 10 + 1) b s st

/-! ### Requests -/

/-- The messages of the error page, `/repo/src/network/cgi/base.cpp:85`, `93` and `100`. -/
inductive Msg where
  | tooLong
  | tooShort
  | protocol
  deriving DecidableEq

/-- How `exec` answers: `run` is called with the form values, or the error page is sent. -/
inductive Answer where
  | run (st : St)
  | page (m : Msg)
  deriving DecidableEq

/-- `lexical_cast<size_t>`, and 0 if it throws, `/repo/src/network/cgi/base.cpp:80-81` and `/repo/src/lang/cast.h:76-86`: `>>` skips spaces, takes
a sign, and then digits as long as they come; there must be one, and the number must be below 2^64. -/
def contentLength (s : Str) : Nat :=
  let s := s.dropWhile Http.isspace
  let neg := s.head? = some 45
  let s := if s.head? = some 45 ∨ s.head? = some 43 then s.tail else s
  let ds := s.takeWhile fun c => 48 ≤ c && c ≤ 57
  let n := ds.foldl (fun n c => 10 * n + (c.toNat - 48)) 0
  if ds = [] ∨ 2 ^ 64 ≤ n then 0 else if neg then (2 ^ 64 - n) % 2 ^ 64 else n

/-- The variables of the request that `exec` looks at, `/repo/src/network/cgi/base.cpp:74-97`. -/
structure Env where
  method : Str := []
  queryString : Str := []
  contentLength : Str := []
  contentType : Str := []

/-- `exec` up to the call of `run`, `/repo/src/network/cgi/base.cpp:57-116`; `input` is what can be read from `in`, `max` is `max_content_length`.
The form values of an earlier request are dropped. The second part is what is left in `in`. -/
def exec (env : Env) (max : Nat) (input : Str) : Except Err Answer × Str :=
  if env.method = [71, 69, 84] then (.ok (.run (parseInput env.queryString {})), input)
  else if env.method = [80, 79, 83, 84] then
    let len := contentLength env.contentLength
    if max < len then (.ok (.page .tooLong), input)
    else if input.length < len then (.ok (.page .tooShort), [])
    else
      let dat := input.take len
      let r : Except Err Answer :=
        if (findStr multipartSlash env.contentType).isSome then do
          let b ← boundaryOf env.contentType
          let st ← parseMultipart dat b {}
          .ok (if (findStr boundaryEq env.contentType).isSome then .run st else .page .protocol)
        else .ok (.run (parseInput dat {}))
      (r, input.drop len)
  else (.ok (.run {}), input)

end Verif.Cgi
