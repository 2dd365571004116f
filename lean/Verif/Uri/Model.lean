/-! Model of `uri`, `/repo/src/network/uri.cpp`.

A pointer into the text is the rest of the memory from there on; the memory is the string and its terminating 0 byte. Reading through
the pointer behind the terminator, or moving a pointer further, is undefined (`Err.ub`). A parsing function that returns `false` is
`Err.fail`; the callers never use the pointer it leaves behind, nor a member it set before, so neither is kept. A loop that would not
come to an end is `Err.loop`. The character classes are those of the "C" locale. -/

namespace Verif.Uri

/-- Byte strings. -/
abbrev Str := List UInt8

/-- What can go wrong in a parsing function. -/
inductive Err where
  | fail
  | ub
  | loop
deriving DecidableEq, Repr

/-- Parsing functions: from a pointer to a pointer. -/
abbrev P := Str → Except Err Str

/-- `isdigit`. -/
def isDigit (c : UInt8) : Bool := 48 ≤ c && c ≤ 57

/-- `isalpha`. -/
def isAlpha (c : UInt8) : Bool := (65 ≤ c && c ≤ 90) || (97 ≤ c && c ≤ 122)

/-- `isalnum`. -/
def isAlnum (c : UInt8) : Bool := isAlpha c || isDigit c

/-- `isxdigit`. -/
def isHex (c : UInt8) : Bool := isDigit c || (65 ≤ c && c ≤ 70) || (97 ≤ c && c ≤ 102)

/-- `is_unreserved`, `/repo/src/network/uri.cpp:829-841`. -/
def isUnreserved (c : UInt8) : Bool := isAlpha c || isDigit c || c == 45 || c == 46 || c == 95 || c == 126

/-- `is_sub_delims`, `/repo/src/network/uri.cpp:859-872`. -/
def isSubDelim (c : UInt8) : Bool :=
  c == 33 || c == 36 || c == 38 || c == 39 || c == 40 || c == 41 || c == 42 || c == 43 || c == 44 || c == 59 || c == 61

/-- `*p`. -/
def deref : Str → Except Err UInt8
  | [] => .error .ub
  | c :: _ => .ok c

/-- `p += n`. -/
def adv (n : Nat) (p : Str) : Except Err Str := if p.length < n then .error .ub else .ok (p.drop n)

/-- `string(org, p)`. -/
def upto (org p : Str) : Str := org.take (org.length - p.length)

/-- `if (!f(*p++)) return false;`. -/
def one (f : UInt8 → Bool) : P
  | [] => .error .ub
  | c :: p => if f c then .ok p else .error .fail

/-- `while (f(*p)) p++;`. -/
def skip (f : UInt8 → Bool) : P
  | [] => .error .ub
  | c :: p => if f c then skip f p else .ok (c :: p)

/-- A loop that runs a parsing function until it returns `false`. -/
def many (f : P) (p : Str) : Except Err Str :=
  match f p with
  | .ok q => if q.length < p.length then many f q else .error .loop
  | .error .fail => .ok p
  | .error e => .error e
termination_by p.length

/-- `f(p) || (p = org, g(p))`. -/
def orElse (f g : P) : P := fun p =>
  match f p with
  | .error .fail => g p
  | r => r

/-- `if (!f(p)) p = org;`. -/
def opt (f : P) : P := orElse f .ok

/-- One after the other. -/
def seq (f g : P) : P := fun p => (f p).bind g

/-- `parse_pct_encoded`, `/repo/src/network/uri.cpp:817-827`. -/
def pct : P := seq (one (· == 37)) (seq (one isHex) (one isHex))

/-- `parse_pchar`, `/repo/src/network/uri.cpp:753-775`. -/
def pchar (colon : Bool) : P :=
  orElse (one isUnreserved) (orElse pct (orElse (one isSubDelim) (orElse (one (fun c => colon && c == 58)) (one (· == 64)))))

/-- `parse_segment`, `/repo/src/network/uri.cpp:732-736`. -/
def segment : P := many (pchar true)

/-- `parse_segment_nz`, `/repo/src/network/uri.cpp:738-743`. -/
def segmentNz : P := seq (pchar true) segment

/-- `parse_segment_nz_nc`, `/repo/src/network/uri.cpp:745-751`. -/
def segmentNzNc : P := seq (pchar false) (many (pchar false))

/-- `parse_path_abempty`, `/repo/src/network/uri.cpp:663-676`. -/
def pathAbempty : P := many (seq (one (· == 47)) segment)

/-- `parse_path_absolute`, `/repo/src/network/uri.cpp:678-696`. -/
def pathAbsolute : P := seq (one (· == 47)) (opt (seq segmentNz pathAbempty))

/-- `parse_path_noscheme`, `/repo/src/network/uri.cpp:698-710`. -/
def pathNoscheme : P := seq segmentNzNc pathAbempty

/-- `parse_path_rootless`, `/repo/src/network/uri.cpp:712-724`. -/
def pathRootless : P := seq segmentNz pathAbempty

/-- `parse_query` and `parse_fragment`, `/repo/src/network/uri.cpp:777-815`. -/
def queryText : P := many (orElse (pchar true) (one (fun c => c == 47 || c == 63)))

/-- `parse_scheme`, `/repo/src/network/uri.cpp:281-295`. -/
def scheme : P := seq (one isAlpha) (skip (fun c => isAlnum c || c == 43 || c == 45 || c == 46))

/-- `parse_userinfo`, `/repo/src/network/uri.cpp:319-339`. (An escape moves the pointer twice, lines 329-330.) -/
def userinfo : P := many (orElse (one (fun c => isUnreserved c || isSubDelim c || c == 58)) (seq pct (adv 3)))

/-- `parse_h16`, `/repo/src/network/uri.cpp:566-573`. -/
def h16 : P := seq (one isHex) (seq (one isHex) (seq (one isHex) (one isHex)))

/-- `parse_dec_octet`, `/repo/src/network/uri.cpp:611-641`. -/
def decOctet : P :=
  orElse (seq (one (· == 50)) (seq (one (· == 53)) (one (fun c => 48 ≤ c && c ≤ 53))))
    (orElse (seq (one (· == 50)) (seq (one (fun c => 48 ≤ c && c ≤ 52)) (one isDigit)))
      (orElse (seq (one (· == 49)) (seq (one isDigit) (one isDigit)))
        (orElse (seq (one (fun c => 49 ≤ c && c ≤ 57)) (one isDigit)) (one isDigit))))

/-- `parse_ipv4address`, `/repo/src/network/uri.cpp:592-609`. -/
def ipv4 : P :=
  seq decOctet (seq (one (· == 46)) (seq decOctet (seq (one (· == 46)) (seq decOctet (seq (one (· == 46)) decOctet)))))

/-- `parse_ls32`, `/repo/src/network/uri.cpp:575-590`. -/
def ls32 : P := orElse ipv4 (seq h16 (seq (one (· == 58)) h16))

/-- `n` lines `if (!parse_h16(p) || *p++!=':') return false;`. -/
def h16Colon : Nat → P
  | 0 => .ok
  | n + 1 => seq h16 (seq (one (· == 58)) (h16Colon n))

/-- `if (*p++!=':' || *p++!=':') return false;`. -/
def colons : P := seq (one (· == 58)) (one (· == 58))

/-- The functions `parse_ipv6_1` to `parse_ipv6_9`, `/repo/src/network/uri.cpp:449-564`. -/
def ipv6Alts : List P :=
  [ seq (h16Colon 6) ls32,
    seq colons (seq (h16Colon 5) ls32),
    seq (opt h16) (seq colons (seq (h16Colon 4) ls32)),
    seq (opt (seq (h16Colon 1) h16)) (seq colons (seq (h16Colon 3) ls32)),
    seq (opt (seq (h16Colon 2) h16)) (seq colons (seq (h16Colon 2) ls32)),
    seq (opt (seq (h16Colon 3) h16)) (seq colons (seq (h16Colon 1) ls32)),
    seq (opt (seq (h16Colon 4) h16)) (seq colons ls32),
    seq (opt (seq (h16Colon 5) h16)) (seq colons h16),
    seq (opt (seq (h16Colon 6) h16)) colons ]

/-- `parse_ipv6address`, `/repo/src/network/uri.cpp:415-447`. -/
def ipv6 : P := ipv6Alts.foldr orElse (fun _ => .error .fail)

/-- `parse_ipvfuture`, `/repo/src/network/uri.cpp:388-413`. (The condition of the last loop, lines 407-410, is the wrong way round.) -/
def ipvFuture : P :=
  seq (one (· == 118)) (seq (one isHex) (seq (skip isHex) (seq (one (· == 46)) (fun p =>
    (deref p).bind fun c =>
      if !isUnreserved c && !isSubDelim c && c != 58 then .error .fail
      else skip (fun c => !isUnreserved c && !isSubDelim c && c != 58) p))))

/-- `parse_ip_literal`, `/repo/src/network/uri.cpp:367-386`. -/
def ipLiteral : P := seq (one (· == 91)) (seq (orElse ipv6 ipvFuture) (one (· == 93)))

/-- `parse_reg_name`, `/repo/src/network/uri.cpp:643-661`. -/
def regName : P := many (orElse (one (fun c => isUnreserved c || isSubDelim c)) pct)

/-- `parse_host`, `/repo/src/network/uri.cpp:341-353`. -/
def host : P := orElse ipLiteral (orElse ipv4 regName)

/-- `parse_port`, `/repo/src/network/uri.cpp:355-365`. -/
def port : P := skip isDigit

/-- The members of a `uri`, `/repo/src/network/uri.h:107-113`. -/
structure Parts where
  scheme : Str := []
  userinfo : Str := []
  host : Str := []
  port : Str := []
  path : Str := []
  query : Str := []
  fragment : Str := []
deriving DecidableEq, Repr

/-- `parse_userinfo(p) && *p=='@'` and what follows, `/repo/src/network/uri.cpp:299-305`: the member and the pointer. -/
def userinfoPart (p : Str) : Except Err (Str × Str) :=
  match seq userinfo (fun q => (deref q).bind fun c => if c == 64 then .ok q else .error .fail) p with
  | .ok q => .ok (upto p q, q.tail)
  | .error .fail => .ok ([], p)
  | .error e => .error e

/-- The test for a port, `/repo/src/network/uri.cpp:310-314`. -/
def portPart (p : Str) : Except Err (Str × Str) :=
  (deref p).bind fun c => if c == 58 then (port p.tail).bind fun q => .ok (upto p.tail q, q) else .ok ([], p)

/-- `parse_authority`, `/repo/src/network/uri.cpp:297-317`. -/
def authority (u : Parts) (p : Str) : Except Err (Parts × Str) :=
  (userinfoPart p).bind fun (ui, p) => (host p).bind fun q => (portPart q).bind fun (po, r) =>
    .ok ({ u with userinfo := ui, host := upto p q, port := po }, r)

/-- `p[0]=='/'&&p[1]=='/'`: the pointer behind both. -/
def slashes : P := seq (one (· == 47)) (one (· == 47))

/-- `parse_hier_part` and `parse_relative_part`, `/repo/src/network/uri.cpp:226-279`, which differ only in the path without slash. -/
def hierPart (other : P) (u : Parts) (p : Str) : Except Err (Parts × Str) :=
  match slashes p with
  | .ok q => (authority u q).bind fun (u, q) => (pathAbempty q).bind fun r => .ok ({ u with path := upto q r }, r)
  | .error .fail => (orElse pathAbsolute (orElse other .ok) p).bind fun r => .ok ({ u with path := upto p r }, r)
  | .error e => .error e

/-- The rest of `parse_uri` and of `parse_relative_ref`, `/repo/src/network/uri.cpp:185-200,208-223`. -/
def tailParts (u : Parts) (p : Str) : Except Err Parts :=
  (deref p).bind fun c =>
  (if c == 63 then (queryText p.tail).bind fun q => .ok (upto p.tail q, q) else .ok ([], p)).bind fun (qu, p) =>
  (deref p).bind fun c =>
  (if c == 35 then (queryText p.tail).bind fun q => .ok (upto p.tail q, q) else .ok ([], p)).bind fun (fr, p) =>
  (deref p).bind fun c => if c != 0 then .error .fail else .ok { u with query := qu, fragment := fr }

/-- `parse_uri`, `/repo/src/network/uri.cpp:174-201`. -/
def parseUri (p : Str) : Except Err Parts :=
  (scheme p).bind fun q => (one (· == 58) q).bind fun r =>
    (hierPart pathRootless { scheme := upto p q } r).bind fun (u, t) => tailParts u t

/-- `parse_relative_ref`, `/repo/src/network/uri.cpp:203-224`. -/
def parseRelative (p : Str) : Except Err Parts :=
  (hierPart pathNoscheme {} p).bind fun (u, t) => tailParts u t

/-- `parse`, `/repo/src/network/uri.cpp:147-161`: `Err.fail` is the result `false`. -/
def parse (s : Str) : Except Err Parts :=
  match parseUri (s ++ [0]) with
  | .error .fail => parseRelative (s ++ [0])
  | r => r

/-- The constructor, `/repo/src/network/uri.cpp:94-97,159-160`: a text that cannot be parsed leaves all members empty. -/
def uri (s : Str) : Except Err Parts :=
  match parse s with
  | .error .fail => .ok {}
  | r => r

/-- `authority()`, `/repo/src/network/uri.cpp:108-115`. -/
def authorityText (u : Parts) : Str :=
  (if u.userinfo ≠ [] then u.userinfo ++ [64] else []) ++ u.host ++ (if u.port ≠ [] then 58 :: u.port else [])

/-- `operator<<`, `/repo/src/network/uri.cpp:874-894`. -/
def print (u : Parts) : Str :=
  (if u.scheme ≠ [] then u.scheme ++ [58, 47, 47] else []) ++ authorityText u ++ (if u.path ≠ [] then u.path else [47]) ++
    (if u.query ≠ [] then 63 :: u.query else []) ++ (if u.fragment ≠ [] then 35 :: u.fragment else [])

end Verif.Uri
