import Verif.Uri.Model
/-! RFC 3986, appendix A, independent of the parsing functions: how a reference is put together and which components are legal. -/

namespace Verif.Uri.Spec
open Verif.Uri (Str Parts)

/-- The code of an ASCII character. -/
def ch (c : Char) : UInt8 := UInt8.ofNat c.toNat

/-- Membership in a set of characters. -/
def In (set : String) (c : UInt8) : Prop := c.toNat ∈ set.toList.map Char.toNat

def Alpha (c : UInt8) : Prop := In "ABCDEFGHIJKLMNOPQRSTUVWXYZabcdefghijklmnopqrstuvwxyz" c
def Digit (c : UInt8) : Prop := In "0123456789" c
def Hex (c : UInt8) : Prop := In "0123456789ABCDEFabcdef" c
def Unreserved (c : UInt8) : Prop := Alpha c ∨ Digit c ∨ In "-._~" c
def SubDelim (c : UInt8) : Prop := In "!$&'()*+,;=" c
def Pchar (c : UInt8) : Prop := Unreserved c ∨ SubDelim c ∨ In ":@" c

/-- Characters of a set and percent-encoded bytes. -/
inductive Coded (p : UInt8 → Prop) : Str → Prop
  | nil : Coded p []
  | char (c : UInt8) (h : p c) {t : Str} : Coded p t → Coded p (c :: t)
  | pct (a b : UInt8) (ha : Hex a) (hb : Hex b) {t : Str} : Coded p t → Coded p (37 :: a :: b :: t)

/-- A reference cut into its components; those that the grammar makes optional may be missing, which is not the same as empty. -/
structure Split where
  scheme : Option Str := none
  authority : Option (Option Str × Str × Option Str) := none
  path : Str := []
  query : Option Str := none
  fragment : Option Str := none

/-- `[ userinfo "@" ] host [ ":" port ]`. -/
def authorityText : Option Str × Str × Option Str → Str
  | (ui, h, po) => (match ui with | none => [] | some x => x ++ [ch '@']) ++ h ++ (match po with | none => [] | some x => ch ':' :: x)

/-- `[ scheme ":" ] [ "//" authority ] path [ "?" query ] [ "#" fragment ]`. -/
def compose (u : Split) : Str :=
  (match u.scheme with | none => [] | some x => x ++ [ch ':']) ++
  (match u.authority with | none => [] | some x => ch '/' :: ch '/' :: authorityText x) ++
  u.path ++
  (match u.query with | none => [] | some x => ch '?' :: x) ++
  (match u.fragment with | none => [] | some x => ch '#' :: x)

/-- What the getters return: the empty string for a missing component. -/
def parts (u : Split) : Parts where
  scheme := u.scheme.getD []
  userinfo := (u.authority.bind (·.1)).getD []
  host := (u.authority.map (·.2.1)).getD []
  port := (u.authority.bind (·.2.2)).getD []
  path := u.path
  query := u.query.getD []
  fragment := u.fragment.getD []

/-- The same reference without the components that are present but empty, which the getters cannot tell from missing ones. -/
def dropEmpty (u : Split) : Split :=
  { u with authority := u.authority.map fun (ui, h, po) => (ui.filter (fun s => !s.isEmpty), h, po.filter (fun s => !s.isEmpty)),
           query := u.query.filter (fun s => !s.isEmpty), fragment := u.fragment.filter (fun s => !s.isEmpty) }

/-- `scheme = ALPHA *( ALPHA / DIGIT / "+" / "-" / "." )`. -/
def Scheme (s : Str) : Prop := ∃ c t, s = c :: t ∧ Alpha c ∧ ∀ d ∈ t, Alpha d ∨ Digit d ∨ In "+-." d

def Userinfo (s : Str) : Prop := Coded (fun c => Unreserved c ∨ SubDelim c ∨ In ":" c) s
def RegName (s : Str) : Prop := Coded (fun c => Unreserved c ∨ SubDelim c) s
def Port (s : Str) : Prop := ∀ c ∈ s, Digit c

/-- A number from 0 to 255 without leading zeros. -/
def Octet (s : Str) : Prop := ∃ n, n < 256 ∧ s = (toString n).toList.map ch

/-- `IPv4address`. -/
def Ipv4 (s : Str) : Prop := ∃ a b c d, Octet a ∧ Octet b ∧ Octet c ∧ Octet d ∧ s = a ++ ch '.' :: (b ++ ch '.' :: (c ++ ch '.' :: d))

/-- `h16 = 1*4HEXDIG`. -/
def H16 (s : Str) : Prop := 1 ≤ s.length ∧ s.length ≤ 4 ∧ ∀ c ∈ s, Hex c

/-- `n` groups separated by colons. -/
inductive Groups : Nat → Str → Prop
  | zero : Groups 0 []
  | one {s : Str} (h : H16 s) : Groups 1 s
  | more {n : Nat} {s t : Str} (h : H16 s) : Groups (n + 1) t → Groups (n + 2) (s ++ ch ':' :: t)

/-- The same, where an IPv4 address may stand for the last two groups. -/
inductive Tail : Nat → Str → Prop
  | groups {n : Nat} {s : Str} (h : Groups n s) : Tail n s
  | ipv4 {s : Str} (h : Ipv4 s) : Tail 2 s
  | more {n : Nat} {s t : Str} (h : H16 s) : Tail (n + 1) t → Tail (n + 2) (s ++ ch ':' :: t)

/-- `IPv6address`: eight groups, or fewer with one `::` for at least one group of zeros. -/
def Ipv6 (s : Str) : Prop := Tail 8 s ∨ ∃ m n a b, Groups m a ∧ Tail n b ∧ m + n ≤ 7 ∧ s = a ++ ch ':' :: ch ':' :: b

/-- `IPvFuture = "v" 1*HEXDIG "." 1*( unreserved / sub-delims / ":" )`. -/
def IpvFuture (s : Str) : Prop :=
  ∃ a b, s = ch 'v' :: (a ++ ch '.' :: b) ∧ a ≠ [] ∧ (∀ c ∈ a, Hex c) ∧ b ≠ [] ∧ ∀ c ∈ b, Unreserved c ∨ SubDelim c ∨ In ":" c

/-- `IP-literal`. -/
def IpLiteral (s : Str) : Prop := ∃ t, s = ch '[' :: (t ++ [ch ']']) ∧ (Ipv6 t ∨ IpvFuture t)

/-- `host = IP-literal / IPv4address / reg-name`. -/
def Host (s : Str) : Prop := IpLiteral s ∨ Ipv4 s ∨ RegName s

/-- `path-abempty = *( "/" segment )`. -/
def PathAbempty (s : Str) : Prop := (∀ c, s.head? = some c → c = ch '/') ∧ Coded (fun c => Pchar c ∨ In "/" c) s

/-- `path-absolute = "/" [ segment-nz *( "/" segment ) ]`. -/
def PathAbsolute (s : Str) : Prop := ∃ t, s = ch '/' :: t ∧ (∀ c, t.head? = some c → c ≠ ch '/') ∧ Coded (fun c => Pchar c ∨ In "/" c) t

/-- `path-rootless = segment-nz *( "/" segment )`. -/
def PathRootless (s : Str) : Prop := s ≠ [] ∧ (∀ c, s.head? = some c → c ≠ ch '/') ∧ Coded (fun c => Pchar c ∨ In "/" c) s

/-- `path-noscheme`: the same with no colon in the first segment. -/
def PathNoscheme (s : Str) : Prop := PathRootless s ∧ ∀ a b, s = a ++ ch ':' :: b → ch '/' ∈ a

def Query (s : Str) : Prop := Coded (fun c => Pchar c ∨ In "/?" c) s

/-- `URI-reference = URI / relative-ref`, with a given condition on the user information. -/
def ValidWith (info : Str → Prop) (u : Split) : Prop :=
  (∀ s, u.scheme = some s → Scheme s) ∧
  (match u.authority with
    | some (ui, h, po) => (∀ s, ui = some s → info s) ∧ Host h ∧ (∀ s, po = some s → Port s) ∧ PathAbempty u.path
    | none => PathAbsolute u.path ∨ (if u.scheme.isSome then PathRootless u.path else PathNoscheme u.path) ∨ u.path = []) ∧
  (∀ s, u.query = some s → Query s) ∧ (∀ s, u.fragment = some s → Query s)

/-- `URI-reference`. -/
def Valid (u : Split) : Prop := ValidWith Userinfo u

/-- No percent sign in the authority: in what follows `//` up to the next `/`, `?` or `#`, if none of these precedes. -/
def PlainAuthority (s : Str) : Prop :=
  ∀ pre a rest, s = pre ++ ch '/' :: ch '/' :: (a ++ rest) → (∀ c ∈ pre, ¬ In "/?#" c) → (∀ c ∈ a, ¬ In "/?#" c) → ch '%' ∉ a

/-- A group of exactly four digits. -/
def H16Full (s : Str) : Prop := s.length = 4 ∧ ∀ c ∈ s, Hex c

/-- `n` groups of four digits separated by colons. -/
inductive FullGroups : Nat → Str → Prop
  | zero : FullGroups 0 []
  | one {s : Str} (h : H16Full s) : FullGroups 1 s
  | more {n : Nat} {s t : Str} (h : H16Full s) : FullGroups (n + 1) t → FullGroups (n + 2) (s ++ ch ':' :: t)

/-- The same with an IPv4 address at the end. -/
inductive FullTail : Nat → Str → Prop
  | groups {n : Nat} {s : Str} (h : FullGroups n s) : FullTail n s
  | ipv4 {s : Str} (h : Ipv4 s) : FullTail 2 s
  | more {n : Nat} {s t : Str} (h : H16Full s) : FullTail (n + 1) t → FullTail (n + 2) (s ++ ch ':' :: t)

/-- The IPv6 addresses that the code knows: groups of four digits, and `::` at the beginning or for exactly one group. -/
def KnownIpv6 (s : Str) : Prop :=
  FullTail 8 s ∨ ∃ m n a b, FullGroups m a ∧ FullTail n b ∧ m + n ≤ 7 ∧ (m = 0 ∨ m + n = 7) ∧ s = a ++ ch ':' :: ch ':' :: b

/-- The hosts that the code knows: these IPv6 addresses, IPv4 addresses and names of which no beginning is an IPv4 address. -/
def KnownHost (s : Str) : Prop :=
  (∃ t, s = ch '[' :: (t ++ [ch ']']) ∧ KnownIpv6 t) ∨ Ipv4 s ∨ (RegName s ∧ ∀ a b, s = a ++ b → ¬ Ipv4 a)

end Verif.Uri.Spec
