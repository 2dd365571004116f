import Verif.Cgi.Model
import Verif.UriCode.Spec
import Verif.Http.Spec
/-! What forms look like on their way to a CGI program, and what the program should see of them. -/

namespace Verif.Cgi.Spec
open Verif Verif.AssocMap Verif.Cgi

/-! ### What `run` sees -/

/-- The values of a key, in order. -/
def values (ps : List (Str × Str)) (k : Str) : List Str := (ps.filter (·.1 = k)).map (·.2)

/-- `query` has the last value of every key, `multi_query` has them all in order, and there are no other keys. -/
def Holds (st : St) (ps : List (Str × Str)) : Prop :=
  ∀ k, find st.query k = (values ps k).getLast? ∧ find st.multi k = if values ps k = [] then none else some (values ps k)

/-! ### Query strings -/

/-- An item of a query string: `key=value`, or a key alone. -/
inductive Item where
  | pair (key value : Str)
  | bare (key : Str)

/-- The text of an item. -/
def Item.text : Item → Str
  | .pair k v => k ++ [61] ++ v
  | .bare k => k

/-- The key and the value an item stands for. The characters `&` and 0 only occur escaped, and `=` does so in a key. -/
inductive Item.Means : Item → Str × Str → Prop where
  | pair {kt vt k v : Str} : (∀ c ∈ kt, c ≠ 0 ∧ c ≠ 38 ∧ c ≠ 61) → (∀ c ∈ vt, c ≠ 0 ∧ c ≠ 38) →
      UriCode.Spec.Encodes kt k → UriCode.Spec.Encodes vt v → Means (.pair kt vt) (k, v)
  | bare {kt k : Str} : (∀ c ∈ kt, c ≠ 0 ∧ c ≠ 38 ∧ c ≠ 61) → kt ≠ [] → UriCode.Spec.Encodes kt k → Means (.bare kt) (k, [])

/-- A query string: items with `&` between them. -/
def formText : List Item → Str
  | [] => []
  | [i] => i.text
  | i :: is => i.text ++ [38] ++ formText is

/-- The items as browsers send them. -/
def encoded (p : Str × Str) : Item := .pair (UriCode.encode p.1) (UriCode.encode p.2)

/-! ### Multipart bodies -/

/-- A part: its header fields and its content. -/
structure Part where
  header : Http.Header
  content : Str

/-- A part's text. -/
def Part.text (p : Part) : Str := Http.Spec.text p.header ++ p.content

/-- A multipart body: lines that are no delimiters, the parts with a delimiter in front of each, the closing delimiter and what follows it. -/
def bodyText (b pre : Str) (ps : List Part) (post : Str) : Str :=
  pre ++ (ps.map fun p => [45, 45] ++ b ++ [13, 10] ++ p.text ++ [13, 10]).flatten ++ [45, 45] ++ b ++ [45, 45, 13, 10] ++ post

/-- A preamble: whole lines that do not begin with the delimiter. -/
def Preamble (b pre : Str) : Prop :=
  ∃ ls : List Str, pre = (ls.map (· ++ [10])).flatten ∧ ∀ l ∈ ls, 10 ∉ l ∧ ¬ [45, 45] ++ b <+: l

/-- A field of a part's header. -/
structure Field (e : Str × Str) : Prop where
  nonempty : e.1 ≠ []
  token : ∀ c ∈ e.1, ¬ Http.Spec.Space c ∧ c ≠ 58
  oneLine : 10 ∉ e.2
  start : ∀ c ∈ e.2.head?, ¬ Http.Spec.Space c

/-- A header as it is read: the carriage returns stay with the values. -/
def received (h : Http.Header) : Http.Header := h.map fun e => (e.1, if e.2 = [] then [] else e.2 ++ [13])

/-- The value of a header field, whatever the case of its name. -/
def fieldOf (h : Http.Header) (n : Str) : Option Str := (h.find? fun e => Http.Spec.fold e.1 = Http.Spec.fold n).map (·.2)

/-- A header that can be sent: at least one field, no name twice. -/
structure Sendable (h : Http.Header) : Prop where
  nonempty : h ≠ []
  field : ∀ e ∈ h, Field e
  distinct : (h.map fun e => Http.Spec.fold e.1).Nodup

/-- What a part stands for: a value of a form, a file that belongs to one, a file for itself, or something else that is ignored. -/
inductive Entry where
  | value (name value : Str)
  | upload (name filename content : Str)
  | attached (filename content : Str)
  | other (kind content : Str)

/-- A string that can be written between quotation marks. -/
def Quotable (s : Str) : Prop := 34 ∉ s ∧ 59 ∉ s ∧ 10 ∉ s

/-- `; key="value"`. -/
def attrText (k v : Str) : Str := [59, 32] ++ k ++ [61, 34] ++ v ++ [34]

/-- The value of `Content-Disposition`. -/
def Entry.disposition : Entry → Str
  | .value n _ => formData ++ attrText nameKey n
  | .upload n f _ => formData ++ attrText nameKey n ++ attrText filenameKey f
  | .attached f _ => attachment ++ attrText filenameKey f
  | .other d _ => d

/-- A part describes an entry. -/
structure Describes (p : Part) (e : Entry) : Prop where
  sendable : Sendable p.header
  disposition : fieldOf p.header contentDisposition = some e.disposition
  plain : ∀ v, fieldOf p.header contentType = some v → ¬ multipartSlash <:+: v
  content : p.content = match e with | .value _ v => v | .upload _ _ c => c | .attached _ c => c | .other _ c => c
  quotable : match e with | .value n _ => Quotable n | .upload n f _ => Quotable n ∧ Quotable f | .attached f _ => Quotable f | .other d _ => 59 ∉ d

/-- The form value an entry stands for, if it does; that of a file is its name. -/
def Entry.pair : Entry → Option (Str × Str)
  | .value n v => some (n, v)
  | .upload n f _ => some (n, f)
  | .attached _ _ => none
  | .other _ _ => none

/-- The files among the entries. -/
def files : List Entry → List (Str × Str)
  | [] => []
  | .value _ _ :: es => files es
  | .upload _ f c :: es => (f, c) :: files es
  | .attached f c :: es => (f, c) :: files es
  | .other _ _ :: es => files es

/-- A part's header as it is kept with a file: with an entry for the type. -/
def kept (h : Http.Header) : Http.Header := received h ++ if (fieldOf h contentType).isSome then [] else [(contentType, [])]

/-- The headers of the files among the entries. -/
def headers : List Part → List Entry → List (Str × Http.Header)
  | p :: ps, .upload _ f _ :: es => (f, kept p.header) :: headers ps es
  | p :: ps, .attached f _ :: es => (f, kept p.header) :: headers ps es
  | _ :: ps, .value _ _ :: es => headers ps es
  | _ :: ps, .other _ _ :: es => headers ps es
  | _, _ => []

/-- `file` has the last content of every file name, `file_info` the header that came with it, and there are no others. -/
def HoldsFiles (st : St) (ps : List Part) (es : List Entry) : Prop :=
  ∀ f, find st.file f = (values (files es) f).getLast?
    ∧ find st.info f = (((headers ps es).filter (·.1 = f)).map (·.2)).getLast?

/-- Wherever a line of the text begins with `--`, it goes on for at least as many characters as the boundary has, and not with the boundary. -/
def Undisturbed (b t : Str) : Prop := ∀ u v, t = u ++ [10, 45, 45] ++ v → b.length ≤ v.length ∧ ¬ b <+: v

/-- The delimiter does not occur in the text. -/
def NoDelimiter (b t : Str) : Prop := ¬ [10, 45, 45] ++ b <:+: t

end Verif.Cgi.Spec
