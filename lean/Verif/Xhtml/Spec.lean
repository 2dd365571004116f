import Verif.Xhtml.Model
/-!
# Specification: reading XHTML

A strict reader of markup, one character at a time, which knows nothing of the
writer. It gives the tags and, one by one, the characters of the text.
-/
namespace Verif.Xhtml.Spec
open Verif.Xhtml

/-- What a reader of a document sees. -/
inductive Event
  | start (name : List UInt8) (attr : List (List UInt8 × List UInt8))
  | empty (name : List UInt8) (attr : List (List UInt8 × List UInt8))
  | stop (name : List UInt8)
  | char (c : UInt8)
deriving Repr, DecidableEq

/-- The character an entity stands for. -/
def entity (s : List UInt8) : Option UInt8 :=
  if s = [97, 109, 112] then some 38             -- amp
  else if s = [113, 117, 111, 116] then some 34  -- quot
  else if s = [35, 48, 51, 57] then some 39      -- #039
  else if s = [108, 116] then some 60            -- lt
  else if s = [103, 116] then some 62            -- gt
  else none

/-- Decodes text; refuses a raw `<`, `>`, quote or apostrophe and any `&` that does not begin an entity. -/
def decodeGo : Option (List UInt8) → List UInt8 → Option (List UInt8)
  | none, [] => some []
  | some _, [] => none
  | none, c :: s =>
    if c = 38 then decodeGo (some []) s
    else if c = 34 ∨ c = 39 ∨ c = 60 ∨ c = 62 then none
    else (decodeGo none s).map (c :: ·)
  | some acc, c :: s =>
    if c = 59 then
      match entity acc with
      | some x => (decodeGo none s).map (x :: ·)
      | none => none
    else decodeGo (some (acc ++ [c])) s

/-- The text a piece of encoded text stands for. -/
def decode (s : List UInt8) : Option (List UInt8) := decodeGo none s

abbrev Attrs := List (List UInt8 × List UInt8)

/-- Where the reader is. -/
inductive St
  | text
  | textEnt (acc : List UInt8)
  | lt
  | startName (n : List UInt8)
  | inTag (n : List UInt8) (as : Attrs)
  | slash (n : List UInt8) (as : Attrs)
  | key (n : List UInt8) (as : Attrs) (k : List UInt8)
  | eq (n : List UInt8) (as : Attrs) (k : List UInt8)
  | val (n : List UInt8) (as : Attrs) (k v : List UInt8)
  | valEnt (n : List UInt8) (as : Attrs) (k v acc : List UInt8)
  | valEnd (n : List UInt8) (as : Attrs)
  | stopName (n : List UInt8)
  | stopSpace (n : List UInt8)
deriving Repr, DecidableEq

/-- Space and newline. -/
def isSpace (c : UInt8) : Bool := c == 32 || c == 10

/-- A character of markup that is no part of a name. -/
def isMarkup (c : UInt8) : Bool := c == 34 || c == 38 || c == 39 || c == 60 || c == 61 || c == 62 || c == 47

/-- One character of a document. -/
def step : St → UInt8 → Option (St × List Event)
  | .text, c =>
    if c = 60 then some (.lt, [])
    else if c = 38 then some (.textEnt [], [])
    else if c = 62 ∨ c = 34 ∨ c = 39 then none
    else some (.text, [.char c])
  | .textEnt acc, c =>
    if c = 59 then (entity acc).map fun x => (.text, [.char x])
    else some (.textEnt (acc ++ [c]), [])
  | .lt, c =>
    if c = 47 then some (.stopName [], [])
    else if isSpace c ∨ isMarkup c then none
    else some (.startName [c], [])
  | .startName n, c =>
    if isSpace c then some (.inTag n [], [])
    else if c = 62 then some (.text, [.start n []])
    else if isMarkup c then none
    else some (.startName (n ++ [c]), [])
  | .inTag n as, c =>
    if isSpace c then some (.inTag n as, [])
    else if c = 62 then some (.text, [.start n as])
    else if c = 47 then some (.slash n as, [])
    else if isMarkup c then none
    else some (.key n as [c], [])
  | .slash n as, c => if c = 62 then some (.text, [.empty n as]) else none
  | .key n as k, c =>
    if isSpace c then some (.inTag n (as ++ [(k, [])]), [])
    else if c = 62 then some (.text, [.start n (as ++ [(k, [])])])
    else if c = 61 then some (.eq n as k, [])
    else if isMarkup c then none
    else some (.key n as (k ++ [c]), [])
  | .eq n as k, c => if c = 34 then some (.val n as k [], []) else none
  | .val n as k v, c =>
    if c = 34 then some (.valEnd n (as ++ [(k, v)]), [])
    else if c = 38 then some (.valEnt n as k v [], [])
    else if c = 60 ∨ c = 62 ∨ c = 39 then none
    else some (.val n as k (v ++ [c]), [])
  | .valEnt n as k v acc, c =>
    if c = 59 then (entity acc).map fun x => (.val n as k (v ++ [x]), [])
    else some (.valEnt n as k v (acc ++ [c]), [])
  | .valEnd n as, c =>
    if isSpace c then some (.inTag n as, [])
    else if c = 62 then some (.text, [.start n as])
    else none
  | .stopName n, c =>
    if c = 62 then some (.text, [.stop n])
    else if isSpace c then some (.stopSpace n, [])
    else if isMarkup c then none
    else some (.stopName (n ++ [c]), [])
  | .stopSpace n, c =>
    if c = 62 then some (.text, [.stop n])
    else if isSpace c then some (.stopSpace n, [])
    else none

/-- A document from the state `st` on; it has to end in text. -/
def run : St → List UInt8 → Option (List Event)
  | st, [] => if st = .text then some [] else none
  | st, c :: s =>
    match step st c with
    | none => none
    | some (st', ev) => (run st' s).map (ev ++ ·)

/-- The events of a document. -/
def read (s : List UInt8) : Option (List Event) := run .text s

mutual
/-- The events an element stands for. -/
def events : Elem → List Event
  | .tag name attr [] => [.empty name attr]
  | .tag name attr (e :: es) => .start name attr :: (events e ++ eventsAll es) ++ [.stop name]
  | .text s => s.map .char
  | .prim _ => []
def eventsAll : List Elem → List Event
  | [] => []
  | e :: es => events e ++ eventsAll es
end

/-- Whether every start tag has its stop tag, with the names of the open elements on a stack. -/
def nested : List (List UInt8) → List Event → Bool
  | stack, [] => stack.isEmpty
  | stack, .start n _ :: es => nested (n :: stack) es
  | stack, .empty _ _ :: es => nested stack es
  | stack, .char _ :: es => nested stack es
  | [], .stop _ :: _ => false
  | m :: stack, .stop n :: es => n == m && nested stack es

/-- A name: not empty, no space, newline or character of markup. -/
def Name (n : List UInt8) : Prop := n ≠ [] ∧ ∀ c ∈ n, isSpace c = false ∧ isMarkup c = false

mutual
/-- All names are names, and there is no raw text. -/
def Ok : Elem → Prop
  | .tag name attr children => Name name ∧ (∀ p ∈ attr, Name p.1) ∧ OkAll children
  | .text _ => True
  | .prim _ => False
def OkAll : List Elem → Prop
  | [] => True
  | e :: es => Ok e ∧ OkAll es
end

end Verif.Xhtml.Spec
