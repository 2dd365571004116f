import Verif.Config.Model
/-!
# Specification for configuration files (C18)

The line grammar is a relation written from the documented format; it does
not mention the parser.
-/
namespace Verif.Config.Spec
open Verif.Config (Str Item isSpace)

/-- Tab, line feed, vertical tab, form feed, carriage return and space. -/
def Blank (b : UInt8) : Prop := b ∈ [9, 10, 11, 12, 13, 32]

instance (b : UInt8) : Decidable (Blank b) := by unfold Blank; infer_instance

/-- White space only. -/
def Space (s : Str) : Prop := ∀ b ∈ s, Blank b

/-- No white space at either end. -/
def Trimmed (s : Str) : Prop :=
  (∀ b, s.head? = some b → ¬ Blank b) ∧ (∀ b, s.getLast? = some b → ¬ Blank b)

/-- A value as written (`raw`) and the value it denotes: one pair of
surrounding quotes is removed. -/
inductive Denotes : Str → Str → Prop
  | quoted (v : Str) : Denotes ([34] ++ v ++ [34]) v
  | plain (v : Str) : (¬ ∃ w, v = [34] ++ w ++ [34]) → Denotes v v

/-- The format of one line. -/
inductive LineIs : Str → Item → Prop
  | blank (ws : Str) : Space ws → LineIs ws .nothing
  | comment (ws rest : Str) : Space ws → LineIs (ws ++ [59] ++ rest) .nothing
  | section (ws name ws' : Str) : Space ws → Space ws' → 93 ∉ name →
      LineIs (ws ++ [91] ++ name ++ [93] ++ ws') (.sectionHead name)
  | assign (ws k ws1 ws2 raw ws3 v : Str) : Space ws → Space ws1 → Space ws2 → Space ws3 →
      Trimmed k → 61 ∉ k → k.head? ≠ some 59 → k.head? ≠ some 91 → Trimmed raw → Denotes raw v →
      LineIs (ws ++ k ++ ws1 ++ [61] ++ ws2 ++ raw ++ ws3) (.assign k v)

/-- What a C string sees of a line: everything before a NUL byte. -/
def visible (l : Str) : Str := l.takeWhile (· ≠ 0)

/-- A line that fits the format. -/
def WellFormed (l : Str) : Prop := ∃ it, LineIs (visible l) it

/-- Lines of a file: every newline ends a line, a last line may lack it. -/
inductive IsLines : Str → List Str → Prop
  | nil : IsLines [] []
  | last (l : Str) : l ≠ [] → 10 ∉ l → IsLines l [l]
  | cons (l rest : Str) (ls : List Str) : 10 ∉ l → IsLines rest ls → IsLines (l ++ [10] ++ rest) (l :: ls)

/-- The section in force after some items. -/
def sectionAfter (cur : Str) : List Item → Str
  | [] => cur
  | .sectionHead s :: is => sectionAfter s is
  | _ :: is => sectionAfter cur is

/-- All assignments in order, each with the section in force. -/
def assignments (cur : Str) : List Item → List (Str × Str × Str)
  | [] => []
  | .nothing :: is => assignments cur is
  | .sectionHead s :: is => assignments s is
  | .assign k v :: is => (cur, k, v) :: assignments cur is

/-- The last value assigned to a key of a section. -/
def lastValue (sec key : Str) (as : List (Str × Str × Str)) : Option Str :=
  ((as.reverse.find? fun a => a.1 = sec ∧ a.2.1 = key)).map (·.2.2)

/-- A written configuration: sections with their assignments. -/
abbrev Doc := List (Str × List (Str × Str))

/-- The text of a document: values in quotes. -/
def renderAssign (kv : Str × Str) : Str := kv.1 ++ [61, 34] ++ kv.2 ++ [34, 10]

/-- Text of a section. -/
def renderSection (s : Str × List (Str × Str)) : Str :=
  [91] ++ s.1 ++ [93, 10] ++ s.2.flatMap renderAssign

/-- Text of a document. -/
def render (d : Doc) : Str := d.flatMap renderSection

/-- Names and values that the format can carry. -/
def DocOk (d : Doc) : Prop := ∀ s ∈ d, (93 ∉ s.1 ∧ 10 ∉ s.1 ∧ 0 ∉ s.1) ∧
  ∀ kv ∈ s.2, (Trimmed kv.1 ∧ 61 ∉ kv.1 ∧ 10 ∉ kv.1 ∧ 0 ∉ kv.1 ∧ kv.1.head? ≠ some 59 ∧
    kv.1.head? ≠ some 91) ∧ 10 ∉ kv.2 ∧ 0 ∉ kv.2

/-- The assignments of a document, in order. -/
def docAssignments (d : Doc) : List (Str × Str × Str) :=
  d.flatMap fun s => s.2.map fun kv => (s.1, kv.1, kv.2)

end Verif.Config.Spec
