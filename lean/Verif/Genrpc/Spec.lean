import Verif.Genrpc.Model
/-! Specification for `genrpc`: how it is to be called, what the compiler is to do, and which file is to appear. -/
namespace Verif.Genrpc.Spec
open Verif.Genrpc

/-- A word of a command line that the shell takes as it is. -/
structure Word (a : Str) : Prop where
  some : a ≠ []
  plain : ∀ c ∈ a, c ≠ 32 ∧ c ≠ 9 ∧ c ∉ special

/-- Begins with `--`. -/
def Dashes (a : Str) : Prop := ∃ l, a = 45 :: 45 :: l

/-- The options: words that do not begin with `--`. -/
def Opts (opts : List Str) : Prop := ∀ a ∈ opts, Word a ∧ ¬ Dashes a

/-- A text in which and at whose end no mark `<<<...>>>` begins. -/
def Plain (s : Str) : Prop := ¬ [60, 60, 60] <:+: s ∧ s.getLast? ≠ some 60

/-- The parts of the installed files between the marks. -/
structure Installed (E : Env) (p1 p2 p3 p4 p5 q1 q2 : Str) : Prop where
  tmpl : E.tmpl = p1 ++ sigMark ++ p2 ++ baseMark ++ p3 ++ langMark ++ p4 ++ addMark ++ p5
  extr : E.extr = q1 ++ sigMark ++ q2
  plain : Plain p1 ∧ Plain p2 ∧ Plain p3 ∧ Plain p4 ∧ Plain q1

/-- A name of a temporary file: it is new and ends with six letters or digits. -/
def Temp (beginning : Str) (fs : Files) (n : Str) : Prop :=
  AssocMap.find fs n = none ∧ ∃ x, n = beginning ++ x ∧ x.length = 6 ∧ ∀ c ∈ x, (48 ≤ c ∧ c ≤ 57) ∨ (65 ≤ c ∧ c ≤ 90) ∨ (97 ≤ c ∧ c ≤ 122)

/-- Temporary files can be made, with these files and with one more or less. -/
def TempOk (E : Env) (fs : Files) : Prop :=
  ∀ p t fs', (∀ n, n ≠ t → AssocMap.find fs' n = AssocMap.find fs n) → ∃ n, E.fresh p fs' = some n ∧ Temp p fs' n

/-- The arguments of the compiler, as documented for it: a C++ source, the options, the library, the output. -/
def cxxArgs (t : Str) (opts : List Str) (g : Str) : List Str :=
  [[103, 43, 43], [45, 120, 99, 43, 43], t] ++ opts ++ [[45, 108, 112, 102, 105, 99, 111, 109, 109, 111, 110], [45, 111], g]

/-- With these options the compiler makes a program of the source, wherever the source and the program are, and touches nothing else. -/
def Builds (E : Env) (opts : List Str) (fs : Files) (src : Str) (e : Exe) : Prop :=
  ∀ t g fs', (∀ n, n ≠ t → n ≠ g → AssocMap.find fs' n = AssocMap.find fs n) → AssocMap.find fs' t = some src → t ≠ g →
    ∃ bin, E.gxx (cxxArgs t opts g) fs' = (AssocMap.upsert fs' g bin, some e)

/-- The compiler finds an error in the source and makes no program. -/
def Refuses (E : Env) (opts : List Str) (fs : Files) (src : Str) : Prop :=
  ∀ t g fs', (∀ n, n ≠ t → n ≠ g → AssocMap.find fs' n = AssocMap.find fs n) → AssocMap.find fs' t = some src → t ≠ g →
    E.gxx (cxxArgs t opts g) fs' = (fs', none)

/-- Names of interfaces: C++ identifiers have no white space. -/
def Names (names : List Str) : Prop := ∀ n ∈ names, n ≠ [] ∧ ∀ c ∈ n, c ∉ [9, 10, 11, 12, 13, 32]

/-- The two languages that there are generators for. -/
def phpLang : Str := [112, 104, 112]
def hsLang : Str := [104, 97, 115, 107, 101, 108, 108]

/-- The name of a header file without its suffix `.hpp`, `.hxx` or `.h`, provided nothing before it looks like a suffix. -/
def Stem (sig stem : Str) : Prop := (sig = stem ++ [46, 104, 112, 112] ∨ sig = stem ++ [46, 104, 120, 120] ∨ sig = stem ++ [46, 104]) ∧
  ¬ [46, 104] <:+: stem

/-- Two sets of files are the same except for one file. -/
def Only (fs fs' : Files) (name : Str) (content : Option Str) : Prop :=
  ∀ n, AssocMap.find fs' n = if n = name then content else AssocMap.find fs n

/-- Two sets of files are the same. -/
def Same (fs fs' : Files) : Prop := ∀ n, AssocMap.find fs' n = AssocMap.find fs n

/-- The lines that are put into the program for the interfaces: a variable for each, and its address at the end of the list. -/
def adds (names : List Str) : Str := names.zipIdx.flatMap (fun e =>
  e.1 ++ [95, 114, 101, 102, 108, 101, 99, 116, 32, 114, 101, 102] ++ Decimal.digits e.2 ++ [59, 10] ++
    [114, 101, 102, 115, 46, 112, 117, 115, 104, 95, 98, 97, 99, 107, 40, 38, 114, 101, 102] ++ Decimal.digits e.2 ++ [41, 59, 10])

/-- What has to be there for a signature with these interfaces. -/
structure Ready (E : Env) (T : Texts) (lang : Str) (opts : List Str) (sig : Str) (names : List Str) (fs : Files) : Prop where
  optsOk : Opts opts
  sigOk : ¬ Dashes sig ∧ Plain sig
  langOk : lang ≠ [] ∧ Plain lang
  namesOk : Names names
  tempOk : TempOk E fs
  inst : ∃ p1 p2 p3 p4 p5 q1 q2, Installed E p1 p2 p3 p4 p5 q1 q2 ∧
    Builds E opts fs (q1 ++ sig ++ q2) (extractor names) ∧
    Builds E opts fs (p1 ++ sig ++ p2 ++ sig ++ p3 ++ lang ++ p4 ++ adds names ++ p5) (generator T lang sig names)

end Verif.Genrpc.Spec
