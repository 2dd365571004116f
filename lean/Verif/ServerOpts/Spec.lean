import Verif.ServerOpts.Model
/-! How options are written, and what they mean. -/
namespace Verif.ServerOpts.Spec
open Verif.Sysstat (Str ascii)
open Verif Verif.ServerOpts

/-- What a user can ask for. -/
inductive Setting where
  | port (n : Nat)
  | threads (n : Nat)
  | timeout (t : Str)
  | help
  | server
  deriving DecidableEq

/-- The letter, the name and the argument of a setting. -/
def Setting.letter : Setting → UInt8
  | .port _ => 112
  | .threads _ => 116
  | .timeout _ => 111
  | .help => 104
  | .server => 115
def Setting.name : Setting → Str
  | .port _ => ascii "port"
  | .threads _ => ascii "thread"
  | .timeout _ => ascii "timeout"
  | .help => ascii "help"
  | .server => ascii "server"
def Setting.arg : Setting → Option Str
  | .port n => some (Decimal.digits n)
  | .threads n => some (Decimal.digits n)
  | .timeout t => some t
  | .help => none
  | .server => none

/-- All names. -/
def names : List Str := [ascii "port", ascii "thread", ascii "timeout", ascii "help", ascii "server"]

/-- A beginning of a name that is not one of another. -/
def Abbreviates (a : Str) (s : Setting) : Prop := a <+: s.name ∧ ∀ n ∈ names, a <+: n → n = s.name

/-- The ways to write a setting. -/
inductive Spells : Setting → List Str → Prop where
  | flag (s : Setting) : s.arg = none → Spells s [[45, s.letter]]
  | longFlag (s : Setting) (a : Str) : s.arg = none → Abbreviates a s → Spells s [[45, 45] ++ a]
  | joined (s : Setting) (t : Str) : s.arg = some t → t ≠ [] → Spells s [[45, s.letter] ++ t]
  | apart (s : Setting) (t : Str) : s.arg = some t → Spells s [[45, s.letter], t]
  | longJoined (s : Setting) (a t : Str) : s.arg = some t → Abbreviates a s → Spells s [[45, 45] ++ a ++ [61] ++ t]
  | longApart (s : Setting) (a t : Str) : s.arg = some t → Abbreviates a s → Spells s [[45, 45] ++ a, t]

/-- A word that is no option. -/
def Other (w : Str) : Prop := w.head? ≠ some 45 ∨ w = [45]

/-- A command line for settings: in order, with other words between them; flags may be put before the letter of the next; `--` ends the options. -/
inductive Line : List Setting → List Str → Prop where
  | nil : Line [] []
  | option (s : Setting) (w : List Str) (ss : List Setting) (ws : List Str) : Spells s w → Line ss ws → Line (s :: ss) (w ++ ws)
  | flags (s : Setting) (c : UInt8) (r : Str) (ss : List Setting) (ws : List Str) : s.arg = none → c ≠ 45 → Line ss ((45 :: c :: r) :: ws) →
      Line (s :: ss) ((45 :: s.letter :: c :: r) :: ws)
  | other (w : Str) (ss : List Setting) (ws : List Str) : Other w → Line ss ws → Line ss (w :: ws)
  | stop (ws : List Str) : Line [] ([45, 45] :: ws)

/-- A setting that can be used. -/
def Setting.Valid : Setting → Prop
  | .port n => 1 ≤ n ∧ n ≤ 65535
  | .threads n => 1 ≤ n ∧ n ≤ 1024
  | .timeout _ => True
  | .help => False
  | .server => True

/-- A setting that is refused, or asks for help. -/
def Setting.Refused : Setting → Prop
  | .port n => (n < 1 ∨ 65535 < n) ∧ n < 2 ^ 31
  | .threads n => (n < 1 ∨ 1024 < n) ∧ n < 2 ^ 31
  | .timeout _ => False
  | .help => True
  | .server => False

/-- The last value that counts, or the default. -/
def last {α : Type} (f : Setting → Option α) (d : α) (ss : List Setting) : α := (ss.filterMap f).getLast?.getD d

def portOf : Setting → Option Nat
  | .port n => some n
  | _ => none
def threadsOf : Setting → Option Nat
  | .threads n => some n
  | _ => none
def timeoutOf : Setting → Option (Option Str)
  | .timeout t => some (some t)
  | _ => none

/-- What the server should listen with. -/
def conf (ss : List Setting) : Conf := ⟨last portOf 8080 ss, last threadsOf 1 ss, last timeoutOf none ss⟩

/-- The words that `run_server_or_cgi` looks for. -/
def modeWords : List Str := [ascii "-s", ascii "--server", ascii "-h", ascii "--help"]

/-- A command line whose flags are written alone and in full, and in which no other word looks like one. -/
inductive Plain : List Setting → List Str → Prop where
  | nil : Plain [] []
  | flag (s : Setting) (w : Str) (ss : List Setting) (ws : List Str) : s.arg = none → w = [45, s.letter] ∨ w = [45, 45] ++ s.name → Plain ss ws → Plain (s :: ss) (w :: ws)
  | option (s : Setting) (w : List Str) (ss : List Setting) (ws : List Str) : s.arg ≠ none → Spells s w → (∀ x ∈ w, x ∉ modeWords) → Plain ss ws → Plain (s :: ss) (w ++ ws)
  | other (w : Str) (ss : List Setting) (ws : List Str) : Other w → Plain ss ws → Plain ss (w :: ws)

end Verif.ServerOpts.Spec
