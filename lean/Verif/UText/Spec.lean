import Verif.Ustring.Spec

/-! What is said about text with errors, words and classes of characters. -/

namespace Verif.UText.Spec

/-- The white space of the "C" locale: blank, tab, newline, vertical tab, form feed, carriage return. -/
def blanks : List Nat := [32, 9, 10, 11, 12, 13]

/-- A byte that continues a character, RFC 3629 §3: `10xxxxxx`. -/
def Continues (b : UInt8) : Prop := b.toNat / 64 = 2

/-- A text that does not begin in the middle of a character. -/
def Starts (s : List UInt8) : Prop := ∀ b, s.head? = some b → ¬ Continues b

/-- A word: characters, none of them white space. -/
def Word (us : List Nat) : Prop := us ≠ [] ∧ ∀ c ∈ us, Ustring.Spec.Scalar c ∧ c ∉ blanks

/-- Words, each followed by a separator. -/
def spaced (enc : List Nat → List UInt8) (l : List (List Nat × List UInt8)) : List UInt8 := l.flatMap fun p => enc p.1 ++ p.2

/-- Separators: at least one byte, only white space. -/
def Separator (s : List UInt8) : Prop := s ≠ [] ∧ ∀ b ∈ s, b.toNat ∈ blanks

end Verif.UText.Spec
