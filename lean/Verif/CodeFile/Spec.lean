import Verif.CodeFile.Model
/-! What it means that decoders own their memory. -/

namespace Verif.CodeFile.Spec
open Verif.CodeFile

/-- Decoder `i` owns array `id`. -/
def Owns (st : State) (i id : Nat) : Prop := ∃ d, st.decs[i]? = some (some d) ∧ d.newed = true ∧ d.buf = .heap id

/-- The array is there. -/
def Live (st : State) (id : Nat) : Prop := ∃ m, st.heap[id]? = some (some m)

/-- The arrays that are there are those that a decoder owns; no two decoders own the same; an array that a decoder uses is one that it owns. -/
structure Tidy (st : State) : Prop where
  kept : ∀ id, Live st id ↔ ∃ i, Owns st i id
  apart : ∀ i j id, Owns st i id → Owns st j id → i = j
  used : ∀ (i : Nat) d, st.decs[i]? = some (some d) → (d.newed = true ↔ ∃ id, d.buf = .heap id)

/-- Decoder `i` is there. -/
def There (st : State) (i : Nat) : Prop := ∃ d, st.decs[i]? = some (some d)

/-- What decoder `i` reads from. -/
def Sees (st : State) (i : Nat) (m : Mem) : Prop :=
  ∃ d, st.decs[i]? = some (some d) ∧ (d.buf = .user m ∨ ∃ id, d.buf = .heap id ∧ st.heap[id]? = some (some m))

/-- A step without copies: on a decoder that is there, sizes that are not from -8 to -1, reading a byte that is there and was initialised. -/
def Careful (st : State) : Cmd → Prop
  | .new => True
  | .attachFile i f _ => There st i ∧ ∀ g, f = some g → ¬ (-8 ≤ fileSize g ∧ fileSize g < 0)
  | .attachStream i _ size _ => There st i ∧ ¬ (-8 ≤ size ∧ size < 0)
  | .attachBuf i _ | .detach i | .destroy i => There st i
  | .read i pos => ∃ m b, Sees st i m ∧ m[pos]? = some (some b)
  | .copy _ | .assign _ _ => False

/-- The decoder that a step works on. -/
def target (st : State) : Cmd → Nat
  | .new | .copy _ => st.decs.length
  | .attachFile i _ _ | .attachStream i _ _ _ | .attachBuf i _ | .detach i | .read i _ | .destroy i | .assign i _ => i

/-- All steps are careful. -/
def CarefulRun : List Cmd → State → Prop
  | [], _ => True
  | c :: cs, st => Careful st c ∧ ∀ st' r, step st c = some (st', r) → CarefulRun cs st'

end Verif.CodeFile.Spec
