/-! Independent specifications: edit scripts, common subsequences, increasing subsequences. -/

namespace Verif.StrAlg.Spec

variable {α : Type}

/-- One single-character edit anywhere in the string. -/
inductive Edit : List α → List α → Prop where
  | insert (p s : List α) (y : α) : Edit (p ++ s) (p ++ y :: s)
  | delete (p s : List α) (x : α) : Edit (p ++ x :: s) (p ++ s)
  | substitute (p s : List α) (x y : α) : Edit (p ++ x :: s) (p ++ y :: s)

/-- `b` is reached from `a` by exactly `n` successive edits. -/
inductive Edits : Nat → List α → List α → Prop where
  | refl (a : List α) : Edits 0 a a
  | step {n : Nat} {a b c : List α} : Edits n a b → Edit b c → Edits (n + 1) a c

/-- `d` is the least number of edits turning `a` into `b`. -/
def IsEditDistance (a b : List α) (d : Nat) : Prop := Edits d a b ∧ ∀ n, Edits n a b → d ≤ n

/-- `n` is the greatest length of a common subsequence (`List.Sublist`). -/
def IsLcsLength (a b : List α) (n : Nat) : Prop :=
  (∃ l, List.Sublist l a ∧ List.Sublist l b ∧ l.length = n) ∧ ∀ l, List.Sublist l a → List.Sublist l b → l.length ≤ n

/-- `n` is the greatest length of a strictly increasing subsequence. -/
def IsLisLength (a : List Int) (n : Nat) : Prop :=
  (∃ l, List.Sublist l a ∧ l.Pairwise (· < ·) ∧ l.length = n) ∧ ∀ l, List.Sublist l a → l.Pairwise (· < ·) → l.length ≤ n

end Verif.StrAlg.Spec
