import Mathlib.Tactic.Ring
import Mathlib.Tactic.FieldSimp
import Mathlib.Tactic.LinearCombination
import Mathlib.Algebra.Order.Ring.Basic
import Mathlib.Algebra.Order.Field.Basic
import Mathlib.Algebra.BigOperators.Group.List.Basic
import Verif.MathVec.Lemmas
/-! The laws of lists of components. -/

namespace Verif.MathVec.Laws
open Verif.MathVec Verif.MathVec.Spec

section Ring
variable {t : Type} [CommRing t]

theorem foldl_add (xs : List t) : ∀ x : t, xs.foldl (· + ·) x = x + xs.sum := by
  induction xs with
  | nil => intro x; simp
  | cons y ys ih => intro x; rw [List.foldl_cons, ih, List.sum_cons, add_assoc]

theorem sum_eq (xs : List t) : Spec.sum xs = xs.sum := by
  cases xs with
  | nil => rfl
  | cons x xs => rw [Spec.sum, foldl_add, List.sum_cons]

/-- The inner product of two lists. -/
def dot (l m : List t) : t := (List.zipWith (· * ·) l m).sum

theorem dot_cons (x y : t) (l m : List t) : dot (x :: l) (y :: m) = x * y + dot l m := by
  unfold dot
  rw [List.zipWith_cons_cons, List.sum_cons]

theorem add_comm' (l m : List t) : List.zipWith (· + ·) l m = List.zipWith (· + ·) m l := by
  induction l generalizing m with
  | nil => cases m <;> rfl
  | cons x l ih =>
    cases m with
    | nil => rfl
    | cons y m => simp [ih m, add_comm]

theorem add_assoc' (l m n : List t) :
    List.zipWith (· + ·) (List.zipWith (· + ·) l m) n = List.zipWith (· + ·) l (List.zipWith (· + ·) m n) := by
  induction l generalizing m n with
  | nil => simp
  | cons x l ih =>
    cases m with
    | nil => simp
    | cons y m =>
      cases n with
      | nil => simp
      | cons z n => simp [ih, add_assoc]

theorem add_zero' (l : List t) (n : Nat) (h : l.length = n) : List.zipWith (· + ·) l (List.replicate n 0) = l := by
  induction l generalizing n with
  | nil => simp
  | cons x l ih =>
    subst h
    simp [List.replicate_succ, ih l.length rfl]

theorem add_neg' (l : List t) (n : Nat) (h : l.length = n) : List.zipWith (· + ·) l (l.map (- ·)) = List.replicate n 0 := by
  induction l generalizing n with
  | nil => subst h; rfl
  | cons x l ih =>
    subst h
    have := ih l.length rfl
    simp only [List.map_cons, List.zipWith_cons_cons, add_neg_cancel, this]
    rfl

theorem sub_eq' (l m : List t) : List.zipWith (· - ·) l m = List.zipWith (· + ·) l (m.map (- ·)) := by
  induction l generalizing m with
  | nil => cases m <;> rfl
  | cons x l ih =>
    cases m with
    | nil => rfl
    | cons y m => rw [List.map_cons, List.zipWith_cons_cons, List.zipWith_cons_cons, ih m, sub_eq_add_neg]

theorem smul_add' (c : t) (l m : List t) : (List.zipWith (· + ·) l m).map (c * ·) = List.zipWith (· + ·) (l.map (c * ·)) (m.map (c * ·)) := by
  induction l generalizing m with
  | nil => cases m <;> rfl
  | cons x l ih =>
    cases m with
    | nil => rfl
    | cons y m => simp [ih m, mul_add]

theorem add_smul' (c d : t) (l : List t) : l.map ((c + d) * ·) = List.zipWith (· + ·) (l.map (c * ·)) (l.map (d * ·)) := by
  induction l with
  | nil => rfl
  | cons x l ih => simp [add_mul]

theorem mul_smul' (c d : t) (l : List t) : l.map ((c * d) * ·) = (l.map (d * ·)).map (c * ·) := by
  induction l with
  | nil => rfl
  | cons x l ih => simp [mul_assoc]

theorem one_smul' (l : List t) : l.map ((1 : t) * ·) = l := by
  induction l with
  | nil => rfl
  | cons x l ih => simp

theorem dot_comm (l m : List t) : dot l m = dot m l := by
  induction l generalizing m with
  | nil => cases m <;> rfl
  | cons x l ih =>
    cases m with
    | nil => rfl
    | cons y m => rw [dot_cons, dot_cons, ih m, mul_comm]

theorem dot_add (l m k : List t) (h : l.length = m.length) : dot (List.zipWith (· + ·) l m) k = dot l k + dot m k := by
  induction l generalizing m k with
  | nil =>
    cases m with
    | nil => simp [dot]
    | cons y m => simp at h
  | cons x l ih =>
    cases m with
    | nil => simp at h
    | cons y m =>
      cases k with
      | nil => simp [dot]
      | cons z k =>
        simp only [List.length_cons, Nat.add_right_cancel_iff] at h
        rw [List.zipWith_cons_cons, dot_cons, dot_cons, dot_cons, ih m k h]
        ring

theorem dot_smul (c : t) (l k : List t) : dot (l.map (c * ·)) k = c * dot l k := by
  induction l generalizing k with
  | nil => simp [dot]
  | cons x l ih =>
    cases k with
    | nil => simp [dot]
    | cons z k =>
      rw [List.map_cons, dot_cons, dot_cons, ih k]
      ring

theorem dot_neg (l k : List t) : dot (l.map (- ·)) k = - dot l k := by
  induction l generalizing k with
  | nil => simp [dot]
  | cons x l ih =>
    cases k with
    | nil => simp [dot]
    | cons z k =>
      rw [List.map_cons, dot_cons, dot_cons, ih k]
      ring

theorem dot_sub (l m k : List t) (h : l.length = m.length) : dot (List.zipWith (· - ·) l m) k = dot l k - dot m k := by
  rw [sub_eq', dot_add _ _ _ (by simpa using h), dot_neg, sub_eq_add_neg]

end Ring

section Ordered
variable {t : Type} [CommRing t] [LinearOrder t] [IsStrictOrderedRing t]

theorem dot_self_nonneg (l : List t) : 0 ≤ dot l l := by
  induction l with
  | nil => simp [dot]
  | cons x l ih => rw [dot_cons]; exact add_nonneg (mul_self_nonneg x) ih

theorem dot_self_eq_zero (l : List t) (n : Nat) (h : l.length = n) : dot l l = 0 ↔ l = List.replicate n 0 := by
  induction l generalizing n with
  | nil => subst h; simp [dot]
  | cons x l ih =>
    subst h
    rw [dot_cons, List.length_cons, List.replicate_succ, List.cons.injEq, ← ih l.length rfl]
    constructor
    · intro h
      have h1 := mul_self_nonneg x
      have h2 := dot_self_nonneg l
      have h3 : x * x = 0 := le_antisymm (by rw [← h]; exact le_add_of_nonneg_right h2) h1
      refine ⟨mul_self_eq_zero.mp h3, ?_⟩
      rw [h3, zero_add] at h
      exact h
    · rintro ⟨rfl, h⟩
      rw [h, mul_zero, add_zero]

omit [LinearOrder t] [IsStrictOrderedRing t] in
theorem dot_zero (l : List t) (n : Nat) : dot l (List.replicate n 0) = 0 := by
  induction l generalizing n with
  | nil => simp [dot]
  | cons x l ih =>
    cases n with
    | zero => simp [dot]
    | succ n => rw [List.replicate_succ, dot_cons, ih, mul_zero, add_zero]

/-- Cauchy and Schwarz. -/
theorem dot_le (l m : List t) (h : l.length = m.length) : dot l m * dot l m ≤ dot l l * dot m m := by
  have key : 0 ≤ dot m m * (dot l l * dot m m - dot l m * dot l m) := by
    have h0 := dot_self_nonneg (List.zipWith (· - ·) (l.map (dot m m * ·)) (m.map (dot l m * ·)))
    have e : dot (List.zipWith (· - ·) (l.map (dot m m * ·)) (m.map (dot l m * ·))) (List.zipWith (· - ·) (l.map (dot m m * ·)) (m.map (dot l m * ·))) =
        dot m m * (dot l l * dot m m - dot l m * dot l m) := by
      have e1 : ∀ k, dot (List.zipWith (· - ·) (l.map (dot m m * ·)) (m.map (dot l m * ·))) k = dot m m * dot l k - dot l m * dot m k := by
        intro k
        rw [dot_sub _ _ _ (by simpa using h), dot_smul, dot_smul]
      rw [e1, dot_comm l (List.zipWith _ _ _), dot_comm m (List.zipWith _ _ _), e1, e1, dot_comm m l]
      ring
    rw [e] at h0
    exact h0
  rcases eq_or_lt_of_le (dot_self_nonneg m) with h1 | h1
  · have hm := (dot_self_eq_zero m m.length rfl).mp h1.symm
    rw [hm, dot_zero]
    simp [dot_zero]
  · have := nonneg_of_mul_nonneg_right key h1
    exact sub_nonneg.mp this

end Ordered

section Lex
variable {t : Type} [LinearOrder t]

theorem lex_irrefl (l : List t) : lexLt l l = false := by
  induction l with
  | nil => rfl
  | cons x l ih => rw [lexLt, if_neg (lt_irrefl x), if_pos rfl, ih]

theorem lex_trans (l m n : List t) (h1 : lexLt l m = true) (h2 : lexLt m n = true) : lexLt l n = true := by
  induction l generalizing m n with
  | nil =>
    cases n with
    | nil => cases m <;> simp [lexLt] at h2
    | cons z n => rfl
  | cons x l ih =>
    cases m with
    | nil => simp [lexLt] at h1
    | cons y m =>
      cases n with
      | nil => simp [lexLt] at h2
      | cons z n =>
        rw [lexLt] at h1 h2 ⊢
        by_cases hxy : x < y
        · by_cases hyz : y < z
          · rw [if_pos (lt_trans hxy hyz)]
          · rw [if_neg hyz] at h2
            by_cases e : y = z
            · rw [if_pos (e ▸ hxy)]
            · rw [if_neg e] at h2; cases h2
        · rw [if_neg hxy] at h1
          by_cases e : x = y
          · subst e
            rw [if_pos rfl] at h1
            by_cases hyz : x < z
            · rw [if_pos hyz]
            · rw [if_neg hyz] at h2 ⊢
              by_cases e : x = z
              · rw [if_pos e] at h2 ⊢
                exact ih m n h1 h2
              · rw [if_neg e] at h2; cases h2
          · rw [if_neg e] at h1; cases h1

theorem lex_total (l m : List t) (h : l.length = m.length) : lexLt l m = true ∨ l = m ∨ lexLt m l = true := by
  induction l generalizing m with
  | nil =>
    cases m with
    | nil => exact .inr (.inl rfl)
    | cons y m => simp at h
  | cons x l ih =>
    cases m with
    | nil => simp at h
    | cons y m =>
      simp only [List.length_cons, Nat.add_right_cancel_iff] at h
      rw [lexLt, lexLt]
      rcases lt_trichotomy x y with h1 | h1 | h1
      · exact .inl (if_pos h1)
      · subst h1
        rw [if_neg (lt_irrefl x), if_pos rfl, if_neg (lt_irrefl x), if_pos rfl]
        rcases ih m h with h2 | h2 | h2
        · exact .inl h2
        · exact .inr (.inl (by rw [h2]))
        · exact .inr (.inr h2)
      · exact .inr (.inr (if_pos h1))

end Lex

section Text
variable {t : Type} [Zero t]

theorem readN_length (p : List UInt8 → Option (t × List UInt8)) (n : Nat) (s : Stream) : (readN p n s).1.length = n := by
  induction n generalizing s with
  | zero => rfl
  | succ n ih => rw [readN, List.length_cons, ih]

/-- Reading what was written. -/
theorem read_spaced (p : List UInt8 → Option (t × List UInt8)) (showT : t → List UInt8)
    (hp : ∀ x w r, (w = [] ∨ w = [32]) → (r = [] ∨ ∃ r', r = 32 :: r') → p (w ++ showT x ++ r) = some (x, r))
    (r : List UInt8) (hr : r = [] ∨ ∃ r', r = 32 :: r') :
    ∀ (l : List t) (w : List UInt8), (w = [] ∨ w = [32]) → l ≠ [] → readN p l.length ⟨false, w ++ spaced showT l ++ r⟩ = (l.map some, ⟨false, r⟩) := by
  intro l
  induction l with
  | nil => intro w _ h; exact absurd rfl h
  | cons x l ih =>
    intro w hw _
    cases l with
    | nil =>
      simp only [List.length_cons, List.length_nil, readN, spaced, extract, hp x w r hw hr]
      rfl
    | cons y l =>
      have e : w ++ spaced showT (x :: y :: l) ++ r = w ++ showT x ++ ([32] ++ spaced showT (y :: l) ++ r) := by
        simp only [spaced, List.append_assoc]
      have h1 : extract p ⟨false, w ++ spaced showT (x :: y :: l) ++ r⟩ = (some x, ⟨false, [32] ++ spaced showT (y :: l) ++ r⟩) := by
        have h2 := hp x w ([32] ++ spaced showT (y :: l) ++ r) hw (.inr ⟨spaced showT (y :: l) ++ r, rfl⟩)
        rw [e]
        simp only [extract, h2]
        rfl
      rw [List.length_cons, readN, h1, ih [32] (.inr rfl) (by simp)]
      rfl

omit [Zero t] in
theorem allSome_map (l : List t) : allSome (l.map some) = some l := by
  induction l with
  | nil => rfl
  | cons x l ih => simp [allSome, ih]

theorem readN_failed (p : List UInt8 → Option (t × List UInt8)) (n : Nat) (r : List UInt8) : readN p n ⟨true, r⟩ = (List.replicate n none, ⟨true, r⟩) := by
  induction n with
  | zero => rfl
  | succ n ih =>
    rw [readN]
    simp only [extract, if_true, ih]
    rfl

end Text

end Verif.MathVec.Laws
