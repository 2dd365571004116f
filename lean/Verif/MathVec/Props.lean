import Mathlib.Data.Rat.Defs
import Mathlib.Algebra.Order.Ring.Rat
import Mathlib.Algebra.Field.Rat
import Verif.MathVec.Laws
/-! Property C75: the vectors follow the laws of linear algebra, for exact arithmetic. -/

namespace Verif.MathVec.Props
open Verif.MathVec Verif.MathVec.Spec Verif.MathVec.Laws Verif.MathVec.Lemmas

/-- Every operation of each of the twelve classes does with the components what it should, for all types of components. -/
theorem componentwise {t : Type} [Zero t] [Add t] [Sub t] [Neg t] [Mul t] [Div t] [DecidableEq t] [LT t] [DecidableLT t] : ∀ I ∈ classes t, Correct I := all_correct

example : (classes Int).map (·.dim) = [2, 2, 3, 3, 4, 4, 5, 6, 7, 8, 9, 10] := rfl

section Ring
variable {t : Type} [CommRing t] [Div t] [DecidableEq t] [LT t] [DecidableLT t]

/-- Addition and scalar multiplication: the laws of a module. -/
theorem module_laws (I : Class t) (hI : I ∈ classes t) (a b c : I.V) (m n : t) :
    I.add a b = I.add b a ∧ I.add (I.add a b) c = I.add a (I.add b c) ∧ I.add a I.zero = a ∧ I.add a (I.neg a) = I.zero ∧
    I.sub a b = I.add a (I.neg b) ∧ I.smul m (I.add a b) = I.add (I.smul m a) (I.smul m b) ∧ I.smul (m + n) a = I.add (I.smul m a) (I.smul n a) ∧
    I.smul (m * n) a = I.smul m (I.smul n a) ∧ I.smul 1 a = a ∧ I.smulR a m = I.smul m a := by
  have h := componentwise I hI
  refine ⟨?_, ?_, ?_, ?_, ?_, ?_, ?_, ?_, ?_, ?_⟩ <;> apply h.ext
  · rw [h.add, h.add, Laws.add_comm']
  · rw [h.add, h.add, h.add, h.add, add_assoc']
  · rw [h.add, h.zero, add_zero' _ _ (h.length a)]
  · rw [h.add, h.neg, h.zero, add_neg' _ _ (h.length a)]
  · rw [h.sub, h.add, h.neg, sub_eq']
  · rw [h.smul, h.add, h.add, h.smul, h.smul, smul_add']
  · rw [h.smul, h.add, h.smul, h.smul, add_smul']
  · rw [h.smul, h.smul, h.smul, mul_smul']
  · rw [h.smul, one_smul']
  · rw [h.smulR, h.smul]

omit [Div t] [DecidableEq t] [LT t] [DecidableLT t] in
/-- The assignments: `a += b` and so on leave in `a` what they should. -/
theorem assignments [Div t] [DecidableEq t] [LT t] [DecidableLT t] (I : Class t) (hI : I ∈ classes t) (a b : I.V) (m : t) :
    I.subAssign (I.addAssign a b) b = a ∧ I.mulAssign a m = I.smulR a m ∧ I.comps (I.divAssign a m) = (I.comps a).map (· / m) := by
  have h := componentwise I hI
  refine ⟨?_, ?_, ?_⟩
  · rw [h.subAssign, h.addAssign]
    have l := module_laws I hI
    rw [(l (I.add a b) b a 0 0).2.2.2.2.1, (l a b (I.neg b) 0 0).2.1, (l b a a 0 0).2.2.2.1, (l a a a 0 0).2.2.1]
  · rw [h.mulAssign, (module_laws I hI a a a m m).2.2.2.2.2.2.2.2.2]
  · rw [h.divAssign, h.sdiv]

/-- The inner product is symmetric and linear. -/
theorem inner_laws (I : Class t) (hI : I ∈ classes t) (a b c : I.V) (m : t) :
    I.inner a b = I.inner b a ∧ I.inner (I.add a b) c = I.inner a c + I.inner b c ∧ I.inner (I.smul m a) b = m * I.inner a b ∧ I.norm a = I.inner a a := by
  have h := componentwise I hI
  have hi : ∀ a b, I.inner a b = dot (I.comps a) (I.comps b) := fun a b => by rw [h.inner, sum_eq]; rfl
  refine ⟨?_, ?_, ?_, h.norm a⟩
  · rw [hi, hi, dot_comm]
  · rw [hi, hi, hi, h.add, dot_add _ _ _ (by rw [h.length, h.length])]
  · rw [hi, hi, h.smul, dot_smul]

omit [Div t] [DecidableEq t] [LT t] [DecidableLT t] in
/-- The outer product in the plane: alternating, and the identity of Lagrange. -/
theorem cross2_laws (a b c : N2 t) (m : t) : N2.cross a a = 0 ∧ N2.cross a b = - N2.cross b a ∧ N2.cross (N2.add a b) c = N2.cross a c + N2.cross b c ∧
    N2.cross (N2.smul m a) b = m * N2.cross a b ∧ N2.cross a b * N2.cross a b + N2.inner a b * N2.inner a b = N2.norm a * N2.norm b ∧
    N2.cross (⟨1, 0⟩ : N2 t) ⟨0, 1⟩ = 1 := by
  simp only [N2.cross, N2.add, N2.smul, N2.make, N2.inner, N2.norm]
  refine ⟨?_, ?_, ?_, ?_, ?_, ?_⟩ <;> ring

omit [Div t] [DecidableEq t] [LT t] [DecidableLT t] in
/-- The outer product in space: alternating, linear, orthogonal to its factors, with the identities of Lagrange and Jacobi, and right-handed. -/
theorem cross3_laws (a b c : N3 t) (m : t) : N3.cross a a = N3.zero ∧ N3.cross a b = N3.neg (N3.cross b a) ∧
    N3.cross (N3.add a b) c = N3.add (N3.cross a c) (N3.cross b c) ∧ N3.cross (N3.smul m a) b = N3.smul m (N3.cross a b) ∧
    N3.inner (N3.cross a b) a = 0 ∧ N3.inner (N3.cross a b) b = 0 ∧
    N3.norm (N3.cross a b) + N3.inner a b * N3.inner a b = N3.norm a * N3.norm b ∧
    N3.add (N3.add (N3.cross a (N3.cross b c)) (N3.cross b (N3.cross c a))) (N3.cross c (N3.cross a b)) = N3.zero ∧
    N3.cross (⟨1, 0, 0⟩ : N3 t) ⟨0, 1, 0⟩ = ⟨0, 0, 1⟩ := by
  simp only [N3.cross, N3.add, N3.smul, N3.make, N3.inner, N3.norm, N3.neg, N3.zero, N3.mk.injEq]
  refine ⟨⟨?_, ?_, ?_⟩, ⟨?_, ?_, ?_⟩, ⟨?_, ?_, ?_⟩, ⟨?_, ?_, ?_⟩, ?_, ?_, ?_, ⟨?_, ?_, ?_⟩, ?_, ?_, ?_⟩ <;> ring

end Ring

section Field
variable {t : Type} [Field t] [DecidableEq t] [LT t] [DecidableLT t]

/-- Division by a scalar undoes multiplication; what is left of `a` after taking away its projection on `b` is orthogonal to `b`; a vector that is normalized to
`m` is parallel to the old one and has length `m` (provided that `sqrt` is a square root of the norm). -/
theorem field_laws (I : Class t) (hI : I ∈ classes t) (a b : I.V) (m : t) (sqrt : t → t) :
    (m ≠ 0 → I.smul m (I.sdiv a m) = a) ∧
    (I.inner b b ≠ 0 → I.inner (I.sub a (I.smul (I.proj a b) b)) b = 0) ∧
    (I.norm a ≠ 0 → sqrt (I.norm a) * sqrt (I.norm a) = I.norm a →
      I.norm (I.normalize sqrt a m) = m * m ∧ I.abs sqrt a * I.abs sqrt a = I.norm a ∧ (∃ k, I.normalize sqrt a m = I.smul k a) ∧
      I.normalizeM sqrt a m = I.normalize sqrt a m) := by
  have h := componentwise I hI
  have hi : ∀ a b, I.inner a b = dot (I.comps a) (I.comps b) := fun a b => by rw [h.inner, sum_eq]; rfl
  refine ⟨fun hm => ?_, fun hb => ?_, fun ha hs => ⟨?_, ?_, ?_, ?_⟩⟩
  · apply h.ext
    rw [h.smul, h.sdiv, List.map_map]
    conv_rhs => rw [← List.map_id (I.comps a)]
    apply List.map_congr_left
    intro x _
    exact mul_div_cancel₀ x hm
  · rw [hi, h.sub, dot_sub _ _ _ (by rw [h.length, h.length]), ← hi, ← hi, (inner_laws I hI b b b _).2.2.1, h.proj, div_mul_cancel₀ _ hb, sub_self]
  · have l := inner_laws I hI
    have hsq : sqrt (I.norm a) ≠ 0 := by
      intro e
      rw [e, mul_zero] at hs
      exact ha hs.symm
    rw [h.normalize, h.norm, (l a _ a _).2.2.1, (l a (I.smul _ a) a 0).1, (l a a a _).2.2.1, ← h.norm, h.abs, ← mul_assoc]
    rw [div_mul_div_comm, hs, div_mul_cancel₀ _ ha]
  · rw [h.abs, hs]
  · exact ⟨_, h.normalize sqrt a m⟩
  · rw [h.normalize, h.normalizeM]

end Field

section Ordered
variable {t : Type} [CommRing t] [LinearOrder t] [IsStrictOrderedRing t] [Div t]

/-- The norm is positive definite; the inequality of Cauchy and Schwarz. -/
theorem norm_laws (I : Class t) (hI : I ∈ classes t) (a b : I.V) :
    0 ≤ I.norm a ∧ (I.norm a = 0 ↔ a = I.zero) ∧ I.inner a b * I.inner a b ≤ I.norm a * I.norm b := by
  have h := componentwise I hI
  have hi : ∀ a b, I.inner a b = dot (I.comps a) (I.comps b) := fun a b => by rw [h.inner, sum_eq]; rfl
  refine ⟨?_, ?_, ?_⟩
  · rw [h.norm, hi]
    exact dot_self_nonneg _
  · rw [h.norm, hi, dot_self_eq_zero _ _ (h.length a), ← h.zero]
    exact ⟨h.ext a _, fun e => by rw [e]⟩
  · rw [h.norm, h.norm, hi, hi, hi]
    exact dot_le _ _ (by rw [h.length, h.length])

end Ordered

section Order
variable {t : Type} [LinearOrder t] [Zero t] [Add t] [Sub t] [Neg t] [Mul t] [Div t]

/-- `<` is a strict total order with `==` as its equality, so that vectors can be the keys of a map; it is the dictionary order. -/
theorem order_laws (I : Class t) (hI : I ∈ classes t) (a b c : I.V) :
    I.lt a a = false ∧ (I.lt a b = true → I.lt b c = true → I.lt a c = true) ∧ (I.lt a b = true ∨ I.eq a b = true ∨ I.lt b a = true) ∧
    I.lt a b = lexLt (I.comps a) (I.comps b) := by
  have h := componentwise I hI
  have hl := h.lt (fun x y => ne_of_lt)
  refine ⟨?_, ?_, ?_, hl a b⟩
  · rw [hl]; exact lex_irrefl _
  · rw [hl, hl, hl]; exact lex_trans _ _ _
  · rw [hl, hl, h.eq]
    rcases lex_total (I.comps a) (I.comps b) (by rw [h.length, h.length]) with h1 | h1 | h1
    · exact .inl h1
    · exact .inr (.inl (h.ext a b h1))
    · exact .inr (.inr h1)

/-- Arrays: what is written is read again, nothing behind it is changed, and `operator[]` gives the same components. -/
theorem array_laws (I : Class t) (hI : I ∈ classes t) (a : I.V) (v : Nat → t) (i : Int) (c : t) :
    I.fromArray (I.writeToArray a v) = a ∧ (∀ k, I.dim ≤ k → I.writeToArray a v k = v k) ∧
    (0 ≤ i → i < I.dim → I.get a i = some (I.writeToArray a v i.toNat) ∧ ∃ a', I.set a i c = some a' ∧ I.get a' i = some c ∧
      ∀ j, j ≠ i → I.get a' j = I.get a j) := by
  have h := componentwise I hI
  have hd : ∀ k, I.dim ≤ k → I.writeToArray a v k = v k := by
    intro k hk
    rw [h.writeToArray, List.getD_eq_getElem?_getD, List.getElem?_eq_none (by rw [h.length]; exact hk), Option.getD_none]
  have hg : ∀ (a : I.V) k, k < I.dim → I.get a (k : Nat) = some (I.writeToArray a v k) := by
    intro a k hk
    rw [h.get, if_pos (Int.natCast_nonneg k), h.writeToArray, Int.toNat_natCast, List.getD_eq_getElem?_getD,
      List.getElem?_eq_getElem (by rw [h.length]; exact hk), Option.getD_some]
  refine ⟨?_, hd, fun h0 h1 => ⟨?_, ?_⟩⟩
  · apply h.ext
    rw [h.fromArray]
    apply List.ext_getElem
    · rw [List.length_map, List.length_range, h.length]
    · intro k hk1 hk2
      rw [List.getElem_map, List.getElem_range, h.writeToArray, List.getD_eq_getElem?_getD, List.getElem?_eq_getElem hk2, Option.getD_some]
  · have := hg a i.toNat (by omega)
    rw [Int.toNat_of_nonneg h0] at this
    exact this
  · have hs := h.set a i c
    rw [if_pos ⟨h0, h1⟩] at hs
    cases e : I.set a i c with
    | none => rw [e] at hs; cases hs
    | some a' =>
      rw [e] at hs
      have hs : I.comps a' = (I.comps a).set i.toNat c := Option.some.inj hs
      refine ⟨a', rfl, ?_, ?_⟩
      · rw [h.get, if_pos h0, hs, List.getElem?_set_self (by rw [h.length]; omega)]
      · intro j hj
        rw [h.get, h.get]
        by_cases hj0 : 0 ≤ j
        · rw [if_pos hj0, if_pos hj0, hs, List.getElem?_set_ne (by omega)]
        · rw [if_neg hj0, if_neg hj0]

/-- Text: what is written is read again, if this is so for the components (with at most one space before them, and a space or the end behind them). -/
theorem text_roundtrip (I : Class t) (hI : I ∈ classes t) (p : List UInt8 → Option (t × List UInt8)) (showT : t → List UInt8)
    (hp : ∀ x w r, (w = [] ∨ w = [32]) → (r = [] ∨ ∃ r', r = 32 :: r') → p (w ++ showT x ++ r) = some (x, r)) (a : I.V)
    (r : List UInt8) (hr : r = [] ∨ ∃ r', r = 32 :: r') :
    I.read p ⟨false, I.write showT a ++ r⟩ = (some a, ⟨false, r⟩) := by
  have h := componentwise I hI
  have hne : I.comps a ≠ [] := by
    intro e
    have := h.length a
    rw [e] at this
    simp only [classes, List.mem_cons, List.not_mem_nil, or_false] at hI
    rcases hI with rfl | rfl | rfl | rfl | rfl | rfl | rfl | rfl | rfl | rfl | rfl | rfl <;> cases this
  have key := read_spaced p showT hp r hr (I.comps a) [] (.inl rfl) hne
  rw [List.nil_append, h.length, ← h.write] at key
  have h1 := h.readState p ⟨false, I.write showT a ++ r⟩
  have h2 := h.readValue p ⟨false, I.write showT a ++ r⟩
  rw [key] at h1 h2
  rw [allSome_map] at h2
  cases e : (I.read p ⟨false, I.write showT a ++ r⟩).1 with
  | none => rw [e] at h2; cases h2
  | some b =>
    rw [e] at h2
    have : b = a := h.ext b a (Option.some.inj h2)
    exact Prod.ext (by rw [e, this]) h1

/-- When a component other than the last cannot be read, the vector is given values that were never stored. -/
theorem read_failure (I : Class t) (hI : I ∈ classes t) (p : List UInt8 → Option (t × List UInt8)) (text : List UInt8) (hp : p text = none) :
    I.read p ⟨false, text⟩ = (none, ⟨true, text⟩) := by
  have h := componentwise I hI
  have hd : ∃ n, I.dim = n + 2 := by
    simp only [classes, List.mem_cons, List.not_mem_nil, or_false] at hI
    rcases hI with rfl | rfl | rfl | rfl | rfl | rfl | rfl | rfl | rfl | rfl | rfl | rfl <;> exact ⟨_, rfl⟩
  obtain ⟨n, hn⟩ := hd
  have e : readN p I.dim ⟨false, text⟩ = (some 0 :: List.replicate (n + 1) none, ⟨true, text⟩) := by
    rw [hn, readN]
    simp only [extract, hp]
    rw [if_neg (by decide), readN_failed]
  have h1 := h.readState p ⟨false, text⟩
  have h2 := h.readValue p ⟨false, text⟩
  rw [e] at h1 h2
  have h2 : (I.read p ⟨false, text⟩).1.map I.comps = none := h2
  refine Prod.ext ?_ h1
  cases e : (I.read p ⟨false, text⟩).1 with
  | none => rfl
  | some b => rw [e] at h2; cases h2

end Order

/-- Rational numbers are such components. -/
example (I : Class Rat) (hI : I ∈ classes Rat) (a b : I.V) : I.inner a b * I.inner a b ≤ I.norm a * I.norm b := (norm_laws I hI a b).2.2
example : N3.cross (⟨1, 2, 3⟩ : N3 Int) ⟨4, 5, 6⟩ = ⟨-3, 6, -3⟩ ∧ N3.inner (⟨-3, 6, -3⟩ : N3 Int) ⟨1, 2, 3⟩ = 0 ∧ A7.lt (⟨1, 2, 3, 4, 5, 6, 7⟩ : A7 Int) ⟨1, 2, 3, 4, 5, 7, 6⟩ = true := by
  decide
/-- Bits can be written and read like this. -/
def bit : List UInt8 → Option (Bool × List UInt8)
  | 32 :: 49 :: r => some (true, r)
  | 32 :: 48 :: r => some (false, r)
  | 49 :: r => some (true, r)
  | 48 :: r => some (false, r)
  | _ => none
example : ∀ (x : Bool) (w r : List UInt8), (w = [] ∨ w = [32]) → (r = [] ∨ ∃ r', r = 32 :: r') →
    bit (w ++ (if x then [49] else [48]) ++ r) = some (x, r) := by
  intro x w r hw _
  rcases hw with rfl | rfl <;> cases x <;> rfl
/-- A failure in the middle: the value of the first component is lost as well. -/
example [Zero Bool] [Add Bool] [Sub Bool] [Neg Bool] [Mul Bool] [Div Bool] [LT Bool] [DecidableLT Bool] : N3.read bit ⟨false, [49, 32, 50, 32, 49]⟩ = (none, ⟨true, [32, 50, 32, 49]⟩) := rfl

end Verif.MathVec.Props
