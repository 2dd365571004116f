import Verif.MathVec.LemmasNum
import Verif.MathVec.Props
/-! # C75 with `double` and `float`: what is left of the laws of linear algebra after rounding -/

namespace Verif.MathVec.PropsNum
open Verif.Double Verif.Double.Spec Verif.MathVec Verif.MathVec.Spec Verif.MathVec.Num Verif.MathVec.LemmasNum

variable {F : Fmt}

/-- Each component of a sum, difference, multiple or quotient is the exact one, rounded once. -/
theorem rounded_once (hF : F = F64 ∨ F = F32) (I : Class (Fl F)) (hI : I ∈ classes (Fl F)) (a b : I.V) (xs ys : List Rat) (ha : Has I a xs) (hb : Has I b ys)
    (m : Rat) (i : Nat) (x y : Rat) (hx : xs[i]? = some x) (hy : ys[i]? = some y) :
    (∃ r, (I.comps (I.add a b))[i]? = some ⟨r⟩ ∧ Rounded F (x + y) r) ∧ (∃ r, (I.comps (I.sub a b))[i]? = some ⟨r⟩ ∧ Rounded F (x - y) r) ∧
    (∃ r, (I.comps (I.smul (num m) a))[i]? = some ⟨r⟩ ∧ Rounded F (m * x) r) ∧ (m ≠ 0 → ∃ r, (I.comps (I.sdiv a (num m)))[i]? = some ⟨r⟩ ∧ Rounded F (x / m) r) ∧
    (I.comps (I.neg a))[i]? = some (num (-x)) := by
  have h := Props.componentwise I hI
  refine ⟨⟨ofRat F (x + y), ?_, rounded hF _⟩, ⟨ofRat F (x - y), ?_, rounded hF _⟩, ⟨ofRat F (m * x), ?_, rounded hF _⟩, fun hm => ⟨ofRat F (x / m), ?_, rounded hF _⟩, ?_⟩
  · rw [h.add, ha, hb, List.getElem?_zipWith]
    simp [hx, hy]
    rfl
  · rw [h.sub, ha, hb, List.getElem?_zipWith]
    simp [hx, hy, sub_eq_add_neg]
    rfl
  · rw [h.smul, ha]
    simp [hx]
    rfl
  · rw [h.sdiv, ha]
    simp [hx]
    apply Fl.ext
    show Num.div F (.fin x) (.fin m) = _
    simp only [Num.div, if_neg hm]
  · rw [h.neg, ha]
    simp [hx]
    rfl

/-- One tenth and two tenths. -/
def tenths : N2 (Fl F64) := ⟨⟨ofRat F64 (1 / 10)⟩, ⟨ofRat F64 (2 / 10)⟩⟩

example : Has (vn2 (Fl F64)) tenths [3602879701896397 / 36028797018963968, 3602879701896397 / 18014398509481984] ∧ vn2 (Fl F64) ∈ classes (Fl F64) :=
  ⟨by unfold Has; decide +kernel, by simp [classes]⟩

/-- The laws that hold exactly, for all values of the format, also infinite ones and NaN. -/
theorem exact_laws (hF : F = F64 ∨ F = F32) (I : Class (Fl F)) (hI : I ∈ classes (Fl F)) (a b : I.V) (m : Fl F) (ha : ∀ x ∈ I.comps a, IsFl F x.d) :
    I.add a b = I.add b a ∧ I.add a I.zero = a ∧ I.sub a b = I.add a (I.neg b) ∧ I.neg (I.neg a) = a ∧ I.smul (num 1) a = a ∧ I.smulR a m = I.smul m a ∧
    I.inner a b = I.inner b a ∧ ((∀ x ∈ I.comps a, ∃ q, x = num q) → I.sub a a = I.zero) := by
  have h := Props.componentwise I hI
  refine ⟨?_, ?_, ?_, ?_, ?_, ?_, ?_, fun hf => ?_⟩
  · apply h.ext
    rw [h.add, h.add, List.zipWith_comm]
    congr 1
    funext x y
    exact Fl.ext (LemmasNum.add_comm F y.d x.d)
  · apply h.ext
    rw [h.add, h.zero, ← h.length a]
    generalize I.comps a = l at ha
    induction l with
    | nil => rfl
    | cons x l ih =>
      rw [List.length_cons, List.replicate_succ, List.zipWith_cons_cons, ih (fun y hy => ha y (List.mem_cons_of_mem _ hy))]
      congr 1
      exact Fl.ext (LemmasNum.add_zero hF (ha x List.mem_cons_self))
  · apply h.ext
    rw [h.sub, h.add, h.neg, List.zipWith_map_right]
    rfl
  · apply h.ext
    rw [h.neg, h.neg, List.map_map]
    conv_rhs => rw [← List.map_id (I.comps a)]
    apply List.map_congr_left
    intro x _
    apply Fl.ext
    show Double.neg (Double.neg x.d) = x.d
    cases x.d <;> simp [Double.neg]
  · apply h.ext
    rw [h.smul]
    conv_rhs => rw [← List.map_id (I.comps a)]
    apply List.map_congr_left
    intro x hx
    exact Fl.ext (LemmasNum.one_mul hF (ha x hx))
  · apply h.ext
    rw [h.smulR, h.smul]
  · rw [h.inner, h.inner, List.zipWith_comm]
    congr 2
    funext x y
    exact Fl.ext (LemmasNum.mul_comm F y.d x.d)
  · apply h.ext
    rw [h.sub, h.zero, ← h.length a]
    generalize I.comps a = l at hf
    induction l with
    | nil => rfl
    | cons x l ih =>
      rw [List.length_cons, List.replicate_succ, List.zipWith_cons_cons, ih (fun y hy => hf y (List.mem_cons_of_mem _ hy))]
      congr 1
      obtain ⟨q, rfl⟩ := hf x List.mem_cons_self
      apply Fl.ext
      show ofRat F (q + -q) = _
      rw [add_neg_cancel, ofRat_zero hF]
      rfl

example : ∀ x ∈ (vn2 (Fl F64)).comps (⟨num (3 / 2), ⟨.inf true⟩⟩ : N2 (Fl F64)), IsFl F64 x.d := by
  intro x hx
  simp [vn2] at hx
  rcases hx with rfl | rfl
  · exact ⟨3, -1, by decide, by decide, by decide, by norm_num⟩
  · trivial

/-- The inner product: its error is at most ((1+2^-p)^n - 1) times the sum of the sizes of the products (p the digits of the format, n the dimension), and 2n steps of
the smallest numbers, if the result is finite. -/
theorem inner_error (hF : F = F64 ∨ F = F32) (I : Class (Fl F)) (hI : I ∈ classes (Fl F)) (a b : I.V) (xs ys : List Rat) (ha : Has I a xs) (hb : Has I b ys)
    (r : Rat) (hr : I.inner a b = num r) :
    |r - exact xs ys| ≤ ((1 + (2 : Rat) ^ (-(F.prec : Int))) ^ I.dim - 1) * size xs ys + 2 * I.dim * (1 + (2 : Rat) ^ (-(F.prec : Int))) ^ I.dim * (2 : Rat) ^ (F.emin - 1) := by
  have h := Props.componentwise I hI
  have la : xs.length = I.dim := by rw [← h.length a, ha, List.length_map]
  have lb : ys.length = I.dim := by rw [← h.length b, hb, List.length_map]
  rw [h.inner, ha, hb] at hr
  have := sum_error hF xs ys (la.trans lb.symm) hr
  rw [la] at this
  exact this

example : (vn2 (Fl F64)).inner tenths tenths = num (7205759403792795 / 144115188075855872) := by decide +kernel

/-- What the bound is for `double` and the highest dimension: less than 10^-14. -/
example : (1 + (2 : Rat) ^ (-53 : Int)) ^ 10 - 1 < 1 / 100000000000000 := by norm_num

/-- The square of the absolute value is not negative, unless it is NaN. -/
theorem norm_not_negative (hF : F = F64 ∨ F = F32) (I : Class (Fl F)) (hI : I ∈ classes (Fl F)) (a : I.V) (xs : List Rat) (ha : Has I a xs) :
    ∀ r, I.norm a = num r → 0 ≤ r := by
  intro r hr
  have h := Props.componentwise I hI
  have hp := (good hF).1
  rw [h.norm, h.inner, ha] at hr
  have key : ∀ (l : List (Fl F)), (∀ d ∈ l, ∀ q, d = num q → 0 ≤ q) → ∀ (s : Fl F), (∀ q, s = num q → 0 ≤ q) → ∀ r, l.foldl (· + ·) s = num r → 0 ≤ r := by
    intro l
    induction l with
    | nil => exact fun _ s hs r hr => hs r hr
    | cons d l ih =>
      intro hl s hs r hr
      refine ih (fun d hd => hl d (List.mem_cons_of_mem _ hd)) (s + d) ?_ r hr
      intro q hq
      obtain ⟨x, y, h1, h2, h3⟩ := add_fin (congrArg Fl.d hq)
      rw [(Double.Props.round_num hp h3 (good hF).2).1]
      exact Double.Lemmas.rnd_nonneg hp (add_nonneg (hs x (Fl.ext h1)) (hl d List.mem_cons_self y (Fl.ext h2)))
  have sq : ∀ d ∈ List.zipWith (· * ·) (xs.map (num (F := F))) (xs.map num), ∀ q, d = num q → 0 ≤ q := by
    intro d hd q hq
    rw [List.zipWith_self, List.map_map, List.mem_map] at hd
    obtain ⟨x, _, rfl⟩ := hd
    rw [(Double.Props.round_num hp (show ofRat F (x * x) = .fin q from congrArg Fl.d hq) (good hF).2).1]
    exact Double.Lemmas.rnd_nonneg hp (mul_self_nonneg x)
  cases xs with
  | nil =>
    have : r = 0 := (D.fin.inj (congrArg Fl.d hr)).symm
    exact le_of_eq this.symm
  | cons x xs =>
    exact key _ (fun d hd => sq d (List.mem_cons_of_mem _ hd)) _ (sq _ List.mem_cons_self) r hr

/-- The laws that fail: the sum is not associative, multiples do not distribute, division does not undo multiplication, -/
theorem not_associative : ∃ a b c : N2 (Fl F64), N2.add (N2.add a b) c ≠ N2.add a (N2.add b c) :=
  ⟨⟨num 1, num 0⟩, ⟨num (2 ^ 53), num 0⟩, ⟨num (-2 ^ 53), num 0⟩, by decide +kernel⟩

theorem not_distributive : ∃ (m : Fl F64) (a b : N2 (Fl F64)), N2.smul m (N2.add a b) ≠ N2.add (N2.smul m a) (N2.smul m b) :=
  ⟨num 3, ⟨num (2 ^ 53), num 0⟩, ⟨num 1, num 0⟩, by decide +kernel⟩

theorem not_undone : ∃ (m : Fl F64) (a : N2 (Fl F64)), m ≠ 0 ∧ N2.smul m (N2.sdiv a m) ≠ a := ⟨num 49, ⟨num 1, num 0⟩, by decide +kernel⟩

/-- a vector that is not zero can have the square zero, or infinite, -/
theorem norm_lost : (∃ a : N2 (Fl F64), a ≠ N2.zero ∧ N2.norm a = 0) ∧ ∃ a : N2 (Fl F64), a = ⟨num (10 ^ 200), num 0⟩ ∧ N2.norm a = ⟨.inf false⟩ :=
  ⟨⟨⟨num ((2 : Rat) ^ (-600 : Int)), num 0⟩, by decide +kernel⟩, ⟨_, rfl, by decide +kernel⟩⟩

/-- and the outer product of a vector with its threefold need not be zero. -/
theorem cross_not_zero : ∃ a b : N2 (Fl F64), b = N2.smul (num 3) a ∧ N2.cross a b ≠ 0 := ⟨⟨⟨ofRat F64 (1 / 10)⟩, ⟨ofRat F64 (3 / 10)⟩⟩, _, rfl, by decide +kernel⟩

/-- Normalizing the vector zero makes **all components NaN**, in every dimension; nothing is reported. -/
theorem normalize_zero (hF : F = F64 ∨ F = F32) (I : Class (Fl F)) (hI : I ∈ classes (Fl F)) (sqrt : Fl F → Fl F) (hs : sqrt 0 = 0) (m : Rat) :
    I.comps (I.normalize sqrt I.zero (num m)) = List.replicate I.dim ⟨.nan⟩ := by
  have h := Props.componentwise I hI
  have hn : I.norm I.zero = 0 := by
    rw [h.norm, h.inner, h.zero]
    have e0 : (0 : Fl F) * 0 = 0 := Fl.ext (by show ofRat F (0 * 0) = _; rw [mul_zero, ofRat_zero hF]; rfl)
    have e1 : (0 : Fl F) + 0 = 0 := Fl.ext (by show ofRat F (0 + 0) = _; rw [_root_.add_zero, ofRat_zero hF]; rfl)
    have key : ∀ n, (List.zipWith (· * ·) (List.replicate n (0 : Fl F)) (List.replicate n 0)).foldl (· + ·) 0 = 0 := by
      intro n
      induction n with
      | zero => rfl
      | succ n ih => rw [List.replicate_succ, List.zipWith_cons_cons, List.foldl_cons, e0, e1, ih]
    cases hd : I.dim with
    | zero => rfl
    | succ n =>
      show (List.zipWith (· * ·) (List.replicate n (0 : Fl F)) (List.replicate n 0)).foldl (· + ·) (0 * 0) = _
      rw [e0]
      exact key n
  rw [h.normalize, h.abs, hn, hs, h.smul, h.zero, List.map_replicate]
  congr 1
  apply Fl.ext
  show Double.mul F (Num.div F (.fin m) (.fin 0)) (.fin 0) = .nan
  simp only [Num.div, if_pos]
  split
  · rfl
  · simp [Double.mul]

end Verif.MathVec.PropsNum
