import Verif.MathVec.SpecNum
import Verif.MathVec.Laws
import Verif.Double.Props
/-! Rounding errors of vectors. -/

namespace Verif.MathVec.LemmasNum
open Verif.Double Verif.Double.Spec Verif.Double.Lemmas Verif.MathVec Verif.MathVec.Spec Verif.MathVec.Num

theorem good {F : Fmt} (hF : F = F64 ∨ F = F32) : 1 ≤ F.prec ∧ F.emin ≤ F.emax - F.prec := by rcases hF with rfl | rfl <;> decide

theorem max_mem {F : Fmt} (hF : F = F64 ∨ F = F32) : Mem F ((2 : Rat) ^ F.emax - (2 : Rat) ^ (F.emax - F.prec)) := by
  refine ⟨2 ^ F.prec - 1, F.emax - F.prec, ?_, (good hF).2, ?_⟩
  · rcases hF with rfl | rfl <;> decide
  · rcases hF with rfl | rfl <;> decide +kernel

theorem over {F : Fmt} (hF : F = F64 ∨ F = F32) {q : Rat} (h : (2 : Rat) ^ F.emax ≤ rnd F q) : (2 : Rat) ^ F.emax - (2 : Rat) ^ (F.emax - F.prec - 1) ≤ q := by
  by_contra hq
  have hq := lt_of_not_ge hq
  have hp := (good hF).1
  have e : (2 : Rat) ^ (F.emax - F.prec) = 2 * (2 : Rat) ^ (F.emax - F.prec - 1) := by
    rw [show F.emax - (F.prec : Int) = (F.emax - F.prec - 1) + 1 by ring, zpow_add₀ (by norm_num), zpow_one]
    ring_nf
  have hm := max_mem hF
  have pos := two_zpow_pos (F.emax - F.prec - 1)
  by_cases h1 : q ≤ (2 : Rat) ^ F.emax - (2 : Rat) ^ (F.emax - F.prec)
  · have := rnd_le hp hm h1
    linarith
  · have h2 := rnd_near hp hm q
    rw [abs_of_nonneg (by linarith), abs_of_neg (by linarith)] at h2
    linarith

theorem rounded {F : Fmt} (hF : F = F64 ∨ F = F32) (q : Rat) : Rounded F q (ofRat F q) := by
  have hp := (good hF).1
  cases h : ofRat F q with
  | fin y =>
    obtain ⟨rfl, h⟩ := Double.Props.round_num hp h (good hF).2
    exact ⟨h, fun z hz => Double.Props.round_nearest hp hz q⟩
  | inf n =>
    unfold ofRat at h
    dsimp only at h
    split at h
    · cases h; exact over hF (by assumption)
    split at h
    · cases h
      have := over (q := -q) hF (by rw [rnd_neg]; linarith)
      show q ≤ -_
      linarith
    · cases h
  | nan =>
    unfold ofRat at h
    dsimp only at h
    split at h
    · cases h
    split at h <;> cases h

theorem num_abs {F : Fmt} {x : Rat} (h : IsNum F x) : |x| < (2 : Rat) ^ F.emax := by
  obtain ⟨m, e, a, _, c, rfl⟩ := h
  have h1 : |(m : Rat)| < (2 : Rat) ^ (F.prec : Int) := by
    rw [← Int.cast_abs, Int.abs_eq_natAbs, zpow_natCast]; exact_mod_cast a
  rw [abs_mul, abs_of_pos (two_zpow_pos e)]
  calc |(m : Rat)| * (2 : Rat) ^ e < (2 : Rat) ^ (F.prec : Int) * (2 : Rat) ^ e := mul_lt_mul_of_pos_right h1 (two_zpow_pos e)
    _ = (2 : Rat) ^ ((F.prec : Int) + e) := (zpow_add₀ (by norm_num) _ _).symm
    _ ≤ _ := zpow_le_iff.2 (by omega)

theorem ofRat_num {F : Fmt} (hp : 1 ≤ F.prec) {x : Rat} (h : IsNum F x) : ofRat F x = .fin x := by
  have e := Double.Props.round_exact hp h
  rw [ofRat_fin (by rw [e]; exact num_abs h), e]

theorem add_comm (F : Fmt) (x y : D) : Double.add F x y = Double.add F y x := by
  cases x <;> cases y <;> simp only [Double.add]
  · rw [_root_.add_comm]
  · rename_i m n
    cases m <;> cases n <;> rfl

theorem mul_comm (F : Fmt) (x y : D) : Double.mul F x y = Double.mul F y x := by
  cases x <;> cases y <;> simp only [Double.mul]
  · rw [_root_.mul_comm]
  · rename_i m n
    cases m <;> cases n <;> rfl

theorem add_zero {F : Fmt} (hF : F = F64 ∨ F = F32) {x : D} (h : IsFl F x) : Double.add F x (.fin 0) = x := by
  cases x with
  | fin x => rw [Double.add, _root_.add_zero]; exact ofRat_num (good hF).1 h
  | inf n => rfl
  | nan => rfl

theorem one_mul {F : Fmt} (hF : F = F64 ∨ F = F32) {x : D} (h : IsFl F x) : Double.mul F (.fin 1) x = x := by
  cases x with
  | fin x => rw [Double.mul, _root_.one_mul]; exact ofRat_num (good hF).1 h
  | inf n => cases n <;> simp [Double.mul]
  | nan => rfl

theorem ofRat_zero {F : Fmt} (hF : F = F64 ∨ F = F32) : ofRat F 0 = .fin 0 := by rcases hF with rfl | rfl <;> decide +kernel

theorem add_fin {F : Fmt} {x y : D} {r : Rat} (h : Double.add F x y = .fin r) : ∃ a b, x = .fin a ∧ y = .fin b ∧ ofRat F (a + b) = .fin r := by
  cases x with
  | fin a => cases y with
    | fin b => exact ⟨a, b, rfl, rfl, h⟩
    | inf n => cases h
    | nan => cases h
  | inf m => cases y with
    | fin b => cases h
    | inf n => simp only [Double.add] at h; split at h <;> cases h
    | nan => cases h
  | nan => cases h

theorem mul_fin {F : Fmt} {x y : D} {r : Rat} (h : Double.mul F x y = .fin r) : ∃ a b, x = .fin a ∧ y = .fin b ∧ ofRat F (a * b) = .fin r := by
  cases x with
  | fin a => cases y with
    | fin b => exact ⟨a, b, rfl, rfl, h⟩
    | inf n => simp only [Double.mul] at h; split at h <;> cases h
    | nan => cases h
  | inf m => cases y with
    | fin b => simp only [Double.mul] at h; split at h <;> cases h
    | inf n => cases h
    | nan => cases h
  | nan => cases h

/-- Relative error and the step of the smallest numbers. -/
def u (F : Fmt) : Rat := (2 : Rat) ^ (-(F.prec : Int))
def eta (F : Fmt) : Rat := (2 : Rat) ^ (F.emin - 1)

theorem rnd_rel (F : Fmt) (x : Rat) : |rnd F x - x| ≤ u F * |x| + eta F := by
  by_cases hx : x = 0
  · subst hx; rw [rnd_zero]; simp; exact le_of_lt (two_zpow_pos _)
  have h := rnd_err F x
  have hpos := abs_pos.2 hx
  have ⟨lo, _⟩ := expo_spec hpos
  have hu : ulp F x / 2 ≤ u F * |x| ∨ ulp F x / 2 ≤ eta F := by
    rw [ulp, mag_eq]
    rcases le_total (expo |x| - ((F.prec : Int) - 1)) F.emin with h1 | h1
    · right
      rw [max_eq_right h1, eta, zpow_sub₀ (by norm_num), zpow_one]
    · left
      rw [max_eq_left h1, show expo |x| - ((F.prec : Int) - 1) = (-(F.prec : Int) + expo |x|) + 1 by ring, zpow_add₀ (by norm_num), zpow_one,
        zpow_add₀ (by norm_num)]
      have := mul_le_mul_of_nonneg_left lo (le_of_lt (two_zpow_pos (-(F.prec : Int))))
      unfold u
      linarith
  have h1 : 0 ≤ u F * |x| := mul_nonneg (le_of_lt (two_zpow_pos _)) (abs_nonneg x)
  have h2 : 0 < eta F := two_zpow_pos _
  rcases hu with hu | hu <;> linarith

theorem ofRat_rel {F : Fmt} (hF : F = F64 ∨ F = F32) {x y : Rat} (h : ofRat F x = .fin y) : |y - x| ≤ u F * |x| + eta F := by
  rw [(Double.Props.round_num (good hF).1 h (good hF).2).1]
  exact rnd_rel F x

/-- One more product. -/
theorem step {u eta : Rat} (hu : 0 ≤ u) (he : 0 ≤ eta) {s S A p q s' : Rat} {k : Nat} (hk : 1 ≤ k) (hA : |S| ≤ A)
    (hs : |s - S| ≤ ((1 + u) ^ k - 1) * A + 2 * k * (1 + u) ^ k * eta) (hp : |p - q| ≤ u * |q| + eta) (hs' : |s' - (s + p)| ≤ u * |s + p| + eta) :
    |s' - (S + q)| ≤ ((1 + u) ^ (k + 1) - 1) * (A + |q|) + 2 * (k + 1 : Nat) * (1 + u) ^ (k + 1) * eta := by
  have a1 : |s + p| ≤ (A + |s - S|) + (|q| + |p - q|) := by
    have e : s + p = (S + (s - S)) + (q + (p - q)) := by ring
    rw [e]
    refine (abs_add_le _ _).trans (add_le_add ((abs_add_le _ _).trans (add_le_add hA le_rfl)) (abs_add_le _ _))
  have a2 : |s' - (S + q)| ≤ |s' - (s + p)| + (|s - S| + |p - q|) := by
    have e : s' - (S + q) = (s' - (s + p)) + ((s - S) + (p - q)) := by ring
    rw [e]
    exact (abs_add_le _ _).trans (add_le_add le_rfl (abs_add_le _ _))
  have hA0 : 0 ≤ A := (abs_nonneg S).trans hA
  have hq0 := abs_nonneg q
  have g : 1 ≤ (1 + u) ^ k := one_le_pow₀ (by linarith)
  have gu : 1 + u ≤ (1 + u) ^ k := by
    calc 1 + u = (1 + u) ^ 1 := (pow_one _).symm
      _ ≤ _ := pow_le_pow_right₀ (by linarith) hk
  rw [pow_succ]
  generalize (1 + u) ^ k = G at *
  push_cast
  have b1 : u * |s + p| ≤ u * ((A + |s - S|) + (|q| + |p - q|)) := mul_le_mul_of_nonneg_left a1 hu
  have b2 : (1 + u) * |s - S| ≤ (1 + u) * ((G - 1) * A + 2 * k * G * eta) := mul_le_mul_of_nonneg_left hs (by linarith)
  have b3 : (1 + u) * |p - q| ≤ (1 + u) * (u * |q| + eta) := mul_le_mul_of_nonneg_left hp (by linarith)
  have b4 : (1 + u) * (1 + u) * |q| ≤ (G * (1 + u)) * |q| := mul_le_mul_of_nonneg_right (mul_le_mul_of_nonneg_right gu (by linarith)) hq0
  have b5 : (1 + u) * eta ≤ G * (1 + u) * eta := mul_le_mul_of_nonneg_right (le_mul_of_one_le_left (by linarith) g) he
  have b6 : 0 ≤ u * eta := mul_nonneg hu he
  nlinarith

theorem fold_fin {F : Fmt} (l : List (Fl F)) (d : Fl F) (r : Rat) (h : l.foldl (· + ·) d = num r) : ∃ a, d = num a := by
  induction l generalizing d r with
  | nil => exact ⟨r, h⟩
  | cons e l ih =>
    obtain ⟨a, ha⟩ := ih _ r h
    obtain ⟨b, c, h1, _⟩ := add_fin (congrArg Fl.d ha)
    exact ⟨b, Fl.ext_iff.2 h1⟩

theorem fold_error {F : Fmt} (hF : F = F64 ∨ F = F32) (xs ys : List Rat) (hl : xs.length = ys.length) (s0 : Fl F) {s S A r : Rat} {k : Nat} (hk : 1 ≤ k) (hA : |S| ≤ A)
    (hs0 : s0 = num s) (hs : |s - S| ≤ ((1 + u F) ^ k - 1) * A + 2 * k * (1 + u F) ^ k * eta F)
    (h : (List.zipWith (· * ·) (xs.map (num (F := F))) (ys.map num)).foldl (· + ·) s0 = num r) :
    |r - (S + exact xs ys)| ≤ ((1 + u F) ^ (k + xs.length) - 1) * (A + size xs ys) + 2 * (k + xs.length : Nat) * (1 + u F) ^ (k + xs.length) * eta F := by
  induction xs generalizing ys s0 s S A k with
  | nil =>
    subst hs0
    cases ys with
    | nil =>
      cases h
      simp only [exact, size, List.length_nil, _root_.add_zero]
      exact hs
    | cons y ys => cases hl
  | cons x xs ih =>
    cases ys with
    | nil => cases hl
    | cons y ys =>
      subst hs0
      simp only [List.map_cons, List.zipWith_cons_cons, List.foldl_cons] at h
      obtain ⟨s', hs'⟩ := fold_fin _ _ _ h
      obtain ⟨a, p, h1, h2, h3⟩ := add_fin (congrArg Fl.d hs')
      cases h1
      have h2 : Double.mul F (.fin x) (.fin y) = .fin p := h2
      obtain ⟨x', y', h4, h5, h6⟩ := mul_fin h2
      cases h4
      cases h5
      have e1 := ofRat_rel hF h6
      have e2 := ofRat_rel hF h3
      have st := step (le_of_lt (two_zpow_pos _)) (le_of_lt (two_zpow_pos _)) hk hA hs e1 e2
      have hA' : |S + x * y| ≤ A + |x * y| := (abs_add_le _ _).trans (add_le_add hA le_rfl)
      have := ih ys (by simpa using hl) _ (Nat.le_succ_of_le hk) hA' hs' st h
      rw [exact, size, ← add_assoc, ← add_assoc, List.length_cons, show k + (xs.length + 1) = k + 1 + xs.length by omega]
      have em : (if x * y < 0 then -(x * y) else x * y) = |x * y| := by
        split
        · rw [abs_of_neg (by assumption)]
        · rw [abs_of_nonneg (by linarith)]
      rw [em]
      exact this

theorem sum_error {F : Fmt} (hF : F = F64 ∨ F = F32) (xs ys : List Rat) (hl : xs.length = ys.length) {r : Rat}
    (h : Spec.sum (t := Fl F) (List.zipWith (· * ·) (xs.map num) (ys.map num)) = num r) :
    |r - exact xs ys| ≤ ((1 + u F) ^ xs.length - 1) * size xs ys + 2 * xs.length * (1 + u F) ^ xs.length * eta F := by
  cases xs with
  | nil =>
    cases ys with
    | nil =>
      have : r = 0 := (D.fin.inj (congrArg Fl.d h)).symm
      subst this
      simp [exact, size]
    | cons y ys => cases hl
  | cons x xs =>
    cases ys with
    | nil => cases hl
    | cons y ys =>
      have h : (List.zipWith (· * ·) (xs.map (num (F := F))) (ys.map num)).foldl (· + ·) (num x * num y) = num r := h
      obtain ⟨p, hp⟩ := fold_fin _ _ _ h
      have e1 := ofRat_rel hF (show ofRat F (x * y) = .fin p from congrArg Fl.d hp)
      have he : 0 < eta F := two_zpow_pos _
      have hu : 0 < u F := two_zpow_pos _
      have := fold_error hF xs ys (by simpa using hl) _ (s := p) (S := x * y) (A := |x * y|) (k := 1) le_rfl le_rfl hp
        (by rw [pow_one]; push_cast; nlinarith [mul_pos hu he]) h
      have em : (if x * y < 0 then -(x * y) else x * y) = |x * y| := by
        split
        · rw [abs_of_neg (by assumption)]
        · rw [abs_of_nonneg (by linarith)]
      rw [exact, size, em, List.length_cons, show xs.length + 1 = 1 + xs.length by omega]
      exact this

end Verif.MathVec.LemmasNum
