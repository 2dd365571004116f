import Verif.Fft.FloatSpec
import Verif.Fft.Lemmas
import Verif.Double.Lemmas
import Mathlib.Analysis.SpecialFunctions.Trigonometric.Bounds
import Mathlib.Analysis.Real.Pi.Bounds
import Mathlib.Tactic.Linarith
import Mathlib.Tactic.Positivity
import Mathlib.Tactic.NormNum
/-! # Rounding errors of the Fourier transform -/
set_option exponentiation.threshold 2000
namespace Verif.Fft.FloatLemmas
open Verif.Double Verif.Fft Verif.Fft.Spec

/-- Rounding of numbers far from overflow. -/
theorem rnd_rel (x : Rat) : |rnd F64 x - x| ≤ 1 / 2 ^ 53 * |x| + (2 : Rat) ^ (-1075 : Int) := by
  by_cases hx : x = 0
  · subst hx
    rw [Verif.Double.Lemmas.rnd_zero]
    simp
  have hpos : 0 < |x| := abs_pos.2 hx
  have ⟨lo, _⟩ := Verif.Double.Lemmas.expo_spec hpos
  have h := Verif.Double.Lemmas.rnd_err F64 x
  have hu : ulp F64 x / 2 ≤ 1 / 2 ^ 53 * |x| + (2 : Rat) ^ (-1075 : Int) := by
    rw [ulp, Verif.Double.Lemmas.mag_eq]
    have e1 : ((F64.prec : Int) - 1) = 52 := by decide
    have e2 : F64.emin = -1074 := by decide
    rw [e1, e2]
    rcases le_total (expo |x| - 52) (-1074) with hm | hm
    · rw [max_eq_right hm]
      have : (2 : Rat) ^ (-1074 : Int) / 2 = (2 : Rat) ^ (-1075 : Int) := by
        rw [show (-1074 : Int) = -1075 + 1 by norm_num, zpow_add₀ (by norm_num)]
        ring
      rw [this]
      have : 0 ≤ 1 / 2 ^ 53 * |x| := by positivity
      linarith
    · rw [max_eq_left hm]
      have : (2 : Rat) ^ (expo |x| - 52) / 2 = 1 / 2 ^ 53 * (2 : Rat) ^ expo |x| := by
        rw [zpow_sub₀ (by norm_num)]
        norm_num
        ring
      rw [this]
      have h0 : (0 : Rat) < (2 : Rat) ^ (-1075 : Int) := by positivity
      have : (1 / 2 ^ 53 : Rat) * (2 : Rat) ^ expo |x| ≤ 1 / 2 ^ 53 * |x| := mul_le_mul_of_nonneg_left lo (by norm_num)
      linarith
  linarith

/-- The smallest error of rounding. -/
noncomputable def eta : ℝ := (2 : ℝ) ^ (-1075 : Int)

theorem eta_pos : 0 < eta := by unfold eta; positivity

theorem eta_small : eta ≤ 1 / 2 ^ 100 := by
  unfold eta
  rw [show (1 / 2 ^ 100 : ℝ) = (2 : ℝ) ^ (-100 : Int) by norm_num]
  exact zpow_le_zpow_right₀ (by norm_num) (by norm_num)

/-- An operation: the exact result `x`, rounded. -/
theorem op (x : Rat) (h : |(x : ℝ)| ≤ 2 ^ 1010) :
    ∃ r : Rat, ofRat F64 x = .fin r ∧ |(r : ℝ) - x| ≤ 1 / 2 ^ 53 * |(x : ℝ)| + eta := by
  have hr := rnd_rel x
  refine ⟨rnd F64 x, ?_, ?_⟩
  · have hx : |x| ≤ (2 : Rat) ^ 1010 := by
      refine (Rat.cast_le (K := ℝ)).1 ?_
      push_cast
      exact h
    have hb : (2 : Rat) ^ (1012 : Int) ≤ (2 : Rat) ^ F64.emax := Verif.Double.Lemmas.zpow_le_iff.2 (by decide)
    have he : (2 : Rat) ^ (1012 : Int) = 4 * (2 : Rat) ^ 1010 := by
      rw [show (1012 : Int) = ((1012 : Nat) : Int) by norm_num, zpow_natCast, show 1012 = 1010 + 2 by norm_num, pow_add]
      ring
    have hs : (2 : Rat) ^ (-1075 : Int) ≤ 1 := by
      rw [show (1 : Rat) = (2 : Rat) ^ (0 : Int) by norm_num]
      exact Verif.Double.Lemmas.zpow_le_iff.2 (by norm_num)
    have h1 : (1 : Rat) ≤ 2 ^ 1010 := one_le_pow₀ (by norm_num)
    have hq : (1 / 2 ^ 53 : Rat) * |x| ≤ |x| := by
      have := abs_nonneg x
      have : (1 / 2 ^ 53 : Rat) ≤ 1 := by norm_num
      nlinarith
    have hlt : |rnd F64 x| < (2 : Rat) ^ F64.emax := by
      have := abs_sub_abs_le_abs_sub (rnd F64 x) x
      linarith
    rw [abs_lt] at hlt
    unfold ofRat
    dsimp only
    rw [if_neg (by rw [not_le]; exact hlt.2), if_neg (by rw [not_le]; exact hlt.1)]
  · have := (Rat.cast_le (K := ℝ)).2 hr
    push_cast at this
    unfold eta
    exact this

/-- The complex number of two rational parts. -/
noncomputable def cx (x y : Rat) : ℂ := ⟨(x : ℝ), (y : ℝ)⟩

theorem near_iff {e : ℝ} {a : CF} {z : ℂ} : Near e a z ↔ ∃ x y : Rat, a = ⟨.fin x, .fin y⟩ ∧ ‖cx x y - z‖ ≤ e := Iff.rfl

/-- Rounding both parts. -/
theorem parts (p q : Rat) (B : ℝ) (hB : ‖cx p q‖ ≤ B) (h : B ≤ 2 ^ 1010) :
    ∃ r s : Rat, ofRat F64 p = .fin r ∧ ofRat F64 q = .fin s ∧ ‖cx r s - cx p q‖ ≤ 2 * (1 / 2 ^ 53 * B) + 2 * eta := by
  have h1 : |(p : ℝ)| ≤ B := le_trans (Complex.abs_re_le_norm (cx p q)) hB
  have h2 : |(q : ℝ)| ≤ B := le_trans (Complex.abs_im_le_norm (cx p q)) hB
  obtain ⟨r, hr, er⟩ := op p (le_trans h1 h)
  obtain ⟨s, hs, es⟩ := op q (le_trans h2 h)
  refine ⟨r, s, hr, hs, le_trans (Complex.norm_le_abs_re_add_abs_im _) ?_⟩
  have e1 : (cx r s - cx p q).re = (r : ℝ) - p := rfl
  have e2 : (cx r s - cx p q).im = (s : ℝ) - q := rfl
  rw [e1, e2]
  have : (1 / 2 ^ 53 : ℝ) * |(p : ℝ)| ≤ 1 / 2 ^ 53 * B := mul_le_mul_of_nonneg_left h1 (by norm_num)
  have : (1 / 2 ^ 53 : ℝ) * |(q : ℝ)| ≤ 1 / 2 ^ 53 * B := mul_le_mul_of_nonneg_left h2 (by norm_num)
  linarith

theorem near_bound {e : ℝ} {x y : Rat} {z : ℂ} (h : ‖cx x y - z‖ ≤ e) : ‖cx x y‖ ≤ ‖z‖ + e := by
  have := norm_sub_norm_le (cx x y) z
  linarith

/-- Addition. -/
theorem near_add {a b : CF} {z w : ℂ} {e M : ℝ} (ha : Near e a z) (hb : Near e b w) (hz : ‖z‖ ≤ M) (hw : ‖w‖ ≤ M)
    (h : 2 * (M + e) ≤ 2 ^ 1010) : Near (2 * e + 4 * (1 / 2 ^ 53 * (M + e)) + 2 * eta) (a + b) (z + w) := by
  rw [near_iff] at *
  obtain ⟨x, y, rfl, h1⟩ := ha
  obtain ⟨x', y', rfl, h2⟩ := hb
  have e1 : cx (x + x') (y + y') = cx x y + cx x' y' := by
    apply Complex.ext <;> simp [cx]
  have hn : ‖cx (x + x') (y + y')‖ ≤ 2 * (M + e) := by
    rw [e1]
    have := norm_add_le (cx x y) (cx x' y')
    have := near_bound h1
    have := near_bound h2
    linarith
  obtain ⟨r, s, hr, hs, h3⟩ := parts _ _ _ hn h
  refine ⟨r, s, ?_, ?_⟩
  · show (⟨add F64 (.fin x) (.fin x'), add F64 (.fin y) (.fin y')⟩ : CF) = _
    simp only [add, hr, hs]
  · have e2 : cx r s - (z + w) = (cx r s - cx (x + x') (y + y')) + ((cx x y - z) + (cx x' y' - w)) := by
      rw [e1]; ring
    rw [e2]
    have := norm_add_le (cx r s - cx (x + x') (y + y')) ((cx x y - z) + (cx x' y' - w))
    have := norm_add_le (cx x y - z) (cx x' y' - w)
    linarith

/-- Subtraction. -/
theorem near_sub {a b : CF} {z w : ℂ} {e M : ℝ} (ha : Near e a z) (hb : Near e b w) (hz : ‖z‖ ≤ M) (hw : ‖w‖ ≤ M)
    (h : 2 * (M + e) ≤ 2 ^ 1010) : Near (2 * e + 4 * (1 / 2 ^ 53 * (M + e)) + 2 * eta) (a - b) (z - w) := by
  rw [near_iff] at *
  obtain ⟨x, y, rfl, h1⟩ := ha
  obtain ⟨x', y', rfl, h2⟩ := hb
  have e1 : cx (x + -x') (y + -y') = cx x y - cx x' y' := by
    apply Complex.ext <;> simp [cx] <;> ring
  have hn : ‖cx (x + -x') (y + -y')‖ ≤ 2 * (M + e) := by
    rw [e1]
    have := norm_sub_le (cx x y) (cx x' y')
    have := near_bound h1
    have := near_bound h2
    linarith
  obtain ⟨r, s, hr, hs, h3⟩ := parts _ _ _ hn h
  refine ⟨r, s, ?_, ?_⟩
  · show (⟨sub F64 (.fin x) (.fin x'), sub F64 (.fin y) (.fin y')⟩ : CF) = _
    simp only [sub, neg, add, hr, hs]
  · have e2 : cx r s - (z - w) = (cx r s - cx (x + -x') (y + -y')) + ((cx x y - z) - (cx x' y' - w)) := by
      rw [e1]; ring
    rw [e2]
    have := norm_add_le (cx r s - cx (x + -x') (y + -y')) ((cx x y - z) - (cx x' y' - w))
    have := norm_sub_le (cx x y - z) (cx x' y' - w)
    linarith

/-- A sum or difference of two products, each rounded. -/
theorem two_products (p q : Rat) (P : ℝ) (hp : |(p : ℝ)| ≤ P) (hq : |(q : ℝ)| ≤ P) (h : P ≤ 2 ^ 1005) :
    ∃ r s t t' : Rat, ofRat F64 p = .fin r ∧ ofRat F64 q = .fin s ∧ ofRat F64 (r + s) = .fin t ∧ ofRat F64 (r + -s) = .fin t' ∧
      |(t : ℝ) - (p + q)| ≤ 5 * (1 / 2 ^ 53 * P) + 4 * eta ∧ |(t' : ℝ) - (p - q)| ≤ 5 * (1 / 2 ^ 53 * P) + 4 * eta := by
  have hP : 0 ≤ P := le_trans (abs_nonneg _) hp
  have hbig : (2 : ℝ) ^ 1010 = 32 * 2 ^ 1005 := by
    rw [show 1010 = 1005 + 5 by norm_num, pow_add]; ring
  have h1 : (1 : ℝ) ≤ 2 ^ 1005 := one_le_pow₀ (by norm_num)
  have heta := eta_small
  have heta0 := eta_pos
  obtain ⟨r, hr, er⟩ := op p (by linarith)
  obtain ⟨s, hs, es⟩ := op q (by linarith)
  have kp : (1 / 2 ^ 53 : ℝ) * |(p : ℝ)| ≤ 1 / 2 ^ 53 * P := mul_le_mul_of_nonneg_left hp (by norm_num)
  have kq : (1 / 2 ^ 53 : ℝ) * |(q : ℝ)| ≤ 1 / 2 ^ 53 * P := mul_le_mul_of_nonneg_left hq (by norm_num)
  have br : |(r : ℝ)| ≤ P + 1 / 2 ^ 53 * P + eta := by
    have := abs_sub_abs_le_abs_sub (r : ℝ) p
    linarith
  have bs : |(s : ℝ)| ≤ P + 1 / 2 ^ 53 * P + eta := by
    have := abs_sub_abs_le_abs_sub (s : ℝ) q
    linarith
  have b1 : |((r + s : Rat) : ℝ)| ≤ 2 * (P + 1 / 2 ^ 53 * P + eta) := by
    push_cast
    have := abs_add_le (r : ℝ) s
    linarith
  have b2 : |((r + -s : Rat) : ℝ)| ≤ 2 * (P + 1 / 2 ^ 53 * P + eta) := by
    push_cast
    have := abs_add_le (r : ℝ) (-s)
    rw [abs_neg] at this
    linarith
  have hle : 2 * (P + 1 / 2 ^ 53 * P + eta) ≤ 2 ^ 1010 := by
    norm_num at heta ⊢
    linarith
  obtain ⟨t, ht, et⟩ := op (r + s) (le_trans b1 hle)
  obtain ⟨t', ht', et'⟩ := op (r + -s) (le_trans b2 hle)
  have k1 : (1 / 2 ^ 53 : ℝ) * |((r + s : Rat) : ℝ)| ≤ 1 / 2 ^ 53 * (2 * (P + 1 / 2 ^ 53 * P + eta)) :=
    mul_le_mul_of_nonneg_left b1 (by norm_num)
  have k2 : (1 / 2 ^ 53 : ℝ) * |((r + -s : Rat) : ℝ)| ≤ 1 / 2 ^ 53 * (2 * (P + 1 / 2 ^ 53 * P + eta)) :=
    mul_le_mul_of_nonneg_left b2 (by norm_num)
  refine ⟨r, s, t, t', hr, hs, ht, ht', ?_, ?_⟩
  · have e : (t : ℝ) - (p + q) = (t - ((r + s : Rat) : ℝ)) + ((r - p) + (s - q)) := by push_cast; ring
    rw [e]
    have := abs_add_le ((t : ℝ) - ((r + s : Rat) : ℝ)) ((r - p) + (s - q))
    have := abs_add_le ((r : ℝ) - p) (s - q)
    norm_num at *
    linarith
  · have e : (t' : ℝ) - (p - q) = (t' - ((r + -s : Rat) : ℝ)) + ((r - p) - (s - q)) := by push_cast; ring
    rw [e]
    have := abs_add_le ((t' : ℝ) - ((r + -s : Rat) : ℝ)) ((r - p) - (s - q))
    have := abs_sub ((r : ℝ) - p) (s - q)
    norm_num at *
    linarith

/-- Multiplication. -/
theorem near_mul {a b : CF} {w x : ℂ} {τ e X : ℝ} (ha : Near τ a w) (hb : Near e b x) (hw : ‖w‖ ≤ 1) (hτ : τ ≤ 1)
    (hx : ‖x‖ + e ≤ X) (h : X ≤ 2 ^ 1004) : Near (e + (τ + 20 / 2 ^ 53) * X + 8 * eta) (a * b) (w * x) := by
  rw [near_iff] at *
  obtain ⟨c, s, rfl, h1⟩ := ha
  obtain ⟨u, v, rfl, h2⟩ := hb
  have nw : ‖cx c s‖ ≤ 2 := by have := near_bound h1; linarith
  have nx : ‖cx u v‖ ≤ X := by have := near_bound h2; linarith
  have hX : 0 ≤ X := le_trans (norm_nonneg _) nx
  have hτ0 : 0 ≤ τ := le_trans (norm_nonneg _) h1
  have bound : ∀ α β : ℝ, |α| ≤ ‖cx c s‖ → |β| ≤ ‖cx u v‖ → |α * β| ≤ 2 * X := by
    intro α β hα hβ
    rw [abs_mul]
    exact mul_le_mul (le_trans hα nw) (le_trans hβ nx) (abs_nonneg _) (by norm_num)
  have c1 := Complex.abs_re_le_norm (cx c s)
  have c2 := Complex.abs_im_le_norm (cx c s)
  have c3 := Complex.abs_re_le_norm (cx u v)
  have c4 := Complex.abs_im_le_norm (cx u v)
  have hP : 2 * X ≤ 2 ^ 1005 := by
    rw [show 1005 = 1004 + 1 by norm_num, pow_succ]; linarith
  have b1 : |((c * u : Rat) : ℝ)| ≤ 2 * X := by push_cast; exact bound _ _ c1 c3
  have b2 : |((s * v : Rat) : ℝ)| ≤ 2 * X := by push_cast; exact bound _ _ c2 c4
  have b3 : |((c * v : Rat) : ℝ)| ≤ 2 * X := by push_cast; exact bound _ _ c1 c4
  have b4 : |((s * u : Rat) : ℝ)| ≤ 2 * X := by push_cast; exact bound _ _ c2 c3
  obtain ⟨r1, s1, _, t1, g1, g2, _, g3, _, g4⟩ := two_products (c * u) (s * v) (2 * X) b1 b2 hP
  obtain ⟨r2, s2, t2, _, k1, k2, k3, _, k4, _⟩ := two_products (c * v) (s * u) (2 * X) b3 b4 hP
  refine ⟨t1, t2, ?_, ?_⟩
  · show (⟨sub F64 (mul F64 (.fin c) (.fin u)) (mul F64 (.fin s) (.fin v)), add F64 (mul F64 (.fin c) (.fin v)) (mul F64 (.fin s) (.fin u))⟩ : CF) = _
    simp only [mul, g1, g2, k1, k2, sub, neg, add, g3, k3]
  · have e1 : cx t1 t2 - w * x = (cx t1 t2 - cx c s * cx u v) + ((cx c s - w) * cx u v + w * (cx u v - x)) := by ring
    have n1 : ‖cx t1 t2 - cx c s * cx u v‖ ≤ 20 / 2 ^ 53 * X + 8 * eta := by
      refine le_trans (Complex.norm_le_abs_re_add_abs_im _) ?_
      have r : (cx t1 t2 - cx c s * cx u v).re = (t1 : ℝ) - (((c * u : Rat) : ℝ) - ((s * v : Rat) : ℝ)) := by
        simp [cx]
      have i : (cx t1 t2 - cx c s * cx u v).im = (t2 : ℝ) - (((c * v : Rat) : ℝ) + ((s * u : Rat) : ℝ)) := by
        simp [cx]
      rw [r, i]
      linarith
    have n2 : ‖(cx c s - w) * cx u v‖ ≤ τ * X := by
      rw [norm_mul]
      exact mul_le_mul h1 nx (norm_nonneg _) hτ0
    have n3 : ‖w * (cx u v - x)‖ ≤ e := by
      rw [norm_mul]
      have := mul_le_mul hw h2 (norm_nonneg _) zero_le_one
      linarith
    rw [e1]
    have := norm_add_le (cx t1 t2 - cx c s * cx u v) ((cx c s - w) * cx u v + w * (cx u v - x))
    have := norm_add_le ((cx c s - w) * cx u v) (w * (cx u v - x))
    linarith

theorem near_mono {e e' : ℝ} {a : CF} {z : ℂ} (h : Near e a z) (he : e ≤ e') : Near e' a z := by
  obtain ⟨x, y, h1, h2⟩ := h
  exact ⟨x, y, h1, le_trans h2 he⟩

/-- One step of the recursion. -/
theorem near_step {a b t : CF} {z w r : ℂ} {e M : ℝ} (ha : Near e a z) (hb : Near e b w) (ht : Near (1 / 2 ^ 46) t r)
    (hz : ‖z‖ ≤ M) (hw : ‖w‖ ≤ M) (hr : ‖r‖ ≤ 1) (h : M + e ≤ 2 ^ 1002) :
    Near (2 * e + 1 / 2 ^ 43 * (M + e) + 16 * eta) (a + b) (z + w) ∧
      Near (2 * e + 1 / 2 ^ 43 * (M + e) + 16 * eta) (t * (a - b)) (r * (z - w)) := by
  have h0 := eta_pos
  have h1 := eta_small
  have hM : 0 ≤ M := le_trans (norm_nonneg _) hz
  have he : 0 ≤ e := by
    obtain ⟨x, y, _, h⟩ := ha
    exact le_trans (norm_nonneg _) h
  have hbig : (2 : ℝ) ^ 1010 = 256 * 2 ^ 1002 := by
    rw [show 1010 = 1002 + 8 by norm_num, pow_add]; ring
  have hbig' : (2 : ℝ) ^ 1004 = 4 * 2 ^ 1002 := by
    rw [show 1004 = 1002 + 2 by norm_num, pow_add]; ring
  have h2 : (1 : ℝ) ≤ 2 ^ 1002 := one_le_pow₀ (by norm_num)
  have hc : 2 * (M + e) ≤ 2 ^ 1010 := by linarith
  have A := near_add ha hb hz hw hc
  have S := near_sub ha hb hz hw hc
  refine ⟨near_mono A ?_, ?_⟩
  · norm_num
    linarith
  · have hx : ‖z - w‖ ≤ 2 * M := by
      have := norm_sub_le z w
      linarith
    have P := near_mul ht S hr (by norm_num) (X := 2 * M + (2 * e + 4 * (1 / 2 ^ 53 * (M + e)) + 2 * eta)) (by linarith)
      (by norm_num at h1 ⊢; norm_num at hbig'; linarith)
    refine near_mono P ?_
    norm_num
    linarith

/-- The recursion, from both sides. -/
theorem near_G (tF : Nat → CF) (tC : Nat → ℂ) (m : Nat) (hm : m ≤ 31) (f : Nat → CF) (g : Nat → ℂ) (e M : ℝ)
    (ht : ∀ k, k < 2 ^ (m - 1) → Near (1 / 2 ^ 46) (tF k) (tC k) ∧ ‖tC k‖ ≤ 1) (hg : ∀ p, p < 2 ^ m → Near e (f p) (g p) ∧ ‖g p‖ ≤ M)
    (hb : 2 ^ m * (M + e) ≤ 2 ^ 1000) (s d : Nat) (hs : s + d = m) (b : Nat) (hbd : b < 2 ^ d) (j : Nat) :
    Near (2 ^ s * (e + s * (1 / 2 ^ 43 * (M + e) + 16 * eta))) (Lemmas.G tF m f s b j) (Lemmas.G tC m g s b j) ∧
      ‖Lemmas.G tC m g s b j‖ ≤ 2 ^ s * M := by
  have h0 := eta_pos
  have h1 := eta_small
  induction s generalizing d b j with
  | zero =>
    have := hg (Lemmas.rev m b) (Lemmas.rev_lt m b)
    simpa [Lemmas.G] using this
  | succ s ih =>
    have hd2 : 2 ^ (d + 1) = 2 * 2 ^ d := by rw [Nat.pow_succ, Nat.mul_comm]
    have hM : 0 ≤ M := le_trans (norm_nonneg _) (hg 0 (Nat.pos_of_ne_zero (by simp))).2
    have he : 0 ≤ e := by
      obtain ⟨x, y, _, h⟩ := (hg 0 (Nat.pos_of_ne_zero (by simp))).1
      exact le_trans (norm_nonneg _) h
    have hk : Lemmas.rev (m - 1) b < 2 ^ (m - 1) := Lemmas.rev_lt _ _
    have ⟨ht1, ht2⟩ := ht _ hk
    have hs31 : (s : ℝ) ≤ 30 := by
      have : s ≤ 30 := by omega
      exact_mod_cast this
    have hs0 : (0 : ℝ) ≤ s := Nat.cast_nonneg s
    have hp : (0 : ℝ) < 2 ^ s := by positivity
    have hp1 : (1 : ℝ) ≤ 2 ^ s := one_le_pow₀ (by norm_num)
    have hle : (2 : ℝ) ^ s ≤ 2 ^ m := pow_le_pow_right₀ (by norm_num) (by omega)
    have hle31 : (2 : ℝ) ^ s ≤ 2 ^ 31 := pow_le_pow_right₀ (by norm_num) (by omega)
    set c : ℝ := 1 / 2 ^ 43 * (M + e) + 16 * eta with hc
    have hc0 : 0 ≤ c := by positivity
    have hsc : (s : ℝ) * c ≤ 30 * c := mul_le_mul_of_nonneg_right hs31 hc0
    have hsc0 : 0 ≤ (s : ℝ) * c := mul_nonneg hs0 hc0
    have hbig : (2 : ℝ) ^ 1002 = 4 * 2 ^ 1000 := by
      rw [show 1002 = 1000 + 2 by norm_num, pow_add]; ring
    have h2k : (1 : ℝ) ≤ 2 ^ 1000 := one_le_pow₀ (by norm_num)
    have hroom : 2 ^ s * M + 2 ^ s * (e + s * c) ≤ 2 ^ 1002 := by
      have r1 : (2 : ℝ) ^ s * (M + e) ≤ 2 ^ 1000 := le_trans (mul_le_mul_of_nonneg_right hle (by positivity)) hb
      have r2 : (2 : ℝ) ^ s * (s * c) ≤ 2 ^ s * (30 * c) := mul_le_mul_of_nonneg_left hsc hp.le
      have r3 : (2 : ℝ) ^ s * (30 * c) = 30 / 2 ^ 43 * (2 ^ s * (M + e)) + 480 * (2 ^ s * eta) := by rw [hc]; ring
      have r4 : (2 : ℝ) ^ s * eta ≤ 2 ^ 31 * (1 / 2 ^ 100) := mul_le_mul hle31 h1 h0.le (by norm_num)
      have r5 : (2 : ℝ) ^ 31 * (1 / 2 ^ 100) ≤ 1 / 480 := by norm_num
      have r6 : (30 / 2 ^ 43 : ℝ) * (2 ^ s * (M + e)) ≤ 1 * (2 ^ s * (M + e)) :=
        mul_le_mul_of_nonneg_right (by norm_num) (by positivity)
      nlinarith
    have hgrow : 2 * (2 ^ s * (e + s * c)) + 1 / 2 ^ 43 * (2 ^ s * M + 2 ^ s * (e + s * c)) + 16 * eta
        ≤ 2 ^ (s + 1) * (e + (s + 1 : Nat) * c) := by
      have q1 : 16 * eta ≤ 2 ^ s * (16 * eta) := by nlinarith
      have q2 : (1 / 2 ^ 43 : ℝ) * (s * c) ≤ c := by
        have : (1 / 2 ^ 43 : ℝ) * (s * c) ≤ 1 / 2 ^ 43 * (30 * c) := mul_le_mul_of_nonneg_left hsc (by norm_num)
        have : (1 / 2 ^ 43 : ℝ) * (30 * c) ≤ c := by
          have : (1 / 2 ^ 43 * 30 : ℝ) ≤ 1 := by norm_num
          nlinarith
        linarith
      have q3 : 1 / 2 ^ 43 * (2 ^ s * M + 2 ^ s * (e + s * c)) + 2 ^ s * (16 * eta) = 2 ^ s * (c + 1 / 2 ^ 43 * (s * c)) := by
        rw [hc]; ring
      have q4 : (2 : ℝ) ^ s * (c + 1 / 2 ^ 43 * (s * c)) ≤ 2 ^ s * (c + c) := mul_le_mul_of_nonneg_left (by linarith) hp.le
      have q5 : (2 : ℝ) ^ (s + 1) * (e + (s + 1 : Nat) * c) = 2 * (2 ^ s * (e + s * c)) + 2 ^ s * (c + c) := by
        push_cast
        ring
      rw [q5]
      linarith
    have key := fun j => near_step (ih (d + 1) (by omega) (2 * b) (by omega) j).1 (ih (d + 1) (by omega) (2 * b + 1) (by omega) j).1 ht1
      (ih (d + 1) (by omega) (2 * b) (by omega) j).2 (ih (d + 1) (by omega) (2 * b + 1) (by omega) j).2 ht2 hroom
    rw [Lemmas.G, Lemmas.G]
    by_cases hj : j < 2 ^ s
    · rw [if_pos hj, if_pos hj]
      refine ⟨near_mono (key j).1 hgrow, ?_⟩
      have n1 := (ih (d + 1) (by omega) (2 * b) (by omega) j).2
      have n2 := (ih (d + 1) (by omega) (2 * b + 1) (by omega) j).2
      refine le_trans (norm_add_le _ _) ?_
      rw [pow_succ]
      linarith
    · rw [if_neg hj, if_neg hj]
      refine ⟨near_mono (key (j - 2 ^ s)).2 hgrow, ?_⟩
      have n1 := (ih (d + 1) (by omega) (2 * b) (by omega) (j - 2 ^ s)).2
      have n2 := (ih (d + 1) (by omega) (2 * b + 1) (by omega) (j - 2 ^ s)).2
      rw [norm_mul]
      have n3 := norm_sub_le (Lemmas.G tC m g s (2 * b) (j - 2 ^ s)) (Lemmas.G tC m g s (2 * b + 1) (j - 2 ^ s))
      have n4 := mul_le_mul ht2 n3 (norm_nonneg _) zero_le_one
      rw [pow_succ]
      linarith

/-! ### The roots of unity -/

/-- Rounding of numbers below `2^E`. -/
theorem op_abs (x : Rat) (E : Int) (hE : -1021 ≤ E) (hE' : E ≤ 10) (h : |(x : ℝ)| < (2 : ℝ) ^ E) :
    ∃ r : Rat, ofRat F64 x = .fin r ∧ |(r : ℝ) - x| ≤ (2 : ℝ) ^ (E - 54) := by
  have hx : |x| < (2 : Rat) ^ E := by
    refine (Rat.cast_lt (K := ℝ)).1 ?_
    push_cast
    exact h
  have hx1 : |(x : ℝ)| ≤ 2 ^ 1010 := by
    have : (2 : ℝ) ^ E ≤ (2 : ℝ) ^ (10 : Int) := zpow_le_zpow_right₀ (by norm_num) hE'
    have h2 : (2 : ℝ) ^ (10 : Int) ≤ 2 ^ 1010 := by norm_num
    linarith
  obtain ⟨r, hr, _⟩ := op x hx1
  have hrr : r = rnd F64 x := by
    have : ofRat F64 x = .fin (rnd F64 x) := by
      unfold ofRat at hr ⊢
      dsimp only at hr ⊢
      split at hr
      · cases hr
      · split at hr
        · cases hr
        · rename_i h1 h2
          rw [if_neg h1, if_neg h2]
    rw [this] at hr
    cases hr
    rfl
  have hp : F64.emin ≤ E - F64.prec := by
    have e1 : F64.emin = -1074 := by decide
    have e2 : (F64.prec : Int) = 53 := by decide
    rw [e1, e2]
    omega
  have hl := Verif.Double.Lemmas.rnd_err_le hx hp
  refine ⟨r, hr, ?_⟩
  have e2 : (F64.prec : Int) = 53 := by decide
  rw [e2] at hl
  have e3 : (2 : Rat) ^ (E - 53) / 2 = (2 : Rat) ^ (E - 54) := by
    rw [show E - 53 = (E - 54) + 1 by ring, zpow_add₀ (by norm_num)]
    norm_num
  rw [e3, ← hrr] at hl
  have := (Rat.cast_le (K := ℝ)).2 hl
  push_cast at this
  exact this

theorem theta_near {L : Libm} (hL : Accurate L) (flip : Int) (hf : flip = 1 ∨ flip = -1) (m : Nat) (hm : m ≤ 31) :
    ∃ t : Rat, theta L flip (2 ^ m) = .fin t ∧ |(t : ℝ) * 2 ^ m - 2 * Real.pi * flip| ≤ 1 / 2 ^ 48 := by
  obtain ⟨⟨q, hq, eq⟩, _⟩ := hL
  have p1 := Real.pi_gt_d2
  have p2 := Real.pi_lt_d2
  have eq' := abs_le.1 eq
  have z2 : (2 : ℝ) ^ (2 : Int) = 4 := by norm_num
  have z3 : (2 : ℝ) ^ (3 : Int) = 8 := by norm_num
  obtain ⟨a, ha, ea⟩ := op_abs (q * 4) 2 (by norm_num) (by norm_num) (by
    push_cast
    rw [abs_lt, z2]
    norm_num at eq' ⊢
    constructor <;> linarith [eq'.1, eq'.2])
  have ea' := abs_le.1 ea
  have za : (2 : ℝ) ^ ((2 : Int) - 54) = 1 / 2 ^ 52 := by norm_num
  rw [za] at ea'
  push_cast at ea'
  obtain ⟨b, hb, eb⟩ := op_abs (2 * a) 3 (by norm_num) (by norm_num) (by
    push_cast
    rw [abs_lt, z3]
    norm_num at eq' ea' ⊢
    constructor <;> linarith [eq'.1, eq'.2, ea'.1, ea'.2])
  have eb' := abs_le.1 eb
  have zb : (2 : ℝ) ^ ((3 : Int) - 54) = 1 / 2 ^ 51 := by norm_num
  rw [zb] at eb'
  push_cast at eb'
  have b8 : |(b : ℝ)| < 7 := by
    rw [abs_lt]
    norm_num at eq' ea' eb' ⊢
    constructor <;> linarith [eq'.1, eq'.2, ea'.1, ea'.2, eb'.1, eb'.2]
  have hn : (0 : ℝ) < 2 ^ m := by positivity
  have zm : (2 : ℝ) ^ ((3 : Int) - m) = 8 / 2 ^ m := by
    rw [zpow_sub₀ (by norm_num), zpow_natCast, z3]
  have zm' : (2 : ℝ) ^ ((3 : Int) - m - 54) = 1 / 2 ^ 51 / 2 ^ m := by
    rw [zpow_sub₀ (by norm_num), zm]
    norm_num
    ring
  obtain ⟨c, hc, ec⟩ := op_abs (b / ((2 ^ m : Nat) : Rat)) (3 - m) (by omega) (by omega) (by
    push_cast
    rw [zm, abs_div, abs_of_pos hn]
    exact div_lt_div_of_pos_right (by linarith) hn)
  have ec2 : |(c : ℝ) * 2 ^ m - b| ≤ 1 / 2 ^ 51 := by
    rw [zm'] at ec
    push_cast at ec
    have e : (c : ℝ) * 2 ^ m - b = (c - b / 2 ^ m) * 2 ^ m := by field_simp
    rw [e, abs_mul, abs_of_pos hn, ← le_div_iff₀ hn]
    exact ec
  have c8 : |(c : ℝ)| < 8 / 2 ^ m := by
    have e : |(c : ℝ)| * 2 ^ m = |(c : ℝ) * 2 ^ m| := by rw [abs_mul, abs_of_pos hn]
    rw [lt_div_iff₀ hn, e]
    have := abs_sub_abs_le_abs_sub ((c : ℝ) * 2 ^ m) b
    norm_num at ec2
    linarith
  obtain ⟨d, hd, ed⟩ := op_abs (c * (flip : Rat)) (3 - m) (by omega) (by omega) (by
    rw [zm]
    rcases hf with rfl | rfl <;> push_cast
    · rw [mul_one]; exact c8
    · rw [mul_neg, mul_one, abs_neg]; exact c8)
  have ed2 : |(d : ℝ) * 2 ^ m - c * flip * 2 ^ m| ≤ 1 / 2 ^ 51 := by
    rw [zm'] at ed
    push_cast at ed
    rw [← sub_mul, abs_mul, abs_of_pos hn, ← le_div_iff₀ hn]
    exact ed
  refine ⟨d, ?_, ?_⟩
  · unfold theta
    rw [hq]
    simp only [mul, ha, hb, divNat, hc, hd]
  · have ec' := abs_le.1 ec2
    have ed' := abs_le.1 ed2
    rw [abs_le]
    norm_num at eq' ea' eb' ec' ed' ⊢
    rcases hf with rfl | rfl
    · push_cast at *
      constructor <;> linarith [eq'.1, eq'.2, ea'.1, ea'.2, eb'.1, eb'.2, ec'.1, ec'.2, ed'.1, ed'.2]
    · push_cast at *
      constructor <;> linarith [eq'.1, eq'.2, ea'.1, ea'.2, eb'.1, eb'.2, ec'.1, ec'.2, ed'.1, ed'.2]

theorem tw_near {L : Libm} (hL : Accurate L) (flip : Int) (hf : flip = 1 ∨ flip = -1) (m : Nat) (hm : m ≤ 31) (k : Nat)
    (hk : k < 2 ^ (m - 1)) : Near (1 / 2 ^ 46) (fTw L flip (2 ^ m) k) (cTw flip (2 ^ m) k) := by
  obtain ⟨t, ht, et⟩ := theta_near hL flip hf m hm
  have p1 := Real.pi_gt_d2
  have p2 := Real.pi_lt_d2
  have hn : (0 : ℝ) < 2 ^ m := by positivity
  have hk2 : (2 * k : ℝ) ≤ 2 ^ m ∨ k = 0 := by
    cases m with
    | zero => right; simpa using hk
    | succ m =>
      left
      rw [Nat.add_sub_cancel] at hk
      have : 2 * k ≤ 2 ^ (m + 1) := by rw [Nat.pow_succ]; omega
      exact_mod_cast this
  have hkn : (k : ℝ) / 2 ^ m ≤ 1 / 2 := by
    rcases hk2 with h | h
    · rw [div_le_iff₀ hn]; linarith
    · subst h; simp
  have hk0 : (0 : ℝ) ≤ (k : ℝ) / 2 ^ m := by positivity
  -- the angle before rounding
  have ang : |(t : ℝ) * k - 2 * Real.pi * flip * (k / 2 ^ m)| ≤ 1 / 2 ^ 49 := by
    have e : (t : ℝ) * k - 2 * Real.pi * flip * (k / 2 ^ m) = (t * 2 ^ m - 2 * Real.pi * flip) * (k / 2 ^ m) := by
      field_simp
    rw [e, abs_mul, abs_of_nonneg hk0]
    have := mul_le_mul et hkn hk0 (by norm_num)
    norm_num at this ⊢
    linarith
  have full : |2 * Real.pi * (flip : ℝ) * (k / 2 ^ m)| ≤ 3.15 := by
    rw [abs_mul, abs_of_nonneg hk0]
    have : |2 * Real.pi * (flip : ℝ)| ≤ 6.3 := by
      rcases hf with rfl | rfl <;> push_cast <;> rw [abs_le] <;> constructor <;> linarith
    have := mul_le_mul this hkn hk0 (by norm_num)
    linarith
  have small : |(t : ℝ) * k| < 3.2 := by
    have := abs_sub_abs_le_abs_sub ((t : ℝ) * k) (2 * Real.pi * flip * (k / 2 ^ m))
    linarith
  have z2 : (2 : ℝ) ^ (2 : Int) = 4 := by norm_num
  obtain ⟨a, ha, ea⟩ := op_abs (t * (k : Rat)) 2 (by norm_num) (by norm_num) (by
    push_cast
    rw [z2]
    linarith)
  have za : (2 : ℝ) ^ ((2 : Int) - 54) = 1 / 2 ^ 52 := by norm_num
  rw [za] at ea
  push_cast at ea
  have a4 : |a| ≤ 4 := by
    refine (Rat.cast_le (K := ℝ)).1 ?_
    push_cast
    have := abs_sub_abs_le_abs_sub (a : ℝ) (t * k)
    linarith
  have dist : |(a : ℝ) - 2 * Real.pi / ((2 ^ m : Nat) : ℝ) * flip * k| ≤ 1 / 2 ^ 48 := by
    have e : (a : ℝ) - 2 * Real.pi / ((2 ^ m : Nat) : ℝ) * flip * k
        = (a - t * k) + (t * k - 2 * Real.pi * flip * (k / 2 ^ m)) := by
      push_cast
      field_simp
      ring
    rw [e]
    have := abs_add_le ((a : ℝ) - t * k) (t * k - 2 * Real.pi * flip * (k / 2 ^ m))
    norm_num at *
    linarith
  obtain ⟨⟨c, hc, ec⟩, ⟨s, hs, es⟩⟩ := hL.2 a a4
  rw [near_iff]
  refine ⟨c, s, ?_, ?_⟩
  · unfold fTw
    rw [ht]
    simp only [mul]
    rw [ha, hc, hs]
  · refine le_trans (Complex.norm_le_abs_re_add_abs_im _) ?_
    set θ : ℝ := 2 * Real.pi / ((2 ^ m : Nat) : ℝ) * flip * k with hθ
    have r : (cx c s - cTw flip (2 ^ m) k).re = (c - Real.cos a) + (Real.cos a - Real.cos θ) := by
      simp [cx, cTw, hθ]
    have i : (cx c s - cTw flip (2 ^ m) k).im = (s - Real.sin a) + (Real.sin a - Real.sin θ) := by
      simp [cx, cTw, hθ]
    rw [r, i]
    have c1 := abs_add_le ((c : ℝ) - Real.cos a) (Real.cos a - Real.cos θ)
    have s1 := abs_add_le ((s : ℝ) - Real.sin a) (Real.sin a - Real.sin θ)
    have c2 := Real.abs_cos_sub_cos_le a θ
    have s2 := Real.abs_sin_sub_sin_le a θ
    norm_num at *
    linarith

theorem cTw_norm (flip : ℝ) (n k : Nat) : ‖cTw flip n k‖ ≤ 1 := by
  have : ‖cTw flip n k‖ ^ 2 = 1 := by
    rw [Complex.sq_norm, Complex.normSq_apply, cTw]
    have := Real.sin_sq_add_cos_sq (2 * Real.pi / n * flip * k)
    simp only
    nlinarith
  nlinarith [norm_nonneg (cTw flip n k)]

end Verif.Fft.FloatLemmas
