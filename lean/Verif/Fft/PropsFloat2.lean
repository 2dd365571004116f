import Verif.Fft.PropsFloat
import Verif.Fft.Float2Lemmas
/-!
# The Fourier transform in two dimensions (C36, C107)

First that `ifft2d` undoes `fft2d` in exact arithmetic; then how far both are
off the exact transform when computed with `double`.
-/
set_option exponentiation.threshold 2000
namespace Verif.Fft.Props
open Verif.Double Verif.Fft Verif.Fft.Spec

section
variable {R : Type} [CommRing R]

/-- `ifft2d` after `fft2d` on a linear array multiplies every number by the
number of places. -/
theorem ifft2d_fft2d (tw tw' : Nat → Nat → R) (mh mw : Nat) (ωh ωw ωh' ωw' : R) (hh : Root ωh (2 ^ mh)) (hw : Root ωw (2 ^ mw))
    (h1 : ωh * ωh' = 1) (h2 : ωw * ωw' = 1) (hth : ∀ k, tw (2 ^ mh) k = ωh ^ k) (htw : ∀ k, tw (2 ^ mw) k = ωw ^ k)
    (hth' : ∀ k, tw' (2 ^ mh) k = ωh' ^ k) (htw' : ∀ k, tw' (2 ^ mw) k = ωw' ^ k) (a : List R) (ha : a.length = 2 ^ mh * 2 ^ mw) :
    ∃ b, fft2d tw a (2 ^ mw) = .ok b ∧ fft2d tw' b (2 ^ mw) = .ok (a.map fun x => ((2 ^ mh * 2 ^ mw : Nat) : R) * x) := by
  refine ⟨_, fft2d_is_dft2 tw mh mw ωh ωw hh hw hth htw a ha, ?_⟩
  rw [fft2d_is_dft2 tw' mh mw ωh' ωw' (Lemmas.root_inv hh h1) (Lemmas.root_inv hw h2) hth' htw' _ (by simp [dft2])]
  rw [Float2Lemmas.dft2_dft2 ωh ωw ωh' ωw' mh mw hh hw h1 h2 a ha]

example : fft2d (fun n k => (if n = 4 then (4 : ZMod 17) else 16) ^ k) [1, 2, 3, 4, 5, 6, 7, 8] 4 = .ok [2, 14, 13, 12, 1, 0, 0, 0] ∧
    fft2d (fun n k => (if n = 4 then (13 : ZMod 17) else 16) ^ k) [2, 14, 13, 12, 1, 0, 0, 0] 4 = .ok [8 * 1, 8 * 2, 8 * 3, 8 * 4, 8 * 5, 8 * 6, 8 * 7, 8 * 8] := by
  decide +kernel

/-- The same for matrices. -/
theorem ifft2dM_fft2dM (tw tw' : Nat → Nat → R) (mh mw : Nat) (ωh ωw ωh' ωw' : R) (hh : Root ωh (2 ^ mh)) (hw : Root ωw (2 ^ mw))
    (h1 : ωh * ωh' = 1) (h2 : ωw * ωw' = 1) (hth : ∀ k, tw (2 ^ mh) k = ωh ^ k) (htw : ∀ k, tw (2 ^ mw) k = ωw ^ k)
    (hth' : ∀ k, tw' (2 ^ mh) k = ωh' ^ k) (htw' : ∀ k, tw' (2 ^ mw) k = ωw' ^ k) (a : List (List R)) (ha : a.length = 2 ^ mh)
    (hr : ∀ r ∈ a, r.length = 2 ^ mw) :
    ∃ b, fft2dM tw a = .ok b ∧ fft2dM tw' b = .ok (a.map fun r => r.map fun x => ((2 ^ mh * 2 ^ mw : Nat) : R) * x) := by
  refine ⟨_, fft2dM_is_dft2 tw mh mw ωh ωw hh hw hth htw a ha hr, ?_⟩
  rw [fft2dM_is_dft2 tw' mh mw ωh' ωw' (Lemmas.root_inv hh h1) (Lemmas.root_inv hw h2) hth' htw' _ (by simp [dft2M]) (by simp [dft2M])]
  rw [Float2Lemmas.dft2M_dft2M ωh ωw ωh' ωw' mh mw hh hw h1 h2 a ha hr]

example : fft2dM (fun _ k => (16 : ZMod 17) ^ k) [[1, 2], [3, 4]] = .ok [[10, 15], [13, 0]] ∧
    fft2dM (fun _ k => (16 : ZMod 17) ^ k) [[10, 15], [13, 0]] = .ok [[4 * 1, 4 * 2], [4 * 3, 4 * 4]] := by
  decide +kernel

end

/-- **C107.** On `2^mh` rows of `2^mw` numbers far from overflow,
`fft2d` and `ifft2d` on `double` give finite numbers, each off the exact
transform by at most the bound of the columns, where the bound of the rows is
the error of their input. -/
theorem float_fft2d (L : Libm) (hL : Accurate L) (flip : Int) (hf : flip = 1 ∨ flip = -1) (mh mw : Nat) (hmh : mh ≤ 31) (hmw : mw ≤ 31)
    (a : List CF) (z : List ℂ) (M e : ℝ) (ha : a.length = 2 ^ mh * 2 ^ mw) (hz : z.length = 2 ^ mh * 2 ^ mw)
    (hn : ∀ p, p < 2 ^ mh * 2 ^ mw → ∃ x y, a[p]? = some x ∧ z[p]? = some y ∧ Near e x y ∧ ‖y‖ ≤ M)
    (hb : 2 ^ mw * (M + e) ≤ 2 ^ 1000) (hb2 : 2 ^ mh * (2 ^ mw * M + errorBound mw M e) ≤ 2 ^ 1000) :
    ∃ b, fft2dF L flip a (2 ^ mw) = .ok b ∧ b.length = 2 ^ mh * 2 ^ mw ∧
      ∀ k, k < 2 ^ mh * 2 ^ mw → ∃ x y, b[k]? = some x ∧ (dft2 (cRoot flip (2 ^ mh)) (cRoot flip (2 ^ mw)) (2 ^ mh) (2 ^ mw) z)[k]? = some y ∧
        Near (errorBound mh (2 ^ mw * M) (errorBound mw M e)) x y ∧ ‖y‖ ≤ 2 ^ mh * (2 ^ mw * M) := by
  have hfl : ((flip : ℝ) = 1 ∨ (flip : ℝ) = -1) := by rcases hf with rfl | rfl <;> simp
  have hft := Float2Lemmas.fft2d_G (fTw L flip) mh mw (fun j => a.getD j 0)
  rw [← ha, ← Lemmas.tab_self a, ha] at hft
  have hzt := Float2Lemmas.fft2d_G (cTw (flip : ℝ)) mh mw (fun j => z.getD j 0)
  rw [← hz, ← Lemmas.tab_self z, hz, complex_fft2d flip hfl mh mw z hz] at hzt
  have hzt := Out.ok.inj hzt
  refine ⟨_, hft, Lemmas.length_tab _ _, fun k hk => ?_⟩
  refine ⟨_, _, Lemmas.get_tab _ hk, by rw [hzt]; exact Lemmas.get_tab _ hk, ?_⟩
  refine Float2Lemmas.near_G2 L hL flip hf mh mw hmh hmw _ _ M e (fun y hy x hx => ?_) hb hb2 _ _
  have hin : y * 2 ^ mw + x < 2 ^ mh * 2 ^ mw := by
    have : (y + 1) * 2 ^ mw ≤ 2 ^ mh * 2 ^ mw := Nat.mul_le_mul_right _ hy
    rw [Nat.succ_mul] at this; omega
  obtain ⟨x', y', h1, h2, h3, h4⟩ := hn _ hin
  rw [List.getD_eq_getElem?_getD, List.getD_eq_getElem?_getD, h1, h2]
  exact ⟨h3, h4⟩

/-- **C107.** The same for matrices. -/
theorem float_fft2dM (L : Libm) (hL : Accurate L) (flip : Int) (hf : flip = 1 ∨ flip = -1) (mh mw : Nat) (hmh : mh ≤ 31) (hmw : mw ≤ 31)
    (a : List (List CF)) (z : List (List ℂ)) (M e : ℝ) (ha : a.length = 2 ^ mh) (hz : z.length = 2 ^ mh)
    (har : ∀ r ∈ a, r.length = 2 ^ mw) (hzr : ∀ r ∈ z, r.length = 2 ^ mw)
    (hn : ∀ u, u < 2 ^ mh → ∀ v, v < 2 ^ mw → ∃ x y, (a[u]?).bind (·[v]?) = some x ∧ (z[u]?).bind (·[v]?) = some y ∧ Near e x y ∧ ‖y‖ ≤ M)
    (hb : 2 ^ mw * (M + e) ≤ 2 ^ 1000) (hb2 : 2 ^ mh * (2 ^ mw * M + errorBound mw M e) ≤ 2 ^ 1000) :
    ∃ b, fft2dMF L flip a = .ok b ∧ b.length = 2 ^ mh ∧ (∀ r ∈ b, r.length = 2 ^ mw) ∧
      ∀ u, u < 2 ^ mh → ∀ v, v < 2 ^ mw → ∃ x y, (b[u]?).bind (·[v]?) = some x ∧
        ((dft2M (cRoot flip (2 ^ mh)) (cRoot flip (2 ^ mw)) (2 ^ mh) (2 ^ mw) z)[u]?).bind (·[v]?) = some y ∧
        Near (errorBound mh (2 ^ mw * M) (errorBound mw M e)) x y ∧ ‖y‖ ≤ 2 ^ mh * (2 ^ mw * M) := by
  have hfl : ((flip : ℝ) = 1 ∨ (flip : ℝ) = -1) := by rcases hf with rfl | rfl <;> simp
  have hft := Float2Lemmas.fft2dM_G (fTw L flip) mh mw (fun y x => (a.getD y []).getD x 0)
  rw [← ha, ← Lemmas.tabM_self a _ har, ha] at hft
  have hzt := Float2Lemmas.fft2dM_G (cTw (flip : ℝ)) mh mw (fun y x => (z.getD y []).getD x 0)
  rw [← hz, ← Lemmas.tabM_self z _ hzr, hz, fft2dM_is_dft2 _ mh mw _ _ (Lemmas.cRoot_root _ hfl mh) (Lemmas.cRoot_root _ hfl mw)
    (Lemmas.cTw_eq _ _) (Lemmas.cTw_eq _ _) z hz hzr] at hzt
  have hzt := Out.ok.inj hzt
  refine ⟨_, hft, Lemmas.length_tabM _ _ _, ?_, fun u hu v hv => ?_⟩
  · intro r hr
    obtain ⟨y, _, rfl⟩ := List.mem_map.1 hr
    exact Lemmas.length_tab _ _
  · refine ⟨_, _, by rw [Lemmas.get_tabM _ hu]; exact Lemmas.get_tab _ hv, by rw [hzt, Lemmas.get_tabM _ hu]; exact Lemmas.get_tab _ hv, ?_⟩
    refine Float2Lemmas.near_G2 L hL flip hf mh mw hmh hmw _ _ M e (fun y hy x hx => ?_) hb hb2 _ _
    obtain ⟨x', y', h1, h2, h3, h4⟩ := hn y hy x hx
    obtain ⟨r, hr1, hr2⟩ := Option.bind_eq_some_iff.1 h1
    obtain ⟨q, hq1, hq2⟩ := Option.bind_eq_some_iff.1 h2
    simp only [List.getD_eq_getElem?_getD, hr1, hq1, Option.getD_some, hr2, hq2]
    exact ⟨h3, h4⟩

/-- **C107.** `ifft2d` after `fft2d`, both on `double`, gives back every number
times the number of places, up to the bound applied twice. -/
theorem float_roundtrip2d (L : Libm) (hL : Accurate L) (mh mw : Nat) (hmh : mh ≤ 31) (hmw : mw ≤ 31)
    (a : List CF) (z : List ℂ) (M e : ℝ) (ha : a.length = 2 ^ mh * 2 ^ mw) (hz : z.length = 2 ^ mh * 2 ^ mw)
    (hn : ∀ p, p < 2 ^ mh * 2 ^ mw → ∃ x y, a[p]? = some x ∧ z[p]? = some y ∧ Near e x y ∧ ‖y‖ ≤ M)
    (M' e' : ℝ) (hM' : M' = 2 ^ mh * (2 ^ mw * M)) (he' : e' = errorBound mh (2 ^ mw * M) (errorBound mw M e))
    (hb : 2 ^ mw * (M + e) ≤ 2 ^ 1000) (hb2 : 2 ^ mh * (2 ^ mw * M + errorBound mw M e) ≤ 2 ^ 1000)
    (hb3 : 2 ^ mw * (M' + e') ≤ 2 ^ 1000) (hb4 : 2 ^ mh * (2 ^ mw * M' + errorBound mw M' e') ≤ 2 ^ 1000) :
    ∃ b c, fft2dF L 1 a (2 ^ mw) = .ok b ∧ fft2dF L (-1) b (2 ^ mw) = .ok c ∧ c.length = 2 ^ mh * 2 ^ mw ∧
      ∀ k, k < 2 ^ mh * 2 ^ mw → ∃ x y, c[k]? = some x ∧ z[k]? = some y ∧
        Near (errorBound mh (2 ^ mw * M') (errorBound mw M' e')) x (2 ^ mh * 2 ^ mw * y) := by
  obtain ⟨b, hfb, hlb, h1⟩ := float_fft2d L hL 1 (.inl rfl) mh mw hmh hmw a z M e ha hz hn hb hb2
  rw [← hM', ← he'] at h1
  obtain ⟨c, hfc, hlc, h2⟩ := float_fft2d L hL (-1) (.inr rfl) mh mw hmh hmw b _ M' e' hlb (by simp [dft2]) h1 hb3 hb4
  refine ⟨b, c, hfb, hfc, hlc, fun k hk => ?_⟩
  obtain ⟨x, y, hx, hy, hxy, _⟩ := h2 k hk
  have e1 : ((1 : Int) : ℝ) = 1 := by norm_num
  have e2 : ((-1 : Int) : ℝ) = -1 := by norm_num
  rw [e1, e2, Float2Lemmas.dft2_dft2 _ _ _ _ mh mw (Lemmas.cRoot_root 1 (.inl rfl) mh) (Lemmas.cRoot_root 1 (.inl rfl) mw)
    (Lemmas.cRoot_inv _) (Lemmas.cRoot_inv _) z hz, List.getElem?_map, List.getElem?_eq_getElem (by omega)] at hy
  simp only [Option.map_some, Option.some.injEq] at hy
  refine ⟨x, z[k], hx, List.getElem?_eq_getElem _, ?_⟩
  rw [← hy] at hxy
  push_cast at hxy
  exact hxy

/-- The bounds for a picture of 1024 by 1024 places with numbers up to 1: the results are up to `2^20`, and right to `2^-16`. -/
example : errorBound 10 (2 ^ 10 * 1) (errorBound 10 1 0) ≤ 1 / 2 ^ 16 ∧ (2 : ℝ) ^ 10 * (1 + 0) ≤ 2 ^ 1000 ∧ (2 : ℝ) ^ 10 * (2 ^ 10 * 1 + errorBound 10 1 0) ≤ 2 ^ 1000 := by
  have h1 : (2 : ℝ) ^ (-1075 : Int) ≤ (2 : ℝ) ^ (-100 : Int) := zpow_le_zpow_right₀ (by norm_num) (by norm_num)
  have h2 : (2 : ℝ) ^ 100 ≤ (2 : ℝ) ^ 1000 := pow_le_pow_right₀ (by norm_num) (by norm_num)
  have h3 : (0 : ℝ) < (2 : ℝ) ^ (-1075 : Int) := by positivity
  unfold errorBound
  generalize (2 : ℝ) ^ (-1075 : Int) = η at *
  generalize (2 : ℝ) ^ 1000 = B at *
  norm_num at h1 h2 ⊢
  refine ⟨?_, ?_, ?_⟩ <;> linarith

end Verif.Fft.Props
