import Verif.Fft.Props
import Verif.Fft.FloatLemmas
/-!
# The Fourier transform on `std::complex<double>` (C104)

How far the results of the code, computed with `double`, are from the Fourier
transform of the complex numbers, for every C library whose `atan(1)`, `cos`
and `sin` are off by at most `2^-52`.
-/
set_option exponentiation.threshold 2000
namespace Verif.Fft.Props
open Verif.Double Verif.Fft Verif.Fft.Spec

/-- **C104.** On `2^m` numbers (`m ≤ 31`) so far from overflow
that `2^m (M + e) ≤ 2^1000`, `fft` and `ifft` on `double` give finite numbers,
and each is off the exact transform by at most the bound: the error grows with
the number of stages `m`, not with anything else. -/
theorem float_fft (L : Libm) (hL : Accurate L) (flip : Int) (hf : flip = 1 ∨ flip = -1) (m : Nat) (hm : m ≤ 31) (a : List CF) (z : List ℂ)
    (M e : ℝ) (ha : a.length = 2 ^ m) (hz : z.length = 2 ^ m)
    (hn : ∀ p, p < 2 ^ m → ∃ x y, a[p]? = some x ∧ z[p]? = some y ∧ Near e x y ∧ ‖y‖ ≤ M) (hb : 2 ^ m * (M + e) ≤ 2 ^ 1000) :
    ∃ b, fftF L flip a = .ok b ∧ b.length = 2 ^ m ∧
      ∀ k, k < 2 ^ m → ∃ x y, b[k]? = some x ∧ (dft (cRoot flip (2 ^ m)) z)[k]? = some y ∧ Near (errorBound m M e) x y ∧ ‖y‖ ≤ 2 ^ m * M := by
  have hft : fftF L flip a = .ok (Lemmas.tab (2 ^ m) fun p => Lemmas.G (fTw L flip (2 ^ m)) m (fun j => a.getD j 0) m 0 p) := by
    have := Lemmas.fft_G (fTw L flip) m (fun j => a.getD j 0)
    rw [← ha, ← Lemmas.tab_self a, ha] at this
    exact this
  have hexact : fft (cTw flip) z = .ok (dft (cRoot flip (2 ^ m)) z) :=
    Lemmas.fft_eq_dft _ m _ (Lemmas.cRoot_root flip (by rcases hf with rfl | rfl <;> simp) m) (Lemmas.cTw_eq flip _) z hz
  have hzG : dft (cRoot flip (2 ^ m)) z = Lemmas.tab (2 ^ m) fun p => Lemmas.G (cTw flip (2 ^ m)) m (fun j => z.getD j 0) m 0 p := by
    have := Lemmas.fft_G (cTw (flip : ℝ)) m (fun j => z.getD j 0)
    rw [← hz, ← Lemmas.tab_self z, hz, hexact] at this
    exact Out.ok.inj this
  refine ⟨_, hft, Lemmas.length_tab _ _, fun k hk => ?_⟩
  refine ⟨_, _, Lemmas.get_tab _ hk, by rw [hzG]; exact Lemmas.get_tab _ hk, ?_⟩
  have := FloatLemmas.near_G (fTw L flip (2 ^ m)) (cTw flip (2 ^ m)) m hm (fun j => a.getD j 0) (fun j => z.getD j 0) e M
    (fun k hk => ⟨FloatLemmas.tw_near hL flip hf m hm k hk, FloatLemmas.cTw_norm _ _ _⟩)
    (fun p hp => by
      obtain ⟨x, y, h1, h2, h3, h4⟩ := hn p hp
      rw [List.getD_eq_getElem?_getD, List.getD_eq_getElem?_getD, h1, h2]
      exact ⟨h3, h4⟩) hb m 0 (by omega) 0 (by simp) k
  exact this

example : errorBound 20 1 0 ≤ 1 / 2 ^ 18 := by
  have : (2 : ℝ) ^ (-1075 : Int) ≤ (2 : ℝ) ^ (-100 : Int) := zpow_le_zpow_right₀ (by norm_num) (by norm_num)
  norm_num [errorBound] at this ⊢

/-- **C104.** `ifft` after `fft`, both on `double`, gives back
every number multiplied by the length, up to the bound applied twice. -/
theorem float_roundtrip (L : Libm) (hL : Accurate L) (m : Nat) (hm : m ≤ 31) (a : List CF) (z : List ℂ)
    (M e : ℝ) (ha : a.length = 2 ^ m) (hz : z.length = 2 ^ m)
    (hn : ∀ p, p < 2 ^ m → ∃ x y, a[p]? = some x ∧ z[p]? = some y ∧ Near e x y ∧ ‖y‖ ≤ M)
    (hb : 2 ^ m * (M + e) ≤ 2 ^ 1000) (hb2 : 2 ^ m * (2 ^ m * M + errorBound m M e) ≤ 2 ^ 1000) :
    ∃ b c, fftF L 1 a = .ok b ∧ fftF L (-1) b = .ok c ∧ c.length = 2 ^ m ∧
      ∀ k, k < 2 ^ m → ∃ x y, c[k]? = some x ∧ z[k]? = some y ∧ Near (errorBound m (2 ^ m * M) (errorBound m M e)) x (2 ^ m * y) := by
  obtain ⟨b, hfb, hlb, h1⟩ := float_fft L hL 1 (.inl rfl) m hm a z M e ha hz hn hb
  have hl : (dft (cRoot ((1 : Int) : ℝ) (2 ^ m)) z).length = 2 ^ m := by rw [dft, List.length_map, List.length_range, hz]
  obtain ⟨c, hfc, hlc, h2⟩ := float_fft L hL (-1) (.inr rfl) m hm b _ _ _ hlb hl h1 hb2
  refine ⟨b, c, hfb, hfc, hlc, fun k hk => ?_⟩
  obtain ⟨x, y, hx, hy, hxy, _⟩ := h2 k hk
  obtain ⟨w, hw1, hw2⟩ := complex_ifft_fft m z hz
  rw [complex_fft m z hz] at hw1
  have hw1 := Out.ok.inj hw1
  rw [complex_ifft m w (by rw [← hw1, dft, List.length_map, List.length_range, hz])] at hw2
  have hw2 := Out.ok.inj hw2
  have e1 : ((1 : Int) : ℝ) = 1 := by norm_num
  have e2 : ((-1 : Int) : ℝ) = -1 := by norm_num
  rw [e1, e2, hw1, hw2] at hy
  rw [List.getElem?_map, List.getElem?_eq_getElem (by omega)] at hy
  simp only [Option.map_some, Option.some.injEq] at hy
  refine ⟨x, z[k], hx, List.getElem?_eq_getElem _, ?_⟩
  rw [← hy] at hxy
  push_cast at hxy
  exact hxy

/-- **C104.** Any other length is refused here as well. -/
theorem float_refuses (L : Libm) (flip : Int) (a : List CF) (ha : ¬ ∃ m, a.length = 2 ^ m) : fftF L flip a = .throws := by
  unfold fftF fft
  have : isPow2 a.length = false := by
    rw [← Bool.not_eq_true]
    exact fun h => ha ((Lemmas.isPow2_iff _).1 h)
  rw [this]
  rfl

example (L : Libm) : fftF L 1 [⟨.fin 1, .fin 0⟩, ⟨.fin 1, .fin 0⟩, ⟨.fin 1, .fin 0⟩] = .throws :=
  float_refuses L 1 _ (by
    rintro ⟨m, h⟩
    have h : 3 = 2 ^ m := h
    cases m with
    | zero => simp at h
    | succ m => rw [Nat.pow_succ] at h; omega)

/-- **C104.** The room to overflow is needed: the sum of two
finite numbers can be infinite. -/
theorem float_overflow (L : Libm) (flip : Int) :
    ∃ b, fftF L flip [⟨.fin (2 ^ 1023), .fin 0⟩, ⟨.fin (2 ^ 1023), .fin 0⟩] = .ok b ∧ b[0]? = some ⟨.inf false, .fin 0⟩ := by
  have h := Lemmas.fft_G (fTw L flip) 1 (fun _ => (⟨.fin (2 ^ 1023), .fin 0⟩ : CF))
  refine ⟨_, h, ?_⟩
  rw [Lemmas.get_tab _ (by norm_num)]
  simp only [Lemmas.G]
  rw [if_pos (by norm_num)]
  decide +kernel

/-- **C104.** The hypothesis about the C library can be met. -/
theorem accurate_exists : ∃ L : Libm, Accurate L := by
  have h : ∀ x : ℝ, ∃ q : Rat, |(q : ℝ) - x| ≤ 1 / 2 ^ 52 := by
    intro x
    obtain ⟨q, h1, h2⟩ := exists_rat_btwn (show x < x + 1 / 2 ^ 52 by norm_num)
    exact ⟨q, by rw [abs_le]; constructor <;> linarith⟩
  choose near hnear using h
  let on (f : ℝ → ℝ) : D → D := fun d => match d with
    | .fin x => .fin (near (f x))
    | d => d
  refine ⟨⟨on fun _ => Real.pi / 4, on Real.cos, on Real.sin⟩, ⟨_, rfl, hnear _⟩, fun x _ => ⟨⟨_, rfl, hnear _⟩, ⟨_, rfl, hnear _⟩⟩⟩

example (L : Libm) (hL : Accurate L) :
    ∃ b, fftF L 1 [⟨.fin 1, .fin 0⟩, ⟨.fin (1 / 2), .fin (-1)⟩] = .ok b ∧ b.length = 2 := by
  obtain ⟨b, h1, h2, _⟩ := float_fft L hL 1 (.inl rfl) 1 (by norm_num) [⟨.fin 1, .fin 0⟩, ⟨.fin (1 / 2), .fin (-1)⟩] [1, ⟨1 / 2, -1⟩] 2 0 rfl rfl
    (by
      intro p hp
      have : p = 0 ∨ p = 1 := by omega
      rcases this with rfl | rfl
      · refine ⟨_, _, rfl, rfl, ⟨1, 0, rfl, ?_⟩, by simp⟩
        have : (⟨((1 : Rat) : ℝ), ((0 : Rat) : ℝ)⟩ : ℂ) - 1 = 0 := by apply Complex.ext <;> simp
        rw [this]; simp
      · refine ⟨_, _, rfl, rfl, ⟨1 / 2, -1, rfl, ?_⟩, ?_⟩
        · have : (⟨((1 / 2 : Rat) : ℝ), ((-1 : Rat) : ℝ)⟩ : ℂ) - ⟨1 / 2, -1⟩ = 0 := by apply Complex.ext <;> norm_num
          rw [this]; simp
        · refine le_trans (Complex.norm_le_abs_re_add_abs_im _) ?_
          norm_num [abs_of_pos])
    (by
      have : (2 : ℝ) ^ 2 ≤ 2 ^ 1000 := pow_le_pow_right₀ (by norm_num) (by norm_num)
      norm_num at this ⊢)
  exact ⟨b, h1, h2⟩

end Verif.Fft.Props
