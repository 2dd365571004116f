import Verif.Fft.FloatLemmas
/-! # Lemmas: the transform in two dimensions as recursions, for any operations -/
namespace Verif.Fft.Float2Lemmas
open Verif.Double Verif.Fft Verif.Fft.Spec Verif.Fft.Lemmas

section
variable {R : Type} [Add R] [Sub R] [Mul R] [Zero R]

theorem rows_G (tw : Nat → Nat → R) (m : Nat) (h : Nat) (f : Nat → R) :
    rows tw (2 ^ m) h (tab (h * 2 ^ m) f) =
      .ok (tab (h * 2 ^ m) fun p => G (tw (2 ^ m)) m (fun x => f (p / 2 ^ m * 2 ^ m + x)) m 0 (p % 2 ^ m)) := by
  have hw : 0 < 2 ^ m := Nat.pos_of_ne_zero (by simp)
  induction h generalizing f with
  | zero => simp [rows, tab]
  | succ h ih =>
    rw [rows, take_tab _ (by rw [Nat.succ_mul]; omega), fft_G]
    simp only [Out.bind]
    rw [show (h + 1) * 2 ^ m = 2 ^ m + h * 2 ^ m by ring, drop_tab, ih]
    simp only [append_tab]
    congr 1
    apply tab_congr
    intro p hp
    by_cases h1 : p < 2 ^ m
    · rw [if_pos h1, Nat.div_eq_of_lt h1, Nat.mod_eq_of_lt h1]
      simp
    · rw [if_neg h1]
      obtain ⟨q, rfl⟩ : ∃ q, p = 2 ^ m + q := ⟨p - 2 ^ m, by omega⟩
      rw [Nat.add_sub_cancel_left, Nat.add_mod_left, Nat.add_div_left _ hw, Nat.succ_mul]
      congr 1
      funext x
      congr 1
      omega

/-- The transform in two dimensions as recursions. -/
def G2 (tw : Nat → Nat → R) (mh mw : Nat) (f : Nat → Nat → R) (u v : Nat) : R :=
  G (tw (2 ^ mh)) mh (fun y => G (tw (2 ^ mw)) mw (f y) mw 0 v) mh 0 u

omit [Zero R] in
/-- The recursion looks only at the first `2^m` places. -/
theorem G_congr (tw : Nat → R) (m : Nat) {f g : Nat → R} (h : ∀ p, p < 2 ^ m → f p = g p) (s b j : Nat) : G tw m f s b j = G tw m g s b j := by
  induction s generalizing b j with
  | zero => simp only [G]; exact h _ (rev_lt m b)
  | succ s ih => simp only [G, ih]

theorem fft2d_G (tw : Nat → Nat → R) (mh mw : Nat) (f : Nat → R) :
    fft2d tw (tab (2 ^ mh * 2 ^ mw) f) (2 ^ mw) =
      .ok (tab (2 ^ mh * 2 ^ mw) fun p => G2 tw mh mw (fun y x => f (y * 2 ^ mw + x)) (p / 2 ^ mw) (p % 2 ^ mw)) := by
  have ph : 0 < 2 ^ mh := Nat.pos_of_ne_zero (by simp)
  have pw : 0 < 2 ^ mw := Nat.pos_of_ne_zero (by simp)
  unfold fft2d
  rw [if_neg (by omega), length_tab, Nat.mul_div_cancel _ pw]
  simp only [ne_eq, not_true, if_false]
  rw [rows_G]
  simp only [Out.bind]
  rw [replicate_tab, transpose_tab _ _ pw]
  simp only
  rw [rows_G]
  simp only
  rw [transpose_tab _ _ ph]
  congr 1
  apply tab_congr
  intro p hp
  have hq : p / 2 ^ mw < 2 ^ mh := Nat.div_lt_of_lt_mul (by rw [Nat.mul_comm]; exact hp)
  rw [(dm hq).1, (dm hq).2, G2]
  apply G_congr
  intro y hy
  have hm := Nat.mod_lt p pw
  rw [(dm hy).1, (dm hy).2, (dm hm).1, (dm hm).2]

theorem rowsM_G (tw : Nat → Nat → R) (m : Nat) (l : List Nat) (f : Nat → Nat → R) :
    rowsM tw (l.map fun y => tab (2 ^ m) (f y)) = .ok (l.map fun y => tab (2 ^ m) fun p => G (tw (2 ^ m)) m (f y) m 0 p) := by
  induction l with
  | nil => rfl
  | cons y l ih =>
    rw [List.map_cons, rowsM, fft_G, ih]
    rfl

theorem fft2dM_G (tw : Nat → Nat → R) (mh mw : Nat) (f : Nat → Nat → R) :
    fft2dM tw (tabM (2 ^ mh) (2 ^ mw) f) = .ok (tabM (2 ^ mh) (2 ^ mw) (G2 tw mh mw f)) := by
  have ph : 0 < 2 ^ mh := Nat.pos_of_ne_zero (by simp)
  have pw : 0 < 2 ^ mw := Nat.pos_of_ne_zero (by simp)
  unfold fft2dM
  have hany : (tabM (2 ^ mh) (2 ^ mw) f).any (fun r => r.length != 2 ^ mw) = false := by
    rw [List.any_eq_false]
    intro r hr
    obtain ⟨y, _, rfl⟩ := List.mem_map.mp hr
    simp [length_tab]
  simp only [length_tabM, (isPow2_iff _).mpr ⟨mh, rfl⟩, get_tabM _ ph, Bool.not_true, Bool.false_eq_true, if_false, length_tab, hany]
  rw [tabM, rowsM_G]
  simp only [Out.bind]
  rw [replicate_tabM]
  rw [show (List.map (fun y => tab (2 ^ mw) fun p => G (tw (2 ^ mw)) mw (f y) mw 0 p) (List.range (2 ^ mh))) =
    tabM (2 ^ mh) (2 ^ mw) (fun y p => G (tw (2 ^ mw)) mw (f y) mw 0 p) from rfl, transposeM_tab _ _ ph]
  simp only
  rw [tabM.eq_1 (2 ^ mw), rowsM_G]
  simp only
  rw [show (List.map (fun y => tab (2 ^ mh) fun p => G (tw (2 ^ mh)) mh (fun x => G (tw (2 ^ mw)) mw (f x) mw 0 y) mh 0 p) (List.range (2 ^ mw))) =
    tabM (2 ^ mw) (2 ^ mh) (fun y p => G (tw (2 ^ mh)) mh (fun x => G (tw (2 ^ mw)) mw (f x) mw 0 y) mh 0 p) from rfl,
    transposeM_tab _ _ pw]
  rfl

end

/-- Near values stay near. -/
theorem near_G2 (L : Libm) (hL : Accurate L) (flip : Int) (hf : flip = 1 ∨ flip = -1) (mh mw : Nat) (hmh : mh ≤ 31) (hmw : mw ≤ 31)
    (f : Nat → Nat → CF) (g : Nat → Nat → ℂ) (M e : ℝ)
    (hn : ∀ y, y < 2 ^ mh → ∀ x, x < 2 ^ mw → Near e (f y x) (g y x) ∧ ‖g y x‖ ≤ M)
    (hb : 2 ^ mw * (M + e) ≤ 2 ^ 1000) (hb2 : 2 ^ mh * (2 ^ mw * M + errorBound mw M e) ≤ 2 ^ 1000) (u v : Nat) :
    Near (errorBound mh (2 ^ mw * M) (errorBound mw M e)) (G2 (fTw L flip) mh mw f u v) (G2 (cTw flip) mh mw g u v) ∧
      ‖G2 (cTw flip) mh mw g u v‖ ≤ 2 ^ mh * (2 ^ mw * M) := by
  refine FloatLemmas.near_G (fTw L flip (2 ^ mh)) (cTw flip (2 ^ mh)) mh hmh _ _ (errorBound mw M e) (2 ^ mw * M)
    (fun k hk => ⟨FloatLemmas.tw_near hL flip hf mh hmh k hk, FloatLemmas.cTw_norm _ _ _⟩) ?_ hb2 mh 0 (by omega) 0 (by simp) u
  intro y hy
  exact FloatLemmas.near_G (fTw L flip (2 ^ mw)) (cTw flip (2 ^ mw)) mw hmw _ _ e M
    (fun k hk => ⟨FloatLemmas.tw_near hL flip hf mw hmw k hk, FloatLemmas.cTw_norm _ _ _⟩) (fun p hp => hn y hy p hp) hb mw 0 (by omega) 0 (by simp) v

section
variable {R : Type} [CommRing R]

/-- The transform in two dimensions, one after the other. -/
noncomputable def dftFn2 (ωh ωw : R) (h w : Nat) (f : Nat → Nat → R) (u v : Nat) : R := dftFn ωh h (fun y => dftFn ωw w (f y) v) u

open Finset in
theorem dftFn_comm (ω ω' : R) (n n' : Nat) (A : Nat → Nat → R) (u x : Nat) :
    dftFn ω' n' (fun v => dftFn ω n (fun y => A y v) u) x = dftFn ω n (fun y => dftFn ω' n' (A y) x) u := by
  simp only [dftFn, sum_mul]
  rw [sum_comm]
  refine sum_congr rfl fun y _ => sum_congr rfl fun v _ => ?_
  ring

open Finset in
theorem dftFn_congr (ω : R) (n : Nat) {f g : Nat → R} (h : ∀ p, p < n → f p = g p) (k : Nat) : dftFn ω n f k = dftFn ω n g k :=
  sum_congr rfl fun j hj => by rw [h j (mem_range.1 hj)]

open Finset in
theorem dftFn_mul (ω : R) (n : Nat) (c : R) (f : Nat → R) (k : Nat) : dftFn ω n (fun j => c * f j) k = c * dftFn ω n f k := by
  simp only [dftFn, mul_sum]
  exact sum_congr rfl fun j _ => by ring

theorem dftFn2_inverse (ωh ωw ωh' ωw' : R) (mh mw : Nat) (hh : Root ωh (2 ^ mh)) (hw : Root ωw (2 ^ mw)) (h1 : ωh * ωh' = 1) (h2 : ωw * ωw' = 1)
    (f : Nat → Nat → R) {y x : Nat} (hy : y < 2 ^ mh) (hx : x < 2 ^ mw) :
    dftFn2 ωh' ωw' (2 ^ mh) (2 ^ mw) (dftFn2 ωh ωw (2 ^ mh) (2 ^ mw) f) y x = (2 ^ mh * 2 ^ mw : Nat) * f y x := by
  have e : ∀ u, dftFn ωw' (2 ^ mw) (dftFn2 ωh ωw (2 ^ mh) (2 ^ mw) f u) x = (2 ^ mw : Nat) * dftFn ωh (2 ^ mh) (fun y => f y x) u := by
    intro u
    show dftFn ωw' (2 ^ mw) (fun v => dftFn ωh (2 ^ mh) (fun y => dftFn ωw (2 ^ mw) (f y) v) u) x = _
    rw [dftFn_comm ωh ωw' (2 ^ mh) (2 ^ mw) (fun y v => dftFn ωw (2 ^ mw) (f y) v)]
    rw [← dftFn_mul]
    exact dftFn_congr _ _ (fun y _ => dftFn_inverse ωw ωw' mw hw h2 (f y) x hx) u
  show dftFn ωh' (2 ^ mh) (fun u => dftFn ωw' (2 ^ mw) (dftFn2 ωh ωw (2 ^ mh) (2 ^ mw) f u) x) y = _
  simp only [e]
  rw [dftFn_mul, dftFn_inverse ωh ωh' mh hh h1 (fun y => f y x) y hy]
  push_cast
  ring

open Finset in
theorem dft2_fn (ωh ωw : R) (h w : Nat) (f : Nat → R) :
    dft2 ωh ωw h w (tab (h * w) f) = tab (h * w) fun p => dftFn2 ωh ωw h w (fun y x => f (y * w + x)) (p / w) (p % w) := by
  rw [dft2_tab]
  refine tab_congr fun p _ => ?_
  simp only [dftFn2, dftFn, sum_mul]
  refine sum_congr rfl fun y _ => sum_congr rfl fun x _ => ?_
  ring

open Finset in
theorem dft2M_fn (ωh ωw : R) (h w : Nat) (f : Nat → Nat → R) : dft2M ωh ωw h w (tabM h w f) = tabM h w (dftFn2 ωh ωw h w f) := by
  rw [dft2M_tab]
  refine tabM_congr fun u _ v _ => ?_
  simp only [dftFn2, dftFn, sum_mul]
  refine sum_congr rfl fun y _ => sum_congr rfl fun x _ => ?_
  ring

/-- The two transforms of exact numbers are inverse up to the number of places. -/
theorem dft2_dft2 (ωh ωw ωh' ωw' : R) (mh mw : Nat) (hh : Root ωh (2 ^ mh)) (hw : Root ωw (2 ^ mw)) (h1 : ωh * ωh' = 1) (h2 : ωw * ωw' = 1)
    (a : List R) (ha : a.length = 2 ^ mh * 2 ^ mw) :
    dft2 ωh' ωw' (2 ^ mh) (2 ^ mw) (dft2 ωh ωw (2 ^ mh) (2 ^ mw) a) = a.map fun x : R => ((2 ^ mh * 2 ^ mw : Nat) : R) * x := by
  have pw : 0 < 2 ^ mw := Nat.pos_of_ne_zero (by simp)
  rw [tab_self a, ha]
  generalize (fun j => a.getD j 0) = f
  rw [dft2_fn, dft2_fn, tab, tab, List.map_map]
  refine List.map_congr_left fun p hp => ?_
  have hp := List.mem_range.1 hp
  have hq : p / 2 ^ mw < 2 ^ mh := Nat.div_lt_of_lt_mul (by rw [Nat.mul_comm]; exact hp)
  have hm := Nat.mod_lt p pw
  have := dftFn2_inverse ωh ωw ωh' ωw' mh mw hh hw h1 h2 (fun y x => f (y * 2 ^ mw + x)) hq hm
  simp only [Function.comp]
  rw [show p / 2 ^ mw * 2 ^ mw + p % 2 ^ mw = p by rw [Nat.mul_comm]; exact Nat.div_add_mod _ _] at this
  rw [← this]
  unfold dftFn2
  refine dftFn_congr _ _ (fun y hy => dftFn_congr _ _ (fun x hx => ?_) _) _
  rw [(dm hx).1, (dm hx).2]

theorem dft2M_dft2M (ωh ωw ωh' ωw' : R) (mh mw : Nat) (hh : Root ωh (2 ^ mh)) (hw : Root ωw (2 ^ mw)) (h1 : ωh * ωh' = 1) (h2 : ωw * ωw' = 1)
    (a : List (List R)) (ha : a.length = 2 ^ mh) (hr : ∀ r ∈ a, r.length = 2 ^ mw) :
    dft2M ωh' ωw' (2 ^ mh) (2 ^ mw) (dft2M ωh ωw (2 ^ mh) (2 ^ mw) a) = a.map fun r => r.map fun x : R => ((2 ^ mh * 2 ^ mw : Nat) : R) * x := by
  rw [tabM_self a _ hr, ha]
  generalize (fun y x => (a.getD y []).getD x 0) = f
  rw [dft2M_fn, dft2M_fn, tabM, tabM, List.map_map]
  refine List.map_congr_left fun y hy => ?_
  simp only [Function.comp, tab, List.map_map]
  refine List.map_congr_left fun x hx => ?_
  exact dftFn2_inverse ωh ωw ωh' ωw' mh mw hh hw h1 h2 f (List.mem_range.1 hy) (List.mem_range.1 hx)

end

end Verif.Fft.Float2Lemmas
