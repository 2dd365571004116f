import Verif.Fft.Model
import Verif.Fft.Spec
import Mathlib.Tactic.Ring
import Mathlib.Tactic.LinearCombination
import Mathlib.Tactic.FieldSimp

namespace Verif.Fft.Lemmas
set_option linter.unusedSectionVars false
open Verif.Fft Verif.Fft.Spec

/-! ### Bit reversal -/

/-- The reversal of the lowest `m` bits of `x`. -/
def rev : Nat → Nat → Nat
  | 0, _ => 0
  | m + 1, x => (x % 2) * 2 ^ m + rev m (x / 2)

theorem rev_succ (m x : Nat) : rev (m + 1) x = (x % 2) * 2 ^ m + rev m (x / 2) := rfl

theorem rev_lt (m x : Nat) : rev m x < 2 ^ m := by
  induction m generalizing x with
  | zero => simp [rev]
  | succ m ih =>
    have := ih (x / 2)
    rw [rev, Nat.pow_succ]
    rcases Nat.mod_two_eq_zero_or_one x with h | h <;> rw [h] <;> omega

theorem rev_zero (m : Nat) : rev m 0 = 0 := by
  induction m with
  | zero => rfl
  | succ m ih => simp [rev, ih]

/-- The other recursion: split off the top bit. -/
theorem rev_top (m x : Nat) (b : Nat) (hx : x < 2 ^ m) (hb : b < 2) : rev (m + 1) (b * 2 ^ m + x) = 2 * rev m x + b := by
  induction m generalizing x with
  | zero =>
    have : x = 0 := by simpa using hx
    subst this
    simp only [rev, Nat.pow_zero]; omega
  | succ m ih =>
    rw [Nat.pow_succ] at hx
    have h1 : (b * 2 ^ (m + 1) + x) % 2 = x % 2 := by rw [Nat.pow_succ, ← Nat.mul_assoc]; omega
    have h2 : (b * 2 ^ (m + 1) + x) / 2 = b * 2 ^ m + x / 2 := by rw [Nat.pow_succ, ← Nat.mul_assoc]; omega
    rw [rev_succ (m + 1), h1, h2, ih (x / 2) (by omega), rev_succ m, Nat.pow_succ]
    ring

theorem rev_rev (m x : Nat) (hx : x < 2 ^ m) : rev m (rev m x) = x := by
  induction m generalizing x with
  | zero => have : x = 0 := by simpa using hx
            subst this; rfl
  | succ m ih =>
    rw [Nat.pow_succ] at hx
    rw [rev_succ m x, rev_top _ _ _ (rev_lt _ _) (Nat.mod_lt _ (by decide)), ih _ (by omega)]
    omega

theorem rev_shift (s k b : Nat) (hb : b < 2 ^ k) : rev (k + s) b = 2 ^ s * rev k b := by
  induction k generalizing b with
  | zero =>
    have : b = 0 := by simpa using hb
    subst this; simp [rev_zero]
  | succ k ih =>
    rw [Nat.pow_succ] at hb
    rw [show k + 1 + s = (k + s) + 1 by omega, rev, rev, ih _ (by omega), Nat.pow_add]
    ring

theorem xor_pow_lt {i m : Nat} (h : i < 2 ^ m) : i ^^^ 2 ^ m = 2 ^ m + i := by
  apply Nat.eq_of_testBit_eq
  intro j
  rw [Nat.testBit_xor, Nat.testBit_two_pow]
  by_cases hj : m = j
  · subst hj
    rw [Nat.testBit_two_pow_add_eq, Nat.testBit_lt_two_pow h]
    simp
  · by_cases hj2 : j < m
    · rw [Nat.testBit_two_pow_add_gt hj2]; simp [hj]
    · have h1 : i < 2 ^ j := Nat.lt_of_lt_of_le h (Nat.pow_le_pow_right (by decide) (by omega))
      have h2 : 2 ^ m + i < 2 ^ j := by
        have : 2 ^ (m + 1) ≤ 2 ^ j := Nat.pow_le_pow_right (by decide) (by omega)
        rw [Nat.pow_succ] at this; omega
      rw [Nat.testBit_lt_two_pow h1, Nat.testBit_lt_two_pow h2]; simp [hj]

theorem xor_pow_ge {i m : Nat} (h : i < 2 ^ m) : (2 ^ m + i) ^^^ 2 ^ m = i := by
  rw [← xor_pow_lt h, Nat.xor_assoc, Nat.xor_self, Nat.xor_zero]

/-- The loop increments a bit-reversed counter. -/
theorem bump_rev (m x : Nat) (hx : x + 1 < 2 ^ (m + 1)) : bump (2 ^ m) (rev (m + 1) x) = rev (m + 1) (x + 1) := by
  induction m generalizing x with
  | zero =>
    have : x = 0 := by simp at hx; omega
    subst this
    unfold bump
    decide
  | succ m ih =>
    have hr := rev_lt (m + 1) (x / 2)
    rw [Nat.pow_succ] at hx
    rw [rev_succ (m + 1) x, rev_succ (m + 1) (x + 1)]
    rcases Nat.mod_two_eq_zero_or_one x with h | h
    · rw [h, show (x + 1) % 2 = 1 by omega, show (x + 1) / 2 = x / 2 by omega, Nat.zero_mul, Nat.zero_add, Nat.one_mul]
      unfold bump
      rw [xor_pow_lt hr, if_neg (by omega)]
    · rw [h, show (x + 1) % 2 = 0 by omega, show (x + 1) / 2 = x / 2 + 1 by omega, Nat.zero_mul, Nat.zero_add, Nat.one_mul]
      unfold bump
      rw [xor_pow_ge hr, if_pos hr, Nat.pow_succ, Nat.mul_div_cancel _ (by decide)]
      exact ih (x / 2) (by omega)

/-! ### Arrays as functions -/

section
variable {R : Type} [Add R] [Sub R] [Mul R] [Zero R]

/-- The list of the first `n` values of `f`. -/
def tab (n : Nat) (f : Nat → R) : List R := (List.range n).map f

theorem length_tab (n : Nat) (f : Nat → R) : (tab n f).length = n := by simp [tab]

theorem get_tab {n p : Nat} (f : Nat → R) (h : p < n) : (tab n f)[p]? = some (f p) := by
  simp [tab, List.getElem?_range h]

theorem tab_congr {n : Nat} {f g : Nat → R} (h : ∀ p < n, f p = g p) : tab n f = tab n g :=
  List.map_congr_left fun p hp => h p (List.mem_range.mp hp)

theorem tab_self (a : List R) : a = tab a.length (fun j => a.getD j 0) := by
  apply List.ext_getElem?
  intro p
  by_cases h : p < a.length
  · rw [get_tab _ h, List.getD_eq_getElem?_getD, List.getElem?_eq_getElem h, Option.getD_some]
  · rw [List.getElem?_eq_none (by omega), List.getElem?_eq_none (by rw [length_tab]; omega)]

theorem set_tab {n p : Nat} (f : Nat → R) (v : R) :
    (tab n f).set p v = tab n (fun q => if q = p then v else f q) := by
  apply List.ext_getElem?
  intro q
  by_cases h : q < n
  · rw [get_tab _ h]
    by_cases hq : q = p
    · subst hq
      rw [List.getElem?_set_self (by rw [length_tab]; exact h), if_pos rfl]
    · rw [List.getElem?_set_ne (by omega), get_tab _ h, if_neg hq]
  · rw [List.getElem?_eq_none (by rw [List.length_set, length_tab]; omega),
      List.getElem?_eq_none (by rw [length_tab]; omega)]

/-! ### The bit reversal permutation -/

theorem swap_tab {n i j : Nat} (f : Nat → R) (hi : i < n) (hj : j < n) :
    swap (tab n f) j i = .ok (tab n (fun q => if q = i then f j else if q = j then f i else f q)) := by
  simp only [swap, get_tab f hi, get_tab f hj, set_tab]

theorem permLoop_spec (m : Nat) (f : Nat → R) (cnt j : Nat) (a : List R) (hj : 1 ≤ j) (hc : j + cnt = 2 ^ (m + 1) - 1)
    (ha : a = tab (2 ^ (m + 1)) (fun p => if p < j ∨ rev (m + 1) p < j then f (rev (m + 1) p) else f p)) :
    permLoop (2 ^ (m + 1)) cnt (rev (m + 1) (j - 1)) j a = .ok (tab (2 ^ (m + 1)) (fun p => f (rev (m + 1) p))) := by
  induction cnt generalizing j a with
  | zero =>
    subst ha
    rw [permLoop]
    congr 1
    apply tab_congr
    intro p hp
    have := rev_lt (m + 1) p
    split
    · rfl
    · rw [show rev (m + 1) p = p by omega]
  | succ cnt ih =>
    subst ha
    rw [permLoop]
    have hb : bump (2 ^ (m + 1) / 2) (rev (m + 1) (j - 1)) = rev (m + 1) j := by
      rw [Nat.pow_succ, Nat.mul_div_cancel _ (by decide), bump_rev m (j - 1) (by omega), Nat.sub_add_cancel hj]
    simp only [hb]
    have hr := rev_lt (m + 1) j
    have hrr : rev (m + 1) (rev (m + 1) j) = j := rev_rev _ _ (by omega)
    have hinj : ∀ p, p < 2 ^ (m + 1) → rev (m + 1) p = j → p = rev (m + 1) j := by
      intro p hp h
      rw [← h, rev_rev _ _ hp]
    have hinj2 : ∀ p, p < 2 ^ (m + 1) → rev (m + 1) p = rev (m + 1) j → p = j := by
      intro p hp h
      rw [← rev_rev _ _ hp, h, hrr]
    by_cases hlt : j < rev (m + 1) j
    · rw [if_pos hlt, swap_tab _ hr (by omega), Out.bind]
      have := ih (j + 1) _ (by omega) (by omega) rfl
      rw [Nat.add_sub_cancel] at this
      rw [← this]
      congr 1
      apply tab_congr
      intro p hp
      by_cases h1 : p = rev (m + 1) j
      · rw [if_pos h1, if_neg (by omega), h1, hrr, if_pos (by omega)]
      · rw [if_neg h1]
        by_cases h2 : p = j
        · rw [if_pos h2, h2, hrr, if_neg (by omega), if_pos (by omega)]
        · rw [if_neg h2]
          have h3 : rev (m + 1) p ≠ j := fun h => h1 (hinj p hp h)
          by_cases h4 : p < j ∨ rev (m + 1) p < j
          · rw [if_pos h4, if_pos (by omega)]
          · rw [if_neg h4, if_neg (by omega)]
    · rw [if_neg hlt, Out.bind]
      have := ih (j + 1) _ (by omega) (by omega) rfl
      rw [Nat.add_sub_cancel] at this
      rw [← this]
      congr 1
      apply tab_congr
      intro p hp
      by_cases h4 : p < j ∨ rev (m + 1) p < j
      · rw [if_pos h4, if_pos (by omega)]
      · rw [if_neg h4]
        by_cases h5 : p < j + 1 ∨ rev (m + 1) p < j + 1
        · rw [if_pos h5]
          by_cases h6 : p = j
          · subst h6
            rw [show rev (m + 1) p = p by omega]
          · have h7 : rev (m + 1) p = j := by omega
            have := hinj p hp h7
            omega
        · rw [if_neg h5]

/-! ### Butterflies -/

theorem inner_spec (w : R) (n mh i : Nat) (f : Nat → R) (hn : i + 2 * mh ≤ n) (cnt t : Nat) (ht : t + cnt = mh) :
    inner w mh cnt (i + t) (tab n fun p =>
        if i ≤ p ∧ p < i + t then f p + f (p + mh)
        else if i + mh ≤ p ∧ p < i + mh + t then w * (f (p - mh) - f p) else f p) =
      .ok (tab n fun p =>
        if i ≤ p ∧ p < i + mh then f p + f (p + mh)
        else if i + mh ≤ p ∧ p < i + mh + mh then w * (f (p - mh) - f p) else f p) := by
  induction cnt generalizing t with
  | zero =>
    have : t = mh := by omega
    subst this
    rfl
  | succ cnt ih =>
    rw [inner]
    simp only [get_tab _ (show i + t < n by omega), get_tab _ (show i + t + mh < n by omega), set_tab]
    rw [← ih (t + 1) (by omega)]
    rw [show i + t + 1 = i + (t + 1) by omega]
    congr 1
    apply tab_congr
    intro p hp
    have e1 : ¬ (i ≤ i + t ∧ i + t < i + t) := by omega
    have e2 : ¬ (i + mh ≤ i + t ∧ i + t < i + mh + t) := by omega
    have e3 : ¬ (i ≤ i + t + mh ∧ i + t + mh < i + t) := by omega
    have e4 : ¬ (i + mh ≤ i + t + mh ∧ i + t + mh < i + mh + t) := by omega
    simp only [if_neg e1, if_neg e2, if_neg e3, if_neg e4]
    by_cases h1 : p = i + t + mh
    · subst h1
      rw [if_pos rfl, if_neg (by omega), if_pos (by omega), Nat.add_sub_cancel]
    · rw [if_neg h1]
      by_cases h2 : p = i + t
      · subst h2
        rw [if_pos rfl, if_pos (by omega)]
      · rw [if_neg h2]
        by_cases h3 : i ≤ p ∧ p < i + t
        · rw [if_pos h3, if_pos (by omega)]
        · rw [if_neg h3, if_neg (c := i ≤ p ∧ p < i + (t + 1)) (by omega)]
          by_cases h4 : i + mh ≤ p ∧ p < i + mh + t
          · rw [if_pos h4, if_pos (by omega)]
          · rw [if_neg h4, if_neg (by omega)]

theorem inner_eq (w : R) (n mh i : Nat) (f : Nat → R) (hn : i + 2 * mh ≤ n) :
    inner w mh mh i (tab n f) = .ok (tab n fun p =>
        if i ≤ p ∧ p < i + mh then f p + f (p + mh)
        else if i + mh ≤ p ∧ p < i + mh + mh then w * (f (p - mh) - f p) else f p) := by
  rw [← inner_spec w n mh i f hn mh 0 (by omega), Nat.add_zero]
  congr 1
  apply tab_congr
  intro p hp
  rw [if_neg (by omega), if_neg (by omega)]

/-- One stage: the effect on position `p`. -/
def stageFn (tw : Nat → R) (m mh : Nat) (f : Nat → R) (p : Nat) : R :=
  if p % (2 * mh) < mh then f p + f (p + mh)
  else tw (rev (m - 1) (p / (2 * mh))) * (f (p - mh) - f p)

theorem blocks_spec (tw : Nat → Nat → R) (m mh : Nat) (f : Nat → R) (B : Nat) (hmh : 0 < mh) (hB : B * (2 * mh) = 2 ^ m)
    (cnt b : Nat) (hb : b + cnt = B) (irev : Nat) (hi : b < B → irev = rev (m - 1) b) :
    blocks tw (2 ^ m) mh (b * (2 * mh)) irev (tab (2 ^ m) fun p =>
        if p < b * (2 * mh) then stageFn (tw (2 ^ m)) m mh f p else f p) =
      .ok (tab (2 ^ m) (stageFn (tw (2 ^ m)) m mh f)) := by
  induction cnt generalizing b irev with
  | zero =>
    have : b = B := by omega
    subst this
    unfold blocks
    rw [dif_neg (by omega)]
    congr 1
    apply tab_congr
    intro p hp
    rw [if_pos (by omega)]
  | succ cnt ih =>
    have hbB : b + 1 ≤ B := by omega
    have hle : (b + 1) * (2 * mh) ≤ 2 ^ m := by rw [← hB]; exact Nat.mul_le_mul_right _ hbB
    have hs : (b + 1) * (2 * mh) = b * (2 * mh) + 2 * mh := by ring
    unfold blocks
    rw [dif_pos ⟨by omega, hmh⟩]
    rw [hi (by omega)]
    dsimp only
    rw [inner_eq _ _ _ _ _ (by omega), Out.bind]
    rw [show b * (2 * mh) + 2 * mh = (b + 1) * (2 * mh) by ring]
    rw [← ih (b + 1) (by omega) (bump (2 ^ m / 4) (rev (m - 1) b)) ?_]
    · congr 1
      apply tab_congr
      intro p hp
      by_cases h1 : p < b * (2 * mh)
      · rw [if_neg (by omega), if_neg (by omega), if_pos h1, if_pos (by omega)]
      · by_cases h2 : p < (b + 1) * (2 * mh)
        · rw [if_pos h2]
          have hq : p / (2 * mh) = b := by
            rw [Nat.div_eq_iff (by omega)]; omega
          have hm : p % (2 * mh) = p - b * (2 * mh) := by
            have := Nat.div_add_mod p (2 * mh)
            rw [hq, Nat.mul_comm] at this; omega
          unfold stageFn
          rw [hq, hm]
          by_cases h3 : p - b * (2 * mh) < mh
          · rw [if_pos (by omega), if_pos h3, if_neg h1, if_neg (by omega)]
          · rw [if_neg (by omega), if_pos (by omega), if_neg h3, if_neg h1, if_neg (by omega)]
        · rw [if_neg (by omega), if_neg (by omega), if_neg h1, if_neg h2]
    · intro hlt
      -- at least two blocks are left, so `2^m / 4` is the top bit of the counter
      match m, hB, hlt with
      | 0, hB, hlt =>
        exfalso
        have : 2 * (2 * mh) ≤ B * (2 * mh) := Nat.mul_le_mul_right _ (by omega)
        simp at hB
      | 1, hB, hlt =>
        exfalso
        have : 2 * (2 * mh) ≤ B * (2 * mh) := Nat.mul_le_mul_right _ (by omega)
        simp at hB; omega
      | m + 2, hB, hlt =>
        have h4 : 2 ^ (m + 2) / 4 = 2 ^ m := by rw [Nat.pow_add]; simp
        rw [h4]
        refine bump_rev m b ?_
        have : B * 2 ≤ B * (2 * mh) := Nat.mul_le_mul_left _ (by omega)
        rw [hB, Nat.pow_succ] at this
        omega

/-- The array after `s` stages, block `b`, position `j` in the block. -/
def G (tw : Nat → R) (m : Nat) (f : Nat → R) : Nat → Nat → Nat → R
  | 0, b, _ => f (rev m b)
  | s + 1, b, j =>
    if j < 2 ^ s then G tw m f s (2 * b) j + G tw m f s (2 * b + 1) j
    else tw (rev (m - 1) b) * (G tw m f s (2 * b) (j - 2 ^ s) - G tw m f s (2 * b + 1) (j - 2 ^ s))

theorem stage_G (tw : Nat → R) (m : Nat) (f : Nat → R) (s p : Nat) :
    stageFn tw m (2 ^ s) (fun p => G tw m f s (p / 2 ^ s) (p % 2 ^ s)) p =
      G tw m f (s + 1) (p / 2 ^ (s + 1)) (p % 2 ^ (s + 1)) := by
  have hL : 0 < 2 ^ s := Nat.pos_of_ne_zero (by simp)
  rw [stageFn, G, show 2 ^ (s + 1) = 2 * 2 ^ s by rw [Nat.pow_succ, Nat.mul_comm]]
  generalize 2 ^ s = L at hL
  have h1 := Nat.div_add_mod p (2 * L)
  have h2 := Nat.mod_lt p (show 0 < 2 * L by omega)
  generalize p / (2 * L) = b at *
  generalize p % (2 * L) = q at *
  have dm : ∀ x y, y < L → (L * x + y) / L = x ∧ (L * x + y) % L = y := by
    intro x y hy
    rw [Nat.mul_add_div hL, Nat.div_eq_of_lt hy, Nat.mul_add_mod, Nat.mod_eq_of_lt hy]
    exact ⟨rfl, rfl⟩
  by_cases h : q < L
  · rw [if_pos h, if_pos h]
    have e1 : p = L * (2 * b) + q := by rw [← h1]; ring
    have e2 : p + L = L * (2 * b + 1) + q := by rw [← h1]; ring
    rw [e2, e1, (dm _ _ h).1, (dm _ _ h).2, (dm _ _ h).1, (dm _ _ h).2]
  · rw [if_neg h, if_neg h]
    have h' : q - L < L := by omega
    have e1 : p = L * (2 * b + 1) + (q - L) := by
      have : L * (2 * b + 1) = 2 * L * b + L := by ring
      omega
    have e2 : p - L = L * (2 * b) + (q - L) := by
      have : L * (2 * b + 1) = L * (2 * b) + L := by ring
      omega
    rw [e2, e1, (dm _ _ h').1, (dm _ _ h').2, (dm _ _ h').1, (dm _ _ h').2]

theorem stages_spec (tw : Nat → Nat → R) (m : Nat) (f : Nat → R) (s : Nat) (hs : s ≤ m) :
    stages tw (2 ^ m) (2 ^ s) (tab (2 ^ m) fun p => G (tw (2 ^ m)) m f s (p / 2 ^ s) (p % 2 ^ s)) =
      .ok (tab (2 ^ m) fun p => G (tw (2 ^ m)) m f m 0 p) := by
  have hp : ∀ k, 0 < 2 ^ k := fun k => Nat.pos_of_ne_zero (by simp)
  obtain ⟨d, hd⟩ : ∃ d, s + d = m := ⟨m - s, by omega⟩
  induction d generalizing s with
  | zero =>
    have : s = m := by omega
    subst this
    unfold stages
    rw [dif_neg (by have := hp s; omega)]
    congr 1
    apply tab_congr
    intro p hp
    rw [Nat.div_eq_of_lt hp, Nat.mod_eq_of_lt hp]
  | succ d ih =>
    have h2 : 2 * 2 ^ s = 2 ^ (s + 1) := by rw [Nat.pow_succ, Nat.mul_comm]
    have hle : 2 ^ (s + 1) ≤ 2 ^ m := Nat.pow_le_pow_right (by decide) (by omega)
    unfold stages
    rw [dif_pos ⟨by omega, hp s⟩]
    have hB : 2 ^ d * (2 * 2 ^ s) = 2 ^ m := by
      rw [h2, ← Nat.pow_add, ← hd]; congr 1; omega
    have := blocks_spec tw m (2 ^ s) (fun p => G (tw (2 ^ m)) m f s (p / 2 ^ s) (p % 2 ^ s)) (2 ^ d) (hp s) hB
      (2 ^ d) 0 (by omega) 0 (fun _ => (rev_zero _).symm)
    simp only [Nat.zero_mul, Nat.not_lt_zero, if_false] at this
    rw [this, Out.bind, h2, ← ih (s + 1) (by omega) (by omega)]
    congr 1
    apply tab_congr
    intro p _
    exact stage_G _ _ _ _ _

theorem isPow2_iff (s : Nat) : isPow2 s = true ↔ ∃ m, s = 2 ^ m := by
  unfold isPow2
  by_cases h : s = 0
  · subst h
    simp only [if_true, Bool.false_eq_true, false_iff]
    rintro ⟨m, hm⟩
    exact absurd hm.symm (by simp)
  · rw [if_neg h, beq_iff_eq]
    exact Nat.and_sub_one_eq_zero_iff_isPowerOfTwo h

/-- The transform as a recursion, for any operations. -/
theorem fft_G (tw : Nat → Nat → R) (m : Nat) (f : Nat → R) :
    fft tw (tab (2 ^ m) f) = .ok (tab (2 ^ m) fun p => G (tw (2 ^ m)) m f m 0 p) := by
  unfold fft
  rw [length_tab, (isPow2_iff _).mpr ⟨m, rfl⟩]
  simp only [Bool.not_true, Bool.false_eq_true, if_false, fftInner, length_tab]
  have hperm : permLoop (2 ^ m) (2 ^ m - 2) 0 1 (tab (2 ^ m) f) = .ok (tab (2 ^ m) (fun p => f (rev m p))) := by
    cases m with
    | zero => rfl
    | succ m =>
      have h2 : 2 ≤ 2 ^ (m + 1) := by
        have : 0 < 2 ^ m := Nat.pos_of_ne_zero (by simp)
        rw [Nat.pow_succ]; omega
      have := permLoop_spec m f (2 ^ (m + 1) - 2) 1 _ (Nat.le_refl 1) (by omega) rfl
      rw [Nat.sub_self, rev_zero] at this
      rw [← this]
      congr 1
      apply tab_congr
      intro p hp
      by_cases h : p < 1 ∨ rev (m + 1) p < 1
      · rw [if_pos h]
        have : p = 0 := by
          rcases h with h | h
          · omega
          · rw [← rev_rev (m + 1) p hp, show rev (m + 1) p = 0 by omega, rev_zero]
        rw [this, rev_zero]
      · rw [if_neg h]
  rw [hperm, Out.bind]
  have := stages_spec tw m f 0 (Nat.zero_le _)
  simp only [Nat.pow_zero, Nat.div_one, G] at this
  rw [this]

theorem take_tab {n k : Nat} (f : Nat → R) (h : k ≤ n) : (tab n f).take k = tab k f := by
  simp only [tab, ← List.map_take, List.take_range, Nat.min_eq_left h]

theorem drop_tab {k n : Nat} (f : Nat → R) : (tab (k + n) f).drop k = tab n (fun p => f (k + p)) := by
  apply List.ext_getElem?
  intro p
  rw [List.getElem?_drop]
  by_cases h : p < n
  · rw [get_tab _ h, get_tab _ (by omega)]
  · rw [List.getElem?_eq_none (by rw [length_tab]; omega), List.getElem?_eq_none (by rw [length_tab]; omega)]

theorem append_tab {k n : Nat} (f g : Nat → R) :
    tab k f ++ tab n g = tab (k + n) (fun p => if p < k then f p else g (p - k)) := by
  apply List.ext_getElem?
  intro p
  by_cases h : p < k
  · rw [List.getElem?_append_left (by rw [length_tab]; exact h), get_tab _ h, get_tab _ (by omega), if_pos h]
  · rw [List.getElem?_append_right (by rw [length_tab]; omega), length_tab]
    by_cases h2 : p < k + n
    · rw [get_tab _ (by omega), get_tab _ h2, if_neg h]
    · rw [List.getElem?_eq_none (by rw [length_tab]; omega), List.getElem?_eq_none (by rw [length_tab]; omega)]

theorem dm {h x y : Nat} (hy : y < h) : (x * h + y) / h = x ∧ (x * h + y) % h = y := by
  rw [Nat.mul_comm, Nat.mul_add_div (by omega), Nat.div_eq_of_lt hy, Nat.mul_add_mod, Nat.mod_eq_of_lt hy]
  exact ⟨rfl, rfl⟩

theorem foldl_range_ind {β : Type} (P : Nat → β → Prop) (g : β → Nat → β) (n : Nat) (b : β) (h0 : P 0 b)
    (hs : ∀ k b, k < n → P k b → P (k + 1) (g b k)) : P n ((List.range n).foldl g b) := by
  induction n with
  | zero => exact h0
  | succ n ih =>
    rw [List.range_succ, List.foldl_append]
    exact hs n _ (by omega) (ih fun k b hk => hs k b (by omega))

theorem transpose_tab (h w : Nat) (hw : 0 < w) (f c : Nat → R) :
    transpose (tab (h * w) f) (tab (w * h) c) w = .ok (tab (w * h) fun q => f (q % h * w + q / h)) := by
  unfold transpose
  rw [if_neg (by omega), length_tab, Nat.mul_div_cancel _ hw]
  have main := foldl_range_ind
    (fun y (b : Out (List R)) => b = .ok (tab (w * h) fun q => if q % h < y then f (q % h * w + q / h) else c q))
    (fun c y => (List.range w).foldl (fun c x => transposeStep h w (tab (h * w) f) c y x) c) h (.ok (tab (w * h) c))
    (by simp) ?_
  · rw [main]
    congr 1
    apply tab_congr
    intro q hq
    have hh : 0 < h := by
      rcases Nat.eq_zero_or_pos h with e | e
      · subst e; simp at hq
      · exact e
    rw [if_pos (Nat.mod_lt _ hh)]
  · intro y b hy hb
    subst hb
    have inn := foldl_range_ind
      (fun x (b : Out (List R)) => b = .ok (tab (w * h) fun q =>
        if q % h < y ∨ (q % h = y ∧ q / h < x) then f (q % h * w + q / h) else c q))
      (fun c x => transposeStep h w (tab (h * w) f) c y x) w
      (.ok (tab (w * h) fun q => if q % h < y then f (q % h * w + q / h) else c q))
      (by simp) ?_
    · rw [inn]
      congr 1
      apply tab_congr
      intro q hq
      have : q / h < w := Nat.div_lt_of_lt_mul (by rw [Nat.mul_comm]; exact hq)
      by_cases h1 : q % h < y + 1
      · rw [if_pos h1, if_pos (by omega)]
      · rw [if_neg h1, if_neg (by omega)]
    · intro x b hx hb
      subst hb
      have hin : y * w + x < h * w := by
        have : (y + 1) * w ≤ h * w := Nat.mul_le_mul_right _ hy
        rw [Nat.succ_mul] at this; omega
      have hout : x * h + y < w * h := by
        have : (x + 1) * h ≤ w * h := Nat.mul_le_mul_right _ hx
        rw [Nat.succ_mul] at this; omega
      simp only [transposeStep, Out.bind, get_tab f hin, length_tab, if_pos hout, set_tab]
      congr 1
      apply tab_congr
      intro q hq
      have hq' := Nat.div_add_mod q h
      rw [Nat.mul_comm] at hq'
      by_cases h1 : q = x * h + y
      · rw [if_pos h1, h1, (dm hy).1, (dm hy).2, if_pos (by omega)]
      · rw [if_neg h1]
        have h2 : ¬ (q % h = y ∧ q / h = x) := by
          rintro ⟨e1, e2⟩
          rw [e1, e2] at hq'
          omega
        by_cases h3 : q % h < y ∨ q % h = y ∧ q / h < x
        · rw [if_pos h3, if_pos (by omega)]
        · rw [if_neg h3, if_neg (by omega)]

theorem replicate_tab (n : Nat) : List.replicate n (0 : R) = tab n (fun _ => 0) := by
  simp [tab, List.map_const']

/-- The matrix of the values of `f`. -/
def tabM (h w : Nat) (f : Nat → Nat → R) : List (List R) := (List.range h).map fun y => tab w (f y)

theorem length_tabM (h w : Nat) (f : Nat → Nat → R) : (tabM h w f).length = h := by simp [tabM]

theorem get_tabM {h w y : Nat} (f : Nat → Nat → R) (hy : y < h) : (tabM h w f)[y]? = some (tab w (f y)) := by
  simp [tabM, List.getElem?_range hy]

theorem tabM_congr {h w : Nat} {f g : Nat → Nat → R} (hfg : ∀ y < h, ∀ x < w, f y x = g y x) :
    tabM h w f = tabM h w g :=
  List.map_congr_left fun y hy => tab_congr fun x hx => hfg y (List.mem_range.mp hy) x hx

theorem tabM_self (a : List (List R)) (w : Nat) (hw : ∀ r ∈ a, r.length = w) :
    a = tabM a.length w (fun y x => (a.getD y []).getD x 0) := by
  apply List.ext_getElem?
  intro y
  by_cases h : y < a.length
  · rw [get_tabM _ h, List.getElem?_eq_getElem h]
    have := hw a[y] (List.getElem_mem h)
    simp only [List.getD_eq_getElem?_getD (l := a), List.getElem?_eq_getElem h, Option.getD_some]
    rw [← this, ← tab_self]
  · rw [List.getElem?_eq_none (by omega), List.getElem?_eq_none (by rw [length_tabM]; omega)]

theorem set_tabM {h w y : Nat} (f : Nat → Nat → R) (g : Nat → R) :
    (tabM h w f).set y (tab w g) = tabM h w (fun u => if u = y then g else f u) := by
  apply List.ext_getElem?
  intro u
  by_cases hu : u < h
  · rw [get_tabM _ hu]
    by_cases e : u = y
    · subst e
      rw [List.getElem?_set_self (by rw [length_tabM]; exact hu), if_pos rfl]
    · rw [List.getElem?_set_ne (by omega), get_tabM _ hu, if_neg e]
  · rw [List.getElem?_eq_none (by rw [List.length_set, length_tabM]; omega),
      List.getElem?_eq_none (by rw [length_tabM]; omega)]

theorem transposeM_tab (h w : Nat) (hh : 0 < h) (f c : Nat → Nat → R) :
    transposeM (tabM h w f) (tabM w h c) = .ok (tabM w h fun x y => f y x) := by
  unfold transposeM
  rw [get_tabM _ hh]
  simp only [length_tabM, length_tab]
  have main := foldl_range_ind
    (fun y (b : Out (List (List R))) => b = .ok (tabM w h fun u v => if v < y then f v u else c u v))
    (fun c y => (List.range w).foldl (fun c x => transposeMStep (tabM h w f) c y x) c) h (.ok (tabM w h c))
    (by simp) ?_
  · rw [main]
    congr 1
    apply tabM_congr
    intro u _ v hv
    rw [if_pos hv]
  · intro y b hy hb
    subst hb
    have inn := foldl_range_ind
      (fun x (b : Out (List (List R))) => b = .ok (tabM w h fun u v =>
        if v < y ∨ (v = y ∧ u < x) then f v u else c u v))
      (fun c x => transposeMStep (tabM h w f) c y x) w
      (.ok (tabM w h fun u v => if v < y then f v u else c u v))
      (by simp) ?_
    · rw [inn]
      congr 1
      apply tabM_congr
      intro u hu v hv
      by_cases h1 : v < y + 1
      · rw [if_pos h1, if_pos (by omega)]
      · rw [if_neg h1, if_neg (by omega)]
    · intro x b hx hb
      subst hb
      simp only [transposeMStep, Out.bind, get_tabM f hy, Option.bind_some, get_tab _ hx, get_tabM _ hx, length_tab,
        if_pos hy, set_tab, set_tabM]
      congr 1
      apply tabM_congr
      intro u hu v hv
      by_cases h1 : u = x
      · rw [if_pos h1]
        subst h1
        by_cases h2 : v = y
        · rw [if_pos h2, if_pos (by omega), h2]
        · rw [if_neg h2]
          by_cases h3 : v < y
          · rw [if_pos (by omega), if_pos (by omega)]
          · rw [if_neg (by omega), if_neg (by omega)]
      · rw [if_neg h1]
        by_cases h3 : v < y ∨ v = y ∧ u < x
        · rw [if_pos h3, if_pos (by omega)]
        · rw [if_neg h3, if_neg (by omega)]

theorem replicate_tabM (w h : Nat) : List.replicate w (List.replicate h (0 : R)) = tabM w h (fun _ _ => 0) := by
  rw [replicate_tab]
  simp [tabM, List.map_const']

end

variable {R : Type} [CommRing R]

open Finset in
/-- Half of the indices of the sum each way. -/
theorem sum_even_odd (L : Nat) (g : Nat → R) :
    ∑ u ∈ range (2 * L), g u = (∑ t ∈ range L, g (2 * t)) + ∑ t ∈ range L, g (2 * t + 1) := by
  induction L with
  | zero => simp
  | succ L ih =>
    rw [show 2 * (L + 1) = 2 * L + 1 + 1 by ring, sum_range_succ, sum_range_succ, ih, sum_range_succ, sum_range_succ]
    ring

open Finset in
theorem G_sum (ω : R) (m : Nat) (hω : m ≠ 0 → ω ^ (2 ^ (m - 1)) = -1) (f : Nat → R) (s d : Nat) (hs : s + d = m)
    (b j : Nat) (hb : b < 2 ^ d) (hj : j < 2 ^ s) :
    G (fun k => ω ^ k) m f s b j = ∑ t ∈ range (2 ^ s), f (rev d b + 2 ^ d * t) * ω ^ ((rev d b + 2 ^ d * t) * j) := by
  induction s generalizing d b j with
  | zero =>
    have : d = m := by omega
    subst this
    have : j = 0 := by simpa using hj
    subst this
    simp [G]
  | succ s ih =>
    have hm : m ≠ 0 := by omega
    have hb2 : 2 * b < 2 ^ (d + 1) := by rw [Nat.pow_succ]; omega
    have hb3 : 2 * b + 1 < 2 ^ (d + 1) := by rw [Nat.pow_succ]; omega
    have r1 : rev (d + 1) (2 * b) = rev d b := by
      rw [rev, show 2 * b % 2 = 0 by omega, show 2 * b / 2 = b by omega]; omega
    have r2 : rev (d + 1) (2 * b + 1) = rev d b + 2 ^ d := by
      rw [rev, show (2 * b + 1) % 2 = 1 by omega, show (2 * b + 1) / 2 = b by omega]; omega
    have i1 : ∀ t, rev (d + 1) (2 * b) + 2 ^ (d + 1) * t = rev d b + 2 ^ d * (2 * t) := by
      intro t; rw [r1]; ring
    have i2 : ∀ t, rev (d + 1) (2 * b + 1) + 2 ^ (d + 1) * t = rev d b + 2 ^ d * (2 * t + 1) := by
      intro t; rw [r2]; ring
    have key : ∀ j, j < 2 ^ s →
        G (fun k => ω ^ k) m f s (2 * b) j = ∑ t ∈ range (2 ^ s), f (rev d b + 2 ^ d * (2 * t)) * ω ^ ((rev d b + 2 ^ d * (2 * t)) * j) ∧
        G (fun k => ω ^ k) m f s (2 * b + 1) j = ∑ t ∈ range (2 ^ s), f (rev d b + 2 ^ d * (2 * t + 1)) * ω ^ ((rev d b + 2 ^ d * (2 * t + 1)) * j) := by
      intro j hj
      have a1 := ih (d + 1) (by omega) (2 * b) j hb2 hj
      have a2 := ih (d + 1) (by omega) (2 * b + 1) j hb3 hj
      simp only [i1] at a1
      simp only [i2] at a2
      exact ⟨a1, a2⟩
    rw [show 2 ^ (s + 1) = 2 * 2 ^ s by rw [Nat.pow_succ, Nat.mul_comm], sum_even_odd, G]
    by_cases h : j < 2 ^ s
    · rw [if_pos h, (key j h).1, (key j h).2]
    · rw [if_neg h]
      have hj' : j - 2 ^ s < 2 ^ s := by rw [Nat.pow_succ] at hj; omega
      obtain ⟨j', rfl⟩ : ∃ j', j = j' + 2 ^ s := ⟨j - 2 ^ s, by omega⟩
      rw [Nat.add_sub_cancel] at hj' ⊢
      rw [(key j' hj').1, (key j' hj').2]
      have htw : rev (m - 1) b = 2 ^ s * rev d b := by
        rw [show m - 1 = d + s by omega]; exact rev_shift s d b hb
      have hhalf : ω ^ (2 ^ d * 2 ^ s) = -1 := by
        rw [← Nat.pow_add, show d + s = m - 1 by omega]; exact hω hm
      rw [htw, mul_sub, mul_sum, mul_sum, sub_eq_add_neg, ← sum_neg_distrib]
      have heven : ∀ t, ω ^ (2 ^ d * (2 * t) * 2 ^ s) = 1 := by
        intro t
        rw [show 2 ^ d * (2 * t) * 2 ^ s = 2 ^ d * 2 ^ s * (2 * t) by ring, pow_mul, hhalf, pow_mul]; simp
      congr 1
      · apply sum_congr rfl
        intro t _
        rw [show (rev d b + 2 ^ d * (2 * t)) * (j' + 2 ^ s) =
          2 ^ s * rev d b + (rev d b + 2 ^ d * (2 * t)) * j' + 2 ^ d * (2 * t) * 2 ^ s by ring,
          pow_add, pow_add, heven]
        ring
      · apply sum_congr rfl
        intro t _
        rw [show (rev d b + 2 ^ d * (2 * t + 1)) * (j' + 2 ^ s) =
          2 ^ s * rev d b + (rev d b + 2 ^ d * (2 * t + 1)) * j' + 2 ^ d * (2 * t) * 2 ^ s + 2 ^ d * 2 ^ s by ring,
          pow_add, pow_add, pow_add, heven, hhalf]
        ring

/-! ### The transform in one dimension -/

/-- The sum computed at position `k`. -/
noncomputable def dftFn (ω : R) (n : Nat) (f : Nat → R) (k : Nat) : R := ∑ j ∈ Finset.range n, f j * ω ^ (j * k)

theorem root_iff {ω : R} {m : Nat} : Root ω (2 ^ m) ↔ (m ≠ 0 → ω ^ (2 ^ (m - 1)) = -1) := by
  unfold Root
  cases m with
  | zero => simp
  | succ m =>
    have : 2 ^ (m + 1) ≠ 1 := by
      have : 0 < 2 ^ m := Nat.pos_of_ne_zero (by simp)
      rw [Nat.pow_succ]; omega
    simp only [ne_eq, this, not_false_eq_true, forall_const, Nat.add_sub_cancel, Nat.succ_ne_zero]
    rw [Nat.pow_succ, Nat.mul_div_cancel _ (by decide)]

theorem fft_tab (tw : Nat → Nat → R) (m : Nat) (ω : R) (hω : Root ω (2 ^ m)) (htw : ∀ k, tw (2 ^ m) k = ω ^ k)
    (f : Nat → R) : fft tw (tab (2 ^ m) f) = .ok (tab (2 ^ m) (dftFn ω (2 ^ m) f)) := by
  rw [fft_G]
  congr 1
  apply tab_congr
  intro p hp
  have htw' : tw (2 ^ m) = fun k => ω ^ k := funext htw
  rw [htw', G_sum ω m (root_iff.mp hω) f m 0 (by omega) 0 p (by simp) hp, dftFn]
  simp [rev]

theorem dft_tab (ω : R) (n : Nat) (f : Nat → R) : dft ω (tab n f) = tab n (dftFn ω n f) := by
  unfold dft
  rw [length_tab]
  apply tab_congr
  intro k _
  apply Finset.sum_congr rfl
  intro j hj
  rw [List.getD_eq_getElem?_getD, get_tab f (Finset.mem_range.mp hj), Option.getD_some]

theorem fft_eq_dft (tw : Nat → Nat → R) (m : Nat) (ω : R) (hω : Root ω (2 ^ m)) (htw : ∀ k, tw (2 ^ m) k = ω ^ k)
    (a : List R) (ha : a.length = 2 ^ m) : fft tw a = .ok (dft ω a) := by
  rw [tab_self a, ha, fft_tab tw m ω hω htw, dft_tab]

/-! ### Inversion -/

open Finset in
theorem sum_halves (L : Nat) (g : Nat → R) :
    ∑ u ∈ range (2 * L), g u = ∑ t ∈ range L, (g t + g (t + L)) := by
  rw [show 2 * L = L + L by omega, sum_range_add, sum_add_distrib]
  congr 1
  apply sum_congr rfl
  intro t _
  rw [Nat.add_comm]

open Finset in
theorem sum_pow_eq_zero (ω : R) (m d : Nat) (hω : ω ^ (2 ^ m) = -1) (hd : 0 < d) (hlt : d < 2 ^ (m + 1)) :
    ∑ k ∈ range (2 ^ (m + 1)), (ω ^ d) ^ k = 0 := by
  induction m generalizing ω d with
  | zero =>
    have : d = 1 := by simp at hlt; omega
    subst this
    simp only [Nat.pow_zero, pow_one] at hω
    simp [sum_range_succ, hω]
  | succ m ih =>
    rw [show 2 ^ (m + 1 + 1) = 2 * 2 ^ (m + 1) by rw [Nat.pow_succ _ (m + 1), Nat.mul_comm], sum_halves]
    rcases Nat.even_or_odd' d with ⟨e, h | h⟩
    · subst h
      have hz : ∀ t, (ω ^ (2 * e)) ^ t + (ω ^ (2 * e)) ^ (t + 2 ^ (m + 1)) = 2 * ((ω ^ 2) ^ e) ^ t := by
        intro t
        have h1 : (ω ^ (2 * e)) ^ 2 ^ (m + 1) = 1 := by
          rw [← pow_mul, show 2 * e * 2 ^ (m + 1) = 2 ^ (m + 1) * (2 * e) by ring, pow_mul, hω, pow_mul]; simp
        rw [pow_add, h1, pow_mul]; ring
      simp only [hz]
      rw [← mul_sum, ih (ω ^ 2) e (by rw [← pow_mul, ← hω]; congr 1; rw [Nat.pow_succ]; ring) (by omega)
        (by rw [Nat.pow_succ] at hlt; omega), mul_zero]
    · subst h
      apply sum_eq_zero
      intro t _
      have h1 : (ω ^ (2 * e + 1)) ^ 2 ^ (m + 1) = -1 := by
        rw [← pow_mul, show (2 * e + 1) * 2 ^ (m + 1) = 2 ^ (m + 1) * (2 * e + 1) by ring, pow_mul, hω, pow_add, pow_mul]
        simp
      rw [pow_add _ t, h1]; ring

open Finset in
theorem dftFn_inverse (ω ω' : R) (m : Nat) (hω : Root ω (2 ^ m)) (h1 : ω * ω' = 1) (f : Nat → R) (l : Nat)
    (hl : l < 2 ^ m) : dftFn ω' (2 ^ m) (dftFn ω (2 ^ m) f) l = (2 ^ m : Nat) * f l := by
  unfold dftFn
  have hpow : ∀ k, ω ^ k * ω' ^ k = 1 := fun k => by rw [← mul_pow, h1, one_pow]
  have hswap : ∑ k ∈ range (2 ^ m), (∑ j ∈ range (2 ^ m), f j * ω ^ (j * k)) * ω' ^ (k * l) =
      ∑ j ∈ range (2 ^ m), f j * ∑ k ∈ range (2 ^ m), (ω ^ j * ω' ^ l) ^ k := by
    simp only [sum_mul, mul_sum]
    rw [sum_comm]
    apply sum_congr rfl
    intro j _
    apply sum_congr rfl
    intro k _
    rw [mul_pow, ← pow_mul, ← pow_mul, Nat.mul_comm k l]
    ring
  rw [hswap, sum_eq_single l]
  · rw [hpow]; simp; ring
  · intro j hj hne
    have hj := mem_range.mp hj
    have hz : ∑ k ∈ range (2 ^ m), (ω ^ j * ω' ^ l) ^ k = 0 := by
      cases m with
      | zero => simp at hj hl; omega
      | succ m =>
        have hr : ω ^ 2 ^ m = -1 := (root_iff.mp hω) (by simp)
        have hr' : ω' ^ 2 ^ m = -1 := by
          have := hpow (2 ^ m)
          rw [hr] at this
          linear_combination -this
        rcases Nat.lt_or_gt_of_ne hne with h | h
        · have e : ω ^ j * ω' ^ l = ω' ^ (l - j) := by
            rw [show l = j + (l - j) by omega, pow_add, ← mul_assoc, hpow, one_mul, Nat.add_sub_cancel_left]
          rw [e]
          exact sum_pow_eq_zero ω' m _ hr' (by omega) (by omega)
        · have e : ω ^ j * ω' ^ l = ω ^ (j - l) := by
            rw [show j = l + (j - l) by omega, pow_add, Nat.add_sub_cancel_left]
            linear_combination ω ^ (j - l) * hpow l
          rw [e]
          exact sum_pow_eq_zero ω m _ hr (by omega) (by omega)
    rw [hz, mul_zero]
  · intro h
    exact absurd (mem_range.mpr hl) h

theorem root_inv {ω ω' : R} {m : Nat} (hω : Root ω (2 ^ m)) (h1 : ω * ω' = 1) : Root ω' (2 ^ m) := by
  rw [root_iff] at *
  intro hm
  have : ω ^ 2 ^ (m - 1) * ω' ^ 2 ^ (m - 1) = 1 := by rw [← mul_pow, h1, one_pow]
  rw [hω hm] at this
  linear_combination -this

/-! ### Two dimensions, on a linear array -/

theorem rows_tab (tw : Nat → Nat → R) (m : Nat) (ω : R) (hω : Root ω (2 ^ m)) (htw : ∀ k, tw (2 ^ m) k = ω ^ k)
    (h : Nat) (f : Nat → R) :
    rows tw (2 ^ m) h (tab (h * 2 ^ m) f) =
      .ok (tab (h * 2 ^ m) fun p => dftFn ω (2 ^ m) (fun x => f (p / 2 ^ m * 2 ^ m + x)) (p % 2 ^ m)) := by
  have hw : 0 < 2 ^ m := Nat.pos_of_ne_zero (by simp)
  induction h generalizing f with
  | zero => simp [rows, tab]
  | succ h ih =>
    rw [rows, take_tab _ (by rw [Nat.succ_mul]; omega), fft_tab tw m ω hω htw]
    simp only [Out.bind]
    rw [show (h + 1) * 2 ^ m = 2 ^ m + h * 2 ^ m by ring, drop_tab, ih]
    simp only [append_tab]
    congr 1
    apply tab_congr
    intro p hp
    by_cases h1 : p < 2 ^ m
    · rw [if_pos h1, Nat.div_eq_of_lt h1, Nat.mod_eq_of_lt h1]
      simp
    · rw [if_neg h1]
      obtain ⟨q, rfl⟩ : ∃ q, p = 2 ^ m + q := ⟨p - 2 ^ m, by omega⟩
      rw [Nat.add_sub_cancel_left, Nat.add_mod_left, Nat.add_div_left _ hw, Nat.succ_mul]
      congr 1
      funext x
      congr 1
      omega

theorem dft2_tab (ωh ωw : R) (h w : Nat) (f : Nat → R) :
    dft2 ωh ωw h w (tab (h * w) f) = tab (h * w) fun p =>
      ∑ y ∈ Finset.range h, ∑ x ∈ Finset.range w, f (y * w + x) * ωh ^ (y * (p / w)) * ωw ^ (x * (p % w)) := by
  unfold dft2
  apply tab_congr
  intro p _
  apply Finset.sum_congr rfl
  intro y hy
  apply Finset.sum_congr rfl
  intro x hx
  have hy := Finset.mem_range.mp hy
  have hx := Finset.mem_range.mp hx
  have hin : y * w + x < h * w := by
    have : (y + 1) * w ≤ h * w := Nat.mul_le_mul_right _ hy
    rw [Nat.succ_mul] at this; omega
  rw [List.getD_eq_getElem?_getD, get_tab f hin, Option.getD_some]

open Finset in
theorem fft2d_eq (tw : Nat → Nat → R) (mh mw : Nat) (ωh ωw : R) (hh : Root ωh (2 ^ mh)) (hw : Root ωw (2 ^ mw))
    (hth : ∀ k, tw (2 ^ mh) k = ωh ^ k) (htw : ∀ k, tw (2 ^ mw) k = ωw ^ k) (a : List R)
    (ha : a.length = 2 ^ mh * 2 ^ mw) : fft2d tw a (2 ^ mw) = .ok (dft2 ωh ωw (2 ^ mh) (2 ^ mw) a) := by
  have ph : 0 < 2 ^ mh := Nat.pos_of_ne_zero (by simp)
  have pw : 0 < 2 ^ mw := Nat.pos_of_ne_zero (by simp)
  rw [tab_self a, ha]
  generalize (fun j => a.getD j 0) = f
  unfold fft2d
  rw [if_neg (by omega), length_tab, Nat.mul_div_cancel _ pw]
  simp only [ne_eq, not_true, if_false]
  rw [rows_tab tw mw ωw hw htw]
  simp only [Out.bind]
  rw [replicate_tab, transpose_tab _ _ pw]
  simp only
  rw [rows_tab tw mh ωh hh hth]
  simp only
  rw [transpose_tab _ _ ph, dft2_tab]
  congr 1
  apply tab_congr
  intro p hp
  have hq : p / 2 ^ mw < 2 ^ mh := Nat.div_lt_of_lt_mul (by rw [Nat.mul_comm]; exact hp)
  rw [(dm hq).1, (dm hq).2, dftFn]
  apply sum_congr rfl
  intro y hy
  have hy := mem_range.mp hy
  have hm := Nat.mod_lt p pw
  rw [(dm hy).1, (dm hy).2, (dm hm).1, (dm hm).2, dftFn, sum_mul]
  apply sum_congr rfl
  intro x _
  ring

/-! ### Two dimensions, on a matrix -/

theorem rowsM_map (tw : Nat → Nat → R) (m : Nat) (ω : R) (hω : Root ω (2 ^ m)) (htw : ∀ k, tw (2 ^ m) k = ω ^ k)
    (l : List Nat) (f : Nat → Nat → R) :
    rowsM tw (l.map fun y => tab (2 ^ m) (f y)) = .ok (l.map fun y => tab (2 ^ m) (dftFn ω (2 ^ m) (f y))) := by
  induction l with
  | nil => rfl
  | cons y l ih =>
    rw [List.map_cons, rowsM, fft_tab tw m ω hω htw, ih]
    rfl

theorem dft2M_tab (ωh ωw : R) (h w : Nat) (f : Nat → Nat → R) :
    dft2M ωh ωw h w (tabM h w f) = tabM h w fun u v =>
      ∑ y ∈ Finset.range h, ∑ x ∈ Finset.range w, f y x * ωh ^ (y * u) * ωw ^ (x * v) := by
  unfold dft2M
  apply tabM_congr
  intro u _ v _
  apply Finset.sum_congr rfl
  intro y hy
  apply Finset.sum_congr rfl
  intro x hx
  rw [List.getD_eq_getElem?_getD (l := tabM h w f), get_tabM f (Finset.mem_range.mp hy), Option.getD_some,
    List.getD_eq_getElem?_getD, get_tab _ (Finset.mem_range.mp hx), Option.getD_some]

open Finset in
theorem fft2dM_eq (tw : Nat → Nat → R) (mh mw : Nat) (ωh ωw : R) (hh : Root ωh (2 ^ mh)) (hw : Root ωw (2 ^ mw))
    (hth : ∀ k, tw (2 ^ mh) k = ωh ^ k) (htw : ∀ k, tw (2 ^ mw) k = ωw ^ k) (a : List (List R))
    (ha : a.length = 2 ^ mh) (hr : ∀ r ∈ a, r.length = 2 ^ mw) :
    fft2dM tw a = .ok (dft2M ωh ωw (2 ^ mh) (2 ^ mw) a) := by
  have ph : 0 < 2 ^ mh := Nat.pos_of_ne_zero (by simp)
  have pw : 0 < 2 ^ mw := Nat.pos_of_ne_zero (by simp)
  rw [tabM_self a _ hr, ha]
  generalize (fun y x => (a.getD y []).getD x 0) = f
  unfold fft2dM
  have hany : (tabM (2 ^ mh) (2 ^ mw) f).any (fun r => r.length != 2 ^ mw) = false := by
    rw [List.any_eq_false]
    intro r hr
    obtain ⟨y, _, rfl⟩ := List.mem_map.mp hr
    simp [length_tab]
  simp only [length_tabM, (isPow2_iff _).mpr ⟨mh, rfl⟩, get_tabM _ ph, Bool.not_true, Bool.false_eq_true, if_false, length_tab, hany]
  rw [tabM, rowsM_map tw mw ωw hw htw]
  simp only [Out.bind]
  rw [replicate_tabM]
  rw [show (List.map (fun y => tab (2 ^ mw) (dftFn ωw (2 ^ mw) (f y))) (List.range (2 ^ mh))) =
    tabM (2 ^ mh) (2 ^ mw) (fun y => dftFn ωw (2 ^ mw) (f y)) from rfl, transposeM_tab _ _ ph]
  simp only
  rw [tabM.eq_1 (2 ^ mw), rowsM_map tw mh ωh hh hth]
  simp only
  rw [show (List.map (fun y => tab (2 ^ mh) (dftFn ωh (2 ^ mh) (fun x => dftFn ωw (2 ^ mw) (f x) y))) (List.range (2 ^ mw))) =
    tabM (2 ^ mw) (2 ^ mh) (fun y => dftFn ωh (2 ^ mh) (fun x => dftFn ωw (2 ^ mw) (f x) y)) from rfl,
    transposeM_tab _ _ pw, ← tabM, dft2M_tab]
  congr 1
  apply tabM_congr
  intro u _ v _
  simp only [dftFn]
  apply sum_congr rfl
  intro y _
  rw [sum_mul]
  apply sum_congr rfl
  intro x _
  ring

/-! ### Complex numbers -/

theorem cTw_eq (flip : ℝ) (n k : Nat) : cTw flip n k = cRoot flip n ^ k := by
  rw [cRoot, ← Complex.exp_nat_mul]
  have : (k : ℂ) * (2 * (Real.pi : ℂ) * (flip : ℂ) / (n : ℂ) * Complex.I) =
      ((2 * Real.pi / n * flip * k : ℝ) : ℂ) * Complex.I := by
    push_cast; ring
  rw [this]
  apply Complex.ext
  · rw [Complex.exp_ofReal_mul_I_re]; rfl
  · rw [Complex.exp_ofReal_mul_I_im]; rfl

theorem cRoot_root (flip : ℝ) (h : flip = 1 ∨ flip = -1) (m : Nat) : Root (cRoot flip (2 ^ m)) (2 ^ m) := by
  rw [root_iff]
  intro hm
  obtain ⟨m, rfl⟩ : ∃ k, m = k + 1 := ⟨m - 1, by omega⟩
  rw [Nat.add_sub_cancel, cRoot, ← Complex.exp_nat_mul]
  have h2 : ((2 : ℂ) ^ m) ≠ 0 := pow_ne_zero _ (by norm_num)
  have : (((2 ^ m : Nat)) : ℂ) * (2 * (Real.pi : ℂ) * (flip : ℂ) / ((2 ^ (m + 1) : Nat) : ℂ) * Complex.I) =
      flip * (Real.pi * Complex.I) := by
    push_cast
    rw [pow_succ]
    field_simp
  rw [this]
  rcases h with h | h
  · subst h; simp
  · subst h
    simp [Complex.exp_neg]

theorem cRoot_inv (n : Nat) : cRoot 1 n * cRoot (-1) n = 1 := by
  rw [cRoot, cRoot, ← Complex.exp_add]
  have : 2 * (Real.pi : ℂ) * ((1 : ℝ) : ℂ) / (n : ℂ) * Complex.I + 2 * (Real.pi : ℂ) * ((-1 : ℝ) : ℂ) / (n : ℂ) * Complex.I = 0 := by
    push_cast; ring
  rw [this, Complex.exp_zero]

end Verif.Fft.Lemmas
