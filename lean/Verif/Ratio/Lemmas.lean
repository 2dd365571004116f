import Verif.Ratio.Spec
import Mathlib.Tactic.FieldSimp
import Mathlib.Tactic.Ring
import Mathlib.Algebra.Order.Field.Rat
import Mathlib.Data.Rat.Cast.Order
import Mathlib.Data.Int.GCD
import Mathlib.RingTheory.Coprime.Lemmas
import Mathlib.Tactic.LinearCombination

namespace Verif.Ratio.Lemmas
open Verif.Ratio Verif.Ratio.Spec

variable {T : IntTy}

theorem chk_some {x y : Int} (h : T.chk x = some y) : y = x := by
  unfold IntTy.chk at h; split at h <;> simp_all

theorem chk_big (x : Int) : bigInt.chk x = some x := rfl

theorem div_some {x y z : Int} (h : T.div x y = some z) : y ≠ 0 ∧ z = x.tdiv y := by
  unfold IntTy.div at h; split at h
  · simp at h
  · exact ⟨by assumption, chk_some h⟩

theorem mod_some {x y z : Int} (h : T.mod x y = some z) : y ≠ 0 ∧ z = x.tmod y := by
  unfold IntTy.mod at h; split at h
  · simp at h
  · exact ⟨by assumption, chk_some h⟩

theorem gcdLoop_some {fuel : Nat} {a b g : Int} (ha : 0 ≤ a) (hb : 0 ≤ b) (h : gcdLoop T fuel a b = some g) :
    b ≠ 0 ∧ g = Int.gcd a b := by
  induction fuel generalizing a b with
  | zero => simp [gcdLoop] at h
  | succ fuel ih =>
    simp only [gcdLoop, Option.bind_eq_bind, Option.bind_eq_some_iff] at h
    obtain ⟨a', h1, h⟩ := h
    obtain ⟨hb0, rfl⟩ := mod_some h1
    refine ⟨hb0, ?_⟩
    have hg1 : Int.gcd (a.tmod b) b = Int.gcd a b := by
      rw [Int.tmod_eq_emod_of_nonneg ha, Int.gcd_emod]
    by_cases hz : a.tmod b = 0
    · rw [if_pos hz] at h
      rw [hz, Int.gcd_zero_left] at hg1
      have : g = b := by simpa using h.symm
      omega
    · rw [if_neg hz] at h
      simp only [Option.bind_eq_some_iff] at h
      obtain ⟨b', h2, h⟩ := h
      obtain ⟨_, rfl⟩ := mod_some h2
      have ha' : 0 ≤ a.tmod b := Int.tmod_nonneg _ ha
      have hg2 : Int.gcd (a.tmod b) (b.tmod (a.tmod b)) = Int.gcd a b := by
        rw [Int.gcd_comm, Int.tmod_eq_emod_of_nonneg hb, Int.gcd_emod, Int.gcd_comm, hg1]
      by_cases hz2 : b.tmod (a.tmod b) = 0
      · rw [if_pos hz2] at h
        rw [hz2, Int.gcd_zero_right] at hg2
        have : g = a.tmod b := by simpa using h.symm
        omega
      · rw [if_neg hz2] at h
        rw [(ih ha' (Int.tmod_nonneg _ hb) h).2, hg2]

theorem gcdLoop_big {fuel : Nat} {a b : Int} (ha : 0 ≤ a) (hb : 0 < b) (hf : b.natAbs < fuel) :
    (gcdLoop bigInt fuel a b).isSome := by
  induction fuel generalizing a b with
  | zero => omega
  | succ fuel ih =>
    have hm : ∀ x y : Int, y ≠ 0 → bigInt.mod x y = some (x.tmod y) := by
      intro x y h; simp [IntTy.mod, h, chk_big]
    simp only [gcdLoop, Option.bind_eq_bind, hm _ _ (show b ≠ 0 by omega), Option.bind_some]
    by_cases hz : a.tmod b = 0
    · rw [if_pos hz]; rfl
    · rw [if_neg hz]
      simp only [hm _ _ hz, Option.bind_some]
      by_cases hz2 : b.tmod (a.tmod b) = 0
      · rw [if_pos hz2]; rfl
      · rw [if_neg hz2]
        have h1 : 0 ≤ a.tmod b := Int.tmod_nonneg _ ha
        have h2 : 0 ≤ b.tmod (a.tmod b) := Int.tmod_nonneg _ (by omega)
        have h3 : b.tmod (a.tmod b) < a.tmod b := Int.tmod_lt_of_pos _ (by omega)
        have h4 : a.tmod b < b := Int.tmod_lt_of_pos _ hb
        exact ih h1 (by omega) (by omega)

theorem gcd_some (hT : AbsOk T) {a b g : Int} (h : gcd T a b = some g) : b ≠ 0 ∧ g = Int.gcd a b := by
  simp only [gcd, Option.bind_eq_bind, Option.bind_eq_some_iff] at h
  obtain ⟨a', h1, b', h2, h3⟩ := h
  replace h1 := chk_some h1
  replace h2 := chk_some h2
  rw [hT] at h1 h2
  obtain ⟨h4, h5⟩ := gcdLoop_some (by omega) (by omega) h3
  refine ⟨by omega, ?_⟩
  rw [h5, h1, h2, Int.gcd, Int.gcd, Int.natAbs_natCast, Int.natAbs_natCast]

theorem gcd_big {a b : Int} (h : b ≠ 0) : gcd bigInt a b = some (Int.gcd a b : Int) := by
  have : (gcd bigInt a b).isSome := by
    simp only [gcd, Option.bind_eq_bind, bigInt]
    exact gcdLoop_big (by simp) (by omega) (by simp)
  obtain ⟨g, hg⟩ := Option.isSome_iff_exists.mp this
  rw [hg, (gcd_some (fun _ => rfl) hg).2]

theorem gcd_zero_right (hT : AbsOk T) (a : Int) : gcd T a 0 = none := by
  cases h : gcd T a 0 with
  | none => rfl
  | some g => exact absurd rfl (gcd_some hT h).1

theorem div_big {x y : Int} (h : y ≠ 0) : bigInt.div x y = some (x.tdiv y) := by
  simp [IntTy.div, h, chk_big]

theorem gcd_pos {a b : Int} (h : b ≠ 0) : 0 < Int.gcd a b := Int.gcd_pos_of_ne_zero_right a h

theorem pos_right {g x : Int} (hg : 0 < g) (h : 0 < g * x) : 0 < x := (mul_pos_iff_of_pos_left hg).mp h

/-- Cancelling the greatest common divisor. -/
theorem cancel (a b : Int) (hb : b ≠ 0) : ∃ a' b' : Int, a.tdiv (Int.gcd a b) = a' ∧ b.tdiv (Int.gcd a b) = b' ∧
    a = Int.gcd a b * a' ∧ b = Int.gcd a b * b' ∧ IsCoprime a' b' := by
  have hg := gcd_pos (a := a) hb
  have e1 : (Int.gcd a b : Int) * a.tdiv (Int.gcd a b) = a := Int.mul_tdiv_cancel' (Int.gcd_dvd_left a b)
  have e2 : (Int.gcd a b : Int) * b.tdiv (Int.gcd a b) = b := Int.mul_tdiv_cancel' (Int.gcd_dvd_right a b)
  refine ⟨_, _, rfl, rfl, e1.symm, e2.symm, ?_⟩
  rw [Int.isCoprime_iff_gcd_eq_one]
  have h := Int.gcd_mul_left (Int.gcd a b) (a.tdiv (Int.gcd a b)) (b.tdiv (Int.gcd a b))
  rw [e1, e2, Int.natAbs_natCast] at h
  have h2 : Int.gcd a b * 1 = Int.gcd a b * (a.tdiv (Int.gcd a b)).gcd (b.tdiv (Int.gcd a b)) := by omega
  exact (Nat.eq_of_mul_eq_mul_left hg h2).symm

theorem value_eq {n d m e : Int} (hd : d ≠ 0) (he : e ≠ 0) : value ⟨n, d⟩ = value ⟨m, e⟩ ↔ n * e = m * d := by
  unfold value
  have hd' : (d : ℚ) ≠ 0 := by exact_mod_cast hd
  have he' : (e : ℚ) ≠ 0 := by exact_mod_cast he
  simp only
  rw [div_eq_div_iff hd' he']
  exact_mod_cast Iff.rfl

theorem canonical_iff {r : R} : Canonical r ↔ 0 < r.den ∧ IsCoprime r.num r.den := by
  rw [Canonical, Int.isCoprime_iff_gcd_eq_one]

theorem reduce_some (hT : AbsOk T) {r s : R} (hd : 0 < r.den) (h : reduce T r = some s) :
    Canonical s ∧ value s = value r := by
  simp only [reduce, Option.bind_eq_bind, Option.bind_eq_some_iff] at h
  obtain ⟨g, h1, g', h2, n, h3, d, h4, h5⟩ := h
  obtain ⟨_, rfl⟩ := gcd_some hT h1
  have := chk_some h2
  rw [if_pos hd, Int.mul_one] at this
  subst this
  obtain ⟨_, rfl⟩ := div_some h3
  obtain ⟨_, rfl⟩ := div_some h4
  simp only [Option.pure_def, Option.some.injEq] at h5
  subst h5
  have hg := gcd_pos (a := r.num) (b := r.den) (by omega)
  obtain ⟨n, d, e1, e2, e3, e4, hc⟩ := cancel r.num r.den (by omega)
  rw [e1, e2]
  generalize Int.gcd r.num r.den = g at *
  have hdp : 0 < d := by
    have h : 0 < (g : Int) * d := by omega
    exact pos_right (by omega) h
  refine ⟨canonical_iff.mpr ⟨hdp, hc⟩, ?_⟩
  rw [show r = ⟨g * n, g * d⟩ from by cases r; simp_all]
  rw [value_eq (by omega) (by rw [← e4]; omega)]
  ring

theorem reduce_big {r : R} (hd : 0 < r.den) : (reduce bigInt r).isSome := by
  have hg := gcd_pos (a := r.num) (b := r.den) (by omega)
  simp only [reduce, gcd_big (show r.den ≠ 0 by omega), Option.bind_eq_bind, Option.bind_some, chk_big, if_pos hd,
    Int.mul_one, div_big (show (Int.gcd r.num r.den : Int) ≠ 0 by omega)]
  rfl

theorem mk2_some (hT : AbsOk T) {n d : Int} {r : R} (h : mk2 T n d = some r) :
    d ≠ 0 ∧ Canonical r ∧ value r = (n : ℚ) / d := by
  unfold mk2 at h
  split at h
  · rename_i hneg
    simp only [Option.bind_eq_bind, Option.bind_eq_some_iff] at h
    obtain ⟨d', h3, n', h4, h5⟩ := h
    replace h3 := chk_some h3
    replace h4 := chk_some h4
    obtain ⟨h6, h7⟩ := reduce_some hT (by simp only; omega) h5
    refine ⟨by omega, h6, h7.trans ?_⟩
    simp only [value, h3, h4]
    push_cast
    rw [mul_div_mul_right _ _ (by norm_num)]
  · have hd : d ≠ 0 := by
      rintro rfl
      simp [reduce, gcd_zero_right hT] at h
    exact ⟨hd, reduce_some hT (by simp only; omega) h⟩

theorem mk2_big {n d : Int} (h : d ≠ 0) : (mk2 bigInt n d).isSome := by
  unfold mk2
  split
  · simp only [chk_big, Option.bind_eq_bind, Option.bind_some]
    exact reduce_big (by simp only; omega)
  · exact reduce_big (by simp only; omega)

theorem coprime4 {x y u v : Int} (h1 : IsCoprime x u) (h2 : IsCoprime x v) (h3 : IsCoprime y u) (h4 : IsCoprime y v) :
    IsCoprime (x * y) (u * v) :=
  IsCoprime.mul_left (IsCoprime.mul_right h1 h2) (IsCoprime.mul_right h3 h4)

theorem add_some (hT : AbsOk T) {a b r : R} (ha : 0 < a.den) (hb : 0 < b.den) (h : add T a b = some r) :
    Canonical r ∧ value r = value a + value b := by
  simp only [add, Option.bind_eq_bind, Option.bind_eq_some_iff] at h
  obtain ⟨g, h1, p, h2, x, h3, q, h4, y, h5, n, h6, d, h7, h8⟩ := h
  obtain ⟨_, rfl⟩ := gcd_some hT h1
  obtain ⟨_, rfl⟩ := div_some h2
  obtain ⟨_, rfl⟩ := div_some h4
  replace h3 := chk_some h3
  replace h5 := chk_some h5
  replace h6 := chk_some h6
  replace h7 := chk_some h7
  have hg := gcd_pos (a := a.den) (b := b.den) (by omega)
  obtain ⟨u, v, e1, e2, e3, e4, -⟩ := cancel a.den b.den (by omega)
  rw [e1] at h5
  rw [e2] at h3 h7
  have hv : 0 < v := pos_right (g := (a.den.gcd b.den : Int)) (by omega) (by omega)
  have hu : 0 < u := pos_right (g := (a.den.gcd b.den : Int)) (by omega) (by omega)
  have hd : 0 < d := by rw [h7]; exact Int.mul_pos ha hv
  obtain ⟨c1, c2⟩ := reduce_some hT (by exact hd) h8
  refine ⟨c1, c2.trans ?_⟩
  have a1 : (a.den : ℚ) ≠ 0 := by exact_mod_cast (by omega : a.den ≠ 0)
  have b1 : (b.den : ℚ) ≠ 0 := by exact_mod_cast (by omega : b.den ≠ 0)
  have v1 : (v : ℚ) ≠ 0 := by exact_mod_cast (by omega : v ≠ 0)
  generalize (a.den.gcd b.den : Int) = g at *
  have e3' : (a.den : ℚ) = g * u := by exact_mod_cast e3
  have e4' : (b.den : ℚ) = g * v := by exact_mod_cast e4
  have key : (a.den : ℚ) * v = b.den * u := by rw [e3', e4']; ring
  simp only [value, h6, h3, h5, h7]
  push_cast
  rw [div_add_div _ _ a1 b1, div_eq_div_iff (mul_ne_zero a1 v1) (mul_ne_zero a1 b1)]
  linear_combination -(a.den * b.num : ℚ) * key

theorem sub_some (hT : AbsOk T) {a b r : R} (ha : 0 < a.den) (hb : 0 < b.den) (h : sub T a b = some r) :
    Canonical r ∧ value r = value a - value b := by
  simp only [sub, Option.bind_eq_bind, Option.bind_eq_some_iff] at h
  obtain ⟨g, h1, p, h2, x, h3, q, h4, y, h5, n, h6, d, h7, h8⟩ := h
  obtain ⟨_, rfl⟩ := gcd_some hT h1
  obtain ⟨_, rfl⟩ := div_some h2
  obtain ⟨_, rfl⟩ := div_some h4
  replace h3 := chk_some h3
  replace h5 := chk_some h5
  replace h6 := chk_some h6
  replace h7 := chk_some h7
  have hg := gcd_pos (a := a.den) (b := b.den) (by omega)
  obtain ⟨u, v, e1, e2, e3, e4, -⟩ := cancel a.den b.den (by omega)
  rw [e1] at h5
  rw [e2] at h3 h7
  have hv : 0 < v := pos_right (g := (a.den.gcd b.den : Int)) (by omega) (by omega)
  have hd : 0 < d := by rw [h7]; exact Int.mul_pos ha hv
  obtain ⟨c1, c2⟩ := reduce_some hT (by exact hd) h8
  refine ⟨c1, c2.trans ?_⟩
  have a1 : (a.den : ℚ) ≠ 0 := by exact_mod_cast (by omega : a.den ≠ 0)
  have b1 : (b.den : ℚ) ≠ 0 := by exact_mod_cast (by omega : b.den ≠ 0)
  have v1 : (v : ℚ) ≠ 0 := by exact_mod_cast (by omega : v ≠ 0)
  generalize (a.den.gcd b.den : Int) = g at *
  have e3' : (a.den : ℚ) = g * u := by exact_mod_cast e3
  have e4' : (b.den : ℚ) = g * v := by exact_mod_cast e4
  have key : (a.den : ℚ) * v = b.den * u := by rw [e3', e4']; ring
  simp only [value, h6, h3, h5, h7]
  push_cast
  rw [div_sub_div _ _ a1 b1, div_eq_div_iff (mul_ne_zero a1 v1) (mul_ne_zero a1 b1)]
  linear_combination (a.den * b.num : ℚ) * key

theorem addsub_big {a b : R} (ha : 0 < a.den) (hb : 0 < b.den) : (add bigInt a b).isSome ∧ (sub bigInt a b).isSome := by
  have hg := gcd_pos (a := a.den) (b := b.den) (by omega)
  obtain ⟨u, v, e1, e2, e3, e4, -⟩ := cancel a.den b.den (by omega)
  have hv : 0 < v := pos_right (g := (a.den.gcd b.den : Int)) (by omega) (by omega)
  have hd : 0 < a.den * v := Int.mul_pos ha hv
  simp only [add, sub, gcd_big (show b.den ≠ 0 by omega), Option.bind_eq_bind, Option.bind_some, chk_big,
    div_big (show (Int.gcd a.den b.den : Int) ≠ 0 by omega), e1, e2]
  exact ⟨reduce_big hd, reduce_big hd⟩

theorem mul_some (hT : AbsOk T) {a b r : R} (ha : Canonical a) (hb : Canonical b) (h : mul T a b = some r) :
    Canonical r ∧ value r = value a * value b := by
  simp only [mul, Option.bind_eq_bind, Option.bind_eq_some_iff] at h
  obtain ⟨g1, h1, g2, h2, x, h3, y, h4, n, h5, u, h6, v, h7, d, h8, h9⟩ := h
  obtain ⟨_, rfl⟩ := gcd_some hT h1
  obtain ⟨_, rfl⟩ := gcd_some hT h2
  obtain ⟨_, rfl⟩ := div_some h3
  obtain ⟨_, rfl⟩ := div_some h4
  obtain ⟨_, rfl⟩ := div_some h6
  obtain ⟨_, rfl⟩ := div_some h7
  replace h5 := chk_some h5
  replace h8 := chk_some h8
  simp only [Option.pure_def, Option.some.injEq] at h9
  subst h9
  obtain ⟨ha1, ha2⟩ := canonical_iff.mp ha
  obtain ⟨hb1, hb2⟩ := canonical_iff.mp hb
  have p1 := gcd_pos (a := a.num) (b := b.den) (by omega)
  have p2 := gcd_pos (a := b.num) (b := a.den) (by omega)
  obtain ⟨x, v, e1, e2, e3, e4, c1⟩ := cancel a.num b.den (by omega)
  obtain ⟨y, u, e5, e6, e7, e8, c2⟩ := cancel b.num a.den (by omega)
  rw [e1, e5] at h5
  rw [e2, e6] at h8
  generalize hG1 : (a.num.gcd b.den : Int) = G1 at *
  generalize hG2 : (b.num.gcd a.den : Int) = G2 at *
  have hv : 0 < v := pos_right (g := G1) (by omega) (by omega)
  have hu : 0 < u := pos_right (g := G2) (by omega) (by omega)
  have hd : 0 < d := by rw [h8]; exact Int.mul_pos hu hv
  rw [e3, e8] at ha2
  rw [e4, e7] at hb2
  refine ⟨canonical_iff.mpr ⟨hd, ?_⟩, ?_⟩
  · simp only [h5, h8]
    exact coprime4 ha2.of_mul_left_right.of_mul_right_right c1 c2 hb2.of_mul_left_right.of_mul_right_right
  · have a1 : (a.den : ℚ) ≠ 0 := by exact_mod_cast (by omega : a.den ≠ 0)
    have b1 : (b.den : ℚ) ≠ 0 := by exact_mod_cast (by omega : b.den ≠ 0)
    have d1 : ((u * v : Int) : ℚ) ≠ 0 := by rw [← h8]; exact_mod_cast (by omega : d ≠ 0)
    simp only [value, h5, h8]
    rw [div_mul_div_comm, div_eq_div_iff d1 (mul_ne_zero a1 b1)]
    have : (x * y) * (a.den * b.den) = (a.num * b.num) * (u * v) := by rw [e3, e4, e7, e8]; ring
    exact_mod_cast this

theorem mul_big {a b : R} (ha : 0 < a.den) (hb : 0 < b.den) : (mul bigInt a b).isSome := by
  have p1 := gcd_pos (a := a.num) (b := b.den) (by omega)
  have p2 := gcd_pos (a := b.num) (b := a.den) (by omega)
  simp only [mul, gcd_big (show b.den ≠ 0 by omega), gcd_big (show a.den ≠ 0 by omega), Option.bind_eq_bind,
    Option.bind_some, chk_big, div_big (show (Int.gcd a.num b.den : Int) ≠ 0 by omega),
    div_big (show (Int.gcd b.num a.den : Int) ≠ 0 by omega)]
  rfl

theorem div_some' (hT : AbsOk T) {a b r : R} (ha : Canonical a) (hb : Canonical b) (h : div T a b = some r) :
    b.num ≠ 0 ∧ Canonical r ∧ value r = value a / value b := by
  simp only [div, Option.bind_eq_bind, Option.bind_eq_some_iff] at h
  obtain ⟨g1, h1, g2, h2, x, h3, y, h4, n, h5, u, h6, v, h7, d, h8, h9⟩ := h
  obtain ⟨hbn, rfl⟩ := gcd_some hT h1
  obtain ⟨_, rfl⟩ := gcd_some hT h2
  obtain ⟨_, rfl⟩ := div_some h3
  obtain ⟨_, rfl⟩ := div_some h4
  obtain ⟨_, rfl⟩ := div_some h6
  obtain ⟨_, rfl⟩ := div_some h7
  replace h5 := chk_some h5
  replace h8 := chk_some h8
  obtain ⟨ha1, ha2⟩ := canonical_iff.mp ha
  obtain ⟨hb1, hb2⟩ := canonical_iff.mp hb
  have p1 := gcd_pos (a := a.num) (b := b.num) hbn
  have p2 := gcd_pos (a := a.den) (b := b.den) (by omega)
  obtain ⟨x, v, e1, e2, e3, e4, c1⟩ := cancel a.num b.num hbn
  obtain ⟨u, y, e5, e6, e7, e8, c2⟩ := cancel a.den b.den (by omega)
  rw [e1, e6] at h5
  rw [e2, e5] at h8
  generalize hG1 : (a.num.gcd b.num : Int) = G1 at *
  generalize hG2 : (a.den.gcd b.den : Int) = G2 at *
  have hv : v ≠ 0 := by rintro rfl; simp at e4; exact hbn e4
  have hu : 0 < u := pos_right (g := G2) (by omega) (by omega)
  have hd : d ≠ 0 := by rw [h8]; exact Int.mul_ne_zero (by omega) hv
  rw [e3, e7] at ha2
  rw [e4, e8] at hb2
  have hc : IsCoprime n d := by
    rw [h5, h8]
    exact coprime4 ha2.of_mul_left_right.of_mul_right_right c1 c2.symm hb2.symm.of_mul_left_right.of_mul_right_right
  have hval : (n : ℚ) / d = value a / value b := by
    have a1 : (a.den : ℚ) ≠ 0 := by exact_mod_cast (by omega : a.den ≠ 0)
    have b1 : (b.num : ℚ) ≠ 0 := by exact_mod_cast hbn
    have d1 : (d : ℚ) ≠ 0 := by exact_mod_cast hd
    simp only [value]
    rw [div_div_div_eq, div_eq_div_iff d1 (mul_ne_zero a1 b1)]
    have : n * (a.den * b.num) = (a.num * b.den) * d := by rw [h5, h8, e3, e4, e7, e8]; ring
    exact_mod_cast this
  refine ⟨hbn, ?_⟩
  split at h9
  · rename_i hneg
    simp only [Option.bind_eq_some_iff] at h9
    obtain ⟨n', k1, d', k2, k3⟩ := h9
    replace k1 := chk_some k1
    replace k2 := chk_some k2
    simp only [Option.pure_def, Option.some.injEq] at k3
    subst k3
    refine ⟨canonical_iff.mpr ⟨by simp only; omega, ?_⟩, ?_⟩
    · simp only [k1, k2]
      rw [show n * -1 = -n by ring, show d * -1 = -d by ring]
      exact hc.neg_neg
    · rw [← hval]
      simp only [value, k1, k2]
      push_cast
      rw [mul_div_mul_right _ _ (by norm_num)]
  · simp only [Option.pure_def, Option.some.injEq] at h9
    subst h9
    exact ⟨canonical_iff.mpr ⟨by simp only; omega, hc⟩, hval⟩

theorem div_big' {a b : R} (hb : 0 < b.den) (hn : b.num ≠ 0) : (div bigInt a b).isSome := by
  have p1 := gcd_pos (a := a.num) (b := b.num) hn
  have p2 := gcd_pos (a := a.den) (b := b.den) (by omega)
  simp only [div, gcd_big (show b.den ≠ 0 by omega), gcd_big hn, Option.bind_eq_bind,
    Option.bind_some, chk_big, div_big (show (Int.gcd a.num b.num : Int) ≠ 0 by omega),
    div_big (show (Int.gcd a.den b.den : Int) ≠ 0 by omega)]
  split <;> rfl

theorem value_inj {a b : R} (ha : Canonical a) (hb : Canonical b) : value a = value b ↔ a = b := by
  refine ⟨fun h => ?_, fun h => by rw [h]⟩
  obtain ⟨ha1, ha2⟩ := canonical_iff.mp ha
  obtain ⟨hb1, hb2⟩ := canonical_iff.mp hb
  have h := (value_eq (n := a.num) (m := b.num) (show a.den ≠ 0 by omega) (show b.den ≠ 0 by omega)).mp h
  have d1 : a.den ∣ b.den := by
    have : a.den ∣ a.num * b.den := ⟨b.num, by rw [h]; ring⟩
    exact ha2.symm.dvd_of_dvd_mul_left this
  have d2 : b.den ∣ a.den := by
    have : b.den ∣ b.num * a.den := ⟨a.num, by rw [← h]; ring⟩
    exact hb2.symm.dvd_of_dvd_mul_left this
  have hd : a.den = b.den := Int.dvd_antisymm (by omega) (by omega) d1 d2
  rw [hd] at h
  have hn : a.num = b.num := Int.eq_of_mul_eq_mul_right (by omega) h
  cases a; cases b; simp_all

end Verif.Ratio.Lemmas
