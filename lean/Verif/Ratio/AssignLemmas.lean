import Verif.Ratio.AssignSpec
import Verif.Ratio.Lemmas
import Verif.Lexical.Props

namespace Verif.Ratio.Lemmas
open Verif.Ratio Verif.Ratio.Spec

variable {T : IntTy}

theorem set_self (m : Mem) (i : Nat) (r : R) : m.set i r i = r := by simp [Mem.set]
theorem set_other (m : Mem) {i k : Nat} (r : R) (h : k ≠ i) : m.set i r k = m k := by simp [Mem.set, h]
theorem set_set (m : Mem) (i : Nat) (r s : R) : (m.set i r).set i s = m.set i s := by
  funext k; by_cases h : k = i <;> simp [Mem.set, h]

theorem den_setNum (m : Mem) (a b : Nat) (x : Int) : ((m.setNum a x) b).den = (m b).den := by
  by_cases h : b = a
  · subst h; simp [Mem.setNum, Mem.set]
  · simp [Mem.setNum, Mem.set, h]

theorem num_setNum (m : Mem) (a b : Nat) (x : Int) (h : b ≠ a) : ((m.setNum a x) b).num = (m b).num := by
  simp [Mem.setNum, Mem.set, h]

theorem setDen_setNum (m : Mem) (a : Nat) (x y : Int) : (m.setNum a x).setDen a y = m.set a ⟨x, y⟩ := by
  simp only [Mem.setDen, Mem.setNum, set_self, set_set]

theorem addAssign_eq (a b : Nat) (m : Mem) : addAssign T a b m = (add T (m a) (m b)).map (m.set a) := by
  unfold addAssign add
  simp only [Option.bind_eq_bind, den_setNum, setDen_setNum, set_self, set_set, Option.pure_def]
  cases gcd T (m a).den (m b).den <;> simp only [Option.bind_none, Option.bind_some, Option.map_none]
  rename_i g
  cases T.div (m b).den g <;> simp only [Option.bind_none, Option.bind_some, Option.map_none]
  rename_i p
  cases T.chk ((m a).num * p) <;> simp only [Option.bind_none, Option.bind_some, Option.map_none]
  cases T.div (m a).den g <;> simp only [Option.bind_none, Option.bind_some, Option.map_none]
  rename_i q
  cases T.chk ((m b).num * q) <;> simp only [Option.bind_none, Option.bind_some, Option.map_none]
  cases T.chk (_ + _) <;> simp only [Option.bind_none, Option.bind_some, Option.map_none]
  cases T.chk ((m a).den * p) <;> simp only [Option.bind_none, Option.bind_some, Option.map_none]
  cases reduce T _ <;> rfl

theorem subAssign_eq (a b : Nat) (m : Mem) : subAssign T a b m = (sub T (m a) (m b)).map (m.set a) := by
  unfold subAssign sub
  simp only [Option.bind_eq_bind, den_setNum, setDen_setNum, set_self, set_set, Option.pure_def]
  cases gcd T (m a).den (m b).den <;> simp only [Option.bind_none, Option.bind_some, Option.map_none]
  rename_i g
  cases T.div (m b).den g <;> simp only [Option.bind_none, Option.bind_some, Option.map_none]
  rename_i p
  cases T.chk ((m a).num * p) <;> simp only [Option.bind_none, Option.bind_some, Option.map_none]
  cases T.div (m a).den g <;> simp only [Option.bind_none, Option.bind_some, Option.map_none]
  rename_i q
  cases T.chk ((m b).num * q) <;> simp only [Option.bind_none, Option.bind_some, Option.map_none]
  cases T.chk (_ - _) <;> simp only [Option.bind_none, Option.bind_some, Option.map_none]
  cases T.chk ((m a).den * p) <;> simp only [Option.bind_none, Option.bind_some, Option.map_none]
  cases reduce T _ <;> rfl

theorem mulAssign_eq (a b : Nat) (m : Mem) : mulAssign T a b m = (mul T (m a) (m b)).map (m.set a) := by
  unfold mulAssign mul
  simp only [Option.bind_eq_bind, den_setNum, setDen_setNum, Option.pure_def]
  cases gcd T (m a).num (m b).den <;> simp only [Option.bind_none, Option.bind_some, Option.map_none]
  cases gcd T (m b).num (m a).den <;> simp only [Option.bind_none, Option.bind_some, Option.map_none]
  rename_i g1 g2
  cases T.div (m a).num g1 <;> simp only [Option.bind_none, Option.bind_some, Option.map_none]
  cases T.div (m b).num g2 <;> simp only [Option.bind_none, Option.bind_some, Option.map_none]
  cases T.chk (_ * _) <;> simp only [Option.bind_none, Option.bind_some, Option.map_none]
  cases T.div (m a).den g2 <;> simp only [Option.bind_none, Option.bind_some, Option.map_none]
  cases T.div (m b).den g1 <;> simp only [Option.bind_none, Option.bind_some, Option.map_none]
  cases T.chk (_ * _) <;> rfl

theorem divAssign_eq {a b : Nat} (h : b ≠ a) (m : Mem) : divAssign T a b m = (div T (m a) (m b)).map (m.set a) := by
  unfold divAssign div
  simp only [Option.bind_eq_bind, den_setNum, num_setNum _ _ _ _ h, setDen_setNum, set_self, Option.pure_def]
  cases gcd T (m a).num (m b).num <;> simp only [Option.bind_none, Option.bind_some, Option.map_none]
  cases gcd T (m a).den (m b).den <;> simp only [Option.bind_none, Option.bind_some, Option.map_none]
  rename_i g1 g2
  cases T.div (m a).num g1 <;> simp only [Option.bind_none, Option.bind_some, Option.map_none]
  cases T.div (m b).den g2 <;> simp only [Option.bind_none, Option.bind_some, Option.map_none]
  cases T.chk (_ * _) <;> simp only [Option.bind_none, Option.bind_some, Option.map_none]
  rename_i n
  cases T.div (m a).den g2 <;> simp only [Option.bind_none, Option.bind_some, Option.map_none]
  cases T.div (m b).num g1 <;> simp only [Option.bind_none, Option.bind_some, Option.map_none]
  cases T.chk (_ * _) <;> simp only [Option.bind_none, Option.bind_some, Option.map_none]
  rename_i d
  by_cases hd : d < 0
  · simp only [if_pos hd]
    cases T.chk (n * -1) <;> simp only [Option.bind_none, Option.bind_some, Option.map_none]
    cases T.chk (d * -1)
    · rfl
    · simp only [set_set, Option.bind_some, Option.map_some]
  · simp only [if_neg hd]; rfl

theorem holds_put {m : Mem} {e : Env} (h : Holds m e) {a : Nat} {r : R} {x : ℚ} (hr : Canonical r ∧ value r = x) :
    Holds (m.set a r) (e.put a x) := by
  intro k
  by_cases hk : k = a
  · simp only [Mem.set, Env.put, hk, if_true]; exact hr
  · simp only [Mem.set, Env.put, hk, if_false]; exact h k

theorem value_zero {r : R} (h : Canonical r) : value r = 0 ↔ r.num = 0 := by
  have : (r.den : ℚ) ≠ 0 := by exact_mod_cast (show r.den ≠ 0 by have := h.1; omega)
  simp [value, this]

theorem exec_some (hT : AbsOk T) {m m' : Mem} {e : Env} (h : Holds m e) {o : Op} (ho : ∀ a, o ≠ .div a a) (hx : exec T m o = some m') :
    ∃ e', means e o = some e' ∧ Holds m' e' := by
  cases o with
  | int a n =>
    simp only [exec, Option.some.injEq] at hx
    subst hx
    exact ⟨_, rfl, holds_put h (by simp [Canonical, mk1, value])⟩
  | frac a n d =>
    simp only [exec, Option.map_eq_some_iff] at hx
    obtain ⟨r, hr, rfl⟩ := hx
    obtain ⟨h1, h2⟩ := mk2_some hT hr
    exact ⟨_, by simp only [means, if_neg h1], holds_put h h2⟩
  | copy a b =>
    simp only [exec, Option.some.injEq] at hx
    subst hx
    exact ⟨_, rfl, holds_put h (h b)⟩
  | add a b =>
    simp only [exec, addAssign_eq, Option.map_eq_some_iff] at hx
    obtain ⟨r, hr, rfl⟩ := hx
    refine ⟨_, rfl, holds_put h ?_⟩
    rw [← (h a).2, ← (h b).2]
    exact add_some hT (h a).1.1 (h b).1.1 hr
  | sub a b =>
    simp only [exec, subAssign_eq, Option.map_eq_some_iff] at hx
    obtain ⟨r, hr, rfl⟩ := hx
    refine ⟨_, rfl, holds_put h ?_⟩
    rw [← (h a).2, ← (h b).2]
    exact sub_some hT (h a).1.1 (h b).1.1 hr
  | mul a b =>
    simp only [exec, mulAssign_eq, Option.map_eq_some_iff] at hx
    obtain ⟨r, hr, rfl⟩ := hx
    refine ⟨_, rfl, holds_put h ?_⟩
    rw [← (h a).2, ← (h b).2]
    exact mul_some hT (h a).1 (h b).1 hr
  | div a b =>
    have hab : b ≠ a := by rintro rfl; exact ho b rfl
    simp only [exec, divAssign_eq hab, Option.map_eq_some_iff] at hx
    obtain ⟨r, hr, rfl⟩ := hx
    obtain ⟨h1, h2, h3⟩ := div_some' hT (h a).1 (h b).1 hr
    have hb : e b ≠ 0 := by rw [← (h b).2]; intro h0; exact h1 ((value_zero (h b).1).1 h0)
    refine ⟨e.put a (e a / e b), by simp only [means, if_neg hb], holds_put h ?_⟩
    rw [← (h a).2, ← (h b).2]
    exact ⟨h2, h3⟩

theorem exec_big {m : Mem} {e e' : Env} (h : Holds m e) {o : Op} (ho : ∀ a, o ≠ .div a a) (hx : means e o = some e') :
    ∃ m', exec bigInt m o = some m' := by
  cases o with
  | int a n => exact ⟨_, rfl⟩
  | frac a n d =>
    have hd : d ≠ 0 := by rintro rfl; simp [means] at hx
    obtain ⟨r, hr⟩ := Option.isSome_iff_exists.mp (mk2_big (n := n) hd)
    exact ⟨m.set a r, by simp only [exec, hr, Option.map_some]⟩
  | copy a b => exact ⟨_, rfl⟩
  | add a b =>
    obtain ⟨r, hr⟩ := Option.isSome_iff_exists.mp (addsub_big (h a).1.1 (h b).1.1).1
    exact ⟨m.set a r, by simp only [exec, addAssign_eq, hr, Option.map_some]⟩
  | sub a b =>
    obtain ⟨r, hr⟩ := Option.isSome_iff_exists.mp (addsub_big (h a).1.1 (h b).1.1).2
    exact ⟨m.set a r, by simp only [exec, subAssign_eq, hr, Option.map_some]⟩
  | mul a b =>
    obtain ⟨r, hr⟩ := Option.isSome_iff_exists.mp (mul_big (h a).1.1 (h b).1.1)
    exact ⟨m.set a r, by simp only [exec, mulAssign_eq, hr, Option.map_some]⟩
  | div a b =>
    have hab : b ≠ a := by rintro rfl; exact ho b rfl
    have hb : e b ≠ 0 := by intro h0; simp [means, h0] at hx
    have hn : (m b).num ≠ 0 := by
      intro h0
      exact hb (by rw [← (h b).2]; exact (value_zero (h b).1).2 h0)
    obtain ⟨r, hr⟩ := Option.isSome_iff_exists.mp (div_big' (a := m a) (h b).1.1 hn)
    exact ⟨m.set a r, by simp only [exec, divAssign_eq hab, hr, Option.map_some]⟩

/-- A number's text has no slash. -/
theorem put_no_slash (n : Int) : (47 : UInt8) ∉ Lexical.put n := by
  have h : ∀ k, (47 : UInt8) ∉ Decimal.digits k := by
    intro k hk
    have := (Decimal.digits_spec k).2.1 _ hk
    revert this; decide
  unfold Lexical.put
  split
  · simp [h]
  · exact h _

theorem put_inj {n k : Int} (h : Lexical.put n = Lexical.put k) : n = k := by
  have hd : ∀ a b : Nat, Decimal.digits a = Decimal.digits b → a = b := by
    intro a b e
    rw [← (Decimal.digits_spec a).2.2, ← (Decimal.digits_spec b).2.2, e]
  have hm : ∀ a b : Nat, Decimal.digits a ≠ 45 :: Decimal.digits b := by
    intro a b e
    have := (Decimal.digits_spec a).2.1 45 (by rw [e]; simp)
    revert this; decide
  unfold Lexical.put at h
  split at h <;> split at h
  · have := hd _ _ (List.cons.inj h).2; omega
  · exact absurd h.symm (hm _ _)
  · exact absurd h (hm _ _)
  · have := hd _ _ h; omega

theorem split_slash {a b c d : List UInt8} (ha : 47 ∉ a) (hc : 47 ∉ c) (h : a ++ 47 :: b = c ++ 47 :: d) : a = c ∧ b = d := by
  induction a generalizing c with
  | nil =>
    cases c with
    | nil => exact ⟨rfl, by simpa using h⟩
    | cons x c => simp only [List.nil_append, List.cons_append, List.cons.injEq] at h; exact absurd (by rw [h.1]; simp) hc
  | cons y a ih =>
    cases c with
    | nil => simp only [List.nil_append, List.cons_append, List.cons.injEq] at h; exact absurd (by rw [h.1]; simp) ha
    | cons x c =>
      simp only [List.cons_append, List.cons.injEq] at h
      obtain ⟨h1, h2⟩ := ih (fun m => ha (by simp [m])) (fun m => hc (by simp [m])) h.2
      exact ⟨by rw [h.1, h1], h2⟩

end Verif.Ratio.Lemmas
