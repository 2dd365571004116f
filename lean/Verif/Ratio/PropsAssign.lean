import Verif.Ratio.AssignLemmas
/-! Property C105: programs on variables with rational numbers. -/

namespace Verif.Ratio.Props
open Verif.Ratio Verif.Ratio.Spec Verif.Ratio.Lemmas

/-- C105, without the division of a variable by itself. A program that does not overflow leaves in each variable, in lowest terms, the rational number that the program
means, whichever variables are used together (`a += a`, `a -= a` and `a *= a` included). If it divides by zero it is undefined. -/
theorem program_partial {T : IntTy} (hT : AbsOk T) (os : List Op) (hs : NoSelfDivision os) (m m' : Mem) (e : Env) (h : Holds m e)
    (hr : runOps T os m = some m') : ∃ e', meansAll os e = some e' ∧ Holds m' e' := by
  induction os generalizing m e with
  | nil =>
    simp only [runOps, Option.some.injEq] at hr
    subst hr
    exact ⟨e, rfl, h⟩
  | cons o os ih =>
    simp only [runOps, Option.bind_eq_some_iff] at hr
    obtain ⟨m1, h1, h2⟩ := hr
    obtain ⟨e1, h3, h4⟩ := exec_some hT h (fun a ha => hs a (by simp [ha])) h1
    obtain ⟨e2, h5, h6⟩ := ih (fun a ha => hs a (by simp [ha])) m1 e1 h4 h2
    exact ⟨e2, by simp only [meansAll, h3, Option.bind_some, h5], h6⟩

/-- C105. With unbounded integers a program that means something is defined. -/
theorem program_total_partial (os : List Op) (hs : NoSelfDivision os) (m : Mem) (e e' : Env) (h : Holds m e) (hr : meansAll os e = some e') :
    ∃ m', runOps bigInt os m = some m' ∧ Holds m' e' := by
  induction os generalizing m e with
  | nil =>
    simp only [meansAll, Option.some.injEq] at hr
    subst hr
    exact ⟨m, rfl, h⟩
  | cons o os ih =>
    simp only [meansAll, Option.bind_eq_some_iff] at hr
    obtain ⟨e1, h1, h2⟩ := hr
    have ho : ∀ a, o ≠ .div a a := fun a ha => hs a (by simp [ha])
    obtain ⟨m1, h3⟩ := exec_big h ho h1
    obtain ⟨e1', h4, h5⟩ := exec_some (fun _ => rfl) h ho h3
    rw [h1, Option.some.injEq] at h4
    subst h4
    obtain ⟨m2, h6, h7⟩ := ih (fun a ha => hs a (by simp [ha])) m1 e1 h5 h2
    exact ⟨m2, by simp only [runOps, h3, Option.bind_some, h6], h7⟩

/-- A program as above: 1/2 doubled twice by `a += a`, squared by `a *= a`, divided by -6. -/
example : NoSelfDivision [.frac 0 1 2, .add 0 0, .add 0 0, .mul 0 0, .int 1 (-6), .div 0 1] ∧
    ((runOps (signed 32) [.frac 0 1 2, .add 0 0, .add 0 0, .mul 0 0, .int 1 (-6), .div 0 1] (fun _ => mk1 0)).map (· 0) = some ⟨-2, 3⟩) ∧
    Holds (fun _ => mk1 0) (fun _ => 0) := by
  refine ⟨fun a => by simp only [List.mem_cons, reduceCtorEq, Op.div.injEq, List.not_mem_nil, false_or, or_false]; omega, by decide +kernel, fun k => by simp [Canonical, mk1, value]⟩

/-- The full claim fails: `a /= a` reads the numerator of the divisor after it has changed it. The result is 1 only if the numerator is 1 or -1; for all others it
has the denominator 0; every number but these and zero is affected. -/
theorem divided_by_itself (m : Mem) (a : Nat) (h : Canonical (m a)) :
    (((m a).num = 1 ∨ (m a).num = -1) → divAssign bigInt a a m = some (m.set a ⟨1, 1⟩)) ∧
    (1 < (m a).num → divAssign bigInt a a m = some (m.set a ⟨1, 0⟩)) ∧
    ((m a).num < -1 → divAssign bigInt a a m = some (m.set a ⟨-1, 0⟩)) ∧
    ((m a).num = 0 → divAssign bigInt a a m = none) := by
  have hd := h.1
  have g2 : gcd bigInt (m a).den (m a).den = some (m a).den := by
    rw [gcd_big (by omega), Int.gcd_self]
    congr 1; omega
  have one : (m a).den.tdiv (m a).den = 1 := Int.tdiv_self (by omega)
  have hm : ∀ s : Int, (s = 1 ∨ s = -1) → (m a).num ≠ 0 → (m a).num.tdiv (m a).num.natAbs = s →
      divAssign bigInt a a m = some (if s.tdiv (m a).num.natAbs < 0 then m.set a ⟨-s, -(s.tdiv (m a).num.natAbs)⟩ else m.set a ⟨s, s.tdiv (m a).num.natAbs⟩) := by
    intro s hs h0 hq
    have g1 : gcd bigInt (m a).num (m a).num = some ((m a).num.natAbs : Int) := by rw [gcd_big h0, Int.gcd_self]
    have hn : ((m a).num.natAbs : Int) ≠ 0 := by omega
    simp only [divAssign, g1, g2, Option.bind_eq_bind, Option.bind_some, div_big hn, div_big (show (m a).den ≠ 0 by omega), hq, one, chk_big,
      den_setNum, Int.mul_one, Int.one_mul, setDen_setNum, set_self, Option.pure_def]
    have e : ((m.setNum a s) a).num = s := by simp [Mem.setNum, Mem.set]
    rw [e]
    split
    · simp [set_set]
    · rfl
  refine ⟨?_, ?_, ?_, ?_⟩
  · rintro (h1 | h1)
    · rw [hm 1 (.inl rfl) (by omega) (by rw [h1]; rfl), h1]; rfl
    · rw [hm (-1) (.inr rfl) (by omega) (by rw [h1]; rfl), h1]; rfl
  · intro h1
    have e : ((m a).num.natAbs : Int) = (m a).num := by omega
    have z : Int.tdiv 1 (m a).num = 0 := Int.tdiv_eq_zero_of_lt (by omega) h1
    rw [hm 1 (.inl rfl) (by omega) (by rw [e]; exact Int.tdiv_self (by omega)), e, z]; rfl
  · intro h1
    have e : ((m a).num.natAbs : Int) = -(m a).num := by omega
    have z : Int.tdiv (-1) (-(m a).num) = 0 := by
      rw [Int.neg_tdiv, Int.tdiv_eq_zero_of_lt (by omega) (by omega)]; rfl
    rw [hm (-1) (.inr rfl) (by omega) (by rw [e, Int.tdiv_neg, Int.tdiv_self (by omega)]), e, z]; rfl
  · intro h1
    have : gcd bigInt (m a).num (m a).num = none := by rw [h1]; exact gcd_zero_right (fun _ => rfl) 0
    simp only [divAssign, this, Option.bind_eq_bind, Option.bind_none]

/-- So 2/3 divided by itself is 1/0, also with 32 bits, and the full claim is false. -/
theorem self_division_wrong : ¬ ∀ (os : List Op) (m m' : Mem) (e : Env), Holds m e → runOps (signed 32) os m = some m' →
    ∃ e', meansAll os e = some e' ∧ Holds m' e' := by
  intro h
  obtain ⟨e', -, h2⟩ := h [.div 0 0] (fun _ => ⟨2, 3⟩) (Mem.set (fun _ => ⟨2, 3⟩) 0 ⟨1, 0⟩) (fun _ => 2 / 3)
    (fun k => ⟨show Canonical ⟨2, 3⟩ by decide, by simp [value]⟩) (by
      simp only [runOps, exec]
      have : divAssign (signed 32) 0 0 (fun _ => ⟨2, 3⟩) = some (Mem.set (fun _ => ⟨2, 3⟩) 0 ⟨1, 0⟩) := by
        simp only [divAssign, show gcd (signed 32) 2 2 = some 2 by decide, show gcd (signed 32) 3 3 = some 3 by decide, Option.bind_eq_bind, Option.bind_some,
          show (signed 32).div 2 2 = some 1 by decide, show (signed 32).div 3 3 = some 1 by decide, show (signed 32).chk (1 * 1) = some 1 by decide,
          den_setNum, setDen_setNum, set_self]
        have e : ((Mem.setNum (fun _ => (⟨2, 3⟩ : R)) 0 1) 0).num = 1 := rfl
        rw [e, show (signed 32).div 1 2 = some 0 by decide]
        rfl
      rw [this]; rfl)
  exact absurd (h2 0).1.1 (by decide)

/-- C105. The text of a ratio tells the number: two ratios have the same text only if they are equal. -/
theorem text_tells {a b : R} (ha : Canonical a) (hb : Canonical b) : text a = text b ↔ value a = value b := by
  rw [value_inj ha hb]
  constructor
  · intro h
    obtain ⟨h1, h2⟩ := split_slash (put_no_slash _) (put_no_slash _) h
    have := put_inj h1
    have := put_inj h2
    cases a; cases b; simp_all
  · rintro rfl; rfl

/-- C105. The text is numerator, slash and denominator, in decimal. -/
theorem text_reads (r : R) (t : Lexical.IntType) (hn : Lexical.Spec.Fits t r.num) (hd : Lexical.Spec.Fits t r.den) :
    ∃ s u, text r = s ++ "/".toUTF8.toList ++ u ∧ Lexical.intOfString t s = some r.num ∧ Lexical.intOfString t u = some r.den := by
  refine ⟨Lexical.put r.num, Lexical.put r.den, ?_, Lexical.Props.int_roundtrip t _ hn, Lexical.Props.int_roundtrip t _ hd⟩
  have : "/".toUTF8.toList = [47] := by decide +kernel
  rw [this, text, List.append_assoc]; rfl

example : text ⟨-2, 15⟩ = "-2/15".toUTF8.toList ∧ Canonical ⟨-2, 15⟩ := by decide +kernel

end Verif.Ratio.Props
