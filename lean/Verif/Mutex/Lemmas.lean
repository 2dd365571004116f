import Verif.Mutex.Spec
import Mathlib.Tactic.ByContra
import Mathlib.Tactic.Push
/-!
# Invariants of the mutex machine
-/
namespace Verif.Mutex.Lemmas
open Verif.Mutex Verif.Mutex.Spec

@[simp] theorem ident_inj {t u : Tid} : ident t = ident u ↔ t = u := by
  constructor
  · intro h
    have : (t : Int) = u := by simp only [ident] at h; omega
    exact Int.ofNat_inj.1 this
  · rintro rfl; rfl
theorem ident_pos (t : Tid) : 0 < ident t := by simp only [ident]; omega
@[simp] theorem ident_ne_neg (t : Tid) : ¬ ident t = -1 := by simp only [ident]; omega
@[simp] theorem neg_ne_ident (t : Tid) : ¬ (-1 : Int) = ident t := by simp only [ident]; omega
@[simp] theorem ident_ne_zero (t : Tid) : ¬ ident t = 0 := by simp only [ident]; omega
@[simp] theorem zero_ne_ident (t : Tid) : ¬ (0 : Int) = ident t := by simp only [ident]; omega

/-! ### Recursive mutex -/

/-- What a thread's position says in the recursive case: whether it owns the
pthread mutex, whether `holder` names it, and a condition on `cnt`. -/
def claim (t : Tid) (d : Nat) (cnt : Int) : Pc → Bool × Bool × Prop
  | .idle => (0 < d, 0 < d, 0 < d → cnt = d)
  | .lk0 => (0 < d, 0 < d, 0 < d → cnt = d)
  | .lkTest => (0 < d, 0 < d, 0 < d → cnt = d)
  | .lkRead => (true, true, 0 < d ∧ cnt = d)
  | .lkInc c => (true, true, 0 < d ∧ cnt = d ∧ c = d)
  | .lkAcq => (false, false, d = 0)
  | .lkCnt => (true, false, d = 0)
  | .lkHold => (true, false, d = 0 ∧ cnt = 1)
  | .un0 => (0 < d, 0 < d, 0 < d → cnt = d)
  | .unTest => (0 < d, 0 < d, 0 < d → cnt = d)
  | .unRead => (true, true, 0 < d ∧ cnt = d)
  | .unDec c => (true, true, 0 < d ∧ cnt = d ∧ c = d)
  | .unHold => (true, true, d = 1 ∧ cnt = 0)
  | .unRel => (true, false, d = 1)
  | .wTest => (0 < d, 0 < d, 0 < d → cnt = d)
  | .wSaveH => (true, true, 0 < d ∧ cnt = d)
  | .wSaveC h => (true, true, 0 < d ∧ cnt = d ∧ h = ident t)
  | .wH0 h c => (true, true, 0 < d ∧ cnt = d ∧ h = ident t ∧ c = d)
  | .wC0 h c => (true, false, 0 < d ∧ cnt = d ∧ h = ident t ∧ c = d)
  | .wWait h c => (true, false, 0 < d ∧ h = ident t ∧ c = d)
  | .wBlk h c => (false, false, 0 < d ∧ h = ident t ∧ c = d)
  | .wCnt h c => (true, false, 0 < d ∧ h = ident t ∧ c = d)
  | .wHold h c => (true, false, 0 < d ∧ h = ident t ∧ c = d ∧ cnt = d)
  | .nlAcq => (false, false, False)
  | .nlHold => (false, false, False)
  | .nuHold => (false, false, False)
  | .nuRel => (false, false, False)

/-- Positions whose condition does not mention `cnt` unless they own. -/
theorem claim_cnt {t : Tid} {d : Nat} {cnt cnt' : Int} {p : Pc} (h : (claim t d cnt p).1 = false)
    (hc : (claim t d cnt p).2.2) : (claim t d cnt' p).2.2 := by
  cases p <;> simp_all [claim]

theorem claim_fst (t : Tid) (d : Nat) (cnt cnt' : Int) (p : Pc) :
    (claim t d cnt p).1 = (claim t d cnt' p).1 := by cases p <;> rfl

theorem claim_snd (t : Tid) (d : Nat) (cnt cnt' : Int) (p : Pc) :
    (claim t d cnt p).2.1 = (claim t d cnt' p).2.1 := by cases p <;> rfl

/-- Invariant of the recursive mutex. -/
structure InvR (s : St) : Prop where
  own : ∀ t, s.owner = some t ↔ (claim t (s.depth t) s.cnt (s.pc t)).1 = true
  hold : ∀ t, s.holder = ident t ↔ (claim t (s.depth t) s.cnt (s.pc t)).2.1 = true
  cond : ∀ t, (claim t (s.depth t) s.cnt (s.pc t)).2.2
  nonneg : 0 ≤ s.cnt
  noub : s.ub = false

theorem invR_init : InvR (init true) := by
  constructor <;> simp [init, claim]

/-- A step of `t` that keeps the other threads' claims. -/
theorem invR_of {s : St} (h : InvR s) (t : Tid) (owner : Option Tid) (holder cnt : Int) (p : Pc)
    (d : Nat) (r : Tid → Bool)
    (hown : owner = some t ↔ (claim t d cnt p).1 = true)
    (hother : ∀ u, u ≠ t → (owner = some u ↔ s.owner = some u))
    (hhold : holder = ident t ↔ (claim t d cnt p).2.1 = true)
    (hhother : ∀ u, u ≠ t → (holder = ident u ↔ s.holder = ident u))
    (hcond : (claim t d cnt p).2.2)
    (hcnt : cnt = s.cnt ∨ s.owner = some t) (hnn : 0 ≤ cnt) :
    InvR { owner := owner, holder := holder, cnt := cnt, pc := upd s.pc t p,
           depth := upd s.depth t d, res := r, ub := s.ub } := by
  constructor
  · intro u
    by_cases hu : u = t
    · subst hu; simpa [upd] using hown
    · simp only [upd, hu, if_false]
      rw [hother u hu, claim_fst u _ cnt s.cnt]; exact h.own u
  · intro u
    by_cases hu : u = t
    · subst hu; simpa [upd] using hhold
    · simp only [upd, hu, if_false]
      rw [hhother u hu, claim_snd u _ cnt s.cnt]; exact h.hold u
  · intro u
    by_cases hu : u = t
    · subst hu; simpa [upd] using hcond
    · simp only [upd, hu, if_false]
      rcases hcnt with rfl | ho
      · exact h.cond u
      · refine claim_cnt ?_ (h.cond u)
        have := h.own u
        rw [ho] at this
        by_contra hc
        have := this.2 (by simpa using hc)
        exact hu (Option.some.inj this).symm
  · exact hnn
  · exact h.noub

theorem upd_self {α : Type} (f : Tid → α) (t : Tid) : upd f t (f t) = f := by
  funext u; simp only [upd]; split
  · rename_i h; rw [h]
  · rfl

theorem invR_step {s s' : St} (h : InvR s) (t : Tid) (c : Call) (hs : step s t c = some s') :
    InvR s' := by
  have ho := h.own t
  have hh := h.hold t
  have hc := h.cond t
  have hn := h.nonneg
  have key := invR_of h t
  have hd := upd_self s.depth t
  have oth1 : ∀ u, u ≠ t → s.owner = some t → (none = some u ↔ s.owner = some u) := by
    intro u hu e; rw [e]; simp [Ne.symm hu]
  have oth2 : ∀ u, u ≠ t → s.owner = none → (some t = some u ↔ s.owner = some u) := by
    intro u hu e; rw [e]; simp [Ne.symm hu]
  have hoth0 : ∀ u, u ≠ t → s.holder = ident t → ∀ x, (∀ v, ¬ x = ident v) →
      (x = ident u ↔ s.holder = ident u) := by
    intro u hu e x hx; rw [e]; simp [Ne.symm hu, hx u]
  -- while `t` owns, `holder` names nobody else
  have hown_hold : s.owner = some t → ∀ u, u ≠ t → ¬ s.holder = ident u := by
    intro e u hu hh'
    have h1 := (h.hold u).1 hh'
    have h2 := h.own u
    have : (claim u (s.depth u) s.cnt (s.pc u)).1 = true := by
      revert h1; cases s.pc u <;> simp [claim]
    rw [e] at h2
    exact hu (Option.some.inj (h2.2 this)).symm
  unfold step at hs
  generalize hp : s.pc t = p at hs ho hh hc
  cases p <;> simp only [claim] at ho hh hc <;> dsimp only at hs
  case idle =>
    cases c <;> simp only [Option.some.injEq] at hs <;> subst hs <;>
      (have := key s.owner s.holder s.cnt
       first
       | (have := this .lk0 (s.depth t) s.res; rw [hd] at this; exact this (by simpa [claim] using ho) (fun _ _ => Iff.rfl) (by simpa [claim] using hh) (fun _ _ => Iff.rfl) hc (.inl rfl) hn)
       | (have := this .un0 (s.depth t) s.res; rw [hd] at this; exact this (by simpa [claim] using ho) (fun _ _ => Iff.rfl) (by simpa [claim] using hh) (fun _ _ => Iff.rfl) hc (.inl rfl) hn)
       | (have := this .wTest (s.depth t) s.res; rw [hd] at this; exact this (by simpa [claim] using ho) (fun _ _ => Iff.rfl) (by simpa [claim] using hh) (fun _ _ => Iff.rfl) hc (.inl rfl) hn))
  case lk0 =>
    rw [if_neg (by omega)] at hs
    cases hs
    have := key s.owner s.holder s.cnt .lkTest (s.depth t) s.res
    rw [hd] at this
    exact this (by simpa [claim] using ho) (fun _ _ => Iff.rfl) (by simpa [claim] using hh) (fun _ _ => Iff.rfl) hc (.inl rfl) hn
  case lkTest =>
    cases hs
    split
    · rename_i e
      have hdp : 0 < s.depth t := by have := hh.1 e.symm; simpa using this
      have := key s.owner s.holder s.cnt .lkRead (s.depth t) s.res
      rw [hd] at this
      refine this ?_ (fun _ _ => Iff.rfl) ?_ (fun _ _ => Iff.rfl) ?_ (.inl rfl) hn
      · simpa [claim, hdp] using ho
      · simpa [claim, hdp] using hh
      · exact ⟨hdp, hc hdp⟩
    · rename_i e
      have hdp : s.depth t = 0 := by
        by_contra hne
        exact e (hh.2 (by simp; omega)).symm
      have := key s.owner s.holder s.cnt .lkAcq (s.depth t) s.res
      rw [hd] at this
      refine this ?_ (fun _ _ => Iff.rfl) ?_ (fun _ _ => Iff.rfl) ?_ (.inl rfl) hn
      · simpa [claim, hdp] using ho
      · simpa [claim, hdp] using hh
      · exact hdp
  case lkRead =>
    cases hs
    have := key s.owner s.holder s.cnt (.lkInc s.cnt) (s.depth t) s.res
    rw [hd] at this
    exact this (by simpa [claim] using ho) (fun _ _ => Iff.rfl) (by simpa [claim] using hh) (fun _ _ => Iff.rfl) ⟨hc.1, hc.2, hc.2⟩ (.inl rfl) hn
  case lkInc c =>
    cases hs
    refine key s.owner s.holder (c + 1) .idle (s.depth t + 1) (upd s.res t true) ?_ (fun _ _ => Iff.rfl) ?_
      (fun _ _ => Iff.rfl) ?_ (.inr (by simpa using ho)) (by omega)
    · simpa [claim] using ho
    · simpa [claim] using hh
    · intro _; rw [hc.2.2]; push_cast; rfl
  case lkAcq =>
    split at hs
    · rename_i e
      cases hs
      have := key (some t) s.holder s.cnt .lkCnt (s.depth t) s.res
      rw [hd] at this
      refine this (by simp [claim]) (fun u hu => oth2 u hu e) (by simpa [claim] using hh) (fun _ _ => Iff.rfl) hc (.inl rfl) hn
    · cases hs
  case lkCnt =>
    cases hs
    have := key s.owner s.holder 1 .lkHold (s.depth t) s.res
    rw [hd] at this
    exact this (by simpa [claim] using ho) (fun _ _ => Iff.rfl) (by simpa [claim] using hh) (fun _ _ => Iff.rfl) ⟨hc, rfl⟩ (.inr (by simpa using ho)) (by omega)
  case lkHold =>
    cases hs
    have e : s.owner = some t := by simpa using ho
    refine key s.owner (ident t) s.cnt .idle (s.depth t + 1) (upd s.res t true) ?_ (fun _ _ => Iff.rfl) ?_
      ?_ ?_ (.inl rfl) hn
    · simp [claim, e]
    · simp [claim]
    · intro u hu; simp [Ne.symm hu, hown_hold e u hu]
    · intro _; rw [hc.1, hc.2]; rfl
  case un0 =>
    rw [if_neg (by omega)] at hs
    cases hs
    have := key s.owner s.holder s.cnt .unTest (s.depth t) s.res
    rw [hd] at this
    exact this (by simpa [claim] using ho) (fun _ _ => Iff.rfl) (by simpa [claim] using hh) (fun _ _ => Iff.rfl) hc (.inl rfl) hn
  case unTest =>
    split at hs
    · rename_i e
      cases hs
      have hdp : 0 < s.depth t := by have := hh.1 e.symm; simpa using this
      have := key s.owner s.holder s.cnt .unRead (s.depth t) s.res
      rw [hd] at this
      refine this ?_ (fun _ _ => Iff.rfl) ?_ (fun _ _ => Iff.rfl) ?_ (.inl rfl) hn
      · simpa [claim, hdp] using ho
      · simpa [claim, hdp] using hh
      · exact ⟨hdp, hc hdp⟩
    · cases hs
      have := key s.owner s.holder s.cnt .idle (s.depth t) (upd s.res t false)
      rw [hd] at this
      exact this (by simpa [claim] using ho) (fun _ _ => Iff.rfl) (by simpa [claim] using hh) (fun _ _ => Iff.rfl) hc (.inl rfl) hn
  case unRead =>
    cases hs
    have := key s.owner s.holder s.cnt (.unDec s.cnt) (s.depth t) s.res
    rw [hd] at this
    exact this (by simpa [claim] using ho) (fun _ _ => Iff.rfl) (by simpa [claim] using hh) (fun _ _ => Iff.rfl) ⟨hc.1, hc.2, hc.2⟩ (.inl rfl) hn
  case unDec c =>
    have e : s.owner = some t := by simpa using ho
    split at hs
    · rename_i hz
      cases hs
      have := key s.owner s.holder (c - 1) .unHold (s.depth t) s.res
      rw [hd] at this
      exact this (by simpa [claim] using ho) (fun _ _ => Iff.rfl) (by simpa [claim] using hh) (fun _ _ => Iff.rfl)
        ⟨by omega, hz⟩ (.inr e) (by omega)
    · rename_i hz
      cases hs
      have h1 : 0 < s.depth t - 1 := by omega
      refine key s.owner s.holder (c - 1) .idle (s.depth t - 1) (upd s.res t true) ?_ (fun _ _ => Iff.rfl) ?_
        (fun _ _ => Iff.rfl) ?_ (.inr e) (by omega)
      · simpa [claim, h1] using ho
      · simpa [claim, h1] using hh
      · intro _; omega
  case unHold =>
    cases hs
    have e : s.owner = some t := by simpa using ho
    have e' : s.holder = ident t := by simpa using hh
    have := key s.owner (-1) s.cnt .unRel (s.depth t) s.res
    rw [hd] at this
    exact this (by simpa [claim] using ho) (fun _ _ => Iff.rfl) (by simp [claim])
      (fun u hu => hoth0 u hu e' (-1) (by simp)) hc.1 (.inl rfl) hn
  case unRel =>
    have e : s.owner = some t := by simpa using ho
    rw [if_pos e] at hs
    cases hs
    refine key none s.holder s.cnt .idle (s.depth t - 1) (upd s.res t true) ?_ (fun u hu => oth1 u hu e) ?_
      (fun _ _ => Iff.rfl) ?_ (.inl rfl) hn
    · simp [claim, hc]
    · simpa [claim, hc] using hh
    · intro hlt; omega
  case wTest =>
    cases hs
    split
    · rename_i e
      have hdp : 0 < s.depth t := by have := hh.1 e.symm; simpa using this
      have := key s.owner s.holder s.cnt .wSaveH (s.depth t) s.res
      rw [hd] at this
      refine this ?_ (fun _ _ => Iff.rfl) ?_ (fun _ _ => Iff.rfl) ?_ (.inl rfl) hn
      · simpa [claim, hdp] using ho
      · simpa [claim, hdp] using hh
      · exact ⟨hdp, hc hdp⟩
    · have := key s.owner s.holder s.cnt .idle (s.depth t) s.res
      rw [hd] at this
      exact this (by simpa [claim] using ho) (fun _ _ => Iff.rfl) (by simpa [claim] using hh) (fun _ _ => Iff.rfl) hc (.inl rfl) hn
  case wSaveH =>
    cases hs
    have e' : s.holder = ident t := by simpa using hh
    have := key s.owner s.holder s.cnt (.wSaveC s.holder) (s.depth t) s.res
    rw [hd] at this
    exact this (by simpa [claim] using ho) (fun _ _ => Iff.rfl) (by simpa [claim] using hh) (fun _ _ => Iff.rfl) ⟨hc.1, hc.2, e'⟩ (.inl rfl) hn
  case wSaveC h' =>
    rw [if_pos hn] at hs
    cases hs
    have := key s.owner s.holder s.cnt (.wH0 h' s.cnt) (s.depth t) s.res
    rw [hd] at this
    exact this (by simpa [claim] using ho) (fun _ _ => Iff.rfl) (by simpa [claim] using hh) (fun _ _ => Iff.rfl) ⟨hc.1, hc.2.1, hc.2.2, hc.2.1⟩ (.inl rfl) hn
  case wH0 h' c =>
    cases hs
    have e' : s.holder = ident t := by simpa using hh
    have := key s.owner 0 s.cnt (.wC0 h' c) (s.depth t) s.res
    rw [hd] at this
    exact this (by simpa [claim] using ho) (fun _ _ => Iff.rfl) (by simp [claim]) (fun u hu => hoth0 u hu e' 0 (by simp)) hc (.inl rfl) hn
  case wC0 h' c =>
    cases hs
    have e : s.owner = some t := by simpa using ho
    have := key s.owner s.holder 0 (.wWait h' c) (s.depth t) s.res
    rw [hd] at this
    exact this (by simpa [claim] using ho) (fun _ _ => Iff.rfl) (by simpa [claim] using hh) (fun _ _ => Iff.rfl) ⟨hc.1, hc.2.2.1, hc.2.2.2⟩ (.inr e) (by omega)
  case wWait h' c =>
    have e : s.owner = some t := by simpa using ho
    rw [if_pos e] at hs
    cases hs
    have := key none s.holder s.cnt (.wBlk h' c) (s.depth t) s.res
    rw [hd] at this
    exact this (by simp [claim]) (fun u hu => oth1 u hu e) (by simpa [claim] using hh) (fun _ _ => Iff.rfl) hc (.inl rfl) hn
  case wBlk h' c =>
    split at hs
    · rename_i e
      cases hs
      have := key (some t) s.holder s.cnt (.wCnt h' c) (s.depth t) s.res
      rw [hd] at this
      exact this (by simp [claim]) (fun u hu => oth2 u hu e) (by simpa [claim] using hh) (fun _ _ => Iff.rfl) hc (.inl rfl) hn
    · cases hs
  case wCnt h' c =>
    cases hs
    have e : s.owner = some t := by simpa using ho
    have := key s.owner s.holder c (.wHold h' c) (s.depth t) s.res
    rw [hd] at this
    exact this (by simpa [claim] using ho) (fun _ _ => Iff.rfl) (by simpa [claim] using hh) (fun _ _ => Iff.rfl) ⟨hc.1, hc.2.1, hc.2.2, hc.2.2⟩ (.inr e) (by omega)
  case wHold h' c =>
    cases hs
    have e : s.owner = some t := by simpa using ho
    have := key s.owner h' s.cnt .idle (s.depth t) s.res
    rw [hd] at this
    refine this ?_ (fun _ _ => Iff.rfl) ?_ ?_ ?_ (.inl rfl) hn
    · simp [claim, e, hc.1]
    · simp [claim, hc.1, hc.2.1]
    · intro u hu; simp [hc.2.1, Ne.symm hu, hown_hold e u hu]
    · intro _; exact hc.2.2.2

theorem invR_reach {s : St} (h : Reach true s) : InvR s := by
  induction h with
  | start => exact invR_init
  | step t c _ hs ih => exact invR_step ih t c hs

/-! ### Non-recursive mutex -/

/-- What a thread's position says in the non-recursive case: whether it owns
the pthread mutex, and a condition. -/
def claimN (t : Tid) (d : Nat) (holder : Int) : Pc → Bool × Prop
  | .idle => (0 < d, d ≤ 1 ∧ (holder = ident t ↔ 0 < d))
  | .lk0 => (0 < d, d ≤ 1 ∧ (holder = ident t ↔ 0 < d))
  | .nlAcq => (0 < d, d ≤ 1 ∧ (holder = ident t ↔ 0 < d))
  | .nlHold => (true, d = 0)
  | .un0 => (true, d = 1 ∧ holder = ident t)
  | .nuHold => (true, d = 1 ∧ holder = ident t)
  | .nuRel => (true, d = 1 ∧ holder = -1)
  | .wTest => (0 < d, d ≤ 1 ∧ (holder = ident t ↔ 0 < d))
  | .wSaveH => (true, d = 1 ∧ holder = ident t)
  | .wSaveC h => (true, d = 1 ∧ h = ident t ∧ holder = ident t)
  | .wWait h c => (true, d = 1 ∧ h = ident t ∧ c = -1 ∧ holder = ident t)
  | .wBlk h c => (false, d = 1 ∧ h = ident t ∧ c = -1)
  | .wCnt h c => (true, d = 1 ∧ h = ident t ∧ c = -1)
  | .wHold h c => (true, d = 1 ∧ h = ident t ∧ c = -1)
  | _ => (false, False)

theorem claimN_fst (t : Tid) (d : Nat) (h h' : Int) (p : Pc) :
    (claimN t d h p).1 = (claimN t d h' p).1 := by cases p <;> rfl

theorem claimN_other {t : Tid} {d : Nat} {h h' : Int} {p : Pc} (ho : (claimN t d h p).1 = false)
    (hne : ¬ h' = ident t) (hc : (claimN t d h p).2) : (claimN t d h' p).2 := by
  cases p <;> simp_all [claimN]

/-- Invariant of the non-recursive mutex under disciplined use. -/
structure InvN (s : St) : Prop where
  own : ∀ t, s.owner = some t ↔ (claimN t (s.depth t) s.holder (s.pc t)).1 = true
  cond : ∀ t, (claimN t (s.depth t) s.holder (s.pc t)).2
  cnt : s.cnt = -1
  noub : s.ub = false

theorem invN_init : InvN (init false) := by
  constructor <;> simp [init, claimN]

theorem invN_of {s : St} (h : InvN s) (t : Tid) (owner : Option Tid) (holder : Int) (p : Pc)
    (d : Nat) (r : Tid → Bool)
    (hown : owner = some t ↔ (claimN t d holder p).1 = true)
    (hother : ∀ u, u ≠ t → (owner = some u ↔ s.owner = some u))
    (hhold : holder = s.holder ∨ s.owner = some t ∧ ∀ u, u ≠ t → ¬ holder = ident u)
    (hcond : (claimN t d holder p).2) {cnt : Int} (hcnt : cnt = -1) :
    InvN { owner := owner, holder := holder, cnt := cnt, pc := upd s.pc t p,
           depth := upd s.depth t d, res := r, ub := s.ub } := by
  constructor
  · intro u
    by_cases hu : u = t
    · subst hu; simpa [upd] using hown
    · simp only [upd, hu, if_false]
      rw [hother u hu, claimN_fst u _ holder s.holder]; exact h.own u
  · intro u
    by_cases hu : u = t
    · subst hu; simpa [upd] using hcond
    · simp only [upd, hu, if_false]
      rcases hhold with rfl | ⟨ho, hne⟩
      · exact h.cond u
      · refine claimN_other ?_ (hne u hu) (h.cond u)
        have := h.own u
        rw [ho] at this
        by_contra hc
        have := this.2 (by simpa using hc)
        exact hu (Option.some.inj this).symm
  · exact hcnt
  · exact h.noub

theorem invN_step {s s' : St} (h : InvN s) (t : Tid) (c : Call)
    (hd' : s.pc t = .idle → c = .unlock → 0 < s.depth t) (hs : step s t c = some s') :
    InvN s' := by
  have ho := h.own t
  have hc := h.cond t
  have hn := h.cnt
  have key := invN_of h t
  have hd := upd_self s.depth t
  have oth1 : ∀ u, u ≠ t → s.owner = some t → (none = some u ↔ s.owner = some u) := by
    intro u hu e; rw [e]; simp [Ne.symm hu]
  have oth2 : ∀ u, u ≠ t → s.owner = none → (some t = some u ↔ s.owner = some u) := by
    intro u hu e; rw [e]; simp [Ne.symm hu]
  unfold step at hs
  generalize hp : s.pc t = p at hs ho hc hd'
  cases p <;> simp only [claimN] at ho hc <;> dsimp only at hs
  case idle =>
    cases c <;> simp only [Option.some.injEq] at hs <;> subst hs
    · have := key s.owner s.holder .lk0 (s.depth t) s.res
      rw [hd] at this
      exact this (by simpa [claimN] using ho) (fun _ _ => Iff.rfl) (.inl rfl) hc hn
    · have := key s.owner s.holder .un0 (s.depth t) s.res
      rw [hd] at this
      have hp := hd' rfl rfl
      exact this (by simpa [claimN, hp] using ho) (fun _ _ => Iff.rfl) (.inl rfl) ⟨by omega, hc.2.2 hp⟩ hn
    · have := key s.owner s.holder .wTest (s.depth t) s.res
      rw [hd] at this
      exact this (by simpa [claimN] using ho) (fun _ _ => Iff.rfl) (.inl rfl) hc hn
  case lk0 =>
    rw [if_pos (by omega)] at hs
    cases hs
    have := key s.owner s.holder .nlAcq (s.depth t) s.res
    rw [hd] at this
    exact this (by simpa [claimN] using ho) (fun _ _ => Iff.rfl) (.inl rfl) hc hn
  case nlAcq =>
    split at hs
    · rename_i e
      cases hs
      have := key (some t) s.holder .nlHold (s.depth t) s.res
      rw [hd] at this
      have h0 : s.depth t = 0 := by
        by_contra hne
        have := ho.2 (by simp; omega)
        rw [e] at this; cases this
      exact this (by simp [claimN]) (fun u hu => oth2 u hu e) (.inl rfl) h0 hn
    · cases hs
  case nlHold =>
    cases hs
    have e : s.owner = some t := by simpa using ho
    refine key s.owner (ident t) .idle (s.depth t + 1) (upd s.res t true) (by simp [claimN, e]) (fun _ _ => Iff.rfl)
      (.inr ⟨e, fun u hu => by simp [Ne.symm hu]⟩) ?_ hn
    simp [claimN, hc]
  case un0 =>
    rw [if_pos (by omega)] at hs
    cases hs
    have := key s.owner s.holder .nuHold (s.depth t) s.res
    rw [hd] at this
    exact this (by simpa [claimN] using ho) (fun _ _ => Iff.rfl) (.inl rfl) hc hn
  case nuHold =>
    cases hs
    have e : s.owner = some t := by simpa using ho
    have := key s.owner (-1) .nuRel (s.depth t) s.res
    rw [hd] at this
    exact this (by simpa [claimN] using ho) (fun _ _ => Iff.rfl) (.inr ⟨e, fun u hu => by simp⟩) ⟨hc.1, rfl⟩ hn
  case nuRel =>
    have e : s.owner = some t := by simpa using ho
    rw [if_pos e] at hs
    cases hs
    refine key none s.holder .idle (s.depth t - 1) (upd s.res t true) (by simp [claimN, hc])
      (fun u hu => oth1 u hu e) (.inl rfl) ?_ hn
    simp [claimN, hc]
  case wTest =>
    cases hs
    split
    · rename_i e
      have hdp : 0 < s.depth t := hc.2.1 e.symm
      have := key s.owner s.holder .wSaveH (s.depth t) s.res
      rw [hd] at this
      exact this (by simpa [claimN, hdp] using ho) (fun _ _ => Iff.rfl) (.inl rfl) ⟨by omega, e.symm⟩ hn
    · have := key s.owner s.holder .idle (s.depth t) s.res
      rw [hd] at this
      exact this (by simpa [claimN] using ho) (fun _ _ => Iff.rfl) (.inl rfl) hc hn
  case wSaveH =>
    cases hs
    have := key s.owner s.holder (.wSaveC s.holder) (s.depth t) s.res
    rw [hd] at this
    exact this (by simpa [claimN] using ho) (fun _ _ => Iff.rfl) (.inl rfl) ⟨hc.1, hc.2, hc.2⟩ hn
  case wSaveC h' =>
    rw [if_neg (by omega)] at hs
    cases hs
    have := key s.owner s.holder (.wWait h' s.cnt) (s.depth t) s.res
    rw [hd] at this
    exact this (by simpa [claimN] using ho) (fun _ _ => Iff.rfl) (.inl rfl) ⟨hc.1, hc.2.1, hn, hc.2.2⟩ hn
  case wWait h' c =>
    have e : s.owner = some t := by simpa using ho
    rw [if_pos e] at hs
    cases hs
    have := key none s.holder (.wBlk h' c) (s.depth t) s.res
    rw [hd] at this
    exact this (by simp [claimN]) (fun u hu => oth1 u hu e) (.inl rfl) ⟨hc.1, hc.2.1, hc.2.2.1⟩ hn
  case wBlk h' c =>
    split at hs
    · rename_i e
      cases hs
      have := key (some t) s.holder (.wCnt h' c) (s.depth t) s.res
      rw [hd] at this
      exact this (by simp [claimN]) (fun u hu => oth2 u hu e) (.inl rfl) hc hn
    · cases hs
  case wCnt h' c =>
    cases hs
    have := key s.owner s.holder (.wHold h' c) (s.depth t) s.res
    rw [hd] at this
    exact this (by simpa [claimN] using ho) (fun _ _ => Iff.rfl) (.inl rfl) hc hc.2.2
  case wHold h' c =>
    cases hs
    have e : s.owner = some t := by simpa using ho
    have := key s.owner h' .idle (s.depth t) s.res
    rw [hd] at this
    refine this (by simp [claimN, e, hc.1]) (fun _ _ => Iff.rfl)
      (.inr ⟨e, fun u hu => by rw [hc.2.1]; simp [Ne.symm hu]⟩) ?_ hn
    simp [claimN, hc.1, hc.2.1]

theorem invN_reach {s : St} (h : ReachDisciplined false s) : InvN s := by
  induction h with
  | start => exact invN_init
  | step t c _ hd hs ih => exact invN_step ih t c hd hs

theorem reach_run {r : Bool} {s s' : St} (h : Reach r s) (l : List (Tid × Call))
    (hr : run s l = some s') : Reach r s' := by
  induction l generalizing s with
  | nil => simp only [run, Option.some.injEq] at hr; exact hr ▸ h
  | cons x l ih =>
    obtain ⟨t, c⟩ := x
    simp only [run] at hr
    split at hr
    · cases hr
    · rename_i s1 he
      exact ih (Reach.step t c h he) hr

/-- Steps of other threads change neither the position nor the depth of `u`. -/
theorem step_other {s s' : St} {t u : Tid} {c : Call} (hs : step s t c = some s') (hu : u ≠ t) :
    s'.pc u = s.pc u ∧ s'.depth u = s.depth u ∧ s'.res u = s.res u := by
  unfold step at hs
  generalize s.pc t = p at hs
  cases p <;> dsimp only at hs
  case idle => cases c <;> cases hs <;> simp [upd, hu]
  all_goals (try split at hs) <;> cases hs <;> simp [upd, hu]

end Verif.Mutex.Lemmas
