import Verif.Sampling.Spec
import Mathlib.Tactic.ByContra
import Mathlib.Tactic.Push

namespace Verif.Sampling.Lemmas
open Verif Verif.Sampling Verif.Sampling.Spec

/-! ### Rounding -/

theorem roundShift_le {m e q : Nat} (h : m ≤ q * 2 ^ e) : roundShift m e ≤ q := by
  have hp : 0 < 2 ^ e := Nat.pos_of_ne_zero (by simp)
  have h1 := Nat.div_add_mod m (2 ^ e)
  have h2 := Nat.mod_lt m hp
  have hq : m / 2 ^ e ≤ q := by
    have := Nat.div_le_div_right (c := 2 ^ e) h
    rwa [Nat.mul_div_cancel _ hp] at this
  have hs : m % 2 ^ e ≠ 0 → m / 2 ^ e + 1 ≤ q := by
    intro h0
    by_contra hc
    have : m / 2 ^ e = q := by omega
    rw [this, Nat.mul_comm] at h1
    omega
  unfold roundShift
  dsimp only
  split
  · exact hq
  · split
    · exact hs (by omega)
    · split
      · exact hq
      · exact hs (by omega)

theorem le_roundShift {m e q : Nat} (h : q * 2 ^ e ≤ m) : q ≤ roundShift m e := by
  have hp : 0 < 2 ^ e := Nat.pos_of_ne_zero (by simp)
  have hq : q ≤ m / 2 ^ e := (Nat.le_div_iff_mul_le hp).mpr h
  unfold roundShift
  dsimp only
  split
  · exact hq
  · split
    · omega
    · split <;> omega

theorem roundShift_lt {m e q : Nat} (h : m < q * 2 ^ e) (h2 : 2 * (q * 2 ^ e - m) > 2 ^ e) : roundShift m e < q := by
  have hp : 0 < 2 ^ e := Nat.pos_of_ne_zero (by simp)
  have h1 := Nat.div_add_mod m (2 ^ e)
  have h3 := Nat.mod_lt m hp
  have hq : m / 2 ^ e < q := (Nat.div_lt_iff_lt_mul hp).mpr h
  by_cases hq2 : m / 2 ^ e + 1 = q
  · have : q * 2 ^ e = 2 ^ e * (m / 2 ^ e) + 2 ^ e := by rw [← hq2, Nat.add_mul, Nat.mul_comm]; omega
    unfold roundShift
    dsimp only
    rw [if_pos (by omega)]
    exact hq
  · have : roundShift m e ≤ m / 2 ^ e + 1 := by
      unfold roundShift
      dsimp only
      split
      · omega
      · split
        · omega
        · split <;> omega
    omega

theorem lt_pow_log2 (m : Nat) : m < 2 ^ (m.log2 + 1) := Nat.lt_log2_self

theorem nextDouble_lt (g1 g2 : UInt32) : nextDouble g1 g2 < 2 ^ 53 := by
  have h1 : (g1 >>> 5).toNat < 2 ^ 27 := by
    have := g1.toNat_lt
    simp only [UInt32.toNat_shiftRight, Nat.shiftRight_eq_div_pow]
    rw [show (5 : UInt32).toNat % 32 = 5 from rfl]
    omega
  have h2 : (g2 >>> 6).toNat < 2 ^ 26 := by
    have := g2.toNat_lt
    simp only [UInt32.toNat_shiftRight, Nat.shiftRight_eq_div_pow]
    rw [show (6 : UInt32).toNat % 32 = 6 from rfl]
    omega
  unfold nextDouble
  omega

theorem log2_lt {m : Nat} (h : m < 2 ^ 85) : m.log2 + 1 - 53 ≤ 32 := by
  by_cases h0 : m = 0
  · subst h0; decide
  · have : m.log2 < 85 := (Nat.log2_lt h0).mpr h
    omega

theorem pow_split {e : Nat} (h : e ≤ 32) : 2 ^ (53 - e) * 2 ^ e = 2 ^ 53 := by
  rw [← Nat.pow_add]; congr 1; omega

theorem mul_lt_85 {x a : Nat} (hx : x < 2 ^ 53) (ha : a < 2 ^ 32) : x * a < 2 ^ 85 := by
  calc x * a < 2 ^ 53 * 2 ^ 32 := Nat.mul_lt_mul'' hx ha
    _ = 2 ^ 85 := by decide

/-- The rounded product stays below `a`: this is where the 53 bits of `next_double` matter. -/
theorem round_lt {x a : Nat} (hx : x < 2 ^ 53) (ha : 0 < a) (ha2 : a < 2 ^ 32) :
    roundDouble (x * a) < a * 2 ^ 53 := by
  unfold roundDouble
  dsimp only
  have hm : x * a + a ≤ a * 2 ^ 53 := by
    have : (x + 1) * a ≤ 2 ^ 53 * a := Nat.mul_le_mul_right a hx
    rw [Nat.add_mul, Nat.one_mul, Nat.mul_comm (2 ^ 53)] at this
    exact this
  have he := log2_lt (mul_lt_85 hx ha2)
  generalize hE : (x * a).log2 + 1 - 53 = e at he ⊢
  have hT : a * 2 ^ 53 = a * 2 ^ (53 - e) * 2 ^ e := by rw [Nat.mul_assoc, pow_split he]
  rw [hT]
  apply Nat.mul_lt_mul_of_pos_right _ (Nat.pos_of_ne_zero (by simp))
  apply roundShift_lt
  · rw [← hT]; omega
  · rw [← hT]
    have hea : 2 ^ e < 2 * a ∨ e = 0 := by
      by_cases he0 : e = 0
      · exact .inr he0
      · left
        have h1 : (x * a).log2 = e + 52 := by omega
        have h0 : x * a ≠ 0 := by intro h; rw [h] at h1; simp at h1
        have hlog : 2 ^ (x * a).log2 ≤ x * a := Nat.log2_self_le h0
        rw [h1, Nat.pow_add] at hlog
        omega
    rcases hea with h | h
    · omega
    · subst h
      have : 1 ≤ a := ha
      simp only [Nat.pow_zero]
      omega

theorem le_round {m k : Nat} (hm : m < 2 ^ 85) (h : k * 2 ^ 53 ≤ m) : k * 2 ^ 53 ≤ roundDouble m := by
  unfold roundDouble
  dsimp only
  have he := log2_lt hm
  generalize m.log2 + 1 - 53 = e at he ⊢
  have hT : k * 2 ^ 53 = k * 2 ^ (53 - e) * 2 ^ e := by rw [Nat.mul_assoc, pow_split he]
  rw [hT] at h ⊢
  exact Nat.mul_le_mul_right _ (le_roundShift h)

theorem round_lt' {m k : Nat} (hm : m < 2 ^ 85) (h : m < k * 2 ^ 53 + 2 ^ 32) :
    roundDouble m < (k + 1) * 2 ^ 53 := by
  unfold roundDouble
  dsimp only
  have he := log2_lt hm
  generalize m.log2 + 1 - 53 = e at he ⊢
  have h2e : 2 ^ e ≤ 2 ^ 32 := Nat.pow_le_pow_right (by decide) he
  have hT : (k + 1) * 2 ^ 53 = (k + 1) * 2 ^ (53 - e) * 2 ^ e := by rw [Nat.mul_assoc, pow_split he]
  rw [hT]
  apply Nat.mul_lt_mul_of_pos_right _ (Nat.pos_of_ne_zero (by simp))
  apply roundShift_lt
  · rw [← hT]; omega
  · rw [← hT]; omega

/-- Every multiple of `2^-53` below 1 is drawn by some pair of numbers. -/
theorem nextDouble_onto {x : Nat} (hx : x < 2 ^ 53) : ∃ g1 g2, nextDouble g1 g2 = x := by
  have h1 : x / 2 ^ 26 < 2 ^ 27 := by omega
  have h2 : x % 2 ^ 26 < 2 ^ 26 := by omega
  refine ⟨UInt32.ofNat (x / 2 ^ 26 * 32), UInt32.ofNat (x % 2 ^ 26 * 64), ?_⟩
  unfold nextDouble
  simp only [UInt32.toNat_shiftRight, Nat.shiftRight_eq_div_pow, UInt32.toNat_ofNat']
  rw [show (5 : UInt32).toNat % 32 = 5 from rfl, show (6 : UInt32).toNat % 32 = 6 from rfl]
  omega

/-! ### The permutation behind `sample_without_replacement` -/

/-- Transposition. -/
def tau (i j v : Nat) : Nat := if v = i then j else if v = j then i else v

theorem tau_spec (i j v : Nat) :
    v = i ∧ tau i j v = j ∨ v ≠ i ∧ v = j ∧ tau i j v = i ∨ v ≠ i ∧ v ≠ j ∧ tau i j v = v := by
  unfold tau
  by_cases h : v = i
  · exact .inl ⟨h, if_pos h⟩
  · rw [if_neg h]
    by_cases h2 : v = j
    · exact .inr (.inl ⟨h, h2, if_pos h2⟩)
    · exact .inr (.inr ⟨h, h2, if_neg h2⟩)

theorem tau_tau (i j v : Nat) : tau i j (tau i j v) = v := by
  have h1 := tau_spec i j v
  have h2 := tau_spec i j (tau i j v)
  omega

/-- Where value `v` ends up. -/
def Q (i : Nat) : List Nat → Nat → Nat
  | [], v => v
  | d :: ds, v => Q (i + 1) ds (tau i (i + d) v)

theorem Q_inj (i : Nat) (ds : List Nat) {v w : Nat} (h : Q i ds v = Q i ds w) : v = w := by
  induction ds generalizing i v w with
  | nil => exact h
  | cons d ds ih =>
    have := ih (i + 1) h
    rw [← tau_tau i (i + d) v, this, tau_tau]

theorem Q_onto (i : Nat) (ds : List Nat) (y : Nat) : ∃ x, Q i ds x = y := by
  induction ds generalizing i y with
  | nil => exact ⟨y, rfl⟩
  | cons d ds ih =>
    obtain ⟨x, hx⟩ := ih (i + 1) y
    exact ⟨tau i (i + d) x, by rw [Q, tau_tau, hx]⟩

theorem Q_low (i : Nat) (ds : List Nat) {v : Nat} (h : v < i) : Q i ds v = v := by
  induction ds generalizing i with
  | nil => rfl
  | cons d ds ih =>
    rw [Q]
    have : tau i (i + d) v = v := by unfold tau; rw [if_neg (by omega), if_neg (by omega)]
    rw [this]
    exact ih (i + 1) (by omega)

/-- The numbers drawn keep the swaps below `n`. -/
def Ok (n i : Nat) (ds : List Nat) : Prop := ∀ t d, ds[t]? = some d → i + t + d < n

theorem Ok_cons {n i d : Nat} {ds : List Nat} : Ok n i (d :: ds) ↔ i + d < n ∧ Ok n (i + 1) ds := by
  constructor
  · intro h
    refine ⟨h 0 d rfl, fun t e he => ?_⟩
    have := h (t + 1) e (by simpa using he)
    omega
  · rintro ⟨h1, h2⟩ t e he
    cases t with
    | zero => simp at he; omega
    | succ t =>
      have := h2 t e (by simpa using he)
      omega

theorem Q_high {n i : Nat} {ds : List Nat} (hk : Ok n i ds) {v : Nat} (h : n ≤ v) : Q i ds v = v := by
  induction ds generalizing i with
  | nil => rfl
  | cons d ds ih =>
    rw [Ok_cons] at hk
    rw [Q]
    have : tau i (i + d) v = v := by unfold tau; rw [if_neg (by omega), if_neg (by omega)]
    rw [this]
    exact ih hk.2

theorem Q_lt {n i : Nat} {ds : List Nat} (hk : Ok n i ds) {v : Nat} (h : v < n) : Q i ds v < n := by
  by_contra hc
  have := Q_high hk (v := Q i ds v) (by omega)
  have := Q_inj i ds this
  omega

theorem Q_unique (i : Nat) (ds ds' : List Nat) (hl : ds.length = ds'.length)
    (h : ∀ v, i ≤ v → v < i + ds.length → Q i ds v = Q i ds' v) : ds = ds' := by
  induction ds generalizing i ds' with
  | nil => exact (List.length_eq_zero_iff.mp hl.symm).symm
  | cons d ds ih =>
    cases ds' with
    | nil => simp at hl
    | cons d' ds' =>
      simp only [List.length_cons, Nat.add_right_cancel_iff] at hl h
      -- the value that ends at `i` tells the first number drawn
      have hi : ∀ e es, Q i (e :: es) (i + e) = i := by
        intro e es
        rw [Q]
        have : tau i (i + e) (i + e) = i := by
          have := tau_spec i (i + e) (i + e)
          omega
        rw [this]
        exact Q_low _ _ (by omega)
      have hsame : (d ≤ ds.length ∨ d' ≤ ds.length) → d = d' := by
        rintro (h1 | h1)
        · have := h (i + d) (by omega) (by omega)
          rw [hi] at this
          have h2 := hi d' ds'
          have := Q_inj _ _ (this.symm.trans h2.symm)
          omega
        · have := h (i + d') (by omega) (by omega)
          rw [hi d'] at this
          have h2 := hi d ds
          have := Q_inj _ _ (this.trans h2.symm)
          omega
      by_cases hd : d ≤ ds.length ∨ d' ≤ ds.length
      · have hdd := hsame hd
        subst hdd
        have hd' : d ≤ ds.length := by omega
        congr 1
        apply ih (i + 1) ds' hl
        intro w h1 h2
        have := h (tau i (i + d) w) (by unfold tau; split; omega; split <;> omega)
          (by unfold tau; split; omega; split <;> omega)
        rwa [Q, Q, tau_tau] at this
      · have hds : ds = ds' := by
          apply ih (i + 1) ds' hl
          intro w h1 h2
          have := h w (by omega) (by omega)
          rw [Q, Q] at this
          rwa [show tau i (i + d) w = w by unfold tau; rw [if_neg (by omega), if_neg (by omega)],
            show tau i (i + d') w = w by unfold tau; rw [if_neg (by omega), if_neg (by omega)]] at this
        subst hds
        have := h i (Nat.le_refl i) (by omega)
        rw [Q, Q] at this
        have := Q_inj _ _ this
        simp only [tau, if_true] at this
        have : d = d' := by omega
        rw [this]

theorem Q_exists (n m i : Nat) (f : Nat → Nat) (hn : i + m ≤ n)
    (hinj : ∀ v w, i ≤ v → v < i + m → i ≤ w → w < i + m → f v = f w → v = w)
    (hf : ∀ v, i ≤ v → v < i + m → i ≤ f v ∧ f v < n) :
    ∃ ds, ds.length = m ∧ Ok n i ds ∧ ∀ v, i ≤ v → v < i + m → Q i ds v = f v := by
  induction m generalizing i f with
  | zero => exact ⟨[], rfl, fun t d h => by simp at h, fun v h1 h2 => by omega⟩
  | succ m ih =>
    by_cases hc : ∃ v0, i ≤ v0 ∧ v0 < i + (m + 1) ∧ f v0 = i
    · obtain ⟨v0, h0, h1, h2⟩ := hc
      have ht : ∀ w, i + 1 ≤ w → w < i + 1 + m → i ≤ tau i v0 w ∧ tau i v0 w < i + (m + 1) ∧ tau i v0 w ≠ v0 := by
        intro w hw1 hw2
        have := tau_spec i v0 w
        omega
      obtain ⟨ds, hl, hk, hq⟩ := ih (i + 1) (fun w => f (tau i v0 w)) (by omega)
        (by
          intro v w a b c d e
          have := hinj _ _ (ht v a b).1 (ht v a b).2.1 (ht w c d).1 (ht w c d).2.1 e
          rw [← tau_tau i v0 v, this, tau_tau])
        (by
          intro v a b
          have h3 := hf _ (ht v a b).1 (ht v a b).2.1
          have h4 : f (tau i v0 v) ≠ i := by
            intro e
            exact (ht v a b).2.2 (hinj _ _ (ht v a b).1 (ht v a b).2.1 h0 h1 (by rw [e, h2]))
          omega)
      refine ⟨(v0 - i) :: ds, by simp [hl], Ok_cons.mpr ⟨by omega, hk⟩, ?_⟩
      intro v a b
      rw [Q, show i + (v0 - i) = v0 by omega]
      by_cases hv : v = v0
      · have : tau i v0 v = i := by
          subst hv
          unfold tau; split
          · omega
          · rw [if_pos rfl]
        rw [this, Q_low _ _ (by omega), hv, h2]
      · have hw : i + 1 ≤ tau i v0 v ∧ tau i v0 v < i + 1 + m := by
          have := tau_spec i v0 v
          omega
        rw [hq _ hw.1 hw.2, tau_tau]
    · have hne : ∀ v, i ≤ v → v < i + (m + 1) → f v ≠ i := fun v a b e => hc ⟨v, a, b, e⟩
      obtain ⟨ds, hl, hk, hq⟩ := ih (i + 1) f (by omega)
        (fun v w a b c d e => hinj v w (by omega) (by omega) (by omega) (by omega) e)
        (fun v a b => by
          have := hf v (by omega) (by omega)
          have := hne v (by omega) (by omega)
          omega)
      obtain ⟨j, hj⟩ := Q_onto (i + 1) ds (f i)
      have hfi := hf i (by omega) (by omega)
      have hfi' := hne i (by omega) (by omega)
      have hj1 : j < n := by
        by_contra hc'
        have := Q_high hk (v := j) (by omega)
        omega
      have hj2 : i + (m + 1) ≤ j := by
        by_contra hc'
        by_cases hji : j ≤ i
        · have := Q_low (i + 1) ds (v := j) (by omega)
          omega
        · have h5 := hq j (by omega) (by omega)
          have := hinj j i (by omega) (by omega) (by omega) (by omega) (by omega)
          omega
      refine ⟨(j - i) :: ds, by simp [hl], Ok_cons.mpr ⟨by omega, hk⟩, ?_⟩
      intro v a b
      rw [Q, show i + (j - i) = j by omega]
      by_cases hv : v = i
      · rw [show tau i j v = j by unfold tau; rw [if_pos hv], hj, hv]
      · rw [show tau i j v = v by unfold tau; rw [if_neg hv, if_neg (by omega)]]
        exact hq v (by omega) (by omega)

/-! ### The map implements the permutation -/

/-- The value at a position; positions without an entry hold themselves. -/
def val (mm : List (Nat × Nat)) (p : Nat) : Nat := (AssocMap.find mm p).getD p

theorem at'_some {mm : List (Nat × Nat)} {k x : Nat} (h : AssocMap.find mm k = some x) : at' mm k = (x, mm) := by
  simp [at', h]

theorem swapStep_val (mm : List (Nat × Nat)) (i j : Nat) (hi : (AssocMap.find mm i).isSome) (p : Nat) :
    val (swapStep mm i j) p = val mm (tau i j p) ∧
    ((AssocMap.find (swapStep mm i j) p).isSome = ((AssocMap.find mm p).isSome || p == j)) := by
  obtain ⟨t, ht⟩ := Option.isSome_iff_exists.mp hi
  unfold swapStep
  generalize hm : (if (AssocMap.find mm j).isSome then mm else AssocMap.upsert mm j j) = m1
  have hf : ∀ q, AssocMap.find m1 q = if q = j then some (val mm j) else AssocMap.find mm q := by
    intro q
    rw [← hm]
    by_cases hj : (AssocMap.find mm j).isSome
    · rw [if_pos hj]
      obtain ⟨x, hx⟩ := Option.isSome_iff_exists.mp hj
      split
      · rename_i h; rw [h, val, hx]; rfl
      · rfl
    · rw [if_neg hj, AssocMap.find_upsert]
      have : AssocMap.find mm j = none := by simpa using hj
      rw [val, this]; rfl
  have hi1 : AssocMap.find m1 i = some t := by
    rw [hf]; split
    · rename_i h; rw [val, ← h, ht]; rfl
    · exact ht
  have hj1 : AssocMap.find m1 j = some (val mm j) := by rw [hf, if_pos rfl]
  simp only [at'_some hi1, at'_some hj1]
  have hres : AssocMap.find (AssocMap.upsert (AssocMap.upsert m1 i (val mm j)) j t) p =
      if p = j then some t else if p = i then some (val mm j) else AssocMap.find mm p := by
    rw [AssocMap.find_upsert, AssocMap.find_upsert, hf]
    split
    · rfl
    · rfl
  have htv : t = val mm i := by rw [val, ht]; rfl
  constructor
  · rw [val, hres]
    by_cases hpj : p = j
    · rw [if_pos hpj]
      by_cases hpi : p = i
      · rw [show tau i j p = j by unfold tau; rw [if_pos hpi]]
        subst hpj; subst hpi; exact htv
      · rw [show tau i j p = i by unfold tau; rw [if_neg hpi, if_pos hpj], ← htv]; rfl
    · rw [if_neg hpj]
      by_cases hpi : p = i
      · rw [if_pos hpi, show tau i j p = j by unfold tau; rw [if_pos hpi]]; rfl
      · rw [if_neg hpi, show tau i j p = p by unfold tau; rw [if_neg hpi, if_neg hpj]]; rfl
  · rw [hres]
    by_cases hpj : p = j
    · simp [hpj]
    · by_cases hpi : p = i
      · subst hpi; simp [hpj, ht]
      · simp [hpj, hpi]

theorem nodup_swapStep {mm : List (Nat × Nat)} (h : (mm.map (·.1)).Nodup) (i j : Nat) :
    ((swapStep mm i j).map (·.1)).Nodup := by
  have hat : ∀ {m : List (Nat × Nat)} (k : Nat), (m.map (·.1)).Nodup → ((at' m k).2.map (·.1)).Nodup := by
    intro m k hm
    unfold at'; split
    · exact hm
    · exact AssocMap.nodup_upsert hm _ _
  unfold swapStep
  apply AssocMap.nodup_upsert
  apply AssocMap.nodup_upsert
  apply hat
  apply hat
  split
  · exact h
  · exact AssocMap.nodup_upsert h _ _

/-- What the swap loop does to the map. -/
theorem swapLoop_spec (k : Nat) (ds : List Nat) : ∀ (mm : List (Nat × Nat)) (i : Nat), i + ds.length ≤ k →
    (mm.map (·.1)).Nodup → (∀ p, p < k → (AssocMap.find mm p).isSome) →
    ((swapLoop mm i ds).map (·.1)).Nodup ∧ (∀ p, p < k → (AssocMap.find (swapLoop mm i ds) p).isSome) ∧
    ∀ v, val (swapLoop mm i ds) (Q i ds v) = val mm v := by
  induction ds with
  | nil => intro mm i _ hn hk; exact ⟨hn, hk, fun v => rfl⟩
  | cons d ds ih =>
    intro mm i hl hn hk
    simp only [List.length_cons] at hl
    have hs := swapStep_val mm i (i + d) (hk i (by omega))
    obtain ⟨h1, h2, h3⟩ := ih (swapStep mm i (i + d)) (i + 1) (by omega) (nodup_swapStep hn _ _)
      (fun p hp => by rw [(hs p).2, hk p hp]; rfl)
    refine ⟨h1, h2, fun v => ?_⟩
    rw [Q, swapLoop, h3, (hs _).1, tau_tau]

theorem init_find (k : Nat) (p : Nat) :
    AssocMap.find ((List.range k).foldl (fun mm i => AssocMap.upsert mm i i) []) p = if p < k then some p else none := by
  induction k with
  | zero => rfl
  | succ k ih =>
    rw [List.range_succ, List.foldl_append, List.foldl_cons, List.foldl_nil, AssocMap.find_upsert, ih]
    by_cases h : p = k
    · rw [if_pos h, if_pos (by omega), h]
    · rw [if_neg h]
      by_cases h2 : p < k
      · rw [if_pos h2, if_pos (by omega)]
      · rw [if_neg h2, if_neg (by omega)]

theorem init_nodup (k : Nat) :
    (((List.range k).foldl (fun mm i => AssocMap.upsert mm i i) ([] : List (Nat × Nat))).map (·.1)).Nodup := by
  induction k with
  | zero => exact List.nodup_nil
  | succ k ih =>
    rw [List.range_succ, List.foldl_append, List.foldl_cons, List.foldl_nil]
    exact AssocMap.nodup_upsert ih _ _

theorem fill_spec (k : Nat) (f : Nat → Nat) (mm : List (Nat × Nat)) (res : List Nat) (hr : res.length = k)
    (h : ∀ e ∈ mm, e.2 < k → e.1 = f e.2) (h2 : ∀ v, v < k → (∃ e ∈ mm, e.2 = v) ∨ res[v]? = some (f v)) :
    mm.foldl (fun res e => if e.2 < k then res.set e.2 e.1 else res) res = (List.range k).map f := by
  induction mm generalizing res with
  | nil =>
    apply List.ext_getElem?
    intro v
    by_cases hv : v < k
    · rcases h2 v hv with ⟨e, he, _⟩ | h3
      · simp at he
      · rw [List.foldl_nil, h3, List.getElem?_map, List.getElem?_range hv]; rfl
    · rw [List.foldl_nil, List.getElem?_eq_none (by omega), List.getElem?_eq_none (by simp; omega)]
  | cons e mm ih =>
    rw [List.foldl_cons]
    apply ih
    · split
      · simp [hr]
      · exact hr
    · exact fun e he => h e (List.mem_cons_of_mem _ he)
    · intro v hv
      rcases h2 v hv with ⟨e', he', hev⟩ | h3
      · rcases List.mem_cons.mp he' with rfl | he'
        · right
          rw [if_pos (by omega), hev, List.getElem?_set_self (by omega), ← hev, h _ (by simp) (by omega)]
        · exact .inl ⟨e', he', hev⟩
      · right
        split
        · rename_i h4
          by_cases hev : e.2 = v
          · rw [hev, List.getElem?_set_self (by omega), h e (by simp) h4, hev]
          · rw [List.getElem?_set_ne hev, h3]
        · exact h3

theorem sampleWithout_eq {n k : Nat} (hn : 0 < n) (hk : k ≤ n) (ds res : List Nat) (hl : ds.length = k) :
    sampleWithout n k ds res = (true, (List.range k).map (Q 0 ds)) := by
  unfold sampleWithout
  rw [if_neg (by omega)]
  simp only [Int.toNat_natCast]
  congr 1
  obtain ⟨h1, h2, h3⟩ := swapLoop_spec k ds _ 0 (by omega) (init_nodup k)
    (fun p hp => by rw [init_find, if_pos hp]; rfl)
  have h3' : ∀ v, val (swapLoop ((List.range k).foldl (fun mm i => AssocMap.upsert mm i i) []) 0 ds) (Q 0 ds v) = v := by
    intro v
    rw [h3, val, init_find]
    split <;> rfl
  generalize swapLoop ((List.range k).foldl (fun mm i => AssocMap.upsert mm i i) []) 0 ds = mm at h1 h2 h3'
  apply fill_spec
  · simp only [List.length_take, List.length_append, List.length_replicate]; omega
  · rintro ⟨p, v⟩ he _
    obtain ⟨w, hw⟩ := Q_onto 0 ds p
    have h4 := h3' w
    rw [hw, val, (AssocMap.find_eq_some_iff h1).mpr he] at h4
    simp only [Option.getD_some] at h4
    rw [h4, hw]
  · intro v hv
    left
    have h4 := h3' v
    rw [val] at h4
    cases hf : AssocMap.find mm (Q 0 ds v) with
    | some x =>
      rw [hf] at h4
      exact ⟨_, (AssocMap.find_eq_some_iff h1).mp hf, h4⟩
    | none =>
      rw [hf] at h4
      have := h2 (Q 0 ds v) (by simp only [Option.getD_none] at h4; omega)
      rw [hf] at this
      simp at this

theorem Draws_Ok {n k : Nat} {ds : List Nat} : Draws n k ds ↔ ds.length = k ∧ Ok n 0 ds := by
  unfold Draws Ok
  constructor
  · rintro ⟨h1, h2⟩
    refine ⟨h1, fun t d h => ?_⟩
    have := h2 t d h
    omega
  · rintro ⟨h1, h2⟩
    refine ⟨h1, fun t d h => ?_⟩
    have := h2 t d h
    omega

end Verif.Sampling.Lemmas
