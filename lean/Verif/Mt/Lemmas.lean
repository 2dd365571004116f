import Verif.Mt.Model
import Verif.Mt.Spec
import Mathlib.Tactic.IntervalCases

namespace Verif.Mt.Lemmas
open Verif.Mt Verif.Mt.Spec

theorem put_some {mt : List UInt32} {i : Nat} {x : UInt32} (h : i < mt.length) : put mt i x = some (mt.set i x) :=
  if_pos h

theorem temper_eq (y : UInt32) : (temper y).toBitVec = tempered y.toBitVec := rfl

theorem initLoop_spec (seed : BitVec 32) (n i : Nat) (mt : List UInt32) (hi : 1 ≤ i) (hl : i + n = mt.length)
    (h : ∀ j, j < i → (mt[j]?).map UInt32.toBitVec = some (seedWord seed j)) :
    ∃ mt', initLoop n i mt = some mt' ∧ mt'.length = mt.length ∧
      ∀ j, j < mt.length → (mt'[j]?).map UInt32.toBitVec = some (seedWord seed j) := by
  induction n generalizing i mt with
  | zero => exact ⟨mt, rfl, rfl, fun j hj => h j (by omega)⟩
  | succ n ih =>
    have hp := h (i - 1) (by omega)
    rw [Option.map_eq_some_iff] at hp
    obtain ⟨p, hp1, hp2⟩ := hp
    simp only [initLoop, hp1, Option.bind_eq_bind, Option.bind_some, put_some (show i < mt.length by omega)]
    obtain ⟨mt', h1, h2, h3⟩ := ih (i + 1) (mt.set i ((1812433253 : UInt32) * (p ^^^ (p >>> 30)) + UInt32.ofNat i)) (by omega) (by simp; omega) (by
      intro j hj
      by_cases hji : j = i
      · subst hji
        rw [List.getElem?_set_self (by omega)]
        obtain ⟨j, rfl⟩ : ∃ k, j = k + 1 := ⟨j - 1, by omega⟩
        rw [Nat.add_sub_cancel] at hp2
        rw [Option.map_some, seedWord, ← hp2]
        rfl
      · rw [List.getElem?_set_ne (by omega)]
        exact h j (by omega))
    exact ⟨mt', h1, by rw [h2]; simp, fun j hj => h3 j (by simpa using hj)⟩

theorem mag01_eq (y : UInt32) : ∃ m, mag01 y = some m ∧
    ((y >>> 1) ^^^ m).toBitVec = mulA y.toBitVec := by
  have hb : (y &&& 1).toBitVec = if y.toBitVec.getLsbD 0 then 1#32 else 0#32 := by
    apply BitVec.eq_of_getLsbD_eq
    intro i hi
    rw [UInt32.toBitVec_and, BitVec.getLsbD_and]
    by_cases h0 : i = 0
    · subst h0
      cases y.toBitVec.getLsbD 0 <;> simp
    · have : (1 : UInt32).toBitVec.getLsbD i = false := by
        show (1#32).getLsbD i = false
        simp [h0]
      rw [this]
      cases y.toBitVec.getLsbD 0 <;> simp [h0]
  unfold mulA mag01
  have ht : (y &&& 1).toNat = (y &&& 1).toBitVec.toNat := rfl
  rw [ht, hb]
  cases hy : y.toBitVec.getLsbD 0
  · exact ⟨0, rfl, by simp⟩
  · exact ⟨matrixA, rfl, rfl⟩

theorem glue_eq (a b : UInt32) :
    ((a &&& upperMask) ||| (b &&& lowerMask)).toBitVec = glue a.toBitVec b.toBitVec := by
  rw [UInt32.toBitVec_or, UInt32.toBitVec_and, UInt32.toBitVec_and]
  show (a.toBitVec &&& 0x80000000#32) ||| (b.toBitVec &&& 0x7fffffff#32) = _
  apply BitVec.eq_of_getLsbD_eq
  intro i hi
  unfold glue
  simp only [BitVec.getLsbD_or, BitVec.getLsbD_and, BitVec.getLsbD_append, BitVec.getLsbD_extractLsb']
  interval_cases i <;> simp

/-- `mt[i]?` holds word `w` of the sequence. -/
def Holds (mt : List UInt32) (i : Nat) (w : BitVec 32) : Prop := (mt[i]?).map UInt32.toBitVec = some w

theorem twist_spec {mt : List UInt32} {i j k : Nat} {a b c : BitVec 32}
    (ha : Holds mt i a) (hb : Holds mt j b) (hc : Holds mt k c) :
    ∃ x : UInt32, twist mt i j k = some (mt.set i x) ∧ x.toBitVec = c ^^^ mulA (glue a b) := by
  obtain ⟨a', ha1, rfl⟩ := Option.map_eq_some_iff.mp ha
  obtain ⟨b', hb1, rfl⟩ := Option.map_eq_some_iff.mp hb
  obtain ⟨c', hc1, rfl⟩ := Option.map_eq_some_iff.mp hc
  obtain ⟨m, hm1, hm2⟩ := mag01_eq ((a' &&& upperMask) ||| (b' &&& lowerMask))
  have hi : i < mt.length := (List.getElem?_eq_some_iff.mp ha1).1
  refine ⟨c' ^^^ (a' &&& upperMask ||| b' &&& lowerMask) >>> 1 ^^^ m, by simp only [twist, ha1, hb1, hc1, hm1, Option.bind_eq_bind, Option.bind_some, put_some hi], ?_⟩
  rw [← glue_eq, ← hm2]
  simp only [UInt32.toBitVec_xor, BitVec.xor_assoc]

/-- During a refill: the words below `i` are new, the others old. -/
def Mid (w : Nat → BitVec 32) (base i : Nat) (mt : List UInt32) : Prop :=
  mt.length = 624 ∧ ∀ j, j < 624 → Holds mt j (w (if j < i then base + 624 + j else base + j))

theorem Mid_set {w : Nat → BitVec 32} {base i : Nat} {mt : List UInt32} {x : UInt32} (h : Mid w base i mt)
    (hi : i < 624) (hx : x.toBitVec = w (base + 624 + i)) : Mid w base (i + 1) (mt.set i x) := by
  refine ⟨by rw [List.length_set]; exact h.1, fun j hj => ?_⟩
  unfold Holds
  by_cases hji : j = i
  · subst hji
    rw [List.getElem?_set_self (by rw [h.1]; omega), Option.map_some, if_pos (by omega), hx]
  · rw [List.getElem?_set_ne (by omega)]
    have := h.2 j hj
    unfold Holds at this
    rw [this]
    by_cases h1 : j < i
    · rw [if_pos h1, if_pos (by omega)]
    · rw [if_neg h1, if_neg (by omega)]

theorem word_rec (seed : BitVec 32) (k : Nat) :
    word seed (k + 624) = word seed (k + 397) ^^^ mulA (glue (word seed k) (word seed (k + 1))) := by
  rw [word.eq_1 seed (k + 624), if_neg (by omega), Nat.add_sub_cancel]

theorem loop1_spec (seed : BitVec 32) (base n i : Nat) (mt : List UInt32) (hi : i + n ≤ 227)
    (h : Mid (word seed) base i mt) : ∃ mt', loop1 n i mt = some mt' ∧ Mid (word seed) base (i + n) mt' := by
  induction n generalizing i mt with
  | zero => exact ⟨mt, rfl, h⟩
  | succ n ih =>
    have h0 := h.2 i (by omega)
    have h1 := h.2 (i + 1) (by omega)
    have h2 := h.2 (i + 397) (by omega)
    rw [if_neg (by omega)] at h0 h1 h2
    obtain ⟨x, hx1, hx2⟩ := twist_spec h0 h1 h2
    obtain ⟨mt', h3, h4⟩ := ih (i + 1) _ (by omega) (Mid_set h (by omega) (x := x) (by
      rw [hx2, show base + 624 + i = base + i + 624 by omega, word_rec, Nat.add_assoc, Nat.add_assoc]))
    refine ⟨mt', ?_, by rw [show i + (n + 1) = i + 1 + n by omega]; exact h4⟩
    simp only [loop1, M, hx1, Option.bind_eq_bind, Option.bind_some]
    exact h3

theorem loop2_spec (seed : BitVec 32) (base n i : Nat) (mt : List UInt32) (hi : 227 ≤ i) (hi2 : i + n ≤ 623)
    (h : Mid (word seed) base i mt) : ∃ mt', loop2 n i mt = some mt' ∧ Mid (word seed) base (i + n) mt' := by
  induction n generalizing i mt with
  | zero => exact ⟨mt, rfl, h⟩
  | succ n ih =>
    have h0 := h.2 i (by omega)
    have h1 := h.2 (i + 1) (by omega)
    have h2 := h.2 (i + 397 - 624) (by omega)
    rw [if_neg (by omega)] at h0 h1
    rw [if_pos (by omega)] at h2
    obtain ⟨x, hx1, hx2⟩ := twist_spec h0 h1 h2
    obtain ⟨mt', h3, h4⟩ := ih (i + 1) _ (by omega) (by omega) (Mid_set h (by omega) (x := x) (by
      rw [hx2, show base + 624 + i = base + i + 624 by omega, word_rec,
        show base + 624 + (i + 397 - 624) = base + i + 397 by omega, Nat.add_assoc base i 1]))
    refine ⟨mt', ?_, by rw [show i + (n + 1) = i + 1 + n by omega]; exact h4⟩
    simp only [loop2, M, N, hx1, Option.bind_eq_bind, Option.bind_some]
    exact h3

theorem refill_spec (seed : BitVec 32) (base : Nat) (mt : List UInt32) (h : Mid (word seed) base 0 mt) :
    ∃ mt', refill mt = some mt' ∧ Mid (word seed) (base + 624) 0 mt' := by
  obtain ⟨m1, a1, b1⟩ := loop1_spec seed base 227 0 mt (by omega) h
  obtain ⟨m2, a2, b2⟩ := loop2_spec seed base 396 227 m1 (by omega) (by omega) b1
  have h0 := b2.2 623 (by omega)
  have h1 := b2.2 0 (by omega)
  have h2 := b2.2 396 (by omega)
  rw [if_neg (by omega)] at h0
  rw [if_pos (by omega)] at h1 h2
  obtain ⟨x, hx1, hx2⟩ := twist_spec h0 h1 h2
  have hm := Mid_set b2 (by omega) (x := x) (by
      rw [hx2, show base + 624 + 623 = base + 623 + 624 by omega, word_rec seed (base + 623)])
  refine ⟨m2.set 623 x, ?_, hm.1, fun j hj => ?_⟩
  · simp only [refill, N, M, show 624 - 397 = 227 from rfl, show 397 - 1 = 396 from rfl, a1, a2,
      Option.bind_eq_bind, Option.bind_some]
    exact hx1
  · have := hm.2 j hj
    rwa [if_pos (by omega)] at this

/-- The state before output `k`. -/
def Inv (seed : BitVec 32) (k : Nat) (s : St) : Prop :=
  s.mti ≤ 624 ∧ ∃ base, Mid (word seed) base 0 s.mt ∧ base + s.mti = k + 624

theorem next_spec {seed : BitVec 32} {k : Nat} {s : St} (h : Inv seed k s) :
    ∃ x s', next s = some (x, s') ∧ x.toBitVec = output seed k ∧ Inv seed (k + 1) s' := by
  have key : ∀ s1 : St, s1.mti < 624 → (∃ base, Mid (word seed) base 0 s1.mt ∧ base + s1.mti = k + 624) →
      ∃ y, s1.mt[s1.mti]? = some y ∧ (temper y).toBitVec = output seed k ∧
        Inv seed (k + 1) { s1 with mti := s1.mti + 1 } := by
    rintro s1 hlt ⟨base, hm, hb⟩
    have hy := hm.2 s1.mti hlt
    rw [if_neg (by omega)] at hy
    obtain ⟨y, hy1, hy2⟩ := Option.map_eq_some_iff.mp hy
    refine ⟨y, hy1, ?_, by simp only; omega, base, hm, by simp only; omega⟩
    rw [temper_eq, hy2, output, hb, Nat.add_comm]
  obtain ⟨h1, base, h2, h3⟩ := h
  by_cases hge : s.mti ≥ N
  · obtain ⟨mt', h4, h5⟩ := refill_spec seed base s.mt h2
    have hs : s.mti = 624 := by unfold N at hge; omega
    obtain ⟨y, e1, e2, e3⟩ := key ⟨mt', 0⟩ (by simp only; omega) ⟨base + 624, h5, by simp only; omega⟩
    refine ⟨_, _, ?_, e2, e3⟩
    simp only [next, if_pos hge, h4, Option.map_some, Option.bind_eq_bind, Option.bind_some, e1]
    rfl
  · obtain ⟨y, e1, e2, e3⟩ := key s (by unfold N at hge; omega) ⟨base, h2, h3⟩
    refine ⟨_, _, ?_, e2, e3⟩
    simp only [next, if_neg hge, Option.bind_eq_bind, Option.bind_some, e1]
    rfl

theorem new_spec (junk : List UInt32) (seed : UInt32) (hj : junk.length = N) :
    ∃ s, new junk seed = some s ∧ Inv seed.toBitVec 0 s := by
  unfold N at hj
  obtain ⟨mt', h1, h2, h3⟩ := initLoop_spec seed.toBitVec 623 1 (junk.set 0 seed) (by omega) (by simp [hj]) (by
    intro j hj'
    have : j = 0 := by omega
    subst this
    rw [List.getElem?_set_self (by omega)]; rfl)
  rw [List.length_set, hj] at h2
  refine ⟨⟨mt', N⟩, ?_, by simp [N], 0, ⟨h2, fun j hj' => ?_⟩, by simp [N]⟩
  · simp only [new, put_some (show 0 < junk.length by omega), Option.bind_eq_bind, Option.bind_some, N,
      show 624 - 1 = 623 from rfl, h1]
    rfl
  · rw [if_neg (by omega), Nat.zero_add]
    have := h3 j (by rw [List.length_set]; omega)
    unfold Holds
    rw [this, word.eq_1, if_pos hj']

theorem stream_spec {seed : BitVec 32} (n : Nat) {k : Nat} {s : St} (h : Inv seed k s) :
    ∃ xs, stream n s = some xs ∧ xs.map UInt32.toBitVec = (List.range' k n).map (output seed) := by
  induction n generalizing k s with
  | zero => exact ⟨[], rfl, rfl⟩
  | succ n ih =>
    obtain ⟨x, s', h1, h2, h3⟩ := next_spec h
    obtain ⟨xs, h4, h5⟩ := ih h3
    refine ⟨x :: xs, ?_, ?_⟩
    · simp only [stream, h1, h4, Option.bind_eq_bind, Option.bind_some]
      rfl
    · rw [List.map_cons, h2, h5, List.range'_succ, List.map_cons]

end Verif.Mt.Lemmas
