import Verif.Endian.Model
import Verif.Endian.Spec
import Mathlib.Tactic.IntervalCases

namespace Verif.Endian.Lemmas
open Verif.Endian Verif.Endian.Spec

theorem length_digits (n v : Nat) : (digits n v).length = n := by
  induction n generalizing v with
  | zero => rfl
  | succ n ih => simp [digits, ih]

theorem getElem?_digits (n v i : Nat) (hi : i < n) :
    (digits n v)[i]? = some (UInt8.ofNat (v / 256 ^ i)) := by
  induction n generalizing v i with
  | zero => omega
  | succ n ih =>
    cases i with
    | zero => simp [digits]
    | succ i =>
      rw [digits, List.getElem?_cons_succ, ih _ _ (by omega), Nat.div_div_eq_div_mul, Nat.pow_succ, Nat.mul_comm]

theorem digits_eq {n : Nat} (v : BitVec (8 * n)) : digits n v.toNat = littleEndian v := by
  apply List.ext_getElem?
  intro i
  by_cases hi : i < n
  · rw [getElem?_digits _ _ _ hi]
    simp only [littleEndian, List.getElem?_map, List.getElem?_range hi, Option.map_some, Option.some_inj]
    apply UInt8.toNat.inj
    rw [UInt8.toNat_ofNat']
    simp only [byteNo, UInt8.toNat, BitVec.extractLsb'_toNat, Nat.shiftRight_eq_div_pow]
    rw [Nat.pow_mul]
  · rw [List.getElem?_eq_none (by rw [length_digits]; omega),
      List.getElem?_eq_none (by simp [littleEndian]; omega)]

theorem undigits_digits (n v : Nat) (h : v < 256 ^ n) : undigits (digits n v) = v := by
  induction n generalizing v with
  | zero => simp at h; simp [digits, undigits, h]
  | succ n ih =>
    rw [Nat.pow_succ] at h
    rw [digits, undigits, ih _ (by omega)]
    have : (UInt8.ofNat v).toNat = v % 256 := by simp
    omega

theorem undigits_lt (p : List UInt8) : undigits p < 256 ^ p.length := by
  induction p with
  | nil => simp [undigits]
  | cons b bs ih =>
    have := b.toNat_lt
    simp only [undigits, List.length_cons, Nat.pow_succ]
    omega

theorem digits_undigits (p : List UInt8) : digits p.length (undigits p) = p := by
  induction p with
  | nil => rfl
  | cons b bs ih =>
    have h1 : UInt8.ofNat (b.toNat + 256 * undigits bs) = b := by
      apply UInt8.toNat.inj
      have := b.toNat_lt
      rw [UInt8.toNat_ofNat']; omega
    have h2 : (b.toNat + 256 * undigits bs) / 256 = undigits bs := by
      have := b.toNat_lt; omega
    simp only [List.length_cons, undigits, digits, h1, h2, ih]

theorem bigEndian_eq {n : Nat} (v : BitVec (8 * n)) : bigEndian v = (littleEndian v).reverse := by
  apply List.ext_getElem
  · simp [bigEndian, littleEndian]
  · intro i h1 h2
    simp [bigEndian, littleEndian, List.getElem_reverse]

theorem store_little {n : Nat} (v : BitVec (8 * n)) : store .little v = littleEndian v := digits_eq v

theorem store_big {n : Nat} (v : BitVec (8 * n)) : store .big v = bigEndian v := by
  rw [bigEndian_eq, ← digits_eq]; rfl

theorem length_store (h : Host) {n : Nat} (v : BitVec (8 * n)) : (store h v).length = n := by
  cases h <;> simp [store, length_digits]

theorem two_pow (n : Nat) : 2 ^ (8 * n) = 256 ^ n := by rw [Nat.pow_mul]

theorem store_load (h : Host) {n : Nat} (p : List UInt8) (hp : p.length = n) : store h (load h n p) = p := by
  subst hp
  have h1 := undigits_lt p
  have h2 := undigits_lt p.reverse
  rw [List.length_reverse] at h2
  cases h with
  | little =>
    simp only [store, load, BitVec.toNat_ofNat, two_pow, Nat.mod_eq_of_lt h1, digits_undigits]
  | big =>
    have := digits_undigits p.reverse
    rw [List.length_reverse] at this
    simp only [store, load, BitVec.toNat_ofNat, two_pow, Nat.mod_eq_of_lt h2, this, List.reverse_reverse]

theorem store_inj (h : Host) {n : Nat} {v w : BitVec (8 * n)} (he : store h v = store h w) : v = w := by
  have hv : v.toNat < 256 ^ n := by rw [← two_pow]; exact v.isLt
  have hw : w.toNat < 256 ^ n := by rw [← two_pow]; exact w.isLt
  apply BitVec.eq_of_toNat_eq
  have : digits n v.toNat = digits n w.toNat := by
    cases h
    · exact he
    · exact List.reverse_inj.mp he
  rw [← undigits_digits n _ hv, this, undigits_digits n _ hw]

theorem littleEndian_inj {n : Nat} {v w : BitVec (8 * n)} (h : littleEndian v = littleEndian w) : v = w :=
  store_inj .little (by rw [store_little, store_little, h])

theorem swap_some {p : List UInt8} {i j : Nat} (hi : i < p.length) (hj : j < p.length) :
    swap p i j = some ((p.set i p[j]).set j p[i]) := by
  simp [swap, hi, hj]

/-- The loop has reversed the outer `i` places at both ends of `p`. -/
theorem reverseLoop_spec (p0 : List UInt8) (i : Nat) (p : List UInt8) (hl : p.length = p0.length)
    (hi : i ≤ p0.length / 2)
    (h : ∀ k (hk : k < p0.length), p[k]'(by omega) =
      if k < i ∨ p0.length - 1 - k < i then p0[p0.length - 1 - k]'(by omega) else p0[k]) :
    reverseLoop p0.length i p = some p0.reverse := by
  unfold reverseLoop
  by_cases hlt : i < p0.length / 2
  · have h1 : i < p.length := by omega
    have h2 : p0.length - 1 - i < p.length := by omega
    rw [if_pos hlt, swap_some h1 h2]
    dsimp only
    refine reverseLoop_spec p0 (i + 1) _ (by simp [hl]) (by omega) ?_
    · intro k hk
      have hI := h i (by omega)
      have hJ := h (p0.length - 1 - i) (by omega)
      rw [if_neg (by omega)] at hI hJ
      simp only [List.getElem_set]
      by_cases hk1 : p0.length - 1 - i = k
      · rw [if_pos hk1, if_pos (by omega), hI]
        congr 1; omega
      · rw [if_neg hk1]
        by_cases hk2 : i = k
        · rw [if_pos hk2, if_pos (by omega), hJ]
          congr 1; omega
        · rw [if_neg hk2, h k hk]
          by_cases hk3 : k < i ∨ p0.length - 1 - k < i
          · rw [if_pos hk3, if_pos (by omega)]
          · rw [if_neg hk3, if_neg (by omega)]
  · rw [if_neg hlt]
    congr 1
    apply List.ext_getElem
    · simp [hl]
    · intro k h1 h2
      rw [h k (by omega), List.getElem_reverse]
      by_cases hk : k < i ∨ p0.length - 1 - k < i
      · rw [if_pos hk]
      · rw [if_neg hk]
        congr 1; omega
termination_by p0.length / 2 - i

theorem reverseLoop_eq (p : List UInt8) : reverseLoop p.length 0 p = some p.reverse :=
  reverseLoop_spec p 0 p rfl (by omega) (fun k hk => by rw [if_neg (by omega)])

theorem reverseBytes_eq (n : Nat) (p : List UInt8) (h : p.length = n) : reverseBytes n p = some p.reverse := by
  fun_cases reverseBytes n p
  · match p, h with
    | [a], _ => rfl
  · rfl
  · rfl
  · rfl
  · subst h; exact reverseLoop_eq p

theorem byteNo_bits {n : Nat} (v : BitVec (8 * n)) (i j : Nat) (hj : j < 8) :
    (byteNo v i).toBitVec.getLsbD j = v.getLsbD (8 * i + j) := by
  simp [byteNo, hj]

theorem littleEndian_rev {n : Nat} {v w : BitVec (8 * n)}
    (h : ∀ i < n, ∀ j < 8, w.getLsbD (8 * i + j) = v.getLsbD (8 * (n - 1 - i) + j)) :
    littleEndian w = bigEndian v := by
  apply List.map_congr_left
  intro i hi
  rw [List.mem_range] at hi
  apply UInt8.toBitVec_inj.mp
  apply BitVec.eq_of_getLsbD_eq
  intro j hj
  rw [byteNo_bits _ _ _ hj, byteNo_bits _ _ _ hj, h i hi j hj]

theorem reverseShort_le (v : BitVec 16) :
    littleEndian (n := 2) (reverseShort v) = bigEndian (n := 2) v := by
  apply littleEndian_rev
  intro i hi j hj
  simp only [reverseShort]
  interval_cases i <;> interval_cases j <;> simp [BitVec.getElem_sshiftRight, BitVec.getElem_signExtend]

theorem reverseUShort_le (v : BitVec 16) :
    littleEndian (n := 2) (reverseUShort v) = bigEndian (n := 2) v := by
  apply littleEndian_rev
  intro i hi j hj
  simp only [reverseUShort]
  interval_cases i <;> interval_cases j <;> simp

theorem reverseInt_le (v : BitVec 32) :
    littleEndian (n := 4) (reverseInt v) = bigEndian (n := 4) v := by
  apply littleEndian_rev
  intro i hi j hj
  simp only [reverseInt]
  interval_cases i <;> interval_cases j <;> simp [BitVec.getElem_sshiftRight]

theorem reverseUInt_le (v : BitVec 32) :
    littleEndian (n := 4) (reverseUInt v) = bigEndian (n := 4) v := by
  apply littleEndian_rev
  intro i hi j hj
  simp only [reverseUInt]
  interval_cases i <;> interval_cases j <;> simp

theorem reverse_le (h : Host) (t : Ty) (v : BitVec (8 * t.size)) :
    ∃ w, reverse h t v = some w ∧ littleEndian w = bigEndian v := by
  cases t with
  | char => exact ⟨v, rfl, rfl⟩
  | schar => exact ⟨v, rfl, rfl⟩
  | uchar => exact ⟨v, rfl, rfl⟩
  | short => exact ⟨_, rfl, reverseShort_le v⟩
  | ushort => exact ⟨_, rfl, reverseUShort_le v⟩
  | int => exact ⟨_, rfl, reverseInt_le v⟩
  | uint => exact ⟨_, rfl, reverseUInt_le v⟩
  | other n =>
    refine ⟨load h n (store h v).reverse, ?_, ?_⟩
    · simp only [reverse, reverseBytes_eq n _ (length_store h v), Option.map_some]
    · have h1 := store_load h (n := n) (store h v).reverse (by rw [List.length_reverse, length_store])
      cases h
      · rw [store_little, store_little] at h1
        rw [bigEndian_eq, ← h1, store_little]
      · rw [store_big, store_big, bigEndian_eq (v := load _ _ _)] at h1
        rw [store_big]
        exact List.reverse_inj.mp h1

theorem isLittle_little : isLittle .little = true := by decide
theorem isLittle_big : isLittle .big = false := by decide

theorem char_be {v : BitVec (8 * 1)} : bigEndian (n := 1) v = littleEndian (n := 1) v := rfl

theorem toLittle_eq (h : Host) (t : Ty) (v : BitVec (8 * t.size)) :
    ∃ w, toLittle h t v = some w ∧ store h w = littleEndian v := by
  have key : ∀ w : BitVec (8 * t.size), littleEndian w = bigEndian v → store .big w = littleEndian v := by
    intro w hw
    rw [store_big, bigEndian_eq, hw, bigEndian_eq, List.reverse_reverse]
  obtain ⟨w, hr, hw⟩ := reverse_le h t v
  cases h with
  | little =>
    refine ⟨v, ?_, store_little v⟩
    cases t <;> simp [toLittle, isLittle_little]
  | big =>
    refine ⟨w, ?_, key w hw⟩
    cases t <;> simp only [toLittle, isLittle_big, if_false, Bool.false_eq_true] <;> exact hr

theorem toBig_eq (h : Host) (t : Ty) (v : BitVec (8 * t.size)) :
    ∃ w, toBig h t v = some w ∧ store h w = bigEndian v := by
  obtain ⟨w, hr, hw⟩ := reverse_le h t v
  cases h with
  | little =>
    refine ⟨w, ?_, by rw [store_little, hw]⟩
    cases t <;> simp only [toBig, isBig, isLittle_little, Bool.not_true, if_false, Bool.false_eq_true] <;> exact hr
  | big =>
    refine ⟨v, ?_, store_big v⟩
    cases t <;> simp [toBig, isBig, isLittle_big]

end Verif.Endian.Lemmas
