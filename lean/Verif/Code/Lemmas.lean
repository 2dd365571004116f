import Verif.Code.Spec
/-!
# Lemmas for the bit codes

The byte vector is read as one little-endian number; writing adds a multiple
of a power of two, reading divides by one.
-/
namespace Verif.Code.Lemmas
open Verif.Code Verif.Code.Spec

theorem leVal_append (a b : List UInt8) : leVal (a ++ b) = leVal a + 256 ^ a.length * leVal b := by
  induction a with
  | nil => simp [leVal]
  | cons x xs ih =>
    simp only [List.cons_append, leVal, ih, List.length_cons, Nat.pow_succ]
    rw [Nat.mul_add, Nat.mul_comm (256 ^ xs.length) 256, Nat.mul_assoc, Nat.add_assoc]

theorem leVal_lt (a : List UInt8) : leVal a < 256 ^ a.length := by
  induction a with
  | nil => simp [leVal]
  | cons x xs ih =>
    simp only [leVal, List.length_cons, Nat.pow_succ]
    have := x.toNat_lt
    omega

theorem leVal_zeros (n : Nat) : leVal (List.replicate n 0) = 0 := by
  induction n with
  | zero => rfl
  | succ n ih => simp [List.replicate_succ, leVal, ih]

theorem pow256 (n : Nat) : 256 ^ n = 2 ^ (8 * n) := by
  rw [show (256 : Nat) = 2 ^ 8 from rfl, ← Nat.pow_mul]

/-- The encoder stands at bit position `P`. -/
structure At (e : Enc) (P : Nat) : Prop where
  bit : e.bit = P % 8
  len : 8 * e.bytes.length = roundUp P
  low : leVal e.bytes < 2 ^ P

theorem at_new : At Enc.new 0 := ⟨rfl, rfl, by decide⟩

/-- The byte the next bits go into. -/
theorem split_last {bytes : List UInt8} {bit P : Nat} (hb : bit = P % 8)
    (hl : 8 * bytes.length = roundUp P) (hN : leVal bytes < 2 ^ P) :
    ∃ l b, (if bit = 0 then bytes ++ [0] else bytes) = l ++ [b] ∧ P = 8 * l.length + bit ∧
      b.toNat < 2 ^ bit ∧ leVal l + 256 ^ l.length * b.toNat = leVal bytes := by
  unfold roundUp at hl
  by_cases h0 : bit = 0
  · refine ⟨bytes, 0, by simp [h0], by omega, by simp [h0], by simp⟩
  · have hne : bytes ≠ [] := by
      rintro rfl
      simp at hl
      omega
    refine ⟨bytes.dropLast, bytes.getLast hne, by
      rw [if_neg h0, List.dropLast_concat_getLast], ?_, ?_, ?_⟩
    · simp only [List.length_dropLast]; omega
    · have e := List.dropLast_concat_getLast hne
      rw [← e, leVal_append] at hN
      simp only [leVal, Nat.mul_zero, Nat.add_zero] at hN
      have hP : P = 8 * bytes.dropLast.length + bit := by simp only [List.length_dropLast]; omega
      rw [hP, Nat.pow_add, ← pow256] at hN
      have : 256 ^ bytes.dropLast.length * (bytes.getLast hne).toNat
          < 256 ^ bytes.dropLast.length * 2 ^ bit := by omega
      exact Nat.lt_of_mul_lt_mul_left this
    · have e := List.dropLast_concat_getLast hne
      conv => rhs; rw [← e, leVal_append]
      simp [leVal]

theorem orBack_snoc (l : List UInt8) (b : UInt8) (x : Nat) :
    orBack (l ++ [b]) x = some (l ++ [b ||| UInt8.ofNat x]) := by
  simp [orBack]

theorem or_toNat {b : UInt8} {w bit c : Nat} (hb : b.toNat < 2 ^ bit) (hw : w < 2 ^ c)
    (h8 : bit + c ≤ 8) : (b ||| UInt8.ofNat (w <<< bit)).toNat = b.toNat + w * 2 ^ bit := by
  have hlt : w <<< bit < 256 := by
    rw [Nat.shiftLeft_eq]
    calc w * 2 ^ bit < 2 ^ c * 2 ^ bit := Nat.mul_lt_mul_of_pos_right hw (Nat.two_pow_pos _)
      _ = 2 ^ (c + bit) := (Nat.pow_add ..).symm
      _ ≤ 2 ^ 8 := Nat.pow_le_pow_right (by decide) (by omega)
  rw [UInt8.toNat_or, UInt8.toNat_ofNat', Nat.mod_eq_of_lt hlt, Nat.or_comm,
    ← Nat.shiftLeft_add_eq_or_of_lt hb, Nat.shiftLeft_eq, Nat.add_comm]

theorem wordLoop_spec : ∀ (len v bit rest : Nat) (bytes : List UInt8) (P : Nat),
    v < 2 ^ len → (len = 0 ∨ rest = 8 - bit) → bit = P % 8 → 8 * bytes.length = roundUp P →
    leVal bytes < 2 ^ P →
    ∃ e', wordLoop v len bit rest bytes = some e' ∧ At e' (P + len) ∧
      leVal e'.bytes = leVal bytes + v * 2 ^ P := by
  intro len
  induction len using Nat.strongRecOn with
  | ind len ih =>
  intro v bit rest bytes P hv hr hb hl hN
  rw [wordLoop]
  by_cases h0 : len = 0
  · subst h0
    have : v = 0 := by simpa using hv
    subst this
    exact ⟨⟨bytes, bit⟩, by simp, ⟨by simpa using hb, by simpa using hl, by simpa using hN⟩, by simp⟩
  · have hr : rest = 8 - bit := by omega
    subst hr
    have hc0 : min (8 - bit) len ≠ 0 := by omega
    simp only [h0, hc0, dite_false]
    obtain ⟨l, b, hlb, hP, hbl, hval⟩ := split_last hb hl hN
    generalize hc : min (8 - bit) len = c at *
    rw [hlb, orBack_snoc]
    simp only []
    rw [Nat.and_two_pow_sub_one_eq_mod]
    have hor := or_toNat (c := c) hbl (Nat.mod_lt v (Nat.two_pow_pos c)) (by omega)
    have hv' : v >>> c < 2 ^ (len - c) := by
      rw [Nat.shiftRight_eq_div_pow, Nat.div_lt_iff_lt_mul (Nat.two_pow_pos c), ← Nat.pow_add]
      rwa [show len - c + c = len by omega]
    have hval' : leVal (l ++ [b ||| UInt8.ofNat ((v % 2 ^ c) <<< bit)])
        = leVal bytes + v % 2 ^ c * 2 ^ P := by
      rw [leVal_append]
      simp only [leVal, Nat.mul_zero, Nat.add_zero]
      rw [hor, ← hval, hP, Nat.pow_add, ← pow256, Nat.mul_add, Nat.add_assoc]
      congr 2
      rw [← Nat.mul_assoc, ← Nat.mul_assoc, Nat.mul_comm (256 ^ l.length)]
    obtain ⟨e', he, hat, hv2⟩ := ih (len - c) (by omega) (v >>> c) ((bit + c) &&& 7) 8
      (l ++ [b ||| UInt8.ofNat ((v % 2 ^ c) <<< bit)]) (P + c) hv'
      (by
        have : (bit + c) &&& 7 = (bit + c) % 8 := Nat.and_two_pow_sub_one_eq_mod (bit + c) 3
        rw [this]; omega)
      (by
        have : (bit + c) &&& 7 = (bit + c) % 8 := Nat.and_two_pow_sub_one_eq_mod (bit + c) 3
        rw [this]; omega)
      (by simp only [roundUp, List.length_append, List.length_cons, List.length_nil]; omega)
      (by
        rw [hval', Nat.pow_add, Nat.mul_comm (2 ^ P)]
        have h1 : v % 2 ^ c + 1 ≤ 2 ^ c := Nat.mod_lt v (Nat.two_pow_pos c)
        have h2 := Nat.mul_le_mul_right (2 ^ P) h1
        rw [Nat.add_mul] at h2
        omega)
    refine ⟨e', he, ?_, ?_⟩
    · rwa [show P + c + (len - c) = P + len by omega] at hat
    · rw [hv2, hval', Nat.shiftRight_eq_div_pow, Nat.add_assoc]
      congr 1
      rw [Nat.pow_add, Nat.mul_comm (2 ^ P), ← Nat.mul_assoc, ← Nat.add_mul]
      congr 1
      rw [Nat.mul_comm]
      exact Nat.mod_add_div v (2 ^ c)

/-- Writing a word adds it at the current position. -/
theorem word_spec {e : Enc} {P : Nat} (h : At e P) {v len : Nat} (hv : v < 2 ^ len) :
    ∃ e', e.word v len = some e' ∧ At e' (P + len) ∧
      leVal e'.bytes = leVal e.bytes + v * 2 ^ P :=
  wordLoop_spec len v e.bit (8 - e.bit) e.bytes P hv (Or.inr rfl) h.bit h.len h.low

/-- Code word of the gamma code as a number, least significant bit first. -/
def gammaWord (v : Nat) : Nat := 2 ^ Nat.log2 v + (v - 2 ^ Nat.log2 v) * 2 ^ (Nat.log2 v + 1)

theorem sub_log_lt {v : Nat} (hv : v ≠ 0) : v - 2 ^ Nat.log2 v < 2 ^ Nat.log2 v := by
  have h1 := Nat.lt_log2_self (n := v)
  have h2 := Nat.log2_self_le hv
  rw [Nat.pow_succ] at h1
  omega

theorem gamma_spec {e : Enc} {P : Nat} (h : At e P) {v : Nat} (hv : v ≠ 0) :
    ∃ e', e.gamma v = some e' ∧ At e' (P + gammaBits v) ∧
      leVal e'.bytes = leVal e.bytes + gammaWord v * 2 ^ P := by
  obtain ⟨e1, h1, a1, v1⟩ := word_spec h (v := 0) (len := Nat.log2 v) (Nat.two_pow_pos _)
  obtain ⟨e2, h2, a2, v2⟩ := word_spec a1 (v := 1) (len := 1) (by decide)
  obtain ⟨e3, h3, a3, v3⟩ := word_spec a2 (v := v - 2 ^ Nat.log2 v) (len := Nat.log2 v)
    (sub_log_lt hv)
  refine ⟨e3, ?_, ?_, ?_⟩
  · simp [Enc.gamma, getLen, hv, h1, h2, h3]
  · rwa [show P + gammaBits v = P + Nat.log2 v + 1 + Nat.log2 v by simp only [gammaBits]; omega]
  · rw [v3, v2, v1, gammaWord]
    simp only [Nat.pow_add, Nat.pow_one, Nat.add_mul, Nat.one_mul, Nat.zero_mul, Nat.add_zero]
    rw [Nat.add_assoc, Nat.mul_comm (2 ^ P) (2 ^ Nat.log2 v)]
    congr 2
    simp only [Nat.mul_assoc]
    congr 2
    rw [Nat.mul_comm (2 ^ P)]

/-- Code word of the delta code. -/
def deltaWord (v : Nat) : Nat :=
  gammaWord (Nat.log2 v + 1) + (v - 2 ^ Nat.log2 v) * 2 ^ gammaBits (Nat.log2 v + 1)

theorem delta_spec {e : Enc} {P : Nat} (h : At e P) {v : Nat} (hv : v ≠ 0) :
    ∃ e', e.delta v = some e' ∧ At e' (P + deltaBits v) ∧
      leVal e'.bytes = leVal e.bytes + deltaWord v * 2 ^ P := by
  obtain ⟨e1, h1, a1, v1⟩ := gamma_spec h (v := Nat.log2 v + 1) (by omega)
  obtain ⟨e2, h2, a2, v2⟩ := word_spec a1 (v := v - 2 ^ Nat.log2 v) (len := Nat.log2 v)
    (sub_log_lt hv)
  refine ⟨e2, ?_, ?_, ?_⟩
  · simp [Enc.delta, getLen, hv, h1, h2]
  · rwa [show P + deltaBits v = P + gammaBits (Nat.log2 v + 1) + Nat.log2 v by
      simp only [deltaBits]; omega]
  · rw [v2, v1, deltaWord, Nat.pow_add, Nat.add_mul, Nat.add_assoc]
    congr 2
    rw [Nat.mul_assoc, Nat.mul_comm (2 ^ P)]

/-- Code word of the Rice code. -/
def riceWord (v k : Nat) : Nat :=
  deltaWord (v / 2 ^ k + 1) + v % 2 ^ k * 2 ^ deltaBits (v / 2 ^ k + 1)

theorem rice_arg {v k : Nat} (hv : v < 2 ^ 32) (h0 : k = 0 → v < 2 ^ 32 - 1) :
    v / 2 ^ k + 1 < 2 ^ 32 := by
  by_cases hk : k = 0
  · subst hk; have := h0 rfl; simp; omega
  · have : 2 ^ 1 ≤ 2 ^ k := Nat.pow_le_pow_right (by decide) (by omega)
    have h2 : v / 2 ^ k ≤ v / 2 := Nat.div_le_div_left (by simpa using this) (by decide)
    omega

theorem rice_spec {e : Enc} {P : Nat} (h : At e P) {v k : Nat} (hk : k < 31) (hv : v < 2 ^ 32)
    (h0 : k = 0 → v < 2 ^ 32 - 1) :
    ∃ e', e.rice v k = some e' ∧ At e' (P + deltaBits (v / 2 ^ k + 1) + k) ∧
      leVal e'.bytes = leVal e.bytes + riceWord v k * 2 ^ P := by
  have hq := rice_arg hv h0
  obtain ⟨e1, h1, a1, v1⟩ := delta_spec h (v := v / 2 ^ k + 1) (Nat.succ_ne_zero _)
  obtain ⟨e2, h2, a2, v2⟩ := word_spec a1 (v := v % 2 ^ k) (len := k) (Nat.mod_lt _ (Nat.two_pow_pos _))
  refine ⟨e2, ?_, a2, ?_⟩
  · rw [Enc.rice, if_neg (by omega), Nat.shiftRight_eq_div_pow, Nat.mod_eq_of_lt hq, h1,
      Nat.and_two_pow_sub_one_eq_mod]
    simp [h2]
  · rw [v2, v1, riceWord, Nat.pow_add, Nat.add_mul, Nat.add_assoc]
    congr 2
    rw [Nat.mul_assoc, Nat.mul_comm (2 ^ P)]

/-! ### Reading -/

theorem mem_load (bs : List UInt8) (pos : Nat) (h : pos ≤ bs.length) :
    load64 (attachStream bs) pos
      = some (BitVec.ofNat 64 (leVal bs / 2 ^ (8 * pos))) := by
  have hlen : (attachStream bs).length = bs.length + 8 := by simp [attachStream]
  rw [load64, if_pos (by omega)]
  congr 1
  apply BitVec.eq_of_toNat_eq
  simp only [BitVec.toNat_ofNat]
  have h1 : leVal bs = leVal (attachStream bs) := by
    rw [attachStream, leVal_append, leVal_zeros]; simp
  have h2 : leVal (attachStream bs)
      = leVal ((attachStream bs).take pos)
        + 256 ^ pos * (leVal (((attachStream bs).drop pos).take 8)
          + 256 ^ 8 * leVal (((attachStream bs).drop pos).drop 8)) := by
    have e1 : (attachStream bs) = (attachStream bs).take pos ++
        (((attachStream bs).drop pos).take 8 ++ ((attachStream bs).drop pos).drop 8) := by
      rw [List.take_append_drop, List.take_append_drop]
    conv => lhs; rw [e1]
    rw [leVal_append, leVal_append, List.length_take, List.length_take, List.length_drop, hlen,
      Nat.min_eq_left (by omega), Nat.min_eq_left (by omega)]
  have h3 := leVal_lt ((attachStream bs).take pos)
  rw [List.length_take, hlen, Nat.min_eq_left (by omega)] at h3
  rw [h1, h2, ← pow256, Nat.add_mul_div_left _ _ (by exact Nat.pow_pos (by decide)),
    Nat.div_eq_of_lt h3, Nat.zero_add,
    show (256 ^ 8 : Nat) = 2 ^ 64 from rfl, Nat.add_mul_mod_self_left]

/-- The decoder stands at bit position `P`. -/
def DAt (d : Dec) (P : Nat) : Prop := d.bit < 8 ∧ 8 * d.pos + d.bit = P

theorem advance_at {d : Dec} {P : Nat} (h : DAt d P) (n : Nat) : DAt (d.advance n) (P + n) := by
  have e1 : (d.bit + n) &&& 7 = (d.bit + n) % 8 := Nat.and_two_pow_sub_one_eq_mod (d.bit + n) 3
  have e2 : (d.bit + n) >>> 3 = (d.bit + n) / 8 := Nat.shiftRight_eq_div_pow ..
  obtain ⟨h1, h2⟩ := h
  unfold DAt Dec.advance
  rw [e1, e2]
  constructor
  · simp only []; omega
  · simp only []; omega

/-- Bits of the window the decoder looks at. -/
theorem window_bit {N pos bit i : Nat} (hb : bit < 8) (hi : i < 57) :
    ((BitVec.ofNat 64 (N / 2 ^ (8 * pos))).sshiftRight bit).getLsbD i
      = (N / 2 ^ (8 * pos + bit)).testBit i := by
  rw [BitVec.getLsbD_sshiftRight]
  have h1 : ¬ 64 ≤ i := by omega
  have h2 : bit + i < 64 := by omega
  rw [if_pos h2, BitVec.getLsbD_ofNat, Nat.testBit_div_two_pow, Nat.testBit_div_two_pow]
  simp only [h1, h2, decide_true, decide_false, Bool.true_and, Bool.not_false]
  congr 1
  omega

theorem window_low {N pos bit : Nat} (hb : bit < 8) :
    ((BitVec.ofNat 64 (N / 2 ^ (8 * pos))).sshiftRight bit).toNat % 2 ^ 32
      = N / 2 ^ (8 * pos + bit) % 2 ^ 32 := by
  apply Nat.eq_of_testBit_eq
  intro i
  rw [Nat.testBit_mod_two_pow, Nat.testBit_mod_two_pow]
  by_cases hi : i < 32
  · have := window_bit (N := N) (pos := pos) hb (i := i) (by omega)
    rw [BitVec.getLsbD] at this
    simp only [this]
  · simp [hi]

/-- Reading a word. -/
theorem dword_spec {bs : List UInt8} {d : Dec} {P : Nat} (hd : DAt d P) (hP : P ≤ 8 * bs.length)
    {len : Nat} (hlen : len ≤ 32) :
    ∃ d', Dec.word (attachStream bs) d len = some (leVal bs / 2 ^ P % 2 ^ len, d') ∧
      DAt d' (P + len) := by
  refine ⟨d.advance len, ?_, advance_at hd len⟩
  obtain ⟨h1, h2⟩ := hd
  rw [Dec.word, if_neg (by omega), mem_load bs d.pos (by omega)]
  simp only []
  rw [window_low h1, Nat.and_two_pow_sub_one_eq_mod, h2, Nat.mod_mod_of_dvd]
  exact Nat.pow_dvd_pow 2 hlen

theorem find_range {n p : Nat} (f : Nat → Bool) (hp : p < n) (h1 : ∀ i < p, f i = false)
    (h2 : f p = true) : (List.range n).find? f = some p := by
  rw [List.find?_range_eq_some]
  exact ⟨h2, by simpa using hp, fun i hi => by simp [h1 i hi]⟩

/-- Reading a gamma code when the bits at the position are that code. -/
theorem dgamma_spec {bs : List UInt8} {d : Dec} {P : Nat} (hd : DAt d P) (hP : P ≤ 8 * bs.length)
    {v : Nat} (hv : v ≠ 0) (hv32 : v < 2 ^ 32) (hend : P + gammaBits v ≤ 8 * bs.length)
    (hN : leVal bs / 2 ^ P % 2 ^ gammaBits v = gammaWord v) :
    ∃ d', Dec.gamma (attachStream bs) d = some (v, d') ∧ DAt d' (P + gammaBits v) := by
  have hlog : Nat.log2 v < 32 := (Nat.log2_lt hv).mpr hv32
  have hsub := sub_log_lt hv
  have hle := Nat.log2_self_le hv
  generalize hp : Nat.log2 v = p at *
  have hgb : gammaBits v = 2 * p + 1 := by rw [gammaBits, hp]
  have hgw : gammaWord v = 2 ^ p + (v - 2 ^ p) * 2 ^ (p + 1) := by rw [gammaWord, hp]
  rw [hgb] at hN hend ⊢
  rw [hgw] at hN
  generalize hM : leVal bs / 2 ^ P = M at *
  -- the low `p` bits are zero and the next one is set
  have hlow : M % 2 ^ (p + 1) = 2 ^ p := by
    have e : M % 2 ^ (2 * p + 1) % 2 ^ (p + 1) = M % 2 ^ (p + 1) :=
      Nat.mod_mod_of_dvd _ (Nat.pow_dvd_pow 2 (by omega))
    rw [← e, hN, Nat.add_mul_mod_self_right]
    exact Nat.mod_eq_of_lt (Nat.pow_lt_pow_right (by decide) (by omega))
  have hbit : ∀ i, i ≤ p → M.testBit i = decide (i = p) := by
    intro i hi
    have e : (M % 2 ^ (p + 1)).testBit i = M.testBit i := by
      rw [Nat.testBit_mod_two_pow]; simp [show i < p + 1 by omega]
    rw [← e, hlow, Nat.testBit_two_pow]
    by_cases h : p = i <;> simp [h, eq_comm]
  obtain ⟨h1, h2⟩ := hd
  have hload := mem_load bs d.pos (by omega)
  have hctz : ctz64 ((BitVec.ofNat 64 (leVal bs / 2 ^ (8 * d.pos))).sshiftRight d.bit) = some p := by
    unfold ctz64
    apply find_range
    · omega
    · intro i hi
      rw [window_bit h1 (by omega), h2, hM, hbit i (by omega)]
      simp; omega
    · rw [window_bit h1 (by omega), h2, hM, hbit p (Nat.le_refl _)]
      simp
  obtain ⟨d', hw, hd'⟩ := dword_spec (bs := bs) (advance_at ⟨h1, h2⟩ (p + 1)) (by omega) (len := p)
    (by omega)
  have hval : leVal bs / 2 ^ (P + (p + 1)) % 2 ^ p = v - 2 ^ p := by
    rw [Nat.pow_add, ← Nat.div_div_eq_div_mul, hM]
    have e : M % 2 ^ (2 * p + 1) / 2 ^ (p + 1) = M / 2 ^ (p + 1) % 2 ^ p := by
      rw [show 2 * p + 1 = (p + 1) + p by omega, Nat.pow_add, Nat.mod_mul_right_div_self]
    rw [← e, hN, Nat.add_mul_div_right _ _ (Nat.two_pow_pos _),
      Nat.div_eq_of_lt (Nat.pow_lt_pow_right (by decide) (by omega)), Nat.zero_add]
  refine ⟨d', ?_, by rwa [show P + (2 * p + 1) = P + (p + 1) + p by omega]⟩
  rw [Dec.gamma, hload]
  simp only []
  rw [hctz]
  simp only []
  rw [if_neg (by omega), hw, hval]
  simp only [Option.bind_some]
  rw [show 2 ^ p + (v - 2 ^ p) = v by omega, Nat.mod_eq_of_lt hv32]

theorem mod_low {M a b : Nat} {x y : Nat} (h : M % 2 ^ (a + b) = x + y * 2 ^ a) (hx : x < 2 ^ a) :
    M % 2 ^ a = x ∧ M / 2 ^ a % 2 ^ b = y := by
  constructor
  · have e : M % 2 ^ (a + b) % 2 ^ a = M % 2 ^ a :=
      Nat.mod_mod_of_dvd _ (Nat.pow_dvd_pow 2 (by omega))
    rw [← e, h, Nat.add_mul_mod_self_right, Nat.mod_eq_of_lt hx]
  · rw [← Nat.mod_mul_right_div_self, ← Nat.pow_add, h, Nat.add_mul_div_right _ _ (Nat.two_pow_pos _),
      Nat.div_eq_of_lt hx, Nat.zero_add]

theorem gammaWord_lt {v : Nat} (hv : v ≠ 0) : gammaWord v < 2 ^ gammaBits v := by
  have h := sub_log_lt hv
  unfold gammaWord gammaBits
  generalize Nat.log2 v = p at *
  rw [show 2 * p + 1 = p + (p + 1) by omega, Nat.pow_add (m := p) (n := p + 1)]
  have h1 : (v - 2 ^ p + 1) * 2 ^ (p + 1) ≤ 2 ^ p * 2 ^ (p + 1) := Nat.mul_le_mul_right _ h
  have h2 : 2 ^ p < 2 ^ (p + 1) := Nat.pow_lt_pow_right (by decide) (by omega)
  rw [Nat.add_mul] at h1
  omega

theorem deltaWord_lt {v : Nat} (hv : v ≠ 0) : deltaWord v < 2 ^ deltaBits v := by
  have h := sub_log_lt hv
  have h2 := gammaWord_lt (v := Nat.log2 v + 1) (by omega)
  unfold deltaWord deltaBits
  generalize Nat.log2 v = p at *
  generalize gammaBits (p + 1) = q at *
  rw [Nat.add_comm q p, Nat.pow_add]
  have h1 : (v - 2 ^ p + 1) * 2 ^ q ≤ 2 ^ p * 2 ^ q := Nat.mul_le_mul_right _ h
  rw [Nat.add_mul] at h1
  omega

/-- Reading a delta code. -/
theorem ddelta_spec {bs : List UInt8} {d : Dec} {P : Nat} (hd : DAt d P) (hP : P ≤ 8 * bs.length)
    {v : Nat} (hv : v ≠ 0) (hv32 : v < 2 ^ 32) (hend : P + deltaBits v ≤ 8 * bs.length)
    (hN : leVal bs / 2 ^ P % 2 ^ deltaBits v = deltaWord v) :
    ∃ d', Dec.delta (attachStream bs) d = some (v, d') ∧ DAt d' (P + deltaBits v) := by
  have hlog : Nat.log2 v < 32 := (Nat.log2_lt hv).mpr hv32
  have hle := Nat.log2_self_le hv
  unfold deltaBits at hN hend
  obtain ⟨g1, g2⟩ := mod_low hN (gammaWord_lt (by omega))
  obtain ⟨d1, hg, hd1⟩ := dgamma_spec hd hP (v := Nat.log2 v + 1) (by omega) (by omega)
    (by omega) g1
  obtain ⟨d2, hw, hd2⟩ := dword_spec (bs := bs) hd1 (by omega) (len := Nat.log2 v) (by omega)
  refine ⟨d2, ?_, by
    rwa [show P + deltaBits v = P + gammaBits (Nat.log2 v + 1) + Nat.log2 v by
      simp only [deltaBits]; omega]⟩
  rw [Dec.delta, hg]
  simp only [Option.bind_some]
  rw [if_neg (by omega), Nat.add_sub_cancel, hw]
  simp only [Option.bind_some]
  rw [Nat.pow_add, ← Nat.div_div_eq_div_mul, g2,
    show 2 ^ Nat.log2 v + (v - 2 ^ Nat.log2 v) = v by omega, Nat.mod_eq_of_lt hv32]

/-- Reading a Rice code. -/
theorem drice_spec {bs : List UInt8} {d : Dec} {P : Nat} (hd : DAt d P) (hP : P ≤ 8 * bs.length)
    {v k : Nat} (hk : k < 31) (hv32 : v < 2 ^ 32) (h0 : k = 0 → v < 2 ^ 32 - 1)
    (hend : P + deltaBits (v / 2 ^ k + 1) + k ≤ 8 * bs.length)
    (hN : leVal bs / 2 ^ P % 2 ^ (deltaBits (v / 2 ^ k + 1) + k) = riceWord v k) :
    ∃ d', Dec.rice (attachStream bs) d k = some (v, d') ∧
      DAt d' (P + deltaBits (v / 2 ^ k + 1) + k) := by
  have hq := rice_arg hv32 h0
  obtain ⟨g1, g2⟩ := mod_low hN (deltaWord_lt (Nat.succ_ne_zero _))
  obtain ⟨d1, hg, hd1⟩ := ddelta_spec hd hP (v := v / 2 ^ k + 1) (Nat.succ_ne_zero _) hq (by omega) g1
  obtain ⟨d2, hw, hd2⟩ := dword_spec (bs := bs) hd1 (by omega) (len := k) (by omega)
  refine ⟨d2, ?_, hd2⟩
  rw [Dec.rice, if_neg (by omega), hg]
  simp only [Option.bind_some]
  rw [hw]
  simp only [Option.bind_some]
  rw [Nat.pow_add, ← Nat.div_div_eq_div_mul, g2]
  have e1 : (v / 2 ^ k + 1 + (2 ^ 32 - 1)) % 2 ^ 32 = v / 2 ^ k := by
    clear g1 g2 hg hN hend hd1 hd2 hw
    generalize v / 2 ^ k = q at *
    omega
  have e2 := Nat.div_add_mod v (2 ^ k)
  rw [Nat.mul_comm] at e2
  have e3 : v / 2 ^ k * 2 ^ k < 2 ^ 32 := by omega
  rw [e1, Nat.mod_eq_of_lt e3, e2, Nat.mod_eq_of_lt hv32]

/-! ### Byte-oriented calls -/

theorem roundUp_le (P : Nat) : P ≤ roundUp P := by unfold roundUp; omega

theorem roundUp_mod (P : Nat) : roundUp P % 8 = 0 := by unfold roundUp; omega

theorem at_append {e : Enc} {P : Nat} (h : At e P) (l : List UInt8) :
    At ⟨e.bytes ++ l, 0⟩ (roundUp P + 8 * l.length) := by
  have hm := roundUp_mod P
  refine ⟨by simp only []; omega, ?_, ?_⟩
  · simp only [List.length_append]
    have := h.len
    rw [Nat.mul_add, this]
    conv => rhs; rw [roundUp]
    omega
  · have := leVal_lt (e.bytes ++ l)
    rw [pow256, List.length_append, Nat.mul_add, h.len] at this
    exact this

theorem prefixBytes_length (v : Nat) : (prefixBytes v).length = groups v := by
  induction v using Nat.strongRecOn with
  | ind v ih =>
  rw [prefixBytes, groups]
  by_cases h : 128 ≤ v
  · simp only [h, dite_true, show ¬ v < 128 by omega, if_false, List.length_cons]
    rw [Nat.shiftRight_eq_div_pow, ih (v / 2 ^ 7) (by omega), Nat.add_comm]
  · simp [h, show v < 128 by omega]

theorem and128 (b : UInt8) : b &&& 128 = 0 ↔ b.toNat < 128 := by
  have h : ∀ b : Fin 256, (UInt8.ofNat b.val &&& 128 = 0) ↔ (UInt8.ofNat b.val).toNat < 128 := by
    decide +kernel
  have := h ⟨b.toNat, b.toNat_lt⟩
  simpa using this

/-- The prefix-code loop reads back what the writer produced, whatever
follows. -/
theorem prefixLoop_spec : ∀ (v pos res j : Nat) (rest : List UInt8), v * 2 ^ (7 * j) < 2 ^ 32 →
    res + v * 2 ^ (7 * j) < 2 ^ 32 → 
    prefixLoop pos res (2 ^ (7 * j) % 2 ^ 32) (prefixBytes v ++ rest)
      = some (res + v * 2 ^ (7 * j), ⟨pos + groups v, 0⟩) := by
  intro v
  induction v using Nat.strongRecOn with
  | ind v ih =>
  intro pos res j rest hv hr
  rw [prefixBytes, groups]
  by_cases h : 128 ≤ v
  · simp only [h, dite_true, show ¬ v < 128 by omega, if_false, List.cons_append, prefixLoop]
    have hb : (UInt8.ofNat (v &&& 127)).toNat = v % 128 := by
      rw [UInt8.toNat_ofNat', show v &&& 127 = v % 128 from Nat.and_two_pow_sub_one_eq_mod v 7]
      omega
    have hk : 2 ^ (7 * j) < 2 ^ 32 := by
      have := Nat.mul_le_mul_right (2 ^ (7 * j)) (show 1 ≤ v by omega)
      omega
    rw [if_pos ((and128 _).mpr (by rw [hb]; omega)), hb, Nat.mod_eq_of_lt hk]
    have hsplit : v * 2 ^ (7 * j) = v % 128 * 2 ^ (7 * j) + v / 128 * 2 ^ (7 * (j + 1)) := by
      rw [show 7 * (j + 1) = 7 + 7 * j by omega, Nat.pow_add, ← Nat.mul_assoc, ← Nat.add_mul]
      congr 1
      omega
    have hk2 : (2 ^ (7 * j)) <<< 7 = 2 ^ (7 * (j + 1)) := by
      rw [Nat.shiftLeft_eq, ← Nat.pow_add]; congr 1
    rw [hk2, Nat.mod_eq_of_lt (by omega : res + v % 128 * 2 ^ (7 * j) < 2 ^ 32)]
    rw [show v >>> 7 = v / 128 from Nat.shiftRight_eq_div_pow v 7]
    rw [ih (v / 128) (by omega) (pos + 1) _ (j + 1) rest (by omega) (by omega)]
    congr 2
    · omega
    · rw [Nat.add_assoc]
  · simp only [h, dite_false, show v < 128 by omega, if_true, List.cons_append, List.nil_append,
      prefixLoop]
    have hb : (UInt8.ofNat (v + 128)).toNat = v + 128 := by
      rw [UInt8.toNat_ofNat']; omega
    rw [if_neg (fun hh => by have := (and128 _).mp hh; omega), hb, Nat.add_sub_cancel]
    by_cases hk : 2 ^ (7 * j) < 2 ^ 32
    · rw [Nat.mod_eq_of_lt hk, Nat.mod_eq_of_lt hr]
    · have : v = 0 := by
        cases v with
        | zero => rfl
        | succ n =>
          exfalso
          have := Nat.mul_le_mul_right (2 ^ (7 * j)) (show 1 ≤ n + 1 by omega)
          omega
      subst this
      simp at hr ⊢
      omega

theorem leVal_take (bs : List UInt8) (n : Nat) (h : n ≤ bs.length) :
    leVal (bs.take n) = leVal bs % 2 ^ (8 * n) := by
  have h1 := leVal_lt (bs.take n)
  rw [List.length_take, Nat.min_eq_left h] at h1
  conv => rhs; rw [← List.take_append_drop n bs]
  rw [leVal_append, List.length_take, Nat.min_eq_left h, pow256, Nat.add_mul_mod_self_left,
    Nat.mod_eq_of_lt (by rw [← pow256]; exact h1)]

theorem leVal_inj : ∀ (a b : List UInt8), a.length = b.length → leVal a = leVal b → a = b
  | [], [], _, _ => rfl
  | x :: xs, y :: ys, hl, hv => by
    simp only [leVal] at hv
    have h1 := x.toNat_lt
    have h2 := y.toNat_lt
    have e1 : x.toNat = y.toNat := by omega
    have e2 : leVal xs = leVal ys := by omega
    rw [UInt8.toNat_inj.mp e1, leVal_inj xs ys (by simpa using hl) e2]

theorem take_of_leVal {bs l : List UInt8} (h : l.length ≤ bs.length)
    (hv : leVal bs % 2 ^ (8 * l.length) = leVal l) : ∃ t, bs = l ++ t := by
  refine ⟨bs.drop l.length, ?_⟩
  have := leVal_inj (bs.take l.length) l (by simp [h]) (by rw [leVal_take bs _ h, hv])
  conv => lhs; rw [← List.take_append_drop l.length bs]
  rw [this]

/-- Encoding one call. -/
theorem step_spec {e : Enc} {P : Nat} (h : At e P) {o : Op} (ho : Valid o) :
    ∃ e', e.step o = some e' ∧ At e' (after P o) ∧ P ≤ after P o ∧
      leVal e'.bytes % 2 ^ P = leVal e.bytes := by
  have key : ∀ e' x, leVal e'.bytes = leVal e.bytes + x * 2 ^ P →
      leVal (Enc.bytes e') % 2 ^ P = leVal e.bytes := by
    intro e' x hx
    rw [hx, Nat.add_mul_mod_self_right, Nat.mod_eq_of_lt h.low]
  have key2 : ∀ l : List UInt8, leVal (e.bytes ++ l) % 2 ^ P = leVal e.bytes := by
    intro l
    rw [leVal_append, pow256, h.len, show roundUp P = P + (roundUp P - P) by
      have := roundUp_le P; omega, Nat.pow_add, Nat.mul_assoc, Nat.add_mul_mod_self_left,
      Nat.mod_eq_of_lt h.low]
  cases o with
  | byte v =>
    refine ⟨_, rfl, ?_, ?_, key2 _⟩
    · have := at_append h [v]
      simpa [after] using this
    · have := roundUp_le P; simp only [after]; omega
  | word v len =>
    obtain ⟨e', h1, h2, h3⟩ := word_spec h ho.2
    exact ⟨e', h1, h2, by simp only [after]; omega, key e' _ h3⟩
  | gamma v =>
    obtain ⟨e', h1, h2, h3⟩ := gamma_spec h (v := v) (Nat.pos_iff_ne_zero.mp ho.1)
    exact ⟨e', h1, h2, by simp only [after]; omega, key e' _ h3⟩
  | delta v =>
    obtain ⟨e', h1, h2, h3⟩ := delta_spec h (v := v) (Nat.pos_iff_ne_zero.mp ho.1)
    exact ⟨e', h1, h2, by simp only [after]; omega, key e' _ h3⟩
  | rice v k =>
    obtain ⟨e', h1, h2, h3⟩ := rice_spec h ho.1 ho.2.1 ho.2.2
    exact ⟨e', h1, h2, by simp only [after]; omega, key e' _ h3⟩
  | prefixCode v =>
    refine ⟨_, rfl, ?_, ?_, key2 _⟩
    · have := at_append h (prefixBytes v)
      simpa only [after, prefixBytes_length] using this
    · have := roundUp_le P; simp only [after]; omega

/-- Decoding one call from bytes that agree with the encoder's state just
after that call. -/
theorem dstep_spec {e e' : Enc} {P : Nat} (h : At e P) {o : Op} (ho : Valid o)
    (hs : e.step o = some e') {bs : List UInt8} (hlen : after P o ≤ 8 * bs.length)
    (hbs : leVal bs % 2 ^ after P o = leVal e'.bytes) {d : Dec} (hd : DAt d P)
    (hal : (∃ v, o = .byte v) → P % 8 = 0) :
    ∃ d', Dec.step (attachStream bs) d o = some (value o, d') ∧ DAt d' (after P o) := by
  have key : ∀ w x, leVal bs % 2 ^ (P + w) = leVal e.bytes + x * 2 ^ P →
      leVal bs / 2 ^ P % 2 ^ w = x := by
    intro w x hx
    rw [← Nat.mod_mul_right_div_self, ← Nat.pow_add, hx,
      Nat.add_mul_div_right _ _ (Nat.two_pow_pos _), Nat.div_eq_of_lt h.low, Nat.zero_add]
  cases o with
  | byte v =>
    simp only [Enc.step, Enc.byte, Option.some.injEq] at hs
    subst hs
    have hP : P % 8 = 0 := hal ⟨v, rfl⟩
    have hr : roundUp P = P := by unfold roundUp; omega
    simp only [after, hr] at hlen hbs ⊢
    have hl : 8 * (e.bytes ++ [v]).length = P + 8 := by
      have := h.len
      simp only [List.length_append, List.length_cons, List.length_nil]
      omega
    rw [← hl] at hbs
    obtain ⟨t, ht⟩ := take_of_leVal (by omega) hbs
    obtain ⟨h1, h2⟩ := hd
    have hpos : d.pos = e.bytes.length := by
      have := h.len; omega
    refine ⟨⟨d.pos + 1, d.bit⟩, ?_, ?_⟩
    · simp [Dec.step, Dec.byte, attachStream, ht, hpos, value]
    · exact ⟨h1, by simp only []; omega⟩
  | word v len =>
    obtain ⟨e1, h1, h2, h3⟩ := word_spec h ho.2
    simp only [Enc.step] at hs
    rw [h1, Option.some.injEq] at hs
    subst hs
    simp only [after] at hlen hbs ⊢
    obtain ⟨d', hw, hd'⟩ := dword_spec hd (by omega) ho.1 (bs := bs)
    rw [key len v (by rw [hbs, h3])] at hw
    exact ⟨d', hw, hd'⟩
  | gamma v =>
    obtain ⟨e1, h1, h2, h3⟩ := gamma_spec h (v := v) (Nat.pos_iff_ne_zero.mp ho.1)
    simp only [Enc.step] at hs
    rw [h1, Option.some.injEq] at hs
    subst hs
    simp only [after, value] at hlen hbs ⊢
    exact dgamma_spec hd (by omega) (Nat.pos_iff_ne_zero.mp ho.1) ho.2 hlen
      (key _ _ (by rw [hbs, h3]))
  | delta v =>
    obtain ⟨e1, h1, h2, h3⟩ := delta_spec h (v := v) (Nat.pos_iff_ne_zero.mp ho.1)
    simp only [Enc.step] at hs
    rw [h1, Option.some.injEq] at hs
    subst hs
    simp only [after, value] at hlen hbs ⊢
    exact ddelta_spec hd (by omega) (Nat.pos_iff_ne_zero.mp ho.1) ho.2 hlen
      (key _ _ (by rw [hbs, h3]))
  | rice v k =>
    obtain ⟨e1, h1, h2, h3⟩ := rice_spec h ho.1 ho.2.1 ho.2.2
    simp only [Enc.step] at hs
    rw [h1, Option.some.injEq] at hs
    subst hs
    simp only [after, value] at hlen hbs ⊢
    exact drice_spec hd (by omega) ho.1 ho.2.1 ho.2.2 hlen
      (key _ _ (by rw [← Nat.add_assoc, hbs, h3]))
  | prefixCode v =>
    simp only [Enc.step, Enc.prefixCode, Option.some.injEq] at hs
    subst hs
    simp only [after] at hlen hbs ⊢
    have hl : 8 * (e.bytes ++ prefixBytes v).length = roundUp P + 8 * groups v := by
      have := h.len
      simp only [List.length_append, prefixBytes_length]
      omega
    rw [← hl] at hbs
    obtain ⟨t, ht⟩ := take_of_leVal (by omega) hbs
    obtain ⟨h1, h2⟩ := hd
    have hp : (if d.bit ≠ 0 then d.pos + 1 else d.pos) = e.bytes.length := by
      have := h.len
      unfold roundUp at this
      split <;> omega
    have hdrop : (attachStream bs).drop e.bytes.length
        = prefixBytes v ++ (t ++ List.replicate 8 0) := by
      rw [attachStream, ht]; simp
    have hloop := prefixLoop_spec v e.bytes.length 0 0 (t ++ List.replicate 8 0)
      (by simpa [Valid] using ho) (by simpa [Valid] using ho)
    simp only [Nat.mul_zero, Nat.pow_zero, Nat.mul_one, Nat.zero_add,
      show (1 : Nat) % 2 ^ 32 = 1 from rfl] at hloop
    refine ⟨⟨e.bytes.length + groups v, 0⟩, ?_, ?_⟩
    · simp only [Dec.step, Dec.prefixCode, value]
      split
      · next hb => rw [if_pos hb] at hp; rw [hp, hdrop, hloop]
      · next hb => rw [if_neg hb] at hp; rw [hp, hdrop, hloop]
    · refine ⟨by simp, ?_⟩
      have := h.len
      simp only []
      omega

theorem run_spec : ∀ (ops : List Op) {e : Enc} {P : Nat}, At e P → (∀ o ∈ ops, Valid o) →
    ∃ e', e.run ops = some e' ∧ At e' (endPos P ops) ∧ P ≤ endPos P ops ∧
      leVal e'.bytes % 2 ^ P = leVal e.bytes
  | [], e, P, h, _ => ⟨e, rfl, h, Nat.le_refl _, Nat.mod_eq_of_lt h.low⟩
  | o :: os, e, P, h, hv => by
    obtain ⟨e1, h1, a1, l1, m1⟩ := step_spec h (hv o (by simp))
    obtain ⟨e2, h2, a2, l2, m2⟩ := run_spec os a1 (fun o' ho' => hv o' (by simp [ho']))
    refine ⟨e2, by simp [Enc.run, h1, h2], a2, Nat.le_trans l1 l2, ?_⟩
    rw [← m1, ← m2, Nat.mod_mod_of_dvd _ (Nat.pow_dvd_pow 2 l1)]

theorem drun_spec : ∀ (ops : List Op) {e ef : Enc} {P : Nat} {d : Dec}, At e P →
    (∀ o ∈ ops, Valid o) → e.run ops = some ef → BytesAligned P ops → DAt d P →
    Dec.run (attachStream ef.bytes) d ops = some (ops.map value)
  | [], _, _, _, _, _, _, _, _, _ => rfl
  | o :: os, e, ef, P, d, h, hv, hr, hal, hd => by
    obtain ⟨e1, h1, a1, l1, m1⟩ := step_spec h (hv o (by simp))
    obtain ⟨e2, h2, a2, l2, m2⟩ := run_spec os a1 (fun o' ho' => hv o' (by simp [ho']))
    have : e2 = ef := by simpa [Enc.run, h1, h2] using hr
    subst this
    have hlen : after P o ≤ 8 * e2.bytes.length := by
      rw [a2.len]; exact Nat.le_trans l2 (roundUp_le _)
    obtain ⟨d', hs, hd'⟩ := dstep_spec h (hv o (by simp)) h1 hlen m2 hd hal.1
    have ih := drun_spec os a1 (fun o' ho' => hv o' (by simp [ho'])) h2 hal.2 hd'
    simp [Dec.run, hs, ih]

end Verif.Code.Lemmas
