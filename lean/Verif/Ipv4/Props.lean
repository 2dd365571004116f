import Verif.Ipv4.Lemmas
/-! Property C47: IPv4 addresses as text and their order. -/

namespace Verif.Ipv4.Props
open Verif.Ipv4 Verif.Ipv4.Spec Verif.Ipv4.Lemmas

/-- C47: `to_string` gives the dotted decimal form and stays inside its buffer. -/
theorem toStr_correct (x : Addr) : toStr x = some (dotted x) := by
  obtain ⟨a, b, c, d⟩ := x
  obtain ⟨e1, l1, _⟩ := digits_byte a
  obtain ⟨e2, l2, _⟩ := digits_byte b
  obtain ⟨e3, l3, _⟩ := digits_byte c
  obtain ⟨e4, l4, _⟩ := digits_byte d
  unfold toStr dotted
  rw [if_pos]
  · simp only [e1, e2, e3, e4]
  · simp only [List.length_append, List.length_cons, List.length_nil]; omega

example : toStr ⟨192, 168, 0, 10⟩ = some [49, 57, 50, 46, 49, 54, 56, 46, 48, 46, 49, 48] := by decide +kernel
example : (dotted ⟨255, 255, 255, 255⟩).length = 15 := by decide +kernel

/-- C47: a text that begins with four numbers separated by dots is read as the address made of them if they are bytes, as `none`
(255.255.255.255) if one of them is not. -/
theorem ofStr_dotted (s : Str) (v0 v1 v2 v3 : Int) (h : Begins [v0, v1, v2, v3] s)
    (hr : ∀ v ∈ [v0, v1, v2, v3], - 2 ^ 31 ≤ v ∧ v < 2 ^ 31) :
    ((∀ v ∈ [v0, v1, v2, v3], 0 ≤ v ∧ v < 256) →
      ∃ x, ofStr s = some x ∧ (x.a.toNat : Int) = v0 ∧ (x.b.toNat : Int) = v1 ∧ (x.c.toNat : Int) = v2 ∧ (x.d.toNat : Int) = v3) ∧
    ((∃ v ∈ [v0, v1, v2, v3], ¬ (0 ≤ v ∧ v < 256)) → ofStr s = some noneAddr) := by
  have hs : scanFields 3 s = [v0, v1, v2, v3] := scanFields_of _ s h
  unfold ofStr
  rw [hs]
  have hub : ([v0, v1, v2, v3].any fun v => decide (v < - 2 ^ 31) || decide (2 ^ 31 ≤ v)) = false := by
    rw [List.any_eq_false]
    intro v hv
    have := hr v hv
    simp only [Bool.or_eq_true, decide_eq_true_eq]
    omega
  simp only [hub]
  constructor
  · intro hb
    have hok : ([v0, v1, v2, v3].any fun v => decide (v < 0) || decide (v > 255)) = false := by
      rw [List.any_eq_false]
      intro v hv
      have := hb v hv
      simp only [Bool.or_eq_true, decide_eq_true_eq]
      omega
    simp only [hok]
    refine ⟨_, rfl, ?_⟩
    have b0 := hb v0 (by simp); have b1 := hb v1 (by simp); have b2 := hb v2 (by simp); have b3 := hb v3 (by simp)
    simp only [UInt8.toNat_ofNat']
    omega
  · rintro ⟨v, hv, hb⟩
    have hbad : ([v0, v1, v2, v3].any fun v => decide (v < 0) || decide (v > 255)) = true := by
      rw [List.any_eq_true]
      refine ⟨v, hv, ?_⟩
      simp only [Bool.or_eq_true, decide_eq_true_eq]
      omega
    simp only [hbad]
    rfl

example : Begins [1, -2, 3, 4] [49, 46, 32, 45, 50, 46, 43, 51, 46, 48, 52, 120] := by
  refine ⟨[49], _, rfl, ⟨[], [], [49], rfl, by simp, by simp, by simp [Digit], Or.inl (by decide)⟩, ?_⟩
  refine ⟨[32, 45, 50], _, rfl, ⟨[32], [45], [50], rfl, by simp [Space], by simp, by simp [Digit], Or.inr (Or.inr (by decide))⟩, ?_⟩
  refine ⟨[43, 51], _, rfl, ⟨[], [43], [51], rfl, by simp, by simp, by simp [Digit], Or.inr (Or.inl (by decide))⟩, ?_⟩
  exact ⟨[48, 52], [120], rfl, ⟨[], [], [48, 52], rfl, by simp, by simp, by simp [Digit], Or.inl (by decide)⟩, by simp [Digit]⟩

/-- C47: nothing else is accepted: an address other than `none` comes from four numbers with its bytes. -/
theorem ofStr_sound (s : Str) (x : Addr) (h : ofStr s = some x) (hx : x ≠ noneAddr) :
    Begins [(x.a.toNat : Int), (x.b.toNat : Int), (x.c.toNat : Int), (x.d.toNat : Int)] s := by
  unfold ofStr at h
  simp only at h
  split at h
  · cases h
  · split at h
    · rename_i v0 v1 v2 v3 hs
      split at h
      · simp only [Option.some.injEq] at h; exact absurd h.symm hx
      · rename_i hb
        simp only [List.any_cons, List.any_nil, Bool.or_false, Bool.or_eq_true, decide_eq_true_eq, not_or] at hb
        have hbg : Begins (scanFields 3 s) s := scanFields_begins 3 s (by rw [hs]; rfl)
        rw [hs] at hbg
        simp only [Option.some.injEq] at h
        subst h
        simp only [UInt8.toNat_ofNat']
        have e0 : ((v0.toNat % 2 ^ 8 : Nat) : Int) = v0 := by omega
        have e1 : ((v1.toNat % 2 ^ 8 : Nat) : Int) = v1 := by omega
        have e2 : ((v2.toNat % 2 ^ 8 : Nat) : Int) = v2 := by omega
        have e3 : ((v3.toNat % 2 ^ 8 : Nat) : Int) = v3 := by omega
        rw [e0, e1, e2, e3]
        exact hbg
    · simp only [Option.some.injEq] at h; exact absurd h.symm hx

/-- C47: reading what `to_string` wrote gives the address back. -/
theorem roundtrip (x : Addr) : (toStr x).bind ofStr = some x := by
  obtain ⟨a, b, c, d⟩ := x
  rw [toStr_correct]
  have hd : dotted ⟨a, b, c, d⟩ = digits a.toNat ++ 46 :: (digits b.toNat ++ 46 :: (digits c.toNat ++ 46 :: (digits d.toNat ++ []))) := by
    unfold dotted
    rw [← (digits_byte a).1, ← (digits_byte b).1, ← (digits_byte c).1, ← (digits_byte d).1]
    simp
  have hb : Begins [(a.toNat : Int), (b.toNat : Int), (c.toNat : Int), (d.toNat : Int)] (dotted ⟨a, b, c, d⟩) := by
    rw [hd]
    exact ⟨_, _, rfl, number_byte a, _, _, rfl, number_byte b, _, _, rfl, number_byte c, _, _, rfl, number_byte d, by simp⟩
  have h1 := a.toNat_lt; have h2 := b.toNat_lt; have h3 := c.toNat_lt; have h4 := d.toNat_lt
  obtain ⟨x, hx, e1, e2, e3, e4⟩ := (ofStr_dotted _ _ _ _ _ hb (by simp; omega)).1 (by simp; omega)
  rw [Option.bind_some, hx]
  obtain ⟨a', b', c', d'⟩ := x
  simp only [Int.natCast_inj, UInt8.toNat_inj] at e1 e2 e3 e4
  rw [e1, e2, e3, e4]

/-- C47: different addresses have different texts. -/
theorem toStr_injective (x y : Addr) (h : toStr x = toStr y) : x = y := by
  have := roundtrip x
  rw [h, roundtrip y] at this
  simpa using this.symm

/-- C47: the only undefined case is a number that does not fit in an `int`. -/
theorem ofStr_undefined (s : Str) (h : ofStr s = none) :
    ∃ a t b v, s = a ++ t ++ b ∧ Number t v ∧ ¬ (- 2 ^ 31 ≤ v ∧ v < 2 ^ 31) := by
  unfold ofStr at h
  simp only at h
  split at h
  · rename_i hub
    rw [List.any_eq_true] at hub
    obtain ⟨v, hv, hb⟩ := hub
    obtain ⟨a, t, b, e, hn⟩ := scanFields_mem 3 s v hv
    refine ⟨a, t, b, v, e, hn, ?_⟩
    simp only [Bool.or_eq_true, decide_eq_true_eq] at hb
    omega
  · split at h
    · split at h <;> cases h
    · cases h

/-- Finding: it can be met, with 2147483648.0.0.1 for instance. -/
theorem ofStr_overflow : ofStr [50, 49, 52, 55, 52, 56, 51, 54, 52, 56, 46, 48, 46, 48, 46, 49] = none := by decide +kernel

/-- Finding: what follows the fourth number is ignored and white space and signs are accepted: ` 1.+2.3.4.5` is 1.2.3.4. -/
theorem ofStr_lenient : ofStr [32, 49, 46, 43, 50, 46, 51, 46, 52, 46, 53] = some ⟨1, 2, 3, 4⟩ := by decide +kernel

/-- Finding: a malformed text cannot be told from the broadcast address. -/
theorem ofStr_none_is_broadcast : ofStr [] = ofStr (dotted ⟨255, 255, 255, 255⟩) := by decide +kernel

/-- C47: `==` is equality. -/
theorem eq_correct (x y : Addr) : eq x y = true ↔ x = y := by
  obtain ⟨a, b, c, d⟩ := x
  obtain ⟨a', b', c', d'⟩ := y
  simp [eq, and_assoc]

/-- C47: `<` is the order of the addresses as 32-bit numbers, a strict total order. -/
theorem lt_correct (x y : Addr) : (lt x y = true ↔ toNat x < toNat y) ∧ (toNat x = toNat y ↔ x = y) :=
  ⟨lt_iff x y, fun h => toNat_inj x y h, fun h => by rw [h]⟩

/-- C47: in particular irreflexive, transitive and total. -/
theorem lt_order : (∀ x, lt x x = false) ∧ (∀ x y z, lt x y = true → lt y z = true → lt x z = true) ∧
    (∀ x y, lt x y = true ∨ x = y ∨ lt y x = true) := by
  refine ⟨fun x => ?_, fun x y z h1 h2 => ?_, fun x y => ?_⟩
  · rw [Bool.eq_false_iff]; intro h; exact absurd ((lt_iff x x).mp h) (Nat.lt_irrefl _)
  · rw [lt_iff] at *; omega
  · rw [lt_iff, lt_iff, ← (lt_correct x y).2]; omega

example : lt ⟨10, 255, 0, 0⟩ ⟨127, 0, 0, 1⟩ = true := by decide +kernel

end Verif.Ipv4.Props
