import Verif.FloatText.LemmasDec
import Verif.FloatText.Spec
import Verif.Json.LemmasParse
/-! Lemmas about the texts of floating point numbers. -/
namespace Verif.FloatText.Lemmas
open Verif.Double Verif.FloatText Verif.FloatText.Spec Verif.Json.Spec

theorem digitsW_length (w n : Nat) : (digitsW w n).length = w := by
  induction w with
  | zero => rfl
  | succ w ih => simp [digitsW, ih]

theorem digitsW_digit (w n : Nat) : ∀ c ∈ digitsW w n, Digit c := by
  induction w with
  | zero => simp [digitsW]
  | succ w ih =>
    intro c hc
    rw [digitsW, List.mem_cons] at hc
    rcases hc with rfl | hc
    · unfold Digit; omega
    · exact ih c hc

theorem digitsW_append (a b n : Nat) : digitsW (a + b) n = digitsW a (n / 10 ^ b) ++ digitsW b n := by
  induction a with
  | zero => simp [digitsW]
  | succ a ih =>
    rw [show a + 1 + b = (a + b) + 1 by omega, digitsW, digitsW, ih, List.cons_append, Nat.div_div_eq_div_mul, ← pow_add, Nat.add_comm a b]

theorem decVal_append (a b : List Nat) : decVal (a ++ b) = decVal a * 10 ^ b.length + decVal b := by
  induction b using List.reverseRecOn with
  | nil => simp [decVal]
  | append_singleton b c ih =>
    rw [← List.append_assoc, Verif.Json.Lemmas.decVal_snoc, ih, Verif.Json.Lemmas.decVal_snoc, List.length_append, List.length_singleton, pow_succ]
    ring

theorem decVal_digitsW (w n : Nat) : decVal (digitsW w n) = n % 10 ^ w := by
  induction w with
  | zero => simp [digitsW, decVal, Nat.mod_one]
  | succ w ih =>
    have : digitsW (w + 1) n = [48 + n / 10 ^ w % 10] ++ digitsW w n := rfl
    rw [this, decVal_append, ih, digitsW_length]
    have h1 : decVal [48 + n / 10 ^ w % 10] = n / 10 ^ w % 10 := by simp [decVal]
    rw [h1, pow_succ, Nat.mod_mul]
    ring

theorem decVal_zeros (k : Nat) : decVal (List.replicate k 48) = 0 := by
  induction k with
  | zero => rfl
  | succ k ih => rw [List.replicate_succ', Verif.Json.Lemmas.decVal_snoc, ih]

theorem strip_spec (ds : List Nat) : ∃ k, ds = strip ds ++ List.replicate k 48 ∧ (strip ds = [] ∨ ∃ p c, strip ds = p ++ [c] ∧ c ≠ 48) := by
  induction ds using List.reverseRecOn with
  | nil => exact ⟨0, rfl, .inl rfl⟩
  | append_singleton ds c ih =>
    by_cases hc : c = 48
    · subst hc
      obtain ⟨k, h1, h2⟩ := ih
      have : strip (ds ++ [48]) = strip ds := by simp [strip]
      rw [this]
      refine ⟨k + 1, ?_, h2⟩
      rw [List.replicate_succ', ← List.append_assoc, ← h1]
    · have : strip (ds ++ [c]) = ds ++ [c] := by simp [strip, hc]
      rw [this]
      exact ⟨0, by simp, .inr ⟨ds, c, rfl, hc⟩⟩

theorem strip_digit {ds : List Nat} (h : ∀ c ∈ ds, Digit c) : ∀ c ∈ strip ds, Digit c := by
  obtain ⟨k, h1, _⟩ := strip_spec ds
  intro c hc
  apply h
  rw [h1]
  exact List.mem_append_left _ hc

/-- Zeros at the end of a fraction do not count. -/
theorem strip_val (ip ds : List Nat) : (decVal (ip ++ strip ds) : Rat) * (10 : Rat) ^ (-((strip ds).length : Int)) =
    (decVal (ip ++ ds) : Rat) * (10 : Rat) ^ (-(ds.length : Int)) := by
  obtain ⟨k, h1, _⟩ := strip_spec ds
  generalize strip ds = s at *
  subst h1
  rw [← List.append_assoc, decVal_append (ip ++ s), decVal_zeros, List.length_append, List.length_replicate]
  push_cast
  rw [neg_add, ten_add, zpow_neg _ (k : Int), ten_nat]
  push_cast
  have : (10 : Rat) ^ k ≠ 0 := by positivity
  field_simp
  ring

theorem point_eq (ip fr : List Nat) : point ip fr = ip ++ (if fr = [] then [] else 46 :: fr) := by
  unfold point; split <;> simp

/-- The first digit is not zero. -/
theorem first_digit {P m : Nat} (hP : 1 ≤ P) (h1 : 10 ^ (P - 1) ≤ m) (h2 : m < 10 ^ P) (k : Nat) (hk : 1 ≤ k) (hkP : k ≤ P) :
    ∃ d ds, digitsW k (m / 10 ^ (P - k)) = d :: ds ∧ Digit d ∧ d ≠ 48 ∧ ∀ c ∈ ds, Digit c := by
  obtain ⟨j, rfl⟩ : ∃ j, k = j + 1 := ⟨k - 1, by omega⟩
  refine ⟨_, _, rfl, ?_, ?_, digitsW_digit _ _⟩
  · unfold Digit; omega
  · rw [Nat.div_div_eq_div_mul, ← pow_add, show P - (j + 1) + j = P - 1 by omega]
    have e : 10 ^ P = 10 * 10 ^ (P - 1) := by rw [mul_comm, ← pow_succ]; congr 1; omega
    have h3 : 1 ≤ m / 10 ^ (P - 1) := (Nat.one_le_div_iff (by positivity)).2 h1
    have h4 : m / 10 ^ (P - 1) < 10 := by rw [Nat.div_lt_iff_lt_mul (by positivity)]; omega
    omega

theorem take_digits {P m k : Nat} (hk : k ≤ P) : (digitsW P m).take k = digitsW k (m / 10 ^ (P - k)) := by
  obtain ⟨j, rfl⟩ : ∃ j, P = k + j := ⟨P - k, by omega⟩
  rw [digitsW_append, Nat.add_sub_cancel_left]
  exact List.take_left' (digitsW_length _ _)

theorem drop_digits {P m k : Nat} (hk : k ≤ P) : (digitsW P m).drop k = digitsW (P - k) m := by
  obtain ⟨j, rfl⟩ : ∃ j, P = k + j := ⟨P - k, by omega⟩
  rw [digitsW_append, Nat.add_sub_cancel_left]
  exact List.drop_left' (digitsW_length _ _)

theorem exp_digits (X : Int) : ∃ s ds, expText X = 101 :: (s :: ds) ∧ (∀ c ∈ ds, Digit c) ∧ 2 ≤ ds.length ∧
    (s = 43 ∧ X = (decVal ds : Int) ∨ s = 45 ∧ X = -(decVal ds : Int)) := by
  refine ⟨_, _, rfl, ?_, ?_, ?_⟩
  · split <;> exact digitsW_digit _ _
  · split
    · rw [digitsW_length]
    · rename_i h
      rw [digitsW_length]
      have := (dlen_spec X.natAbs (by omega)).2
      by_contra hc
      have : 10 ^ dlen X.natAbs ≤ 10 ^ 1 := Nat.pow_le_pow_right (by norm_num) (by omega)
      omega
  · have hv : decVal (if X.natAbs < 100 then digitsW 2 X.natAbs else digitsW (dlen X.natAbs) X.natAbs) = X.natAbs := by
      split
      · rw [decVal_digitsW]; omega
      · rw [decVal_digitsW]
        exact Nat.mod_eq_of_lt (dlen_spec X.natAbs (by omega)).2
    rw [hv]
    by_cases hX : X < 0
    · right; rw [if_pos hX]; exact ⟨rfl, by omega⟩
    · left; rw [if_neg hX]; exact ⟨rfl, by omega⟩

/-- What the text of a positive number looks like: its parts, and the number they stand for. -/
theorem fmtAbs_parts {P : Nat} (hP : 1 ≤ P) {a : Rat} (h : 0 < a) :
    ∃ ip fd ex k, fmtAbs P a = ip ++ (if fd = [] then [] else 46 :: fd) ++ ex ∧
      (ip = [48] ∨ ∃ d ds, ip = d :: ds ∧ Digit d ∧ d ≠ 48 ∧ ∀ c ∈ ds, Digit c) ∧ (∀ c ∈ fd, Digit c) ∧
      (fd = [] ∨ ∃ p c, fd = p ++ [c] ∧ c ≠ 48) ∧
      (ex = [] ∧ k = 0 ∧ ip.length ≤ P ∧ (fd = [] → ∃ d ds, ip = d :: ds ∧ d ≠ 48) ∨ ∃ s ds, ex = 101 :: (s :: ds) ∧ (∀ c ∈ ds, Digit c) ∧ 2 ≤ ds.length ∧
        (((10 ^ P : Nat) : Rat) ≤ sciVal P a ∨ sciVal P a < 1) ∧
        (s = 43 ∧ k = (decVal ds : Int) ∨ s = 45 ∧ k = -(decVal ds : Int))) ∧
      sciVal P a = (decVal (ip ++ fd) : Rat) * (10 : Rat) ^ (k - (fd.length : Int)) := by
  obtain ⟨h1, h2, _, _, _⟩ := sci_spec hP h
  unfold fmtAbs sciVal
  rw [if_neg h.ne']
  generalize hs : sci P a = s at *
  obtain ⟨m, X⟩ := s
  dsimp only at *
  have hmod : m % 10 ^ P = m := Nat.mod_eq_of_lt h2
  split
  · -- with an exponent
    rw [point_eq, take_digits hP, drop_digits hP]
    obtain ⟨s, ds, e1, e2, e3, e4⟩ := exp_digits X
    refine ⟨digitsW 1 (m / 10 ^ (P - 1)), strip (digitsW (P - 1) m), expText X, X, rfl, .inr (first_digit hP h1 h2 1 (le_refl _) hP),
      strip_digit (digitsW_digit _ _), (strip_spec _).elim fun _ h => h.2, .inr ⟨s, ds, e1, e2, e3, ?_, e4⟩, ?_⟩
    · rename_i hX
      have hu := ten_pos (X - ((P : Int) - 1))
      have g1 : ((10 ^ (P - 1) : Nat) : Rat) * (10 : Rat) ^ (X - ((P : Int) - 1)) ≤ m * (10 : Rat) ^ (X - ((P : Int) - 1)) :=
        mul_le_mul_of_nonneg_right (by exact_mod_cast h1) hu.le
      have g2 : (m : Rat) * (10 : Rat) ^ (X - ((P : Int) - 1)) < ((10 ^ P : Nat) : Rat) * (10 : Rat) ^ (X - ((P : Int) - 1)) :=
        mul_lt_mul_of_pos_right (by exact_mod_cast h2) hu
      rw [← ten_P hP] at g1
      rw [← ten_P' hP] at g2
      rcases hX with hX | hX
      · right
        refine g2.trans_le ?_
        have := (ten_le_iff (a := X + 1) (b := 0)).2 (by omega)
        simpa using this
      · left
        refine le_trans ?_ g1
        rw [← ten_nat]
        exact ten_le_iff.2 hX
    have e : ∀ l : Int, (10 : Rat) ^ (X - l) = (10 : Rat) ^ (-l) * (10 : Rat) ^ X := by
      intro l; rw [← ten_add]; congr 1; ring
    rw [e ((strip (digitsW (P - 1) m)).length : Int), ← mul_assoc, strip_val, ← digitsW_append, digitsW_length,
      show 1 + (P - 1) = P by omega, decVal_digitsW, hmod, mul_assoc, ← e]
    congr 2
    omega
  · rename_i hr
    split
    · rename_i hX
      have hk : X.toNat + 1 ≤ P := by omega
      rw [point_eq, take_digits hk, drop_digits hk]
      obtain ⟨d, ds, e1, e2, e3, e4⟩ := first_digit hP h1 h2 (X.toNat + 1) (by omega) hk
      refine ⟨digitsW (X.toNat + 1) (m / 10 ^ (P - (X.toNat + 1))), strip (digitsW (P - (X.toNat + 1)) m), [], 0, by simp,
        .inr ⟨d, ds, e1, e2, e3, e4⟩, strip_digit (digitsW_digit _ _), (strip_spec _).elim fun _ h => h.2, .inl ⟨rfl, rfl, by rw [digitsW_length]; exact hk, fun _ => ⟨d, ds, e1, e3⟩⟩, ?_⟩
      rw [zero_sub, strip_val, ← digitsW_append, digitsW_length, show X.toNat + 1 + (P - (X.toNat + 1)) = P by omega, decVal_digitsW, hmod]
      congr 2
      omega
    · rename_i hX
      rw [point_eq]
      have hd : ∀ c ∈ List.replicate (-X - 1).toNat 48 ++ digitsW P m, Digit c := by
        intro c hc
        rcases List.mem_append.1 hc with hc | hc
        · rw [List.mem_replicate] at hc; rw [hc.2]; unfold Digit; omega
        · exact digitsW_digit _ _ c hc
      refine ⟨[48], strip (List.replicate (-X - 1).toNat 48 ++ digitsW P m), [], 0, by simp, .inl rfl, strip_digit hd, (strip_spec _).elim fun _ h => h.2,
        .inl ⟨rfl, rfl, by simp [hP], ?_⟩, ?_⟩
      · intro hnil
        obtain ⟨k, g1, _⟩ := strip_spec (List.replicate (-X - 1).toNat 48 ++ digitsW P m)
        rw [hnil, List.nil_append] at g1
        have : decVal (List.replicate (-X - 1).toNat 48 ++ digitsW P m) = 0 := by rw [g1, decVal_zeros]
        rw [decVal_append, decVal_digitsW, hmod] at this
        have : 0 < 10 ^ (P - 1) := by positivity
        omega
      · rw [zero_sub, strip_val, ← List.append_assoc, decVal_append, decVal_digitsW, hmod]
        have : decVal ([48] ++ List.replicate (-X - 1).toNat 48) = 0 := by
          rw [decVal_append, decVal_zeros]; simp [decVal]
        rw [this, zero_mul, zero_add, List.length_append, List.length_replicate, digitsW_length]
        congr 2
        push_cast
        omega

/-! Reading. -/

theorem isDig_iff (c : Nat) : isDig c = true ↔ Digit c := by simp [isDig, Digit]

theorem take_dig {ip r : List Nat} (h : ∀ c ∈ ip, Digit c) (hr : ∀ c, r.head? = some c → ¬ Digit c) :
    (ip ++ r).takeWhile isDig = ip ∧ (ip ++ r).dropWhile isDig = r := by
  have hp : ∀ c ∈ ip, isDig c = true := fun c hc => (isDig_iff c).2 (h c hc)
  cases r with
  | nil => exact ⟨by rw [List.takeWhile_append_of_pos hp]; simp, by rw [List.dropWhile_append_of_pos hp]; simp⟩
  | cons c r =>
    have hc : isDig c = false := by
      rw [← Bool.not_eq_true, isDig_iff]
      exact hr c rfl
    exact ⟨by rw [List.takeWhile_append_of_pos hp, List.takeWhile_cons_of_neg (by simp [hc]), List.append_nil],
      by rw [List.dropWhile_append_of_pos hp, List.dropWhile_cons_of_neg (by simp [hc])]⟩

theorem textAbs_parts {ip fd ex : List Nat} {k : Int} (h1 : ∀ c ∈ ip, Digit c) (h2 : ∀ c ∈ fd, Digit c)
    (h3 : ex = [] ∧ k = 0 ∨ ∃ s ds, ex = 101 :: (s :: ds) ∧ (∀ c ∈ ds, Digit c) ∧ (s = 43 ∧ k = (decVal ds : Int) ∨ s = 45 ∧ k = -(decVal ds : Int))) :
    textAbs (ip ++ (if fd = [] then [] else 46 :: fd) ++ ex) = (decVal (ip ++ fd) : Rat) * (10 : Rat) ^ (k - (fd.length : Int)) := by
  have hex : ∀ c, ex.head? = some c → ¬ Digit c := by
    intro c hc
    rcases h3 with ⟨rfl, _⟩ | ⟨s, ds, rfl, _⟩
    · cases hc
    · cases hc; unfold Digit; omega
  have hk : expVal ex = k := by
    rcases h3 with ⟨rfl, rfl⟩ | ⟨s, ds, rfl, hd, ⟨rfl, rfl⟩ | ⟨rfl, rfl⟩⟩
    · rfl
    · have := (take_dig (ip := ds) (r := []) hd (by simp)).1
      rw [List.append_nil] at this
      simp [expVal, this, Verif.Json.Lemmas.natOf_eq]
    · have := (take_dig (ip := ds) (r := []) hd (by simp)).1
      rw [List.append_nil] at this
      simp [expVal, this, Verif.Json.Lemmas.natOf_eq]
  have hfs : fracSplit ((if fd = [] then [] else 46 :: fd) ++ ex) = (fd, ex) := by
    by_cases hf : fd = []
    · subst hf
      rw [if_pos rfl, List.nil_append]
      rcases h3 with ⟨rfl, _⟩ | ⟨s, ds, rfl, _⟩ <;> simp [fracSplit]
    · rw [if_neg hf, List.cons_append]
      obtain ⟨g1, g2⟩ := take_dig h2 hex
      simp [fracSplit, g1, g2]
  have hd : ∀ c, ((if fd = [] then [] else 46 :: fd) ++ ex).head? = some c → ¬ Digit c := by
    intro c hc
    by_cases hf : fd = []
    · rw [if_pos hf, List.nil_append] at hc; exact hex c hc
    · rw [if_neg hf] at hc; cases hc; unfold Digit; omega
  obtain ⟨g1, g2⟩ := take_dig h1 hd
  unfold textAbs
  dsimp only
  rw [List.append_assoc, g1, g2, hfs]
  dsimp only
  rw [hk, Verif.Json.Lemmas.natOf_eq]

theorem digs {ip : List Nat} (h : ip = [48] ∨ ∃ d ds, ip = d :: ds ∧ Digit d ∧ d ≠ 48 ∧ ∀ c ∈ ds, Digit c) :
    ∃ d ds, ip = d :: ds ∧ ∀ c ∈ ip, Digit c := by
  rcases h with rfl | ⟨d, ds, rfl, a, _, b⟩
  · exact ⟨48, [], rfl, by simp [Digit]⟩
  · refine ⟨d, ds, rfl, ?_⟩
    intro c hc
    rcases List.mem_cons.1 hc with rfl | hc
    · exact a
    · exact b c hc

/-- Reading a number text gives the number it stands for. -/
theorem textVal_denotes {t : List Nat} {q : Rat} (h : Denotes t q) : textVal t = q := by
  obtain ⟨sg, ip, fd, ex, k, rfl, hs, hi, hf, he, rfl⟩ := h
  obtain ⟨d, ds, rfl, hd⟩ := digs hi
  have hT := textAbs_parts (ip := d :: ds) (fd := fd) (ex := ex) (k := k) hd hf
    (he.imp id (fun ⟨s, ds, a, b, _, c⟩ => ⟨s, ds, a, b, c⟩))
  have hd0 := hd d (by simp)
  rcases hs with rfl | rfl
  · rw [if_pos rfl, one_mul, ← hT, List.nil_append]
    generalize hR : (d :: ds ++ if fd = [] then [] else 46 :: fd) ++ ex = R
    obtain ⟨r, rfl⟩ : ∃ r, R = d :: r := ⟨_, hR.symm⟩
    unfold textVal
    split
    · rename_i heq; cases heq; unfold Digit at hd0; omega
    · rfl
  · rw [if_neg (show ¬ ([45] : List Nat) = [] by simp), neg_one_mul, neg_mul, ← hT]
    rfl

end Verif.FloatText.Lemmas
