import Verif.Ipv4.Spec
/-! Auxiliary lemmas on IPv4 addresses (no claims). -/

namespace Verif.Ipv4.Lemmas
open Verif.Ipv4 Verif.Ipv4.Spec

theorem forall_byte {p : UInt8 → Prop} (h : ∀ i : Fin 256, p (UInt8.ofNat i.val)) (c : UInt8) : p c := by
  have := h ⟨c.toNat, c.toNat_lt⟩
  simpa using this

theorem isDigit_iff (c : UInt8) : isDigit c = true ↔ Digit c := by
  unfold isDigit Digit
  rw [Bool.and_eq_true, decide_eq_true_iff, decide_eq_true_iff, UInt8.le_iff_toNat_le, UInt8.le_iff_toNat_le]
  rfl

theorem isSpace_iff (c : UInt8) : isSpace c = true ↔ Space c := by
  unfold Space
  revert c
  apply forall_byte
  decide +kernel

theorem value_eq (ds : Str) : value ds = number ds := by
  have : ∀ n, ds.foldl (fun n d => 10 * n + (d.toNat - 48)) n = n * 10 ^ ds.length + number ds := by
    induction ds with
    | nil => intro n; simp [number]
    | cons d ds ih =>
      intro n
      rw [List.foldl_cons, ih, number, List.length_cons, Nat.pow_succ, Nat.add_mul, Nat.mul_comm 10 n, Nat.mul_assoc n,
        Nat.mul_comm 10 (10 ^ _)]
      omega
  unfold value
  rw [this]; omega

theorem digits_byte (c : UInt8) : digits c.toNat = decimal c.toNat ∧ (digits c.toNat).length ≤ 3 ∧ digits c.toNat ≠ [] ∧
    (∀ d ∈ digits c.toNat, isDigit d = true) ∧ value (digits c.toNat) = c.toNat := by
  revert c
  apply forall_byte
  decide +kernel

theorem span_digits (ds r : Str) (h : ∀ c ∈ ds, isDigit c = true) (hr : ∀ c, r.head? = some c → isDigit c = false) :
    (ds ++ r).takeWhile isDigit = ds ∧ (ds ++ r).dropWhile isDigit = r := by
  rw [List.takeWhile_append_of_pos h, List.dropWhile_append_of_pos h]
  cases r with
  | nil => simp
  | cons c r =>
    have := hr c rfl
    simp [this]

theorem scanInt_of {t r : Str} {v : Int} (h : Number t v) (hr : ∀ c, r.head? = some c → ¬ Digit c) : scanInt (t ++ r) = some (v, r) := by
  obtain ⟨ws, sg, ds, rfl, hw, hd, hds, hv⟩ := h
  have hds' : ∀ c ∈ ds, isDigit c = true := fun c hc => (isDigit_iff c).mpr (hds c hc)
  have hr' : ∀ c, r.head? = some c → isDigit c = false := fun c hc => by
    rw [Bool.eq_false_iff]; intro e; exact hr c hc ((isDigit_iff c).mp e)
  obtain ⟨e1, e2⟩ := span_digits ds r hds' hr'
  obtain ⟨d, ds', rfl⟩ := List.exists_cons_of_ne_nil hd
  have hdd : Digit d := hds d (by simp)
  have hns : isSpace d = false := by
    rw [Bool.eq_false_iff]; intro e
    have := (isSpace_iff d).mp e
    unfold Space at this; unfold Digit at hdd
    simp at this; omega
  have hdrop : ∀ x : Str, (∀ c, x.head? = some c → isSpace c = false) → (ws ++ x).dropWhile isSpace = x := by
    intro x hx
    rw [List.dropWhile_append_of_pos (fun c hc => (isSpace_iff c).mpr (hw c hc))]
    cases x with
    | nil => rfl
    | cons c x => simp [hx c rfl]
  have hd45 : d ≠ 45 := by rintro rfl; exact absurd hdd (by unfold Digit; decide)
  have hd43 : d ≠ 43 := by rintro rfl; exact absurd hdd (by unfold Digit; decide)
  unfold scanInt
  rw [← value_eq] at hv
  have hcons : d :: ds' ≠ [] := by simp
  rcases hv with ⟨rfl, rfl⟩ | ⟨rfl, rfl⟩ | ⟨rfl, rfl⟩
  · have ed : (ws ++ [] ++ (d :: ds') ++ r).dropWhile isSpace = d :: ds' ++ r := by
      rw [List.append_nil, List.append_assoc]
      exact hdrop _ (by intro c hc; simp at hc; subst hc; exact hns)
    have es : sign (d :: ds' ++ r) = (false, d :: ds' ++ r) := by rw [List.cons_append, sign, if_neg hd45, if_neg hd43]
    simp only [ed, es, e1, e2, if_neg hcons]
    rfl
  · have ed : (ws ++ [43] ++ (d :: ds') ++ r).dropWhile isSpace = 43 :: (d :: ds' ++ r) := by
      rw [List.append_assoc, List.append_assoc]
      exact hdrop _ (by intro c hc; simp at hc; subst hc; rfl)
    have es : sign (43 :: (d :: ds' ++ r)) = (false, d :: ds' ++ r) := by rw [sign]; rfl
    simp only [ed, es, e1, e2, if_neg hcons]
    rfl
  · have ed : (ws ++ [45] ++ (d :: ds') ++ r).dropWhile isSpace = 45 :: (d :: ds' ++ r) := by
      rw [List.append_assoc, List.append_assoc]
      exact hdrop _ (by intro c hc; simp at hc; subst hc; rfl)
    have es : sign (45 :: (d :: ds' ++ r)) = (true, d :: ds' ++ r) := by rw [sign]; rfl
    simp only [ed, es, e1, e2, if_neg hcons]
    rfl

theorem mem_takeWhile {p : UInt8 → Bool} {s : Str} {c : UInt8} (h : c ∈ s.takeWhile p) : p c = true := by
  induction s with
  | nil => simp at h
  | cons x s ih =>
    rw [List.takeWhile_cons] at h
    split at h
    · rcases List.mem_cons.mp h with rfl | h
      · assumption
      · exact ih h
    · simp at h

theorem dropWhile_head (r : Str) (c : UInt8) (h : (r.dropWhile isDigit).head? = some c) : ¬ Digit c := by
  intro hd
  have := (isDigit_iff c).mpr hd
  induction r with
  | nil => simp at h
  | cons x r ih =>
    rw [List.dropWhile_cons] at h
    split at h
    · exact ih h
    · rename_i hx
      simp at h; subst h; exact hx this

theorem sign_spec (s : Str) : ∃ sg, s = sg ++ (sign s).2 ∧ ((sg = [] ∧ (sign s).1 = false) ∨ (sg = [43] ∧ (sign s).1 = false) ∨
    (sg = [45] ∧ (sign s).1 = true)) := by
  cases s with
  | nil => exact ⟨[], by simp [sign]⟩
  | cons c s =>
    rw [sign]
    split
    · rename_i h; subst h; exact ⟨[45], by simp⟩
    · split
      · rename_i h; subst h; exact ⟨[43], by simp⟩
      · exact ⟨[], by simp⟩

theorem scanInt_some {s r : Str} {v : Int} (h : scanInt s = some (v, r)) :
    ∃ t, s = t ++ r ∧ Number t v ∧ ∀ c, r.head? = some c → ¬ Digit c := by
  unfold scanInt at h
  obtain ⟨sg, e1, e2⟩ := sign_spec (s.dropWhile isSpace)
  generalize sign (s.dropWhile isSpace) = p at h e1 e2
  obtain ⟨neg, x⟩ := p
  simp only at h e1 e2
  split at h
  · cases h
  · rename_i hne
    simp only [Option.some.injEq, Prod.mk.injEq] at h
    obtain ⟨hv, rfl⟩ := h
    have es : s = s.takeWhile isSpace ++ sg ++ x.takeWhile isDigit ++ x.dropWhile isDigit := by
      rw [List.append_assoc, List.takeWhile_append_dropWhile, List.append_assoc, ← e1, List.takeWhile_append_dropWhile]
    refine ⟨s.takeWhile isSpace ++ sg ++ x.takeWhile isDigit, es, ?_, fun c hc => dropWhile_head x c hc⟩
    refine ⟨_, sg, _, rfl, ?_, hne, ?_, ?_⟩
    · intro c hc
      exact (isSpace_iff c).mp (mem_takeWhile hc)
    · intro c hc
      exact (isDigit_iff c).mp (mem_takeWhile hc)
    · rw [← value_eq]
      rcases e2 with ⟨rfl, rfl⟩ | ⟨rfl, rfl⟩ | ⟨rfl, rfl⟩
      · left; exact ⟨rfl, hv.symm⟩
      · right; left; exact ⟨rfl, hv.symm⟩
      · right; right; exact ⟨rfl, hv.symm⟩

theorem scanFields_zero (s : Str) : scanFields 0 s = match scanInt s with
    | none => []
    | some (v, _) => [v] := rfl

theorem scanFields_succ (n : Nat) (s : Str) : scanFields (n + 1) s = match scanInt s with
    | none => []
    | some (v, r) => if r.head? = some 46 then v :: scanFields n r.tail else [v] := rfl

theorem scanFields_of : (vs : List Int) → (s : Str) → Begins vs s → scanFields (vs.length - 1) s = vs
  | [], s, h => h.elim
  | [v], s, h => by
    obtain ⟨t, r, rfl, hn, hr⟩ := h
    show scanFields 0 (t ++ r) = [v]
    rw [scanFields_zero, scanInt_of hn hr]
  | v :: w :: vs, s, h => by
    obtain ⟨t, r, rfl, hn, hr⟩ := h
    have := scanFields_of (w :: vs) r hr
    show scanFields (vs.length + 1) (t ++ 46 :: r) = v :: w :: vs
    rw [scanFields_succ, scanInt_of hn (by intro c hc; simp at hc; subst hc; unfold Digit; decide)]
    simp only [List.head?_cons, if_pos, List.tail_cons]
    rw [← this]; rfl

theorem head_tail {r : Str} (h : r.head? = some 46) : r = 46 :: r.tail := by
  cases r with
  | nil => simp at h
  | cons c r => simp at h; subst h; rfl

theorem scanFields_begins (n : Nat) (s : Str) (h : (scanFields n s).length = n + 1) : Begins (scanFields n s) s := by
  induction n generalizing s with
  | zero =>
    rw [scanFields_zero] at h ⊢
    cases hs : scanInt s with
    | none => rw [hs] at h; simp at h
    | some p =>
      obtain ⟨v, r⟩ := p
      obtain ⟨t, h1, h2, h3⟩ := scanInt_some hs
      exact ⟨t, r, h1, h2, h3⟩
  | succ n ih =>
    rw [scanFields_succ] at h ⊢
    cases hs : scanInt s with
    | none => rw [hs] at h; simp at h
    | some p =>
      obtain ⟨v, r⟩ := p
      rw [hs] at h
      simp only at h ⊢
      split at h
      · rename_i he
        rw [if_pos he]
        have hb := ih r.tail (by simpa using h)
        obtain ⟨t, e, hn, _⟩ := scanInt_some hs
        cases hf : scanFields n r.tail with
        | nil => rw [hf] at h; simp at h
        | cons w vs =>
          rw [hf] at hb
          exact ⟨t, r.tail, by rw [e, ← head_tail he], hn, hb⟩
      · simp at h

theorem scanFields_mem (n : Nat) (s : Str) (v : Int) (h : v ∈ scanFields n s) : ∃ a t b, s = a ++ t ++ b ∧ Number t v := by
  induction n generalizing s with
  | zero =>
    rw [scanFields_zero] at h
    cases hs : scanInt s with
    | none => rw [hs] at h; simp at h
    | some p =>
      obtain ⟨w, r⟩ := p
      rw [hs] at h
      obtain ⟨t, e, hn, _⟩ := scanInt_some hs
      simp at h; subst h
      exact ⟨[], t, r, by simpa using e, hn⟩
  | succ n ih =>
    rw [scanFields_succ] at h
    cases hs : scanInt s with
    | none => rw [hs] at h; simp at h
    | some p =>
      obtain ⟨w, r⟩ := p
      rw [hs] at h
      obtain ⟨t, e, hn, _⟩ := scanInt_some hs
      simp only at h
      split at h
      · rename_i he
        rcases List.mem_cons.mp h with rfl | h
        · exact ⟨[], t, r, by simpa using e, hn⟩
        · obtain ⟨a, t', b, e3, hn'⟩ := ih r.tail h
          refine ⟨t ++ 46 :: a, t', b, ?_, hn'⟩
          rw [e, head_tail he, e3]; simp
      · simp at h; subst h
        exact ⟨[], t, r, by simpa using e, hn⟩

theorem number_byte (c : UInt8) : Number (digits c.toNat) c.toNat := by
  obtain ⟨_, _, h1, h2, h3⟩ := digits_byte c
  exact ⟨[], [], digits c.toNat, rfl, by simp, h1, fun d hd => (isDigit_iff d).mp (h2 d hd), Or.inl ⟨rfl, by rw [← value_eq, h3]⟩⟩

theorem lt_iff (x y : Addr) : lt x y = true ↔ toNat x < toNat y := by
  obtain ⟨a, b, c, d⟩ := x
  obtain ⟨a', b', c', d'⟩ := y
  simp only [lt, lexLt, toNat]
  have h1 := b.toNat_lt; have h2 := c.toNat_lt; have h3 := d.toNat_lt
  have h1' := b'.toNat_lt; have h2' := c'.toNat_lt; have h3' := d'.toNat_lt
  simp only [UInt8.lt_iff_toNat_lt]
  repeat' split
  all_goals simp
  all_goals omega

theorem toNat_inj (x y : Addr) (h : toNat x = toNat y) : x = y := by
  obtain ⟨a, b, c, d⟩ := x
  obtain ⟨a', b', c', d'⟩ := y
  simp only [toNat] at h
  have h1 := b.toNat_lt; have h2 := c.toNat_lt; have h3 := d.toNat_lt
  have h1' := b'.toNat_lt; have h2' := c'.toNat_lt; have h3' := d'.toNat_lt
  have e1 : a.toNat = a'.toNat := by omega
  have e2 : b.toNat = b'.toNat := by omega
  have e3 : c.toNat = c'.toNat := by omega
  have e4 : d.toNat = d'.toNat := by omega
  simp only [UInt8.toNat_inj] at e1 e2 e3 e4
  simp [e1, e2, e3, e4]

end Verif.Ipv4.Lemmas
